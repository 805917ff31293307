import Verif.Spec.RecurrentForward
import Verif.Props.FinderForward

/-!
# C101: forward propagation of the recurrent constitutive model
-/

noncomputable section

namespace Hooke

open Spec

variable {n : ℕ} {σ : Type}

theorem findIdx_rep {co : List Comp} (h : CompleteSym n co) {c : Comp} (hc : c ∈ co) {i j : ℕ}
    (hr : c.Rep i j) :
    co.findIdx (fun c => decide ((c.i = i ∧ c.j = j) ∨ (c.i = j ∧ c.j = i))) = co.idxOf c := by
  have key : ∀ l : List Comp, (∀ x ∈ l, x ∈ co) →
      l.findIdx (fun c => decide ((c.i = i ∧ c.j = j) ∨ (c.i = j ∧ c.j = i))) = l.idxOf c := by
    intro l
    induction l with
    | nil => simp
    | cons a l ih =>
      intro ha
      rw [List.findIdx_cons, List.idxOf_cons]
      by_cases e : a.Rep i j
      · have : a = c := h.rep_unique (ha a (by simp)) hc e hr
        subst this
        have e' : decide ((a.i = i ∧ a.j = j) ∨ (a.i = j ∧ a.j = i)) = true := decide_eq_true e
        simp [e']
      · have e' : decide ((a.i = i ∧ a.j = j) ∨ (a.i = j ∧ a.j = i)) = false := decide_eq_false e
        have hne : (a == c) = false := by
          simp only [beq_eq_false_iff_ne, ne_eq]
          rintro rfl; exact e hr
        rw [e', hne, ih fun x hx => ha x (by simp [hx])]
  exact key co fun _ h => h

theorem vbuild_symTensor {co : List Comp} (h : CompleteSym n co) {v : List ℝ}
    (hv : co.length ≤ v.length) :
    ∃ t, vbuildTensorFromComps n co v = .ok t ∧ ∀ i j : Fin n, t.val [i, j] = symTensor n co v i j := by
  obtain ⟨t, h1, -, h3⟩ := vbuildTensorFromComps_sym h hv
  refine ⟨t, h1, fun i j => ?_⟩
  obtain ⟨c, hc, hr⟩ := h.exists_rep i.2 j.2
  rw [h3 c hc i j hr, symTensor, findIdx_rep h hc hr]

theorem rcIncrement_eq {co : List Comp} (h : CompleteSym n co) {a b : List ℝ}
    (ha : co.length ≤ a.length) (hb : co.length ≤ b.length) :
    rcIncrement n co a b = .ok (symTensor n co b - symTensor n co a) := by
  obtain ⟨t, h1, h2⟩ := vbuild_symTensor h ha
  obtain ⟨t', h3, h4⟩ := vbuild_symTensor h hb
  simp only [rcIncrement, h1, h3, bind, Except.bind, pure, Except.pure, h2, h4]
  rfl

theorem vkelvinComps {co : List Comp} (h : CompleteSym n co) {m : Tensor} (hm : m.shape = [co.length]) :
    ∃ t, vgetTensorFromMf m n co = .ok t ∧ vstoreTensorComps co t = kelvinComps co m := by
  obtain ⟨t, h1, -, h3⟩ := vgetTensorFromMf_sym h true hm
  refine ⟨t, h1, List.map_congr_left fun c hc => ?_⟩
  rw [h3 c hc _ _ (Or.inl ⟨rfl, rfl⟩), kFactor]
  by_cases e : c.i = c.j <;> simp [e]
  ring

theorem assignRow_self {e : PyErr} {k : ℕ} {v : List ℝ} (h : v.length = k) :
    assignRow e k v = .ok v := by simp [assignRow, h]

theorem isStrainVar_iff (name : String) : isStrainVar name = true ↔ StrainName name :=
  decide_eq_true_iff

theorem rcFeature_eq {R : RcNet n σ} (h : Compatible R) (s : σ) {f : String × ℕ}
    (hf : f ∈ R.features) : rcFeature R s f = .ok (featureRow R s f) := by
  unfold rcFeature featureRow
  cases hv : R.model.var f.1 s with
  | none => rfl
  | some v =>
    by_cases e : StrainName f.1
    · obtain ⟨h1, h2⟩ := h.sized.strain s f hf e
      obtain ⟨t, h3, h4⟩ := vkelvinComps h.comps (h2 v hv)
      simp only [(isStrainVar_iff _).2 e, if_true, h3, bind, Except.bind, h4, if_pos e]
      exact assignRow_self (by simp [kelvinComps, h1])
    · simp only [mt (isStrainVar_iff _).1 e, if_neg e]
      exact assignRow_self (h.sized.other s f hf e v hv)

theorem featureRow_length {R : RcNet n σ} (h : Compatible R) (s : σ) {f : String × ℕ}
    (hf : f ∈ R.features) : (featureRow R s f).length = f.2 := by
  unfold featureRow
  cases hv : R.model.var f.1 s with
  | none => simp
  | some v =>
    by_cases e : StrainName f.1
    · simp only [if_pos e, kelvinComps, List.length_map]; exact (h.sized.strain s f hf e).1.symm
    · simp only [if_neg e]; exact h.sized.other s f hf e v hv

theorem rcStep_eq {R : RcNet n σ} (h : Compatible R) (s : σ) (rows : List (List ℝ)) {a b : List ℝ}
    (ha : R.co.length ≤ a.length) (hb : R.co.length ≤ b.length) :
    rcStep R (s, rows) (a, b) = (do
      let s' ← R.model.update (symTensor n R.co b - symTensor n R.co a) s
      raiseIf (R.check ∧ R.model.suFail s') .runtimeError
      return (s', rows ++ [responseRow R s'])) := by
  simp only [rcStep, rcIncrement_eq h.comps ha hb, bind, Except.bind]
  cases R.model.update (symTensor n R.co b - symTensor n R.co a) s with
  | error e => rfl
  | ok s' =>
    dsimp only
    cases raiseIf (R.check ∧ R.model.suFail s') PyErr.runtimeError with
    | error e => rfl
    | ok u =>
      obtain ⟨t, h1, h2⟩ := vkelvinComps h.comps (h.sized.stress s')
      have h3 : R.features.mapM (rcFeature R s') = .ok (R.features.map (featureRow R s')) :=
        mapM_of_forall fun f hf => rcFeature_eq h s' hf
      simp only [h1, h2, h3, responseRow, List.flatMap_def]

/-- One step of a path. -/
def pathStep (R : RcNet n σ) (p : ℕ → List ℝ) (acc : σ × List (List ℝ)) (t : ℕ) :
    Py (σ × List (List ℝ)) := do
  let s' ← R.model.update (symTensor n R.co (p (t + 1)) - symTensor n R.co (p t)) acc.1
  raiseIf (R.check ∧ R.model.suFail s') .runtimeError
  return (s', acc.2 ++ [responseRow R s'])

/-- The states of a path of which no update fails (if this is checked). -/
def Passes (R : RcNet n σ) (p : ℕ → List ℝ) (T : ℕ) (st : ℕ → σ) : Prop :=
  Trajectory R.model R.co p T st ∧
    (R.check = true → ∀ t, t + 1 < T → R.model.suFail (st (t + 1)) = false)

theorem pathStep_ok {R : RcNet n σ} {p : ℕ → List ℝ} {acc r : σ × List (List ℝ)} {t : ℕ} :
    pathStep R p acc t = .ok r ↔
      ∃ s', R.model.update (symTensor n R.co (p (t + 1)) - symTensor n R.co (p t)) acc.1 = .ok s' ∧
        (R.check = true → R.model.suFail s' = false) ∧ r = (s', acc.2 ++ [responseRow R s']) := by
  simp only [pathStep, bind_ok_iff, raiseIf_ok, pure, Except.pure, Except.ok.injEq]
  constructor
  · rintro ⟨s', h1, -, h2, h3⟩
    refine ⟨s', h1, fun hc => ?_, h3.symm⟩
    cases hs : R.model.suFail s' with
    | false => rfl
    | true => exact absurd ⟨hc, hs⟩ h2
  · rintro ⟨s', h1, h2, h3⟩
    refine ⟨s', h1, (), ?_, h3.symm⟩
    rintro ⟨h4, h5⟩
    rw [h2 h4] at h5
    exact absurd h5 (by simp)

theorem pathFold_ok {R : RcNet n σ} {p : ℕ → List ℝ} {l : List (List ℝ)} (m : ℕ)
    {r : σ × List (List ℝ)} :
    (List.range m).foldlM (pathStep R p) (R.model.init, l) = .ok r ↔
      ∃ st, Passes R p (m + 1) st ∧
        r = (st m, l ++ (List.range m).map fun t => responseRow R (st (t + 1))) := by
  induction m generalizing r with
  | zero =>
    simp only [List.range_zero, List.foldlM_nil, pure, Except.pure, Except.ok.injEq, List.map_nil,
      List.append_nil]
    constructor
    · rintro rfl
      exact ⟨fun _ => R.model.init, ⟨⟨rfl, fun t ht => by omega⟩, fun _ t ht => by omega⟩, rfl⟩
    · rintro ⟨st, h, rfl⟩
      rw [h.1.init]
  | succ m ih =>
    rw [foldlM_range_succ, bind_ok_iff]
    constructor
    · rintro ⟨a, h1, h2⟩
      obtain ⟨st, h3, rfl⟩ := ih.1 h1
      obtain ⟨s', h4, h5, rfl⟩ := pathStep_ok.1 h2
      refine ⟨Function.update st (m + 1) s', ⟨⟨?_, ?_⟩, ?_⟩, ?_⟩
      · rw [Function.update_of_ne (by omega)]; exact h3.1.init
      · intro t ht
        by_cases e : t = m
        · subst e
          rw [Function.update_self, Function.update_of_ne (by omega)]; exact h4
        · rw [Function.update_of_ne (by omega), Function.update_of_ne (by omega)]
          exact h3.1.step t (by omega)
      · intro hc t ht
        by_cases e : t = m
        · subst e
          rw [Function.update_self]; exact h5 hc
        · rw [Function.update_of_ne (by omega)]; exact h3.2 hc t (by omega)
      · rw [Function.update_self, List.range_succ, List.map_append]
        simp only [List.map_cons, List.map_nil, Function.update_self, List.append_assoc]
        congr 3
        refine List.map_congr_left fun t ht => ?_
        have := List.mem_range.1 ht
        rw [Function.update_of_ne (by omega)]
    · rintro ⟨st, h, rfl⟩
      refine ⟨_, ih.2 ⟨st, ⟨⟨h.1.init, fun t ht => h.1.step t (by omega)⟩,
        fun hc t ht => h.2 hc t (by omega)⟩, rfl⟩, pathStep_ok.2 ⟨st (m + 1), h.1.step m (by omega),
        fun hc => h.2 hc m (by omega), ?_⟩⟩
      simp [List.range_succ]

theorem trajectory_unique {M : RcModel n σ} {co : List Comp} {p : ℕ → List ℝ} {T : ℕ} {a b : ℕ → σ}
    (ha : Trajectory M co p T a) (hb : Trajectory M co p T b) : ∀ t < T, a t = b t := by
  intro t
  induction t with
  | zero => intro _; rw [ha.init, hb.init]
  | succ t ih =>
    intro h
    have h1 := ha.step t h
    rw [ih (by omega), hb.step t h] at h1
    exact (Except.ok.inj h1).symm

theorem zip_tail_range {α : Type} (p : ℕ → α) (T : ℕ) :
    ((List.range T).map p).zip ((List.range T).map p).tail =
      (List.range (T - 1)).map fun t => (p t, p (t + 1)) := by
  refine List.ext_getElem (by simp) fun i h1 h2 => ?_
  simp

/-- The rows of the response of a path with the states `st`. -/
def responseRows (R : RcNet n σ) (T : ℕ) (st : ℕ → σ) : List (List ℝ) :=
  (List.range T).map fun t => if t = 0 then List.replicate R.width 0 else responseRow R (st t)

theorem responseRows_eq (R : RcNet n σ) (T : ℕ) (st : ℕ → σ) :
    responseRows R T st = (if T = 0 then [] else [List.replicate R.width 0]) ++
      (List.range (T - 1)).map fun t => responseRow R (st (t + 1)) := by
  cases T with
  | zero => simp [responseRows]
  | succ T =>
    refine List.ext_getElem (by simp [responseRows]) fun i h1 h2 => ?_
    cases i with
    | zero => simp [responseRows]
    | succ i => simp [responseRows]

theorem rcPath_fold {R : RcNet n σ} (h : Compatible R) {p : ℕ → List ℝ} {T : ℕ}
    (hp : ∀ t < T, R.co.length ≤ (p t).length) :
    rcPath R ((List.range T).map p) = (do
      let r ← (List.range (T - 1)).foldlM (pathStep R p)
        (R.model.init, if T = 0 then [] else [List.replicate R.width 0])
      return r.2) := by
  have hif : (if (List.range T).map p = [] then ([] : List (List ℝ)) else [List.replicate R.width 0]) =
      if T = 0 then [] else [List.replicate R.width 0] := by
    simp
  have hr : raiseIf (R.sf ≠ .infinitesimal) .runtimeError = .ok () := raiseIf_ok.2 (by simp [h.infinitesimal])
  have hfold : ∀ (l : List ℕ) (acc : σ × List (List ℝ)), (∀ t ∈ l, t < T - 1) →
      (l.map fun t => (p t, p (t + 1))).foldlM (rcStep R) acc = l.foldlM (pathStep R p) acc := by
    intro l
    induction l with
    | nil => intro acc _; rfl
    | cons t l ih =>
      intro acc hl
      have ht := hl t (by simp)
      rw [List.map_cons, List.foldlM_cons, List.foldlM_cons,
        rcStep_eq h acc.1 acc.2 (hp t (by omega)) (hp (t + 1) (by omega))]
      refine bind_congr fun a => ih a fun u hu => hl u (by simp [hu])
  simp only [rcPath, hr, zip_tail_range, hif]
  rw [hfold _ _ fun t ht => List.mem_range.1 ht]
  rfl

theorem rcResponse_ok {R : RcNet n σ} (h : Compatible R) {p : ℕ → List ℝ} {T : ℕ}
    (hp : ∀ t < T, R.co.length ≤ (p t).length) {r : List (List ℝ)} :
    rcResponse R ((List.range T).map p) = .ok r ↔
      ∃ st, Passes R p T st ∧ r = responseRows R T st := by
  have hw : raiseIf (R.width ≠ R.nOut) .runtimeError = .ok () :=
    raiseIf_ok.2 (by simp [h.nOut, RcNet.width])
  simp only [rcResponse, rcPath_fold h hp, bind_ok_iff, hw, pure, Except.pure, Except.ok.injEq]
  constructor
  · rintro ⟨a, ⟨b, h1, rfl⟩, -, -, rfl⟩
    obtain ⟨st, h2, rfl⟩ := (pathFold_ok (T - 1)).1 h1
    refine ⟨st, ⟨⟨h2.1.init, fun t ht => h2.1.step t (by omega)⟩, fun hc t ht => h2.2 hc t (by omega)⟩,
      (responseRows_eq R T st).symm⟩
  · rintro ⟨st, h2, rfl⟩
    refine ⟨_, ⟨_, (pathFold_ok (T - 1)).2 ⟨st, ⟨⟨h2.1.init, fun t ht => h2.1.step t (by omega)⟩,
      fun hc t ht => h2.2 hc t (by omega)⟩, rfl⟩, rfl⟩, (), trivial, (responseRows_eq R T st).symm⟩

theorem mapM_range_ok {β : Type} (d : β) {f : ℕ → Py β} {P : ℕ} {r : List β}
    (h : (List.range P).mapM f = .ok r) (i : ℕ) (hi : i < P) : f i = .ok (r.getD i d) := by
  have h1 := mapM_forall₂ h
  have h2 := h1.length_eq
  rw [List.length_range] at h2
  have h3 := (List.forall₂_iff_get.1 h1).2 i (by simpa using hi) (by omega)
  simp only [List.get_eq_getElem, List.getElem_range] at h3
  rw [h3, List.getD_eq_getElem?_getD, List.getElem?_eq_getElem (by omega)]
  rfl

theorem batchPath_eq (x : Tensor) (i : ℕ) :
    batchPath x i = (List.range (x.shape.getD 0 0)).map (pathOf x i) := rfl

theorem responseRow_length {R : RcNet n σ} (h : Compatible R) (s : σ) :
    (responseRow R s).length = R.nOut := by
  rw [responseRow, List.length_append, List.length_flatMap, h.nOut, kelvinComps, List.length_map]
  congr 2
  exact List.map_congr_left fun f hf => featureRow_length h s hf

/-- C101a: the forward propagation of a batch of strain paths returns exactly if every path has a
sequence of states, from the initial state, each the update of the previous one with the increment of
the strain and not a failed one if failures are checked. -/
theorem C101_returns {R : RcNet n σ} (h : Compatible R) {x : Tensor} {T P F : ℕ}
    (hx : x.shape = [T, P, F]) (hF : R.co.length ≤ F) :
    (∃ y, rcForward R x = .ok y) ↔ ∀ i < P, ∃ st, Trajectory R.model R.co (pathOf x i) T st ∧
      (R.check = true → ∀ t, 0 < t → t < T → R.model.suFail (st t) = false) := by
  have hp : ∀ i, ∀ t < T, R.co.length ≤ (pathOf x i t).length := by
    intro i t _; simp [pathOf, hx, hF]
  have hb : ∀ i, batchPath x i = (List.range T).map (pathOf x i) := by
    intro i; rw [batchPath_eq, hx]; rfl
  have hpass : ∀ p st, Passes R p T st ↔ Trajectory R.model R.co p T st ∧
      (R.check = true → ∀ t, 0 < t → t < T → R.model.suFail (st t) = false) := by
    intro p st
    refine and_congr_right fun _ => forall_congr' fun _ => ⟨fun H t h0 ht => ?_, fun H t ht => H _ (by omega) ht⟩
    obtain ⟨u, rfl⟩ : ∃ u, t = u + 1 := ⟨t - 1, by omega⟩
    exact H u ht
  simp only [rcForward, hx, bind_ok_iff, ← hpass]
  constructor
  · rintro ⟨y, r, h1, -⟩ i hi
    have h2 := mapM_range_ok [] h1 i hi
    rw [hb] at h2
    obtain ⟨st, h3, -⟩ := (rcResponse_ok h (hp i)).1 h2
    exact ⟨st, h3⟩
  · intro H
    choose st hst using H
    refine ⟨_, _, mapM_of_forall (g := fun i => if hi : i < P then responseRows R T (st i hi) else [])
      fun i hi => ?_, rfl⟩
    have hi' := List.mem_range.1 hi
    rw [hb, dif_pos hi']
    exact (rcResponse_ok h (hp i)).2 ⟨_, hst i hi', rfl⟩

/-- C101b: the response of a path at time zero is zero; later it holds the stress components and the
state features of the state at that time. -/
theorem C101_response {R : RcNet n σ} (h : Compatible R) {x y : Tensor} {T P F : ℕ}
    (hx : x.shape = [T, P, F]) (hF : R.co.length ≤ F) (hy : rcForward R x = .ok y) :
    y.shape = [T, P, R.nOut] ∧ ∀ i < P, ∀ st, Trajectory R.model R.co (pathOf x i) T st →
      (∀ k, y.val [0, i, k] = 0) ∧
      ∀ t, 0 < t → t < T → ∀ k, y.val [t, i, k] = (responseRow R (st t)).getD k 0 := by
  have hp : ∀ i, ∀ t < T, R.co.length ≤ (pathOf x i t).length := by
    intro i t _; simp [pathOf, hx, hF]
  have hb : ∀ i, batchPath x i = (List.range T).map (pathOf x i) := by
    intro i; rw [batchPath_eq, hx]; rfl
  simp only [rcForward, hx] at hy
  obtain ⟨r, h1, h2⟩ := bind_ok hy
  cases h2
  refine ⟨rfl, fun i hi st hst => ?_⟩
  have h3 := mapM_range_ok [] h1 i hi
  rw [hb] at h3
  obtain ⟨st', h4, h5⟩ := (rcResponse_ok h (hp i)).1 h3
  refine ⟨fun k => ?_, fun t h0 ht k => ?_⟩
  · change ((r.getD i []).getD 0 []).getD k 0 = 0
    rw [h5]
    cases T with
    | zero => simp [responseRows]
    | succ T =>
      simp only [responseRows, List.getD_eq_getElem?_getD, List.getElem?_map]
      simp [List.getElem?_replicate]
      split <;> rfl
  · change ((r.getD i []).getD t []).getD k 0 = _
    rw [h5, ← trajectory_unique h4.1 hst t ht]
    congr 1
    simp [responseRows, ht, h0.ne']

end Hooke
