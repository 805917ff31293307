import Verif.Props.RecurrentForward
import Verif.Props.Elastic
import Verif.Props.Kelvin
import Verif.Model.StrainPath

/-!
# C101: consequences for paths in batches, strain offsets, the vectorised propagation and the elastic
model; known faults
-/

noncomputable section

namespace Hooke

open Spec

variable {n : ℕ} {σ : Type}

/-- C101c: a strain path without the batch dimension gives the response of the batch of this path. -/
theorem C101_unbatched {R : RcNet n σ} {x : Tensor} {T F : ℕ} (hx : x.shape = [T, F]) :
    (∃ e, rcForward R x = .error e ∧ rcForward R (unsqueezed x) = .error e) ∨
    ∃ y y', rcForward R x = .ok y ∧ rcForward R (unsqueezed x) = .ok y' ∧ y.shape = [T, R.nOut] ∧
      ∀ t k, y.val [t, k] = y'.val [t, 0, k] := by
  have h1 : batchPath (unsqueezed x) 0 = matrixRows x := by
    simp [batchPath, matrixRows, unsqueezed, hx]
  have h2 : (unsqueezed x).shape = [T, 1, F] := by simp [unsqueezed, hx]
  simp only [rcForward, hx, h2, List.range_one, List.mapM_cons, List.mapM_nil, h1, bind, Except.bind,
    pure, Except.pure]
  cases rcResponse R (matrixRows x) with
  | error e => exact Or.inl ⟨e, rfl, rfl⟩
  | ok r => exact Or.inr ⟨_, _, rfl, rfl, rfl, fun t k => rfl⟩

/-- C101d: the response of a path at a time depends on this path up to this time only: not on later
strains, nor on the number of times, nor on the other paths of the batch. -/
theorem C101_causal {R : RcNet n σ} (h : Compatible R) {x x' y y' : Tensor} {T P F T' P' F' : ℕ}
    (hx : x.shape = [T, P, F]) (hF : R.co.length ≤ F) (hx' : x'.shape = [T', P', F'])
    (hF' : R.co.length ≤ F') (hy : rcForward R x = .ok y) (hy' : rcForward R x' = .ok y')
    {i i' t : ℕ} (hi : i < P) (hi' : i' < P') (ht : t < T) (ht' : t < T')
    (heq : ∀ s ≤ t, pathOf x i s = pathOf x' i' s) (k : ℕ) : y.val [t, i, k] = y'.val [t, i', k] := by
  obtain ⟨st, h1, -⟩ := (C101_returns h hx hF).1 ⟨y, hy⟩ i hi
  obtain ⟨st', h2, -⟩ := (C101_returns h hx' hF').1 ⟨y', hy'⟩ i' hi'
  obtain ⟨h3, h4⟩ := (C101_response h hx hF hy).2 i hi st h1
  obtain ⟨h5, h6⟩ := (C101_response h hx' hF' hy').2 i' hi' st' h2
  rcases Nat.eq_zero_or_pos t with rfl | h0
  · rw [h3, h5]
  · rw [h4 t h0 ht, h6 t h0 ht']
    have h7 : Trajectory R.model R.co (pathOf x i) (t + 1) st := ⟨h1.init, fun s hs => h1.step s (by omega)⟩
    have h8 : Trajectory R.model R.co (pathOf x i) (t + 1) st' := by
      refine ⟨h2.init, fun s hs => ?_⟩
      rw [heq s (by omega), heq (s + 1) (by omega)]
      exact h2.step s (by omega)
    rw [trajectory_unique h7 h8 t (by omega)]

theorem symTensor_shift {co : List Comp} {F : ℕ} {a b a' b' c : ℕ → ℝ}
    (ha : ∀ k < F, a' k = a k + c k) (hb : ∀ k < F, b' k = b k + c k) :
    symTensor n co ((List.range F).map b') - symTensor n co ((List.range F).map a') =
      symTensor n co ((List.range F).map b) - symTensor n co ((List.range F).map a) := by
  funext i j
  simp only [Pi.sub_apply, symTensor]
  generalize co.findIdx _ = k
  by_cases hk : k < F
  · simp [hk, ha k hk, hb k hk]
  · simp [hk]

theorem foldlM_congr_mem {α β : Type} {f g : α → β → Py α} (l : List β)
    (h : ∀ a, ∀ b ∈ l, f a b = g a b) (a : α) : l.foldlM f a = l.foldlM g a := by
  induction l generalizing a with
  | nil => rfl
  | cons b l ih =>
    rw [List.foldlM_cons, List.foldlM_cons, h a b (by simp)]
    exact bind_congr fun a => ih (fun a b hb => h a b (by simp [hb])) a

theorem mapM_congr_mem {α β : Type} {f g : α → Py β} {l : List α} (h : ∀ a ∈ l, f a = g a) :
    l.mapM f = l.mapM g := by
  induction l with
  | nil => rfl
  | cons a l ih => rw [List.mapM_cons, List.mapM_cons, h a (by simp), ih fun b hb => h b (by simp [hb])]

/-- C101e: a strain that is constant in time and added to a path changes nothing. -/
theorem C101_offset {R : RcNet n σ} (h : Compatible R) {x x' : Tensor} {T P F : ℕ}
    (hx : x.shape = [T, P, F]) (hx' : x'.shape = [T, P, F]) (hF : R.co.length ≤ F) (c : ℕ → ℕ → ℝ)
    (heq : ∀ t < T, ∀ i < P, ∀ k < F, x'.val [t, i, k] = x.val [t, i, k] + c i k) :
    rcForward R x' = rcForward R x := by
  have hb : ∀ i, batchPath x i = (List.range T).map (pathOf x i) := by
    intro i; rw [batchPath_eq, hx]; rfl
  have hb' : ∀ i, batchPath x' i = (List.range T).map (pathOf x' i) := by
    intro i; rw [batchPath_eq, hx']; rfl
  have key : ∀ i < P, rcResponse R (batchPath x' i) = rcResponse R (batchPath x i) := by
    intro i hi
    simp only [rcResponse]
    congr 1
    rw [hb, hb', rcPath_fold h (by intro t _; simp [pathOf, hx', hF]),
      rcPath_fold h (by intro t _; simp [pathOf, hx, hF])]
    congr 1
    refine foldlM_congr_mem _ (fun a t ht => ?_) _
    have ht := List.mem_range.1 ht
    unfold pathStep
    have : symTensor n R.co (pathOf x' i (t + 1)) - symTensor n R.co (pathOf x' i t) =
        symTensor n R.co (pathOf x i (t + 1)) - symTensor n R.co (pathOf x i t) := by
      simp only [pathOf, hx, hx']
      exact symTensor_shift (c := c i) (fun k hk => heq t (by omega) i hi k hk)
        (fun k hk => heq (t + 1) (by omega) i hi k hk)
    rw [this]
  simp only [rcForward, hx, hx']
  have : (List.range P).mapM (fun i => rcResponse R (batchPath x' i)) =
      (List.range P).mapM (fun i => rcResponse R (batchPath x i)) := by
    refine mapM_congr_mem fun i hi => key i (List.mem_range.1 hi)
  rw [this]

/-! ### Vectorised propagation -/

theorem foldlM_sim {α β γ : Type} {f : α → γ → Py α} {f' : β → γ → Py β} (g : α → β) (l : List γ)
    (h : ∀ a, ∀ t ∈ l, f' (g a) t = (f a t).map g) (a : α) :
    l.foldlM f' (g a) = (l.foldlM f a).map g := by
  induction l generalizing a with
  | nil => rfl
  | cons t l ih =>
    rw [List.foldlM_cons, List.foldlM_cons, h a t (by simp)]
    cases f a t with
    | error e => rfl
    | ok a' => exact ih (fun a t ht => h a t (by simp [ht])) a'

/-- One step of a path that collects the states. -/
def collectStep (R : RcNet n σ) (p : ℕ → List ℝ) (acc : σ × List σ) (t : ℕ) : Py (σ × List σ) := do
  let s' ← R.model.update (symTensor n R.co (p (t + 1)) - symTensor n R.co (p t)) acc.1
  raiseIf (R.check ∧ R.model.suFail s') .runtimeError
  return (s', acc.2 ++ [s'])

theorem collectStep_map {β : Type} {R : RcNet n σ} {p : ℕ → List ℝ} (g : σ × List σ → β)
    (acc : σ × List σ) (t : ℕ) : (collectStep R p acc t).map g = (do
      let s' ← R.model.update (symTensor n R.co (p (t + 1)) - symTensor n R.co (p t)) acc.1
      raiseIf (R.check ∧ R.model.suFail s') .runtimeError
      return g (s', acc.2 ++ [s'])) := by
  simp only [collectStep, bind, Except.bind]
  cases R.model.update (symTensor n R.co (p (t + 1)) - symTensor n R.co (p t)) acc.1 with
  | error e => rfl
  | ok s' =>
    dsimp only
    cases raiseIf (R.check ∧ R.model.suFail s') PyErr.runtimeError <;> rfl

theorem vrcStates_eq {R : RcNet n σ} (h : Compatible R) (hf : PlainFeatures R) (hne : R.features ≠ [])
    (s : σ) : vrcStates R s = .ok (R.features.flatMap (featureRow R s)) := by
  have h1 : R.features.mapM (vrcFeature R s) =
      .ok (R.features.map fun f => some (false, featureRow R s f)) := by
    refine mapM_of_forall fun f hfm => ?_
    obtain ⟨h2, h3⟩ := hf f hfm
    obtain ⟨v, hv⟩ := h3 s
    have h4 : raiseIf (v.entries.length ≠ f.2) .runtimeError = .ok () :=
      raiseIf_ok.2 (by simp [h.sized.other s f hfm h2 v hv])
    simp only [vrcFeature, featureRow, hv, if_neg h2, mt (isStrainVar_iff _).1 h2, h4, bind, Except.bind,
      pure, Except.pure, Bool.false_eq_true, if_false]
  simp only [vrcStates, h1, bind, Except.bind, List.filterMap_map]
  have h5 : R.features.filterMap (id ∘ fun f => some (false, featureRow R s f)) =
      R.features.map fun f => (false, featureRow R s f) := by
    rw [← List.filterMap_eq_map]; rfl
  rw [h5]
  cases hl : R.features with
  | nil => exact absurd hl hne
  | cons f l =>
    simp [vrcCat, List.flatMap_def, Function.comp_def]

theorem vrcStep_eq {R : RcNet n σ} (h : Compatible R) (hf : PlainFeatures R) (s : σ)
    (A B : List (List ℝ)) {a b : List ℝ} (ha : R.co.length ≤ a.length) (hb : R.co.length ≤ b.length) :
    vrcStep R (s, A, B) (a, b) = (do
      let s' ← R.model.update (symTensor n R.co b - symTensor n R.co a) s
      raiseIf (R.check ∧ R.model.suFail s') .runtimeError
      return (s', A ++ [kelvinComps R.co (R.model.stressMf s')],
        if R.features = [] then B else B ++ [R.features.flatMap (featureRow R s')])) := by
  simp only [vrcStep, rcIncrement_eq h.comps ha hb, bind, Except.bind]
  cases R.model.update (symTensor n R.co b - symTensor n R.co a) s with
  | error e => rfl
  | ok s' =>
    dsimp only
    cases raiseIf (R.check ∧ R.model.suFail s') PyErr.runtimeError with
    | error e => rfl
    | ok u =>
      obtain ⟨t, h1, h2⟩ := vkelvinComps h.comps (h.sized.stress s')
      by_cases hne : R.features = []
      · simp only [h1, h2, if_pos hne]
      · simp only [h1, h2, if_neg hne, vrcStates_eq h hf hne, Except.map]

theorem collect_length {R : RcNet n σ} {p : ℕ → List ℝ} (m : ℕ) {r : σ × List σ}
    (h : (List.range m).foldlM (collectStep R p) (R.model.init, []) = .ok r) : r.2.length = m := by
  induction m generalizing r with
  | zero => cases h; rfl
  | succ m ih =>
    rw [foldlM_range_succ] at h
    obtain ⟨a, h1, h2⟩ := bind_ok h
    obtain ⟨s', -, h3⟩ := bind_ok h2
    obtain ⟨-, -, h4⟩ := bind_ok h3
    cases h4
    simp [ih h1]

theorem rcPath_collect {R : RcNet n σ} (h : Compatible R) {p : ℕ → List ℝ} {T : ℕ} (hT : 0 < T)
    (hp : ∀ t < T, R.co.length ≤ (p t).length) :
    rcPath R ((List.range T).map p) =
      ((List.range (T - 1)).foldlM (collectStep R p) (R.model.init, [])).map fun r =>
        List.replicate R.width 0 :: r.2.map (responseRow R) := by
  rw [rcPath_fold h hp, if_neg hT.ne']
  have := foldlM_sim (f := collectStep R p) (f' := pathStep R p)
    (fun r => (r.1, List.replicate R.width 0 :: r.2.map (responseRow R))) (List.range (T - 1))
    (fun a t _ => by rw [collectStep_map]; simp [pathStep]) (R.model.init, [])
  simp only [List.map_nil] at this
  rw [this]
  cases (List.range (T - 1)).foldlM (collectStep R p) (R.model.init, []) <;> rfl

theorem vrcPath_collect {R : RcNet n σ} (h : Compatible R) (hf : PlainFeatures R) {p : ℕ → List ℝ}
    {T : ℕ} (hT : 0 < T) (hp : ∀ t < T, R.co.length ≤ (p t).length) :
    vrcPath R ((List.range T).map p) =
      ((List.range (T - 1)).foldlM (collectStep R p) (R.model.init, [])).map fun r =>
        List.replicate R.width 0 :: r.2.map (responseRow R) := by
  have hr : raiseIf (R.sf ≠ .infinitesimal) .runtimeError = .ok () :=
    raiseIf_ok.2 (by simp [h.infinitesimal])
  have hfold := foldlM_sim (f := collectStep R p) (f' := fun acc t => vrcStep R acc (p t, p (t + 1)))
    (fun r => (r.1, List.replicate R.co.length 0 :: r.2.map fun s => kelvinComps R.co (R.model.stressMf s),
      if R.features = [] then [] else List.replicate (R.features.map fun f => f.2).sum 0 ::
        r.2.map fun s => R.features.flatMap (featureRow R s))) (List.range (T - 1))
    (fun a t ht => by
      have := List.mem_range.1 ht
      rw [collectStep_map, vrcStep_eq h hf _ _ _ (hp t (by omega)) (hp (t + 1) (by omega))]
      by_cases hne : R.features = [] <;> simp [hne]) (R.model.init, [])
  have hz : ((List.range T).map p).zip ((List.range T).map p).tail =
      (List.range (T - 1)).map fun t => (p t, p (t + 1)) := zip_tail_range p T
  simp only [List.map_nil] at hfold
  simp only [vrcPath, hr, hz, List.foldlM_map, hfold, List.length_map, List.length_range]
  cases hc : (List.range (T - 1)).foldlM (collectStep R p) (R.model.init, []) with
  | error e => rfl
  | ok r =>
    have hl := collect_length _ hc
    have hsum : ∀ s, (R.features.flatMap (featureRow R s)).length = (R.features.map fun f => f.2).sum := by
      intro s
      rw [List.length_flatMap]
      congr 1
      exact List.map_congr_left fun f hf => featureRow_length h s hf
    simp only [Except.map, bind, Except.bind]
    by_cases hne : R.features = []
    · have h1 : raiseIf (∃ row ∈ List.replicate T ([] : List ℝ), row.length ≠ 0) PyErr.runtimeError =
          .ok () := raiseIf_ok.2 (by simp)
      have h2 : raiseIf (T ≠ r.2.length + 1) PyErr.runtimeError = .ok () := raiseIf_ok.2 (by omega)
      simp only [hne, if_true, List.map_nil, List.sum_nil, h1, List.length_replicate, List.length_cons,
        List.length_map, h2, pure, Except.pure]
      congr 1
      obtain ⟨T, rfl⟩ : ∃ U, T = U + 1 := ⟨T - 1, by omega⟩
      simp only [Nat.add_sub_cancel] at hl
      refine List.ext_getElem (by simp [hl]) fun i h1 h2 => ?_
      cases i with
      | zero => simp [RcNet.width, hne]
      | succ i => simp [responseRow, hne]
    · have h1 : raiseIf (∃ row ∈ List.replicate (R.features.map fun f : String × ℕ => f.2).sum (0 : ℝ) ::
          r.2.map (fun s => R.features.flatMap (featureRow R s)),
          row.length ≠ (R.features.map fun f => f.2).sum) PyErr.runtimeError = .ok () := by
        refine raiseIf_ok.2 ?_
        rintro ⟨row, hm, hrow⟩
        rcases List.mem_cons.1 hm with rfl | hm
        · simp at hrow
        · obtain ⟨s, -, rfl⟩ := List.mem_map.1 hm
          exact hrow (hsum s)
      have h2 : raiseIf (r.2.length + 1 ≠ r.2.length + 1) PyErr.runtimeError = .ok () :=
        raiseIf_ok.2 (by simp)
      simp only [if_neg hne, h1, List.length_cons, List.length_map, h2, pure, Except.pure]
      congr 1
      rw [List.zipWith_cons_cons, List.replicate_append_replicate]
      congr 1
      rw [List.zipWith_map, List.zipWith_self]
      rfl

/-- C101f: the vectorised forward propagation of at least one path with at least one time gives the
same response as the loops, or the same error, if the requested state variables are always in the
state and are not strain variables. -/
theorem C101_vectorised {R : RcNet n σ} (h : Compatible R) (hf : PlainFeatures R) {x : Tensor}
    {T P F : ℕ} (hx : x.shape = [T, P, F]) (hT : 0 < T) (hP : 0 < P) (hF : R.co.length ≤ F) :
    vrcForward R x = rcForward R x := by
  have hp : ∀ i, ∀ t < T, R.co.length ≤ (pathOf x i t).length := by
    intro i t _; simp [pathOf, hx, hF]
  have hb : ∀ i, batchPath x i = (List.range T).map (pathOf x i) := by
    intro i; rw [batchPath_eq, hx]; rfl
  have key : ∀ i, vrcResponse R (batchPath x i) = rcResponse R (batchPath x i) := by
    intro i
    simp only [vrcResponse, rcResponse, hb, rcPath_collect h hT (hp i), vrcPath_collect h hf hT (hp i)]
  simp only [vrcForward, rcForward, hx, key]
  cases hr : (List.range P).mapM fun i => rcResponse R (batchPath x i) with
  | error e => rfl
  | ok r =>
    have h1 := mapM_range_ok [] hr 0 hP
    rw [hb] at h1
    obtain ⟨st, -, h2⟩ := (rcResponse_ok h (hp 0)).1 h1
    have h3 : (r.getD 0 []).length = T := by rw [h2]; simp [responseRows]
    simp only [bind, Except.bind, h3]

/-! ### The elastic model -/

/-- The elastic model (elastic.py:157-333) as the constitutive model of a recurrent model; of its state,
the variables `strain_mf` and `e_strain_mf` may be requested. -/
def elasticRc (p : PType) (d : Props) : RcModel p.dim (ElasticState p) where
  init := elasticInitState p
  update inc s := do
    let r ← elasticStateUpdate p d .isotropic inc s
    return r.1
  stressMf s := ⟨[p.len], fun idx =>
    if h : idx.getD 0 0 < p.len then s.stress ⟨idx.getD 0 0, h⟩ else 0⟩
  suFail s := s.isSuFail
  var name s := if name = "e_strain_mf" then some ⟨[p.len], fun idx =>
      if h : idx.getD 0 0 < p.len then s.eStrain ⟨idx.getD 0 0, h⟩ else 0⟩
    else none

/-- The recurrent model of the elastic model, with the elastic strains as state features. -/
def elasticNet (p : PType) (d : Props) (check : Bool) : RcNet p.dim (ElasticState p) where
  sf := .infinitesimal
  co := symOrder p.dim
  features := [("e_strain_mf", p.len)]
  nOut := p.len + p.len
  check := check
  model := elasticRc p d

theorem symOrder_complete (p : PType) : CompleteSym p.dim (symOrder p.dim) := by
  cases p
  · exact sym2d_complete
  · exact sym3d_complete

theorem symOrder_length (p : PType) : (symOrder p.dim).length = p.len := by cases p <;> rfl

theorem elasticNet_compatible (p : PType) (d : Props) (check : Bool) :
    Compatible (elasticNet p d check) where
  infinitesimal := rfl
  comps := symOrder_complete p
  sized := by
    refine ⟨fun s => by simp [elasticNet, elasticRc, symOrder_length], ?_, ?_⟩
    · intro s f hf _
      obtain rfl : f = ("e_strain_mf", p.len) := by simpa [elasticNet] using hf
      refine ⟨(symOrder_length p).symm, fun v hv => ?_⟩
      simp only [elasticNet, elasticRc, if_true, Option.some.injEq] at hv
      rw [← hv]
      simp [elasticNet, symOrder_length]
    · intro s f hf hn
      obtain rfl : f = ("e_strain_mf", p.len) := by simpa [elasticNet] using hf
      exact absurd (show StrainName "e_strain_mf" by decide) hn
  nOut := by simp [elasticNet, symOrder_length]

theorem elasticRun_snoc (p : PType) (d : Props) (l : List (T2 p.dim)) (inc : T2 p.dim)
    (s : ElasticState p) : elasticRun p d .isotropic (l ++ [inc]) s =
      elasticRun p d .isotropic l s >>= (elasticRc p d).update inc := by
  simp only [elasticRun, List.foldlM_append, List.foldlM_cons, List.foldlM_nil, bind_pure]
  rfl

theorem elastic_trajectory {p : PType} {d : Props} {path : ℕ → List ℝ} {T : ℕ}
    {st : ℕ → ElasticState p} {co : List Comp} (h : Trajectory (elasticRc p d) co path T st) {t : ℕ}
    (ht : t < T) :
    elasticRun p d .isotropic ((List.range t).map fun s =>
      symTensor p.dim co (path (s + 1)) - symTensor p.dim co (path s)) (elasticInitState p) =
        .ok (st t) := by
  induction t with
  | zero => rw [h.init]; rfl
  | succ t ih =>
    rw [List.range_succ, List.map_append, List.map_cons, List.map_nil, elasticRun_snoc, ih (by omega)]
    exact h.step t ht

theorem sum_steps {n : ℕ} (E : ℕ → T2 n) (t : ℕ) :
    ((List.range t).map fun s => E (s + 1) - E s).sum = E t - E 0 := by
  induction t with
  | zero => simp
  | succ t ih => rw [List.range_succ, List.map_append, List.sum_append, ih]; simp

theorem kelvin_mf (p : PType) (g : T2 3) (t : T2 p.dim) (hg : inPlane p g = t) {c : Comp}
    (hc : c ∈ symOrder p.dim) (a b : Fin 3) (ha : c.i = a) (hb : c.j = b) :
    (kelvinComps (symOrder p.dim) ⟨[p.len], fun idx =>
      if h : idx.getD 0 0 < p.len then mf p t ⟨idx.getD 0 0, h⟩ else 0⟩).getD
        ((symOrder p.dim).idxOf c) 0 = g a b := by
  subst hg
  have h2 : √2 ≠ 0 := by positivity
  cases p
  · simp only [symOrder, PType.dim, if_true, List.mem_cons, List.not_mem_nil, or_false] at hc
    rcases hc with rfl | rfl | rfl <;>
      (fin_cases a <;> simp [Comp.i] at ha) <;> (fin_cases b <;> simp [Comp.j] at hb) <;>
      simp [kelvinComps, symOrder, Comp.i, Comp.j, mf, inPlane, h2, List.idxOf_cons]
  · have hl : PType.solid.len = 6 := rfl
    simp only [symOrder, PType.dim, List.mem_cons, List.not_mem_nil, or_false,
      show ¬ (3 = 2) by decide, if_false] at hc
    rcases hc with rfl | rfl | rfl | rfl | rfl | rfl <;>
      (fin_cases a <;> simp [Comp.i] at ha) <;> (fin_cases b <;> simp [Comp.j] at hb) <;>
      simp [kelvinComps, symOrder, Comp.i, Comp.j, mf, kel6, ci, cj, kf, inPlane, h2, List.idxOf_cons, hl]

/-- C101g: the recurrent model of the isotropic elastic model (plane strain or three dimensions) returns
for every batch of strain paths, checking failures or not; the stress components at every time are those
of Hooke's law for the strain at this time less the strain at time zero, and the features the components
of this difference. -/
theorem C101_elastic (p : PType) {d : Props} {E v : ℝ} (hE : d .E = some E) (hv : d .v = some v)
    (check : Bool) {x : Tensor} {T P F : ℕ} (hx : x.shape = [T, P, F]) (hF : p.len ≤ F) :
    ∃ y, rcForward (elasticNet p d check) x = .ok y ∧ y.shape = [T, P, p.len + p.len] ∧
      ∀ i < P, ∀ t < T, ∀ c : Comp, c ∈ symOrder p.dim →
        ∀ a b : Fin 3, c.i = a → c.j = b →
        let e := embed p (symTensor p.dim (symOrder p.dim) (pathOf x i t) -
          symTensor p.dim (symOrder p.dim) (pathOf x i 0))
        y.val [t, i, (symOrder p.dim).idxOf c] = hooke (lame E v) (shear E v) e a b ∧
        y.val [t, i, p.len + (symOrder p.dim).idxOf c] = e a b := by
  have hC := elasticNet_compatible p d check
  have hF' : (elasticNet p d check).co.length ≤ F := by simpa [elasticNet, symOrder_length] using hF
  have hst : ∀ i, ∃ st, Trajectory (elasticRc p d) (symOrder p.dim) (pathOf x i) T st := by
    intro i
    have h1 := fun t => C25_history p hE hv ((List.range t).map fun s =>
      symTensor p.dim (symOrder p.dim) (pathOf x i (s + 1)) -
        symTensor p.dim (symOrder p.dim) (pathOf x i s))
    choose st h1 _ using h1
    refine ⟨st, ?_, fun t _ => ?_⟩
    · have := h1 0
      simp only [elasticRun, List.range_zero, List.map_nil, List.foldlM_nil, pure, Except.pure,
        Except.ok.injEq] at this
      exact this.symm
    · have h2 := h1 (t + 1)
      rw [List.range_succ, List.map_append, List.map_cons, List.map_nil, elasticRun_snoc, h1 t] at h2
      exact h2
  have hfact : ∀ i st, Trajectory (elasticRc p d) (symOrder p.dim) (pathOf x i) T st → ∀ t < T,
      st t = st t ∧ (st t).isSuFail = false ∧
      (st t).eStrain = mf p (symTensor p.dim (symOrder p.dim) (pathOf x i t) -
        symTensor p.dim (symOrder p.dim) (pathOf x i 0)) ∧
      (st t).stress = mf p (inPlane p (hooke (lame E v) (shear E v) (embed p
        (symTensor p.dim (symOrder p.dim) (pathOf x i t) -
          symTensor p.dim (symOrder p.dim) (pathOf x i 0))))) := by
    intro i st h t ht
    obtain ⟨s, h1, h2, h3, h4, h5, h6, h7⟩ := C25_history p hE hv ((List.range t).map fun s =>
      symTensor p.dim (symOrder p.dim) (pathOf x i (s + 1)) -
        symTensor p.dim (symOrder p.dim) (pathOf x i s))
    rw [elastic_trajectory h ht] at h1
    cases h1
    rw [sum_steps fun s => symTensor p.dim (symOrder p.dim) (pathOf x i s)] at h3 h4
    exact ⟨rfl, h7, h3, h4⟩
  obtain ⟨y, hy⟩ := (C101_returns hC hx hF').2 fun i _ => by
    obtain ⟨st, h⟩ := hst i
    exact ⟨st, h, fun _ t _ ht => (hfact i st h t ht).2.1⟩
  obtain ⟨h1, h2⟩ := C101_response hC hx hF' hy
  refine ⟨y, hy, h1, fun i hi t ht c hc a b ha hb => ?_⟩
  obtain ⟨st, h⟩ := hst i
  obtain ⟨h3, h4⟩ := h2 i hi st h
  obtain ⟨-, -, h5, h6⟩ := hfact i st h t ht
  have hlen : (symOrder p.dim).idxOf c < p.len := by
    rw [← symOrder_length p]; exact List.idxOf_lt_length_iff.2 hc
  have hk : ∀ m : Tensor, (kelvinComps (symOrder p.dim) m).length = p.len := by
    intro m; rw [kelvinComps, List.length_map, symOrder_length]
  rcases Nat.eq_zero_or_pos t with rfl | h0
  · rw [h3, h3]
    have hz : embed p (0 : T2 p.dim) = 0 := embed_zero p
    simp only [sub_self, hz]
    simp [hooke, trace]
  rw [h4 t h0 ht, h4 t h0 ht]
  simp only [responseRow, elasticNet, List.flatMap_cons, List.flatMap_nil, List.append_nil, featureRow]
  have hs : StrainName "e_strain_mf" := by decide
  simp only [elasticRc, if_true, if_pos hs, h5, h6, List.getD_eq_getElem?_getD]
  rw [List.getElem?_append_left (by rw [hk]; exact hlen), List.getElem?_append_right (by rw [hk]; omega),
    hk, Nat.add_sub_cancel_left, ← List.getD_eq_getElem?_getD, ← List.getD_eq_getElem?_getD]
  refine ⟨kelvin_mf p _ _ rfl hc a b ha hb, kelvin_mf p _ _ ?_ hc a b ha hb⟩
  cases p
  · funext i j
    fin_cases i <;> fin_cases j <;> rfl
  · rfl

/-! ### Faults -/

/-- Steel-like constants. -/
def demoProps : Props := fun k => match k with | .E => some 210 | .v => some 0.25 | _ => none

/-- The response ignores the strain at time zero: a path of a constant nonzero strain has no stress, though
the model predicts one for this strain. -/
theorem C101_initial_strain_violated : ∃ x y : Tensor, x.shape = [2, 1, 3] ∧
    rcForward (elasticNet .plane demoProps true) x = .ok y ∧ y.val [1, 0, 0] = 0 ∧
    hooke (lame 210 0.25) (shear 210 0.25)
      (embed .plane (symTensor 2 (symOrder 2) (pathOf x 0 1))) 0 0 ≠ 0 := by
  obtain ⟨y, h1, -, h2⟩ := C101_elastic .plane (d := demoProps) (E := 210) (v := 0.25) rfl rfl true
    (x := ⟨[2, 1, 3], fun _ => 1⟩) rfl (le_refl _)
  refine ⟨_, y, rfl, h1, ?_, ?_⟩
  · have h3 := (h2 0 (by norm_num) 1 (by norm_num) [1, 1] (by decide) 0 0 rfl rfl).1
    have h4 : pathOf ⟨[2, 1, 3], fun _ => 1⟩ 0 1 = pathOf ⟨[2, 1, 3], fun _ => 1⟩ 0 0 := rfl
    rw [h4, sub_self, embed_zero] at h3
    have h5 : (symOrder PType.plane.dim).idxOf [1, 1] = 0 := by decide
    rw [h5] at h3
    rw [h3]
    simp [hooke, trace]
  · have h3 : ∀ i j : Fin 2, symTensor 2 (symOrder 2) (pathOf ⟨[2, 1, 3], fun _ => 1⟩ 0 1) i j = 1 := by
      intro i j
      fin_cases i <;> fin_cases j <;>
        simp [symTensor, symOrder, pathOf, Comp.i, Comp.j, List.findIdx_cons, List.range_succ]
    simp only [hooke, embed, trace, Fin.sum_univ_three, lame, shear, h3]
    simp
    norm_num

theorem vrcForward_error {R : RcNet n σ} (h : Compatible R) {e : PyErr} (hne : R.features ≠ [])
    (hst : ∀ s, vrcStates R s = .error e)
    (hupd : ∀ d s, ∃ s', R.model.update d s = .ok s' ∧ R.model.suFail s' = false) {x : Tensor}
    {T P F : ℕ} (hx : x.shape = [T + 2, P + 1, F]) (hF : R.co.length ≤ F) :
    vrcForward R x = .error e := by
  have hr : raiseIf (R.sf ≠ .infinitesimal) .runtimeError = .ok () :=
    raiseIf_ok.2 (by simp [h.infinitesimal])
  have hp : ∀ t, R.co.length ≤ (pathOf x 0 t).length := by
    intro t; simp [pathOf, hx, hF]
  have hb : batchPath x 0 = (List.range (T + 2)).map (pathOf x 0) := by rw [batchPath_eq, hx]; rfl
  have hstep : ∀ acc, vrcStep R acc (pathOf x 0 0, pathOf x 0 (0 + 1)) = .error e := by
    intro acc
    obtain ⟨s', h1, h2⟩ := hupd (symTensor n R.co (pathOf x 0 (0 + 1)) - symTensor n R.co (pathOf x 0 0)) acc.1
    have h3 : raiseIf (R.check ∧ R.model.suFail s') .runtimeError = .ok () :=
      raiseIf_ok.2 (by simp [h2])
    obtain ⟨t, h4, -⟩ := vkelvinComps h.comps (h.sized.stress s')
    simp only [vrcStep, rcIncrement_eq h.comps (hp 0) (hp (0 + 1)), h1, h3, h4, if_neg hne, hst, bind,
      Except.bind, Except.map]
  have h0 : vrcResponse R (batchPath x 0) = .error e := by
    simp only [vrcResponse, vrcPath, hr, hb, zip_tail_range]
    rw [show T + 2 - 1 = T + 1 by omega, List.range_succ_eq_map, List.map_cons, List.foldlM_cons, hstep]
    rfl
  simp only [vrcForward, hx]
  rw [List.range_succ_eq_map, List.mapM_cons, h0]
  rfl

theorem elastic_update_ok (p : PType) {d : Props} {E v : ℝ} (hE : d .E = some E) (hv : d .v = some v)
    (inc : T2 p.dim) (s : ElasticState p) :
    ∃ s', (elasticRc p d).update inc s = .ok s' ∧ (elasticRc p d).suFail s' = false := by
  have hD : elasticTangentModulus d .isotropic = .ok (kel66 (isoTensor (lamOf E v) (miuOf E v))) := by
    simp [elasticTangentModulus, requiredModuli, hE, hv]
  simp only [elasticRc, elasticStateUpdate, hD, bind, Except.bind, pure, Except.pure]
  exact ⟨_, rfl, rfl⟩

/-- With a strain variable among the state features the loops return (C101g) and the vectorised
propagation raises an error, for every batch of at least one path with at least two times. -/
theorem C101_strain_features_violated (p : PType) {d : Props} {E v : ℝ} (hE : d .E = some E)
    (hv : d .v = some v) (check : Bool) {x : Tensor} {T P F : ℕ} (hx : x.shape = [T + 2, P + 1, F])
    (hF : p.len ≤ F) :
    vrcForward (elasticNet p d check) x = .error .indexError ∧
      ∃ y, rcForward (elasticNet p d check) x = .ok y := by
  refine ⟨?_, ?_⟩
  · refine vrcForward_error (elasticNet_compatible p d check) (by simp [elasticNet]) (fun s => ?_)
      (fun inc s => elastic_update_ok p hE hv inc s) hx
      (by simpa [elasticNet, symOrder_length] using hF)
    have h1 : isStrainVar "e_strain_mf" = true := by decide
    obtain ⟨t, h2, -⟩ := vkelvinComps (symOrder_complete p) (m := ⟨[p.len], fun idx =>
      if h : idx.getD 0 0 < p.len then s.eStrain ⟨idx.getD 0 0, h⟩ else 0⟩)
      (by simp [symOrder_length])
    simp only [vrcStates, elasticNet, elasticRc, vrcFeature, List.mapM_cons, List.mapM_nil, if_true, h1, h2,
      bind, Except.bind, pure, Except.pure, List.filterMap_cons, id, List.filterMap_nil, vrcCat]
  · obtain ⟨y, h, -⟩ := C101_elastic p hE hv check hx hF
    exact ⟨y, h⟩

/-- The elastic model with a state feature that its state does not hold. -/
def elasticNoNet (p : PType) (d : Props) (check : Bool) : RcNet p.dim (ElasticState p) :=
  { elasticNet p d check with features := [("acc_p_strain", 1)], nOut := p.len + 1 }

theorem elasticNoNet_compatible (p : PType) (d : Props) (check : Bool) :
    Compatible (elasticNoNet p d check) where
  infinitesimal := rfl
  comps := symOrder_complete p
  sized := by
    refine ⟨(elasticNet_compatible p d check).sized.stress, ?_, ?_⟩
    · intro s f hf hn
      obtain rfl : f = ("acc_p_strain", 1) := by simpa [elasticNoNet] using hf
      exact absurd hn (show ¬ StrainName "acc_p_strain" by decide)
    · intro s f hf _ v hv
      obtain rfl : f = ("acc_p_strain", 1) := by simpa [elasticNoNet] using hf
      simp [elasticNoNet, elasticNet, elasticRc] at hv
  nOut := by simp [elasticNoNet, elasticNet, symOrder_length]

/-- A requested variable that the state does not hold is zero in the response of the loops, and the
vectorised propagation raises an error, for every batch of at least one path with at least two
times. -/
theorem C101_missing_features_violated (p : PType) {d : Props} {E v : ℝ} (hE : d .E = some E)
    (hv : d .v = some v) (check : Bool) {x : Tensor} {T P F : ℕ} (hx : x.shape = [T + 2, P + 1, F])
    (hF : p.len ≤ F) :
    vrcForward (elasticNoNet p d check) x = .error .runtimeError ∧
      ∃ y, rcForward (elasticNoNet p d check) x = .ok y ∧
        ∀ t < T + 2, ∀ i < P + 1, y.val [t, i, p.len] = 0 := by
  have hC := elasticNoNet_compatible p d check
  have hF' : (elasticNoNet p d check).co.length ≤ F := by
    simpa [elasticNoNet, elasticNet, symOrder_length] using hF
  refine ⟨?_, ?_⟩
  · refine vrcForward_error hC (by simp [elasticNoNet]) (fun s => ?_)
      (fun inc s => elastic_update_ok p hE hv inc s) hx hF'
    simp [vrcStates, elasticNoNet, elasticNet, elasticRc, vrcFeature, vrcCat, bind, Except.bind, pure,
      Except.pure]
  · obtain ⟨y', h', -⟩ := C101_elastic p hE hv check hx hF
    have hst := (C101_returns (elasticNet_compatible p d check) hx
      (by simpa [elasticNet, symOrder_length] using hF)).1 ⟨y', h'⟩
    obtain ⟨y, hy⟩ := (C101_returns hC hx hF').2 hst
    refine ⟨y, hy, fun t ht i hi => ?_⟩
    obtain ⟨st, h1, -⟩ := hst i hi
    obtain ⟨h2, h3⟩ := (C101_response hC hx hF' hy).2 i hi st h1
    rcases Nat.eq_zero_or_pos t with rfl | h0
    · exact h2 _
    · rw [h3 t h0 ht]
      have hk : ∀ m : Tensor, (kelvinComps (symOrder p.dim) m).length = p.len := by
        intro m; rw [kelvinComps, List.length_map, symOrder_length]
      simp only [responseRow, elasticNoNet, elasticNet, List.getD_eq_getElem?_getD]
      rw [List.getElem?_append_right (by rw [hk]), hk, Nat.sub_self]
      simp [featureRow, elasticRc]

/-- The hypotheses of C101 hold for the elastic model of two dimensions and three. -/
example : Compatible (elasticNet .plane demoProps true) ∧ Compatible (elasticNet .solid demoProps false) :=
  ⟨elasticNet_compatible _ _ _, elasticNet_compatible _ _ _⟩

/-- A one-dimensional plastic-like model: total strain, and its accumulated absolute value. -/
def sliderNet : RcNet 1 (ℝ × ℝ) where
  sf := .infinitesimal
  co := [[1, 1]]
  features := [("acc_p_strain", 1)]
  nOut := 2
  check := true
  model :=
    { init := (0, 0)
      update := fun d s => .ok (s.1 + d 0 0, s.2 + |d 0 0|)
      stressMf := fun s => ⟨[1], fun _ => 2 * s.1⟩
      suFail := fun s => decide (5 < s.2)
      var := fun name s => if name = "acc_p_strain" then some ⟨[], fun _ => s.2⟩ else none }

theorem sliderNet_compatible : Compatible sliderNet where
  infinitesimal := rfl
  comps := by
    refine ⟨⟨?_, by decide⟩, ?_, ?_⟩
    · intro c hc
      obtain rfl : c = [1, 1] := by simpa [sliderNet] using hc
      exact ⟨1, 1, le_refl _, le_refl _, le_refl _, le_refl _, rfl⟩
    · intro a b h1 h2 h3 h4
      obtain rfl : a = 1 := by omega
      obtain rfl : b = 1 := by omega
      simp [sliderNet]
    · intro a b hab hm
      simp [sliderNet] at hm
      omega
  sized := by
    refine ⟨fun s => rfl, ?_, ?_⟩
    · intro s f hf hn
      obtain rfl : f = ("acc_p_strain", 1) := by simpa [sliderNet] using hf
      exact absurd hn (show ¬ StrainName "acc_p_strain" by decide)
    · intro s f hf _ v hv
      obtain rfl : f = ("acc_p_strain", 1) := by simpa [sliderNet] using hf
      simp only [sliderNet, if_true, Option.some.injEq] at hv
      rw [← hv]; rfl
  nOut := rfl

example : Compatible sliderNet ∧ PlainFeatures sliderNet := by
  refine ⟨sliderNet_compatible, ?_⟩
  intro f hf
  obtain rfl : f = ("acc_p_strain", 1) := by simpa [sliderNet] using hf
  exact ⟨by decide, fun s => ⟨_, rfl⟩⟩

end Hooke
