import Mathlib.Tactic.FieldSimp
import Mathlib.Tactic.Ring
import Mathlib.Tactic.Linarith
import Mathlib.Tactic.FinCases
import Mathlib.LinearAlgebra.Matrix.NonsingularInverse
import Verif.Model.StressFeatures
import Verif.Spec.StressFeatures
import Verif.Lemmas.Py
import Verif.Lemmas.PyDict
import Verif.Lemmas.Scalers
import Verif.Lemmas.StrainPath

/-! # C57: strain and stress features -/

namespace Hooke

open Spec

theorem compsOf_idxOf {n : ℕ} (o : List (Fin n × Fin n)) (T : Matrix (Fin n) (Fin n) ℝ)
    {x : Fin n × Fin n} (h : x ∈ o) : (compsOf o T)[o.idxOf x]? = some (T x.1 x.2) := by
  have hlt := List.idxOf_lt_length_of_mem h
  simp [compsOf, hlt]

theorem digit_injective {n : ℕ} :
    Function.Injective fun x : Fin n × Fin n => ((x.1 : ℕ) + 1, (x.2 : ℕ) + 1) := by
  rintro ⟨a, b⟩ ⟨c, d⟩ h
  simp only [Prod.mk.injEq, Nat.add_right_cancel_iff] at h
  exact Prod.ext (Fin.ext h.1) (Fin.ext h.2)

theorem mem_digits {n : ℕ} {o : List (Fin n × Fin n)} {i j : Fin n} :
    ((i : ℕ) + 1, (j : ℕ) + 1) ∈ digits o ↔ (i, j) ∈ o := by
  unfold digits
  exact List.mem_map_of_injective (a := (i, j)) digit_injective

theorem idxOf_digits {n : ℕ} (o : List (Fin n × Fin n)) (i j : Fin n) :
    (digits o).idxOf ((i : ℕ) + 1, (j : ℕ) + 1) = o.idxOf (i, j) := by
  induction o with
  | nil => rfl
  | cons x o ih =>
    have hx : digits (x :: o) = ((x.1 : ℕ) + 1, (x.2 : ℕ) + 1) :: digits o := rfl
    rw [hx, List.idxOf_cons, List.idxOf_cons, ih]
    by_cases h : x = (i, j)
    · subst h; simp
    · have h' : ((x.1 : ℕ) + 1, (x.2 : ℕ) + 1) ≠ ((i : ℕ) + 1, (j : ℕ) + 1) :=
        fun hc => h (digit_injective (a₁ := x) (a₂ := (i, j)) hc)
      simp [beq_eq_false_iff_ne.2 h, beq_eq_false_iff_ne.2 h']

theorem entry_lookup {n : ℕ} (o : List (Fin n × Fin n)) (comps : List ℝ) (i j : Fin n) (v : ℝ)
    (h : (∃ _ : (i, j) ∈ o, comps[o.idxOf (i, j)]? = some v) ∨
      ((i, j) ∉ o ∧ (j, i) ∈ o ∧ comps[o.idxOf (j, i)]? = some v)) :
    (compIndex (digits o) ((i : ℕ) + 1, (j : ℕ) + 1) >>= fun k => orRaise comps[k]? .indexError) = .ok v := by
  rcases h with ⟨h1, h2⟩ | ⟨h0, h1, h2⟩
  · have := mem_digits.2 h1
    simp [compIndex, this, idxOf_digits, h2, orRaise, bind, Except.bind]
  · have := mem_digits.2 h1
    have h0' := (mem_digits (o := o)).not.2 h0
    simp [compIndex, this, h0', idxOf_digits, h2, orRaise, bind, Except.bind]

theorem build_of_entries {n : ℕ} (o : List (Fin n × Fin n)) (comps : List ℝ)
    (T : Matrix (Fin n) (Fin n) ℝ)
    (h : ∀ i j, (∃ _ : (i, j) ∈ o, comps[o.idxOf (i, j)]? = some (T i j)) ∨
      ((i, j) ∉ o ∧ (j, i) ∈ o ∧ comps[o.idxOf (j, i)]? = some (T i j))) :
    ∃ flat, buildFromComps n (digits o) comps = .ok flat ∧ flat.length = n * n ∧
      ∀ i j : Fin n, viewSq n flat i j = T i j := by
  rcases Nat.eq_zero_or_pos n with rfl | hn
  · exact ⟨[], rfl, rfl, fun i => i.elim0⟩
  let g : ℕ → ℝ := fun m => T ⟨m / n % n, Nat.mod_lt _ hn⟩ ⟨m % n, Nat.mod_lt _ hn⟩
  refine ⟨(List.range (n * n)).map g, ?_, by simp, fun i j => ?_⟩
  · unfold buildFromComps rowMajorComps
    rw [List.mapM_map]
    apply mapM_of_forall
    intro m hm
    have hm' := List.mem_range.1 hm
    have hd : m / n < n := Nat.div_lt_of_lt_mul hm'
    have := entry_lookup o comps ⟨m / n, hd⟩ ⟨m % n, Nat.mod_lt _ hn⟩ _ (h _ _)
    simp only [g, Nat.mod_eq_of_lt hd]
    exact this
  · have hlt : (i : ℕ) * n + j < n * n := by
      calc (i : ℕ) * n + j < i * n + n := by omega
        _ = (i + 1) * n := by ring
        _ ≤ n * n := Nat.mul_le_mul_right _ i.2
    have h1 : ((i : ℕ) * n + j) / n = i := by
      rw [Nat.add_comm, Nat.add_mul_div_right _ _ hn, Nat.div_eq_of_lt j.2, Nat.zero_add]
    have h2 : ((i : ℕ) * n + j) % n = j := by
      rw [Nat.add_comm, Nat.add_mul_mod_self_right, Nat.mod_eq_of_lt j.2]
    simp [viewSq, List.getD, hlt, g, h1, h2, Nat.mod_eq_of_lt i.2]

/-- **C57.** A tensor is rebuilt from its components in any order that determines it, symmetric or not,
with or without repetitions. -/
theorem C57_build {n : ℕ} (o : List (Fin n × Fin n)) (T : Matrix (Fin n) (Fin n) ℝ)
    (hT : Determines o T) :
    ∃ flat, buildFromComps n (digits o) (compsOf o T) = .ok flat ∧ flat.length = n * n ∧
      ∀ i j : Fin n, viewSq n flat i j = T i j := by
  refine build_of_entries o _ T fun i j => ?_
  by_cases h : (i, j) ∈ o
  · exact .inl ⟨h, compsOf_idxOf o T h⟩
  · rcases hT i j with h' | ⟨h', he⟩
    · exact absurd h' h
    · exact .inr ⟨h, h', by rw [compsOf_idxOf o T h', he]⟩

theorem store_comps {n : ℕ} (o : List (Fin n × Fin n)) (S : ℕ → ℕ → ℝ)
    (T : Matrix (Fin n) (Fin n) ℝ) (hS : ∀ i j : Fin n, S i j = T i j) :
    storeComps n (digits o) S = .ok (compsOf o T) := by
  unfold storeComps digits compsOf
  rw [List.mapM_map]
  apply mapM_of_forall
  rintro ⟨i, j⟩ -
  have hi : (i : ℕ) + 1 ≤ n := i.2
  have hj : (j : ℕ) + 1 ≤ n := j.2
  simp [digitIndex, hi, hj, hS, pure, Except.pure, bind, Except.bind]

/-- **C57.** Storing extracts the components in the requested order. -/
theorem C57_store {n : ℕ} (o : List (Fin n × Fin n)) (S : ℕ → ℕ → ℝ) :
    storeComps n (digits o) S = .ok (compsOf o fun i j => S i j) := store_comps o S _ fun _ _ => rfl

/-- **C57.** Component extraction inverts tensor building: for every order without repetitions that
lists each component or its transposed one, any component values are recovered. -/
theorem C57_roundtrip {n : ℕ} (o : List (Fin n × Fin n)) (ho : o.Nodup)
    (hc : ∀ i j, (i, j) ∈ o ∨ (j, i) ∈ o) (comps : List ℝ) (hl : comps.length = o.length) :
    ∃ flat, buildFromComps n (digits o) comps = .ok flat ∧
      storeComps n (digits o) (viewSq n flat) = .ok comps := by
  let T : Matrix (Fin n) (Fin n) ℝ := fun i j =>
    if (i, j) ∈ o then comps.getD (o.idxOf (i, j)) 0 else comps.getD (o.idxOf (j, i)) 0
  obtain ⟨flat, h1, -, h2⟩ := build_of_entries o comps T fun i j => by
    by_cases h : (i, j) ∈ o
    · refine .inl ⟨h, ?_⟩
      have := List.idxOf_lt_length_of_mem h
      simp [T, h, List.getD, List.getElem?_eq_getElem (hl ▸ this)]
    · have h' := (hc i j).resolve_left h
      refine .inr ⟨h, h', ?_⟩
      have := List.idxOf_lt_length_of_mem h'
      simp [T, h, List.getD, List.getElem?_eq_getElem (hl ▸ this)]
  refine ⟨flat, h1, ?_⟩
  rw [store_comps o _ T h2]
  congr 1
  apply List.ext_getElem
  · simp [compsOf, hl]
  · intro k hk hk'
    have hko : k < o.length := by omega
    have hm : (o[k].1, o[k].2) ∈ o := List.getElem_mem hko
    have hi : o.idxOf (o[k].1, o[k].2) = k := ho.idxOf_getElem k hko
    simp only [compsOf, List.getElem_map, T, if_pos hm, hi]
    simp [List.getD, hk']

/-- **C57.** An order that lists neither a component nor its transposed one is rejected. -/
theorem C57_missing {n : ℕ} (o : List (Fin n × Fin n)) (comps : List ℝ) (hl : comps.length = o.length)
    (i j : Fin n) (h1 : (i, j) ∉ o) (h2 : (j, i) ∉ o) :
    buildFromComps n (digits o) comps = .error .valueError := by
  have hn : 0 < n := i.pos
  have hall : ∀ m < n * n, (∃ v, (compIndex (digits o) (m / n + 1, m % n + 1) >>=
      fun k => orRaise comps[k]? .indexError) = .ok v) ∨ (compIndex (digits o) (m / n + 1, m % n + 1) >>=
      fun k => orRaise comps[k]? .indexError) = .error .valueError := by
    intro m hm
    have hd : m / n < n := Nat.div_lt_of_lt_mul hm
    let a : Fin n := ⟨m / n, hd⟩
    let b : Fin n := ⟨m % n, Nat.mod_lt _ hn⟩
    by_cases ha : (a, b) ∈ o
    · have := List.idxOf_lt_length_of_mem ha
      exact .inl ⟨_, entry_lookup o comps a b _ (.inl ⟨ha, List.getElem?_eq_getElem (hl ▸ this)⟩)⟩
    · by_cases hb : (b, a) ∈ o
      · have := List.idxOf_lt_length_of_mem hb
        exact .inl ⟨_, entry_lookup o comps a b _ (.inr ⟨ha, hb, List.getElem?_eq_getElem (hl ▸ this)⟩)⟩
      · refine .inr ?_
        have ha' := (mem_digits (o := o)).not.2 ha
        have hb' := (mem_digits (o := o)).not.2 hb
        simp only [a, b] at ha' hb'
        simp [compIndex, ha', hb', bind, Except.bind]
  have hex : ∃ m < n * n, (compIndex (digits o) (m / n + 1, m % n + 1) >>=
      fun k => orRaise comps[k]? .indexError) = .error .valueError := by
    refine ⟨i * n + j, ?_, ?_⟩
    · calc (i : ℕ) * n + j < i * n + n := by omega
        _ = (i + 1) * n := by ring
        _ ≤ n * n := Nat.mul_le_mul_right _ i.2
    · have e1 : ((i : ℕ) * n + j) / n = i := by
        rw [Nat.add_comm, Nat.add_mul_div_right _ _ hn, Nat.div_eq_of_lt j.2, Nat.zero_add]
      have e2 : ((i : ℕ) * n + j) % n = j := by
        rw [Nat.add_comm, Nat.add_mul_mod_self_right, Nat.mod_eq_of_lt j.2]
      have ha' := (mem_digits (o := o)).not.2 h1
      have hb' := (mem_digits (o := o)).not.2 h2
      simp [e1, e2, compIndex, ha', hb', bind, Except.bind]
  unfold buildFromComps rowMajorComps
  rw [List.mapM_map]
  obtain ⟨m, hm, hme⟩ := hex
  have key : ∀ l : List ℕ, (∀ x ∈ l, x < n * n) → m ∈ l →
      l.mapM (fun m => compIndex (digits o) (m / n + 1, m % n + 1) >>=
        fun k => orRaise comps[k]? .indexError) = .error .valueError := by
    intro l
    induction l with
    | nil => intro _ h; simp at h
    | cons x l ih =>
      intro hl' hml
      rw [List.mapM_cons]
      rcases hall x (hl' x (by simp)) with ⟨v, hv⟩ | hv
      · rw [hv]
        rcases List.mem_cons.1 hml with rfl | hml
        · rw [hme] at hv; cases hv
        · have := ih (fun y hy => hl' y (by simp [hy])) hml
          simp only [bind, Except.bind] at this ⊢
          rw [this]
      · rw [hv]; rfl
  exact key _ (fun x hx => List.mem_range.1 hx) (List.mem_range.2 hm)

theorem traceSq_three {S : ℕ → ℕ → ℝ} {T : Matrix (Fin 3) (Fin 3) ℝ}
    (h : ∀ i j : Fin 3, S i j = T i j) : traceSq 3 S = T.trace := by
  rw [traceSq, Finset.sum_range]
  exact Finset.sum_congr rfl fun i _ => h i i

/-- **C57.** The volumetric stress is the trace (not a third of it). -/
theorem C57_vol (o : List (Fin 3 × Fin 3)) (T : Matrix (Fin 3) (Fin 3) ℝ) (hT : Determines o T) :
    stressFeature (compsOf o T) "vol_stress" 3 (digits o) = .ok [T.trace] := by
  obtain ⟨flat, h1, -, h2⟩ := C57_build o T hT
  simp [stressFeature, h1, traceSq_three h2, bind, Except.bind]

/-- **C57.** The stored 'deviatoric' stress is the stress minus its full trace times the identity; its
trace is minus twice the trace of the stress. -/
theorem C57_dev (o : List (Fin 3 × Fin 3)) (T : Matrix (Fin 3) (Fin 3) ℝ) (hT : Determines o T) :
    ∃ D : Matrix (Fin 3) (Fin 3) ℝ,
      stressFeature (compsOf o T) "dev_stress" 3 (digits o) = .ok (compsOf o D) ∧
      D = T - T.trace • 1 ∧ D.trace = -2 * T.trace := by
  refine ⟨T - T.trace • 1, ?_, rfl, ?_⟩
  · obtain ⟨flat, h1, -, h2⟩ := C57_build o T hT
    have := store_comps o (fun i j => viewSq 3 flat i j - traceSq 3 (viewSq 3 flat) * (if i = j then 1 else 0))
      (T - T.trace • 1) fun i j => by
        simp [h2, traceSq_three h2, Matrix.one_apply, Fin.ext_iff]
    simpa [stressFeature, h1, bind, Except.bind] using this
  · simp [Matrix.trace_sub, Matrix.trace_smul, Matrix.trace_one]; ring

/-- **C57, violated.** Whenever the order lists a diagonal component, the stored feature is the
deviatoric stress only for a traceless stress. -/
theorem C57_dev_violated (o : List (Fin 3 × Fin 3)) (T : Matrix (Fin 3) (Fin 3) ℝ) (hT : Determines o T) :
    stressFeature (compsOf o T) "dev_stress" 3 (digits o) = .ok (compsOf o (deviatoricPart T)) ↔
      T.trace = 0 := by
  obtain ⟨D, h, hD, -⟩ := C57_dev o T hT
  rw [h]
  constructor
  · intro he
    have he : compsOf o D = compsOf o (deviatoricPart T) := by injection he
    have h0 : ((0 : Fin 3), (0 : Fin 3)) ∈ o := by
      rcases hT 0 0 with h | h
      · exact h
      · exact h.1
    have h1 := compsOf_idxOf o D h0
    rw [he, compsOf_idxOf o _ h0] at h1
    simp only [Option.some.injEq, hD, deviatoricPart, Matrix.sub_apply, Matrix.smul_apply, Matrix.one_apply_eq,
      smul_eq_mul] at h1
    linarith
  · intro h0
    rw [hD, deviatoricPart, h0]; simp

/-- **C57.** The strain features are the first and second principal invariants of the strain. -/
theorem C57_strain (o : List (Fin 3 × Fin 3)) (T : Matrix (Fin 3) (Fin 3) ℝ) (hT : Determines o T) :
    strainFeature (compsOf o T) "i1_strain" 3 (digits o) = .ok [T.trace] ∧
    strainFeature (compsOf o T) "i2_strain" 3 (digits o) = .ok [secondInvariant T] := by
  obtain ⟨flat, h1, -, h2⟩ := C57_build o T hT
  constructor
  · simp [strainFeature, h1, traceSq_three h2, bind, Except.bind]
  · have hm : traceSq 3 (matmulSq 3 (viewSq 3 flat) (viewSq 3 flat)) = (T * T).trace := by
      apply traceSq_three
      intro i j
      rw [matmulSq, Finset.sum_range, Matrix.mul_apply]
      exact Finset.sum_congr rfl fun k _ => by rw [h2, h2]
    have he : 1 / 2 * (T.trace ^ 2 - (T * T).trace) = secondInvariant T := by
      simp only [Matrix.trace, Matrix.diag, Matrix.mul_apply, Fin.sum_univ_three, secondInvariant]
      ring
    have hne : ("i2_strain" : String) ≠ "i1_strain" := by decide
    simp only [strainFeature, h1, traceSq_three h2, hm, he, bind, Except.bind]
    simp

/-- **C57.** The strain features do not depend on the frame: rotating the strain leaves them unchanged,
whatever the component order. -/
theorem C57_strain_frame (o o' : List (Fin 3 × Fin 3)) (T Q : Matrix (Fin 3) (Fin 3) ℝ)
    (hT : Determines o T) (hQ : Q.transpose * Q = 1) (hT' : Determines o' (Q * T * Q.transpose))
    (label : String) :
    strainFeature (compsOf o' (Q * T * Q.transpose)) label 3 (digits o') =
      strainFeature (compsOf o T) label 3 (digits o) := by
  have htr : (Q * T * Q.transpose).trace = T.trace := by
    rw [Matrix.trace_mul_comm, ← Matrix.mul_assoc, hQ, Matrix.one_mul]
  have hsq : (Q * T * Q.transpose * (Q * T * Q.transpose)).trace = (T * T).trace := by
    have : Q * T * Q.transpose * (Q * T * Q.transpose) = Q * (T * T) * Q.transpose := by
      calc _ = Q * T * (Q.transpose * Q) * T * Q.transpose := by simp only [Matrix.mul_assoc]
        _ = _ := by rw [hQ]; simp only [Matrix.mul_assoc, Matrix.mul_one, Matrix.one_mul]
    rw [this, Matrix.trace_mul_comm, ← Matrix.mul_assoc, hQ, Matrix.one_mul]
  have h2 : secondInvariant (Q * T * Q.transpose) = secondInvariant T := by
    have he : ∀ A : Matrix (Fin 3) (Fin 3) ℝ, secondInvariant A = 1 / 2 * (A.trace ^ 2 - (A * A).trace) := by
      intro A
      simp only [Matrix.trace, Matrix.diag, Matrix.mul_apply, Fin.sum_univ_three, secondInvariant]
      ring
    rw [he, he, htr, hsq]
  by_cases h1 : label = "i1_strain"
  · subst h1; rw [(C57_strain o T hT).1, (C57_strain o' _ hT').1, htr]
  by_cases h2' : label = "i2_strain"
  · subst h2'; rw [(C57_strain o T hT).2, (C57_strain o' _ hT').2, h2]
  obtain ⟨flat, hf, -⟩ := C57_build o T hT
  obtain ⟨flat', hf', -⟩ := C57_build o' _ hT'
  simp [strainFeature, hf, hf', h1, h2', bind, Except.bind]

/-- **C57.** In two dimensions, and for an unknown label, both computations raise `RuntimeError`. -/
theorem C57_errors {n : ℕ} (o : List (Fin n × Fin n)) (T : Matrix (Fin n) (Fin n) ℝ)
    (hT : Determines o T) (label : String) :
    ((n ≠ 3 ∨ (label ≠ "vol_stress" ∧ label ≠ "dev_stress")) →
      stressFeature (compsOf o T) label n (digits o) = .error .runtimeError) ∧
    ((n ≠ 3 ∨ (label ≠ "i1_strain" ∧ label ≠ "i2_strain")) →
      strainFeature (compsOf o T) label n (digits o) = .error .runtimeError) := by
  obtain ⟨flat, hf, -⟩ := C57_build o T hT
  constructor <;> intro h <;> simp only [stressFeature, strainFeature, hf, bind, Except.bind] <;>
    rcases h with h | ⟨h, h'⟩ <;> simp_all

theorem addFeature_samples (o : List (Fin 3 × Fin 3)) (key label : String) (f : List ℝ → Py (List ℝ))
    (g : Matrix (Fin 3) (Fin 3) ℝ → List ℝ) (hfg : ∀ A, Determines o A → f (compsOf o A) = .ok (g A))
    (ds : List FeatSample) (T : List (List (Matrix (Fin 3) (Fin 3) ℝ)))
    (hp : List.Forall₂ (fun s P => s.feats.get? key = some (P.map (compsOf o)) ∧
      ∀ A ∈ P, Determines o A) ds T) :
    ∃ ds', ds.mapM (addFeature key label f) = .ok ds' ∧
      List.Forall₂ (fun s s' => s'.order = s.order ∧
        ∀ k ≠ label, s'.feats.get? k = s.feats.get? k) ds ds' ∧
      List.Forall₂ (fun s' P => s'.feats.get? label = some (P.map g)) ds' T := by
  have step : ∀ (s : FeatSample) (P : List (Matrix (Fin 3) (Fin 3) ℝ)),
      s.feats.get? key = some (P.map (compsOf o)) → (∀ A ∈ P, Determines o A) →
      addFeature key label f s = .ok { s with feats := s.feats.put label (P.map g) } := by
    intro s P h1 h2
    have : featurePath f (P.map (compsOf o)) = .ok (P.map g) := by
      unfold featurePath
      rw [List.mapM_map]
      apply mapM_of_forall
      intro A hA
      exact hfg A (h2 A hA)
    simp [addFeature, h1, this, orRaise, pure, Except.pure, bind, Except.bind]
  induction hp with
  | nil => exact ⟨[], rfl, .nil, .nil⟩
  | @cons s P _ _ hx _ ih =>
    obtain ⟨ds', h1, h2, h3⟩ := ih
    refine ⟨⟨s.order, s.feats.put label (P.map g)⟩ :: ds', ?_, .cons ⟨rfl, ?_⟩ h2, .cons ?_ h3⟩
    · rw [List.mapM_cons, step _ _ hx.1 hx.2, h1]; rfl
    · exact fun k hk => KDict.get?_put_ne _ _ hk
    · exact KDict.get?_put_self _ _ _

/-- **C57.** Adding a stress feature to a data set: if every sample holds the path of a tensor in the
order of the first sample, each sample gets the feature of its own path at each time, and nothing else
in it changes. -/
theorem C57_dataset (o : List (Fin 3 × Fin 3)) (ho : orderDim (digits o) = 3)
    (ds : List FeatSample) (T : List (List (Matrix (Fin 3) (Fin 3) ℝ)))
    (hne : ds ≠ []) (horder : ∀ s ∈ ds, s.order = some (digits o))
    (hp : List.Forall₂ (fun s P => s.feats.get? "stress_path" = some (P.map (compsOf o)) ∧
      ∀ A ∈ P, Determines o A) ds T) (label : String) (g : Matrix (Fin 3) (Fin 3) ℝ → List ℝ)
    (hg : (label = "vol_stress" ∧ g = fun A => [A.trace]) ∨
      (label = "dev_stress" ∧ g = fun A => compsOf o (A - A.trace • 1))) :
    ∃ ds', addStressFeatures ds label = .ok ds' ∧
      List.Forall₂ (fun s s' => s'.order = s.order ∧
        ∀ k ≠ label, s'.feats.get? k = s.feats.get? k) ds ds' ∧
      List.Forall₂ (fun s' P => s'.feats.get? label = some (P.map g)) ds' T := by
  obtain ⟨ds', h1, h2⟩ := addFeature_samples o "stress_path" label
    (fun c => stressFeature c label 3 (digits o)) g (by
      intro A hA
      rcases hg with ⟨rfl, rfl⟩ | ⟨rfl, rfl⟩
      · exact C57_vol o A hA
      · obtain ⟨D, hD, rfl, -⟩ := C57_dev o A hA
        exact hD) ds T hp
  refine ⟨ds', ?_, h2⟩
  have hl : ¬(label ≠ "vol_stress" ∧ label ≠ "dev_stress") := by
    rcases hg with ⟨rfl, -⟩ | ⟨rfl, -⟩ <;> simp
  cases hp with
  | nil => exact absurd rfl hne
  | cons hx _ =>
    have := horder _ (List.mem_cons_self ..)
    simp only [addStressFeatures, List.head?_cons, orRaise, hx.1, this, raiseIf, bind, Except.bind, ho, hl]
    simpa using h1

/-- **C57.** Adding a strain feature to a data set. -/
theorem C57_dataset_strain (o : List (Fin 3 × Fin 3)) (ho : orderDim (digits o) = 3)
    (ds : List FeatSample) (T : List (List (Matrix (Fin 3) (Fin 3) ℝ)))
    (hne : ds ≠ []) (horder : ∀ s ∈ ds, s.order = some (digits o))
    (hp : List.Forall₂ (fun s P => s.feats.get? "strain_path" = some (P.map (compsOf o)) ∧
      ∀ A ∈ P, Determines o A) ds T) (label : String) (g : Matrix (Fin 3) (Fin 3) ℝ → List ℝ)
    (hg : (label = "i1_strain" ∧ g = fun A => [A.trace]) ∨
      (label = "i2_strain" ∧ g = fun A => [secondInvariant A])) :
    ∃ ds', addStrainFeatures ds label = .ok ds' ∧
      List.Forall₂ (fun s s' => s'.order = s.order ∧
        ∀ k ≠ label, s'.feats.get? k = s.feats.get? k) ds ds' ∧
      List.Forall₂ (fun s' P => s'.feats.get? label = some (P.map g)) ds' T := by
  obtain ⟨ds', h1, h2⟩ := addFeature_samples o "strain_path" label
    (fun c => strainFeature c label 3 (digits o)) g (by
      intro A hA
      rcases hg with ⟨rfl, rfl⟩ | ⟨rfl, rfl⟩
      · exact (C57_strain o A hA).1
      · exact (C57_strain o A hA).2) ds T hp
  refine ⟨ds', ?_, h2⟩
  have hl : ¬(label ≠ "i1_strain" ∧ label ≠ "i2_strain") := by
    rcases hg with ⟨rfl, -⟩ | ⟨rfl, -⟩ <;> simp
  cases hp with
  | nil => exact absurd rfl hne
  | cons hx _ =>
    have := horder _ (List.mem_cons_self ..)
    simp only [addStrainFeatures, List.head?_cons, orRaise, hx.1, this, raiseIf, bind, Except.bind, ho, hl]
    simpa using h1

section Examples

/-- Symmetric three-dimensional order `11, 22, 33, 12, 23, 13`. -/
def orderKelvin : List (Fin 3 × Fin 3) := [(0, 0), (1, 1), (2, 2), (0, 1), (1, 2), (0, 2)]

example : orderKelvin.Nodup ∧ (∀ i j, (i, j) ∈ orderKelvin ∨ (j, i) ∈ orderKelvin) ∧
    orderDim (digits orderKelvin) = 3 := by
  refine ⟨by decide, by decide, by decide⟩

/-- Uniaxial stress: the stored 'deviatoric' stress is not the deviatoric stress. -/
example : Determines orderKelvin !![3, 0, 0; 0, 0, 0; 0, 0, 0] ∧
    (!![3, 0, 0; 0, 0, 0; 0, 0, 0] : Matrix (Fin 3) (Fin 3) ℝ).trace ≠ 0 := by
  constructor
  · intro i j
    fin_cases i <;> fin_cases j <;> simp [orderKelvin]
  · simp [Matrix.trace, Fin.sum_univ_three]

end Examples

end Hooke
