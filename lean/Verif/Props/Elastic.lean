import Verif.Lemmas.Elastic
import Mathlib.Algebra.BigOperators.Group.List.Basic

/-! # C24, C25: elastic tangent and elastic state update -/

noncomputable section

namespace Hooke

open Spec

/-- C24a: given `E` and `v`, the isotropic tangent is Hooke's law `λ tr(ε) I + 2 G ε` with the
Lamé constants of `E` and `v`, and it is a symmetric matrix. -/
theorem C24_isotropic_tangent {d : Props} {E v : ℝ} (hE : d .E = some E) (hv : d .v = some v) :
    ∃ D, elasticTangentModulus d .isotropic = .ok D ∧
      (∀ e, IsSym e → mv6 D (kel6 e) = kel6 (hooke (lame E v) (shear E v) e)) ∧
      ∀ i j, D i j = D j i := by
  refine ⟨_, by simp [elasticTangentModulus, requiredModuli, hE, hv]; rfl, ?_, ?_⟩
  · intro e _
    rw [mv6_iso, hooke6_kel6]
    rfl
  · intro i j
    simp only [kel66, isoTensor, fosym_eq, fodiagtrace_eq]
    fin_cases i <;> fin_cases j <;> simp [ci, cj, kf]

/-- C24b: `E` and `v` mean Young's modulus and Poisson's ratio: under the strain of a uniaxial
test the tangent returns the uniaxial stress `E ε`. -/
theorem C24_uniaxial {d : Props} {E v : ℝ} (hE : d .E = some E) (hv : d .v = some v)
    (h1 : 1 + v ≠ 0) (h2 : 1 - 2 * v ≠ 0) (a : ℝ) :
    ∃ D, elasticTangentModulus d .isotropic = .ok D ∧
      mv6 D ![a, -v * a, -v * a, 0, 0, 0] = ![E * a, 0, 0, 0, 0, 0] := by
  refine ⟨_, by simp [elasticTangentModulus, requiredModuli, hE, hv]; rfl, ?_⟩
  rw [mv6_iso]
  have ht : lamOf E v * tr6 ![a, -v * a, -v * a, 0, 0, 0] = E * v * a / (1 + v) := by
    have : tr6 ![a, -v * a, -v * a, 0, 0, 0] = a * (1 - 2 * v) := by
      simp [tr6]; ring
    rw [this, lamOf, div_mul_eq_mul_div, div_eq_div_iff (mul_ne_zero h1 h2) h1]
    ring
  funext k
  simp only [hooke6, ht, miuOf]
  fin_cases k <;> simp [one6] <;> field_simp <;> ring

set_option maxHeartbeats 2000000 in
/-- C24c: for every elastic symmetry and every stiffness tensor with that symmetry, the tangent
built from the required moduli is that tensor: it maps a strain to the stress `C : ε`. -/
theorem C24_moduli {d : Props} {s : ElSym} {C : T4 3} (hC : IsStiffness C) (hs : HasSymmetry s C)
    (hd : GivesModuli d s C) :
    ∃ D, elasticTangentModulus d s = .ok D ∧
      (∀ e, IsSym e → mv6 D (kel6 e) = kel6 (ddot42_1 C e)) ∧ ∀ i j, D i j = D j i := by
  obtain ⟨req, hreq⟩ : ∃ req, requiredModuli s = some req := by
    cases s <;> simp [requiredModuli]
    exact hs.elim
  have hind := indModuli_ok (d := filterModuli d) (f := entry C) req
    (fun m hm => by rw [filterModuli_mod hreq hm]; exact hd.present req hreq m hm)
  have hres : elasticTangentModulus d s = .ok (kel66 C) := by
    have hgo : elasticTangentModulus d s =
        .ok (fillTangent (allModuli s (fun m => if m ∈ req then entry C m else 0))) := by
      unfold elasticTangentModulus
      rw [hreq]
      by_cases hi : s = .isotropic
      · rcases hd.noTechnical hi with h | h
        · simp [hi, h, hind, pure, Except.pure, bind, Except.bind]
        · cases hE : d .E <;> simp [hi, h, hE, hind, pure, Except.pure, bind, Except.bind]
      · simp [hi, hind, pure, Except.pure, bind, Except.bind]
    rw [hgo]
    congr 1
    funext i j
    rw [fillTangent_entry]
    have key : allModuli s (fun m => if m ∈ req then entry C m else 0) (modAt i j) =
        entry C (modAt i j) := by
      exact allModuli_entry hs hreq i j
    rw [key, entry_modAt hC, kel66]
    ring
  refine ⟨_, hres, fun e he => mv6_kel66 hC he, ?_⟩
  intro i j
  simp only [kel66]
  rw [hC.major, mul_comm (kf i)]

/-- Example: the steel-like constants, and the stiffness of every symmetry class. -/
example : ∃ C : T4 3, IsStiffness C ∧ (∀ s ≠ .unknown, HasSymmetry s C) ∧
    ∀ s, GivesModuli (fun k => match k with | .mod m => some (entry C m) | _ => none) s C := by
  refine ⟨fun i j k l => (if i = j ∧ k = l then 2 else 0) + (if i = k ∧ j = l then 3 else 0)
        + (if i = l ∧ j = k then 3 else 0), ⟨?_, ?_, ?_⟩, ?_, fun s => ⟨by simp, by simp⟩⟩
  · intro i j k l; fin_cases i <;> fin_cases j <;> fin_cases k <;> fin_cases l <;> simp
  · intro i j k l; fin_cases i <;> fin_cases j <;> fin_cases k <;> fin_cases l <;> simp
  · intro i j k l; fin_cases i <;> fin_cases j <;> fin_cases k <;> fin_cases l <;> simp
  · have hr : ∀ a, ReflectionInvariant a (fun i j k l : Fin 3 =>
        (if i = j ∧ k = l then (2 : ℝ) else 0) + (if i = k ∧ j = l then 3 else 0)
          + (if i = l ∧ j = k then 3 else 0)) := by
      intro a i j k l
      fin_cases a <;> fin_cases i <;> fin_cases j <;> fin_cases k <;> fin_cases l <;>
        simp [axisSign]
    intro s hs
    cases s
    · exact ⟨2, 3, fun _ _ _ _ => rfl⟩
    · refine ⟨hr, ?_⟩; norm_num [Fin.ext_iff]
    · exact hr
    · exact hr 2
    · trivial
    · exact absurd rfl hs

/-- The isotropic stiffness of given technical constants. -/
def isoStiffness (E v : ℝ) : T4 3 := fun i j k l =>
  (if i = j ∧ k = l then lame E v else 0) + (if i = k ∧ j = l then shear E v else 0)
    + (if i = l ∧ j = k then shear E v else 0)

/-- C24d: giving `E1111`, `E1122` of an isotropic material instead of its `E`, `v` yields the same
tangent and the same technical constants. -/
theorem C24_parameterisations {E v : ℝ} (hE : E ≠ 0) (h1 : 1 + v ≠ 0) (h2 : 1 - 2 * v ≠ 0)
    {d d' : Props} (hdE : d .E = some E) (hdv : d .v = some v)
    (ha : d' (.mod ([1,1],[1,1])) = some (lame E v + 2 * shear E v))
    (hb : d' (.mod ([1,1],[2,2])) = some (lame E v))
    (hn : d' .E = none ∨ d' .v = none) :
    (∃ D, elasticTangentModulus d .isotropic = .ok D ∧
      elasticTangentModulus d' .isotropic = .ok D) ∧
    getTechnicalFromElasticModuli .isotropic d = .ok (E, v) ∧
    getTechnicalFromElasticModuli .isotropic d' = .ok (E, v) := by
  have hbase : ∀ f : Props, f (.mod ([1,1],[1,1])) = some (lame E v + 2 * shear E v) →
      f (.mod ([1,1],[2,2])) = some (lame E v) →
      indModuli f [([1,1],[1,1]), ([1,1],[2,2])] = .ok (fun m =>
        if m ∈ [([1,1],[1,1]), ([1,1],[2,2])] then
          if m = ([1,1],[1,1]) then lame E v + 2 * shear E v else lame E v
        else 0) := by
    intro f hfa hfb
    refine indModuli_ok (f := fun m =>
      if m = ([1,1],[1,1]) then lame E v + 2 * shear E v else lame E v) _ ?_
    intro m hm
    simp only [List.mem_cons, List.not_mem_nil, or_false] at hm
    rcases hm with rfl | rfl
    · simpa using hfa
    · simpa using hfb
  have hfa : filterModuli d' (.mod ([1,1],[1,1])) = some (lame E v + 2 * shear E v) := by
    rw [← ha]; exact filterModuli_mod (s := .isotropic) rfl (by simp)
  have hfb : filterModuli d' (.mod ([1,1],[2,2])) = some (lame E v) := by
    rw [← hb]; exact filterModuli_mod (s := .isotropic) rfl (by simp)
  refine ⟨⟨kel66 (isoTensor (lamOf E v) (miuOf E v)), ?_, ?_⟩, ?_, ?_⟩
  · simp [elasticTangentModulus, requiredModuli, hdE, hdv]
  · have h := hbase _ hfa hfb
    have hgo : elasticTangentModulus d' .isotropic = .ok (fillTangent (allModuli .isotropic (fun m =>
        if m ∈ [([1,1],[1,1]), ([1,1],[2,2])] then
          if m = ([1,1],[1,1]) then lame E v + 2 * shear E v else lame E v
        else 0))) := by
      unfold elasticTangentModulus
      simp only [requiredModuli]
      rcases hn with hn | hn
      · simp [hn, h, pure, Except.pure, bind, Except.bind]
      · cases hE' : d' .E <;> simp [hn, hE', h, pure, Except.pure, bind, Except.bind]
    rw [hgo]
    congr 1
    funext i j
    rw [fillTangent_entry]
    simp only [kel66, isoTensor, fosym_eq, fodiagtrace_eq]
    have hl : lamOf E v = lame E v := rfl
    have hm : miuOf E v = shear E v := rfl
    rw [hl, hm]
    fin_cases i <;> fin_cases j <;>
      simp [allModuli, modAt, comp6, kf, ci, cj] <;> ring
  · simp [getTechnicalFromElasticModuli, requiredModuli, hdE, hdv]
  · have h := hbase _ ha hb
    have hgo : getTechnicalFromElasticModuli .isotropic d' =
        .ok ((1 / (lame E v + 2 * shear E v + lame E v)) *
          ((lame E v + 2 * shear E v) ^ 2 + (lame E v + 2 * shear E v) * lame E v
            - 2 * lame E v ^ 2), lame E v / (lame E v + 2 * shear E v + lame E v)) := by
      unfold getTechnicalFromElasticModuli
      simp only [requiredModuli]
      rcases hn with hn | hn
      · simp [hn, h, pure, Except.pure, bind, Except.bind]
      · cases hE' : d' .E <;> simp [hn, hE', h, pure, Except.pure, bind, Except.bind]
    rw [hgo]
    have hs : lame E v + 2 * shear E v + lame E v = E / ((1 + v) * (1 - 2 * v)) := by
      unfold lame shear
      generalize hq : 1 - 2 * v = q at h2 ⊢
      field_simp
      rw [← hq]; ring
    have hfac : (lame E v + 2 * shear E v) ^ 2 + (lame E v + 2 * shear E v) * lame E v
        - 2 * lame E v ^ 2 = E * (E / ((1 + v) * (1 - 2 * v))) := by
      unfold lame shear
      generalize hq : 1 - 2 * v = q at h2 ⊢
      field_simp
      rw [← hq]; ring
    rw [hfac, hs, lame]
    congr 2
    · generalize hq : 1 - 2 * v = q at h2 ⊢
      field_simp
    · generalize hq : 1 - 2 * v = q at h2 ⊢
      field_simp

example : ∃ (d d' : Props), d .E = some 200 ∧ d .v = some 0.3 ∧
    d' (.mod ([1,1],[1,1])) = some (lame 200 0.3 + 2 * shear 200 0.3) ∧
    d' (.mod ([1,1],[2,2])) = some (lame 200 0.3) ∧ d' .E = none :=
  ⟨fun k => match k with | .E => some 200 | .v => some 0.3 | _ => none,
   fun k => match k with
    | .mod m => if m = ([1,1],[1,1]) then some (lame 200 0.3 + 2 * shear 200 0.3)
        else some (lame 200 0.3)
    | _ => none, by simp⟩

/-- C24e: conversely the technical constants computed from `E1111 = a`, `E1122 = b` are those of
the isotropic material with these moduli. -/
theorem C24_technical {d : Props} {a b : ℝ} (ha : d (.mod ([1,1],[1,1])) = some a)
    (hb : d (.mod ([1,1],[2,2])) = some b) (hn : d .E = none ∨ d .v = none)
    (h1 : a + b ≠ 0) (h2 : a - b ≠ 0) (h3 : a + 2 * b ≠ 0) :
    ∃ E v, getTechnicalFromElasticModuli .isotropic d = .ok (E, v) ∧
      lame E v = b ∧ lame E v + 2 * shear E v = a := by
  have hbase : indModuli d [([1,1],[1,1]), ([1,1],[2,2])] = .ok (fun m =>
        if m ∈ [([1,1],[1,1]), ([1,1],[2,2])] then
          if m = ([1,1],[1,1]) then a else b
        else 0) := by
    refine indModuli_ok (f := fun m => if m = ([1,1],[1,1]) then a else b) _ ?_
    intro m hm
    simp only [List.mem_cons, List.not_mem_nil, or_false] at hm
    rcases hm with rfl | rfl
    · simpa using ha
    · simpa using hb
  refine ⟨(1 / (a + b)) * (a ^ 2 + a * b - 2 * b ^ 2), b / (a + b), ?_, ?_, ?_⟩
  · unfold getTechnicalFromElasticModuli
    simp only [requiredModuli]
    rcases hn with hn | hn
    · simp [hn, hbase, pure, Except.pure, bind, Except.bind]
    · cases hE' : d .E <;> simp [hn, hE', hbase, pure, Except.pure, bind, Except.bind]
  all_goals
    have e1 : 1 + b / (a + b) = (a + 2 * b) / (a + b) := by field_simp; ring
    have e2 : 1 - 2 * (b / (a + b)) = (a - b) / (a + b) := by field_simp; ring
    have e3 : a ^ 2 + a * b - 2 * b ^ 2 = (a - b) * (a + 2 * b) := by ring
    simp only [lame, shear, e1, e2, e3]
    generalize hp : a - b = p at *
    generalize hq : a + 2 * b = q at *
    field_simp
  rw [← hp]
  ring

/-- C24f: a required modulus which is absent raises, whatever else the dictionary holds; so does
an unknown symmetry, and the constructor raises for every symmetry but the isotropic one. -/
theorem C24_raises {d : Props} {s : ElSym} :
    (∀ req, requiredModuli s = some req → ∀ m ∈ req, d (.mod m) = none →
      (s = .isotropic → d .E = none ∨ d .v = none) →
        elasticTangentModulus d s = .error .runtimeError ∧
        (d (.bare (m.2, m.1)) = none →
          getTechnicalFromElasticModuli s d = .error .runtimeError)) ∧
    (s = .unknown → elasticTangentModulus d s = .error .runtimeError ∧
      getTechnicalFromElasticModuli s d = .error .runtimeError) ∧
    (s ≠ .isotropic → ∀ finite, elasticInit finite s d = .error .runtimeError) := by
  refine ⟨?_, ?_, ?_⟩
  · intro req hreq m hm hd hn
    have h1 := indModuli_missing (d := filterModuli d) (m := m)
      (by rw [filterModuli_mod hreq hm, hd]) rfl req hm
    refine ⟨?_, ?_⟩
    · unfold elasticTangentModulus
      rw [hreq]
      by_cases hi : s = .isotropic
      · rcases hn hi with hn | hn
        · simp [hi, hn, h1, bind, Except.bind]
        · cases hE' : d .E <;> simp [hi, hn, hE', h1, bind, Except.bind]
      · simp [hi, h1, bind, Except.bind]
    · intro hb
      have h2 := indModuli_missing hd hb req hm
      unfold getTechnicalFromElasticModuli
      rw [hreq]
      by_cases hi : s = .isotropic
      · rcases hn hi with hn | hn
        · simp [hi, hn, h2, bind, Except.bind]
        · cases hE' : d .E <;> simp [hi, hn, hE', h2, bind, Except.bind]
      · simp [hi, h2, bind, Except.bind]
  · rintro rfl
    exact ⟨rfl, rfl⟩
  · intro hs finite
    cases finite <;> simp [elasticInit, hs]

/-- C24g (violated): elastic.py:442-448 is meant to accept the symmetric modulus (`E2211` for
`E1122`), but the symmetric name is built without its leading letter, so a dictionary which gives
an isotropic material as `E1111`, `E2211` is rejected. -/
theorem C24_symmetric_modulus_violated : ∃ d : Props,
    d (.mod ([1,1],[1,1])) = some 3 ∧ d (.mod ([2,2],[1,1])) = some 1 ∧
      elasticTangentModulus d .isotropic = .error .runtimeError ∧
      getTechnicalFromElasticModuli .isotropic d = .error .runtimeError := by
  refine ⟨fun k => if k = .mod ([1,1],[1,1]) then some 3
    else if k = .mod ([2,2],[1,1]) then some 1 else none, by simp, by simp, ?_⟩
  have h := (C24_raises (d := fun k => if k = .mod ([1,1],[1,1]) then some 3
    else if k = .mod ([2,2],[1,1]) then some 1 else none) (s := .isotropic)).1 _ rfl
      ([1,1],[2,2]) (by simp) (by simp) (by simp)
  exact ⟨h.1, h.2 (by simp)⟩

/-! ### C25 -/

theorem to3D_mf (p : PType) (t : T2 p.dim) : to3D p (mf p t) 0 = kel6 (embed p t) := by
  cases p
  · funext k
    fin_cases k <;> simp [to3D, mf, kel6, embed, ci, cj, kf]
  · rfl

theorem to2D_kel6 (p : PType) (t : T2 3) : to2D p (kel6 t) = mf p (inPlane p t) := by
  cases p
  · funext k
    fin_cases k <;> simp [to2D, mf, kel6, inPlane, ci, cj, kf]
  · rfl

theorem inPlane_embed (p : PType) (t : T2 p.dim) : inPlane p (embed p t) = t := by
  cases p
  · funext i j
    fin_cases i <;> fin_cases j <;> simp [inPlane, embed]
  · rfl

theorem get33_embed (p : PType) (t : T2 p.dim) : get33 p (kel6 (embed p t)) = 0 := by
  cases p <;> simp [get33, kel6, embed, ci, cj, kf]

theorem kel6_add (a b : T2 3) : kel6 (a + b) = kel6 a + kel6 b := by
  funext k; simp [kel6, add_mul]

theorem embed_add (p : PType) (a b : T2 p.dim) : embed p (a + b) = embed p a + embed p b := by
  cases p
  · funext i j
    fin_cases i <;> fin_cases j <;> simp [embed]
  · rfl

theorem embed_zero (p : PType) : embed p 0 = 0 := by
  cases p
  · funext i j
    fin_cases i <;> fin_cases j <;> simp [embed]
  · rfl

theorem kel6_zero : kel6 0 = 0 := by funext k; simp [kel6]
theorem mv6_zero (D : M6) : mv6 D 0 = 0 := by funext k; simp [mv6]
theorem to2D_zero (p : PType) : to2D p 0 = 0 := by
  cases p
  · funext k; fin_cases k <;> simp [to2D]
  · rfl
theorem mf_zero (p : PType) : mf p 0 = 0 := by
  cases p
  · funext k; fin_cases k <;> simp [mf]
  · funext k; simp [mf, kel6]
theorem get33_zero (p : PType) : get33 p 0 = 0 := by cases p <;> simp [get33]

/-- The state reached by a total strain `t`. -/
def elasticStateOf (p : PType) (D : M6) (t : T2 p.dim) : ElasticState p :=
  { eStrain := mf p t, strain := mf p t, stress := to2D p (mv6 D (kel6 (embed p t)))
    isPlast := false, isSuFail := false, e33 := 0, s33 := get33 p (mv6 D (kel6 (embed p t))) }

theorem elastic_step {p : PType} {d : Props} {s : ElSym} {D : M6}
    (hD : elasticTangentModulus d s = .ok D) (t inc : T2 p.dim) :
    elasticStateUpdate p d s inc (elasticStateOf p D t) =
      .ok (elasticStateOf p D (t + inc), to2DM p D) := by
  simp only [elasticStateUpdate, hD, bind, Except.bind, pure, Except.pure, elasticStateOf, to3D_mf,
    ← kel6_add, ← embed_add, to2D_kel6, inPlane_embed, get33_embed, elasticInitState]

theorem elastic_run {p : PType} {d : Props} {s : ElSym} {D : M6}
    (hD : elasticTangentModulus d s = .ok D) (incs : List (T2 p.dim)) (t : T2 p.dim) :
    elasticRun p d s incs (elasticStateOf p D t) = .ok (elasticStateOf p D (t + incs.sum)) := by
  induction incs generalizing t with
  | nil => simp [elasticRun, pure, Except.pure]
  | cons inc incs ih =>
    simp only [elasticRun, List.foldlM_cons, elastic_step hD, bind, Except.bind, pure,
      Except.pure] at ih ⊢
    rw [ih, List.sum_cons, add_assoc]

theorem elastic_init {p : PType} (D : M6) : elasticInitState p = elasticStateOf p D 0 := by
  simp [elasticInitState, elasticStateOf, embed_zero, kel6_zero, mv6_zero, to2D_zero, mf_zero,
    get33_zero]

/-- C25a: after any sequence of strain increments from the initial state, the stored total and
elastic strains are the sum of the increments, and the stress is Hooke's law of that sum (plane
strain: of the 3D strain with no out-of-plane part, of which the out-of-plane stress is kept). -/
theorem C25_history (p : PType) {d : Props} {E v : ℝ} (hE : d .E = some E) (hv : d .v = some v)
    (incs : List (T2 p.dim)) :
    ∃ st, elasticRun p d .isotropic incs (elasticInitState p) = .ok st ∧
      st.strain = mf p incs.sum ∧ st.eStrain = mf p incs.sum ∧
      st.stress = mf p (inPlane p (hooke (lame E v) (shear E v) (embed p incs.sum))) ∧
      (p = .plane → st.e33 = 0 ∧ st.s33 = lame E v * trace (embed p incs.sum)) ∧
      st.isPlast = false ∧ st.isSuFail = false := by
  have hD : elasticTangentModulus d .isotropic = .ok (kel66 (isoTensor (lamOf E v) (miuOf E v))) := by
    simp [elasticTangentModulus, requiredModuli, hE, hv]
  refine ⟨_, by rw [elastic_init _]; exact elastic_run hD incs 0, ?_⟩
  rw [zero_add]
  refine ⟨rfl, rfl, ?_, ?_, rfl, rfl⟩
  · simp only [elasticStateOf, mv6_iso, hooke6_kel6, to2D_kel6]
    rfl
  · rintro rfl
    refine ⟨rfl, ?_⟩
    simp only [elasticStateOf, mv6_iso, get33, hooke6, tr6_kel6]
    simp [one6, kel6, embed, ci, cj, lame, lamOf]

/-- C25b: for every elastic symmetry, two sequences of increments with the same sum lead to the
same state: the response does not depend on the path, nor on how it is divided into steps. -/
theorem C25_path_independent (p : PType) {d : Props} {s : ElSym} {incs incs' : List (T2 p.dim)}
    (h : incs.sum = incs'.sum) (hs : ∃ D, elasticTangentModulus d s = .ok D) :
    ∃ st, elasticRun p d s incs (elasticInitState p) = .ok st ∧
      elasticRun p d s incs' (elasticInitState p) = .ok st := by
  obtain ⟨D, hD⟩ := hs
  rw [elastic_init D, elastic_run hD, elastic_run hD, h]
  exact ⟨_, rfl, rfl⟩

/-- C25c: a closed strain path returns to zero stress. -/
theorem C25_closed_path (p : PType) {d : Props} {s : ElSym} {incs : List (T2 p.dim)}
    (h : incs.sum = 0) (hs : ∃ D, elasticTangentModulus d s = .ok D) :
    elasticRun p d s incs (elasticInitState p) = .ok (elasticInitState p) := by
  obtain ⟨D, hD⟩ := hs
  rw [elastic_init D, elastic_run hD, h, zero_add]

/-- C25d: the tangent returned at every step is the derivative of the stress: the stress
increment is the returned tangent times the strain increment. -/
theorem C25_tangent (p : PType) {d : Props} {s : ElSym} (incs : List (T2 p.dim)) (inc : T2 p.dim)
    (hs : ∃ D, elasticTangentModulus d s = .ok D) :
    ∃ st st' T, elasticRun p d s incs (elasticInitState p) = .ok st ∧
      elasticStateUpdate p d s inc st = .ok (st', T) ∧
      ∀ k, st'.stress k = st.stress k + ∑ l, T k l * mf p inc l := by
  obtain ⟨D, hD⟩ := hs
  rw [elastic_init D, elastic_run hD]
  refine ⟨_, _, _, rfl, elastic_step hD _ _, ?_⟩
  intro k
  simp only [elasticStateOf, embed_add, kel6_add]
  have hadd : mv6 D (kel6 (embed p (0 + incs.sum)) + kel6 (embed p inc)) =
      mv6 D (kel6 (embed p (0 + incs.sum))) + mv6 D (kel6 (embed p inc)) := by
    funext i; simp [mv6, mul_add, Finset.sum_add_distrib]
  rw [zero_add] at hadd
  simp only [zero_add, embed_zero, kel6_zero, hadd]
  cases p
  · fin_cases k <;>
      simp [to2D, to2DM, mv6, Fin.sum_univ_succ, mf, kel6, embed, ci, cj, kf]
  · simp [to2D, to2DM, mv6, mf, embed]

example : ∃ d : Props, d .E = some 210 ∧ d .v = some 0.3 ∧
    ∃ D, elasticTangentModulus d .isotropic = .ok D :=
  ⟨fun k => match k with | .E => some 210 | .v => some 0.3 | _ => none, rfl, rfl, _, rfl⟩

end Hooke
