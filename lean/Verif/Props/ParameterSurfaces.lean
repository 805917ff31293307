import Verif.Model.ParameterSurfaces
import Verif.Props.LmuParameters
import Verif.Lemmas.MapM
import Verif.Lemmas.StrainPath

/-! # C172: surfaces of material parameters -/

noncomputable section

open Classical

namespace Hooke

open Spec

theorem forall₂_left171 {α β : Type} {R : α → β → Prop} {l : List α} {r : List β}
    (h : List.Forall₂ R l r) {x : α} (hx : x ∈ l) : ∃ y ∈ r, R x y := by
  induction h with
  | nil => cases hx
  | cons h1 _ ih =>
    rcases List.mem_cons.mp hx with rfl | hx
    · exact ⟨_, List.mem_cons_self, h1⟩
    · obtain ⟨y, hy, hr⟩ := ih hx
      exact ⟨y, List.mem_cons_of_mem _ hy, hr⟩

theorem ptsOf_head {n : ℕ} (hn : 2 ≤ n) (s0 s1 : ℝ) : ∃ a b, (ptsOf n s0 s1).head? = some a ∧
    (ptsOf n s0 s1).getLast? = some b ∧ a = (0, s0) ∧ b = (2, s0 + s1 * 2) := by
  have hl := ptsOf_length n s0 s1
  obtain ⟨e0, e1⟩ := ptsOf_ends hn s0 s1
  refine ⟨(ptsOf n s0 s1)[0]'(by omega), (ptsOf n s0 s1)[(ptsOf n s0 s1).length - 1]'(by omega), ?_, ?_, ?_, ?_⟩
  · rw [List.head?_eq_getElem?, List.getElem?_eq_getElem]
  · rw [List.getLast?_eq_getElem?, List.getElem?_eq_getElem]
  · refine Prod.ext e0 ?_
    rw [(ptsOf_get _).2, e0]
    ring
  · refine Prod.ext e1 ?_
    rw [(ptsOf_get _).2, e1]

/-- The values of the parameters that are expected in the surfaces: Young's modulus in GPa, Poisson's ratio,
the initial yield stress and the hardening modulus. -/
theorem surfaceValue_ok {T C : ℝ} (h : TcAdmissible T C) : ∃ p, tcParameters "von_mises" T C = .ok p ∧
    surfaceValue "E" p = .ok (tcYoung T C / 1000) ∧
    surfaceValue "v" p = .ok (tcYoung T C / (2 * tcShear T C) - 1) ∧
    surfaceValue "s0" p = .ok (tcYield T C) ∧ surfaceValue "s1" p = .ok (tcHardening T C) := by
  obtain ⟨a, b, h1, h2, rfl, rfl⟩ := ptsOf_head (n := 1000) (by norm_num) (tcYield T C) (tcHardening T C)
  have hp : tcParameters "von_mises" T C = .ok ⟨tcYoung T C, tcYoung T C / (2 * tcShear T C) - 1,
      ptsOf 1000 (tcYield T C) (tcHardening T C)⟩ :=
    C130_parameters.mpr ⟨rfl, h, rfl, rfl, by simp only [ptsOf]⟩
  generalize ptsOf 1000 (tcYield T C) (tcHardening T C) = pts at h1 h2 hp
  refine ⟨_, hp, ?_, ?_, ?_, ?_⟩
  · unfold surfaceValue
    rw [if_pos rfl]
    exact congrArg Except.ok (by ring)
  · unfold surfaceValue
    rw [if_neg (by decide), if_pos rfl]
  · unfold surfaceValue
    rw [if_neg (by decide), if_neg (by decide), h1, h2]
    change (if ("s0" : String) = "s0" then (Except.ok (tcYield T C) : Py ℝ) else
      Except.ok ((tcYield T C + tcHardening T C * 2 - tcYield T C) / (2 - 0))) = _
    rw [if_pos rfl]
  · unfold surfaceValue
    rw [if_neg (by decide), if_neg (by decide), h1, h2]
    change (if ("s1" : String) = "s0" then (Except.ok (tcYield T C) : Py ℝ) else
      Except.ok ((tcYield T C + tcHardening T C * 2 - tcYield T C) / (2 - 0))) = _
    rw [if_neg (by decide)]
    exact congrArg Except.ok (by ring)

theorem parameterSurface_ok {isInt : Bool} {temps comps : List ℝ} {param : String} {g : ℝ → ℝ → ℝ}
    (h : ∀ T ∈ temps, ∀ C ∈ comps, ∃ p, tcParameters "von_mises" T C = .ok p ∧
      surfaceValue param p = .ok (g T C)) :
    parameterSurface isInt "von_mises" temps comps param =
      .ok (temps.map fun T => comps.map fun C => storeLike isInt (g T C)) := by
  unfold parameterSurface
  refine mapM_of_forall fun T hT => mapM_of_forall fun C hC => ?_
  obtain ⟨p, h1, h2⟩ := h T hT C hC
  rw [h1]
  change (surfaceValue param p >>= fun v => _) = _
  rw [h2]
  rfl

theorem parameterSurfaces_ok (isInt : Bool) {temps comps : List ℝ} (ht : temps ≠ []) (hc : comps ≠ [])
    (h : ∀ T ∈ temps, ∀ C ∈ comps, TcAdmissible T C) :
    parameterSurfaces isInt "von_mises" temps comps = .ok
      [("E", temps.map fun T => comps.map fun C => storeLike isInt (tcYoung T C / 1000)),
       ("v", temps.map fun T => comps.map fun C => storeLike isInt (tcYoung T C / (2 * tcShear T C) - 1)),
       ("s0", temps.map fun T => comps.map fun C => storeLike isInt (tcYield T C)),
       ("s1", temps.map fun T => comps.map fun C => storeLike isInt (tcHardening T C))] := by
  unfold parameterSurfaces
  rw [raiseIf, if_neg (by simp), raiseIf, if_neg (by simp [ht, hc])]
  have e1 := parameterSurface_ok (isInt := isInt) (param := "E") (g := fun T C => tcYoung T C / 1000)
    fun T hT C hC => by
      obtain ⟨p, h1, h2, -⟩ := surfaceValue_ok (h T hT C hC)
      exact ⟨p, h1, h2⟩
  have e2 := parameterSurface_ok (isInt := isInt) (param := "v")
    (g := fun T C => tcYoung T C / (2 * tcShear T C) - 1) fun T hT C hC => by
      obtain ⟨p, h1, -, h2, -⟩ := surfaceValue_ok (h T hT C hC)
      exact ⟨p, h1, h2⟩
  have e3 := parameterSurface_ok (isInt := isInt) (param := "s0") (g := tcYield)
    fun T hT C hC => by
      obtain ⟨p, h1, -, -, h2, -⟩ := surfaceValue_ok (h T hT C hC)
      exact ⟨p, h1, h2⟩
  have e4 := parameterSurface_ok (isInt := isInt) (param := "s1") (g := tcHardening)
    fun T hT C hC => by
      obtain ⟨p, h1, -, -, -, h2⟩ := surfaceValue_ok (h T hT C hC)
      exact ⟨p, h1, h2⟩
  simp only [List.mapM_cons, List.mapM_nil, e1, e2, e3, e4]
  rfl

/-- **C172 (surfaces).** For admissible temperatures and compositions, the surfaces have Young's modulus in
GPa, Poisson's ratio, the initial yield stress and the hardening modulus of the material for the temperature
of the row and the composition of the column. -/
theorem C172_surfaces {temps comps : List ℝ} (ht : temps ≠ []) (hc : comps ≠ [])
    (h : ∀ T ∈ temps, ∀ C ∈ comps, TcAdmissible T C) :
    parameterSurfaces false "von_mises" temps comps = .ok
      [("E", temps.map fun T => comps.map fun C => tcYoung T C / 1000),
       ("v", temps.map fun T => comps.map fun C => tcYoung T C / (2 * tcShear T C) - 1),
       ("s0", temps.map fun T => comps.map fun C => tcYield T C),
       ("s1", temps.map fun T => comps.map fun C => tcHardening T C)] :=
  parameterSurfaces_ok false ht hc h

/-- **C172 is violated for integer temperatures.** If the temperatures are given as integers, the fractions of
the parameters are dropped: Poisson's ratio, which is between 0 and 1/2, is shown as zero everywhere. -/
theorem C172_integers_violated {temps comps : List ℝ} (ht : temps ≠ []) (hc : comps ≠ [])
    (h : ∀ T ∈ temps, ∀ C ∈ comps, TcAdmissible T C) :
    ∃ s, parameterSurfaces true "von_mises" temps comps = .ok s ∧
      s[1]? = some ("v", temps.map fun _ => comps.map fun _ => 0) ∧
      ∀ T ∈ temps, ∀ C ∈ comps, 0 < tcYoung T C / (2 * tcShear T C) - 1 := by
  refine ⟨_, parameterSurfaces_ok true ht hc h, ?_, fun T hT C hC => (C130_stable (h T hT C hC)).2.1⟩
  rw [List.getElem?_cons_succ, List.getElem?_cons_zero]
  congr 2
  refine List.map_congr_left fun T hT => List.map_congr_left fun C hC => ?_
  obtain ⟨-, h1, h2, -⟩ := C130_stable (h T hT C hC)
  unfold storeLike
  rw [if_pos rfl, if_pos h1.le]
  have : ⌊tcYoung T C / (2 * tcShear T C) - 1⌋ = 0 := by
    rw [Int.floor_eq_zero_iff]
    exact ⟨h1.le, by linarith⟩
  rw [this]
  simp

/-- **C172 (refusals).** Other models, no temperatures or compositions, and temperatures or compositions that
are not admissible are refused. -/
theorem C172_refusals (isInt : Bool) (temps comps : List ℝ) :
    (∀ name, name ≠ "von_mises" → parameterSurfaces isInt name temps comps = .error .runtimeError) ∧
    (temps = [] ∨ comps = [] → parameterSurfaces isInt "von_mises" temps comps = .error .runtimeError) ∧
    ∀ s, parameterSurfaces isInt "von_mises" temps comps = .ok s →
      ∀ T ∈ temps, ∀ C ∈ comps, TcAdmissible T C := by
  refine ⟨?_, ?_, ?_⟩
  · intro name h
    unfold parameterSurfaces
    rw [raiseIf, if_pos h]
    rfl
  · intro h
    unfold parameterSurfaces
    rw [raiseIf, if_neg (by simp), raiseIf, if_pos h]
    rfl
  · intro s h T hT C hC
    unfold parameterSurfaces at h
    obtain ⟨-, -, h⟩ := bind_ok h
    obtain ⟨-, -, h⟩ := bind_ok h
    rw [List.mapM_cons] at h
    obtain ⟨r, hr, -⟩ := bind_ok h
    obtain ⟨q, hq, -⟩ := bind_ok hr
    unfold parameterSurface at hq
    have h1 := mapM_forall₂ hq
    obtain ⟨row, -, hrow⟩ := forall₂_left171 h1 hT
    obtain ⟨v, -, hv⟩ := forall₂_left171 (mapM_forall₂ hrow) hC
    obtain ⟨p, hp, -⟩ := bind_ok hv
    exact (C130_parameters.mp hp).2.1

/-- A room temperature and a temperature of 600 degrees with a pure and a mixed composition are
admissible. -/
example : ∀ T ∈ [(25 : ℝ), 600], ∀ C ∈ [(0 : ℝ), 1 / 2], TcAdmissible T C := by
  intro T hT C hC
  simp only [List.mem_cons, List.not_mem_nil, or_false] at hT hC
  unfold TcAdmissible
  rcases hT with rfl | rfl <;> rcases hC with rfl | rfl <;> norm_num

end Hooke
