import Verif.Props.StressSpace
import Verif.Props.Kelvin
import Mathlib.Analysis.Matrix.Spectrum

/-!
# C129: paths of different lengths, units, and non-vacuity
-/

noncomputable section

namespace Hooke

open Spec

/-- Every symmetric stress has principal stresses. -/
theorem exists_eig : ∃ eig : T2 3 → List ℝ, ∀ s, IsSym s → EigenvaluesOf s (eig s) := by
  classical
  have key : ∀ s : T2 3, ∃ l, IsSym s → EigenvaluesOf s l := by
    intro s
    by_cases h : IsSym s
    · have hH : (Matrix.of s : Matrix (Fin 3) (Fin 3) ℝ).IsHermitian := by
        ext i j
        simp [Matrix.conjTranspose_apply, h j i]
      refine ⟨List.ofFn hH.eigenvalues, fun _ => ⟨by simp, fun x => ?_⟩⟩
      have h1 := congrArg (Polynomial.eval x) hH.charpoly_eq
      rw [Matrix.eval_charpoly, Polynomial.eval_prod] at h1
      rw [Matrix.smul_one_eq_diagonal, ← Matrix.scalar_apply, h1, List.map_ofFn, List.prod_ofFn]
      refine Finset.prod_congr rfl fun i _ => ?_
      simp
    · exact ⟨[], fun h' => absurd h' h⟩
  choose eig h using key
  exact ⟨eig, h⟩

theorem ragged {times : List (List ℝ)} (h : ∃ a ∈ times, ∃ b ∈ times, a.length ≠ b.length) (m : ℕ) :
    ∃ t ∈ times, t.length ≠ m := by
  obtain ⟨a, ha, b, hb, hab⟩ := h
  by_cases e : a.length = m
  · exact ⟨b, hb, by omega⟩
  · exact ⟨a, ha, e⟩

/-- **C129 is violated for paths of different lengths.**  Whatever the stresses, a plot of the principal
stresses, of the π-plane or of the triaxialities over the time then raises a `ValueError`: the block of
a shorter path has the rows of the longest one. -/
theorem C129_lengths_violated {eig : T2 3 → List ℝ} {perm : ℕ → List ℕ} {co : List Comp}
    {flags : SpaceFlags} {times : List (List ℝ)} {paths : List (List (List ℝ))}
    (h : GoodPaths co times paths) (hl : ∃ a ∈ times, ∃ b ∈ times, a.length ≠ b.length)
    (hf : flags.principal = true ∨ flags.piPairs = true ∨ flags.triaxPath = true) :
    stressSpace eig perm co flags times paths = .error .valueError := by
  rw [start_eq h rfl]
  have hb : ∀ {α : Type} (bl : List (List (List α))),
      blockTable ((times.map List.length).foldr max 0) times bl = .error .valueError := by
    intro α bl
    unfold blockTable raiseIf
    rw [if_pos (ragged hl _)]
    rfl
  obtain ⟨fp, fq, ft⟩ := flags
  simp only [ifRequested, hb, List.mapM_cons]
  cases fp
  · cases fq
    · cases ft
      · simp at hf
      · rfl
    · rfl
  · rfl

/-- C129e: without these plots the data hold, for every path, the points of its stresses with a deviator
larger than the tolerance and the invariants of its stresses, followed by a zero for every time that the
path has less than the longest one. -/
theorem C129_points {eig : T2 3 → List ℝ} {perm : ℕ → List ℕ} {co : List Comp}
    {times : List (List ℝ)} {paths : List (List (List ℝ))} (h : GoodPaths co times paths) :
    ∃ d, stressSpace eig perm co ⟨false, false, false⟩ times paths = .ok d ∧
      (d.points = (List.range paths.length).flatMap fun k =>
        ((List.range (stepsOf times k)).filterMap fun t => metricsOf (stressAt co paths k t)) ++
          List.replicate ((times.map List.length).foldr max 0 - stepsOf times k) (0, 0)) ∧
      d.invariants = (List.range paths.length).flatMap fun k =>
        ((List.range (stepsOf times k)).map fun t => spaceInvariants (stressAt co paths k t)) ++
          List.replicate ((times.map List.length).foldr max 0 - stepsOf times k) ⟨0, 0, 0, 0, 0, 0⟩ := by
  rw [start_eq h rfl]
  simp only [ifRequested]
  refine ⟨_, rfl, ?_, ?_⟩
  · dsimp only
    rw [invBlock_eq fun k hk => steps_le hk, h.same, points_eq]
  · dsimp only
    rw [stressesOf, List.map_map, List.flatMap, h.same]
    congr 1
    refine List.map_congr_left fun k _ => ?_
    simp [padTo]

/-- A path of uniaxial stresses. -/
def uniPath (l : List ℝ) : List (List ℝ) := l.map fun x => [x, 0, 0, 0, 0, 0]

theorem uni_good (T : List (List ℝ)) (hT : T ≠ []) (hne : ∀ t ∈ T, t ≠ []) :
    GoodPaths sym3d T (T.map uniPath) := by
  refine ⟨sym3d_complete, rfl, by simp, hT, hne, fun k t p h1 h2 => ?_⟩
  rw [List.getElem?_map, h1] at h2
  cases h2
  refine ⟨by simp [uniPath], fun r hr => ?_⟩
  obtain ⟨x, -, rfl⟩ := List.mem_map.mp hr
  simp [sym3d]

theorem uni_stress (x : ℝ) : symTensor 3 sym3d [x, 0, 0, 0, 0, 0] = uniaxial x := by
  funext i j
  fin_cases i <;> fin_cases j <;>
    simp [symTensor, sym3d, uniaxial, Comp.i, Comp.j, List.findIdx_cons]

theorem uni_vonMises {x : ℝ} (hx : 0 < x) : vonMises (uniaxial x) = x := by
  rw [vonMises_sqrt, (uniaxial_inv x).2.1, show 3 * (x ^ 2 / 3) = x ^ 2 by ring, Real.sqrt_sq hx.le]

theorem uni_metrics {x : ℝ} (hx : 1 ≤ x) : metricsOf (uniaxial x) = some (1 / 3, 1) := by
  have h0 : 0 < x := by linarith
  unfold metricsOf
  rw [if_neg]
  · rw [triaxiality, normalizedJ3, uni_vonMises h0, (uniaxial_inv x).1, (uniaxial_inv x).2.2]
    congr 2
    · field_simp
    · field_simp
  · rw [(uniaxial_inv x).2.1]
    nlinarith

/-- The hypotheses of the tables are met by two paths of uniaxial tension. -/
example : ∃ eig d, (∀ s, IsSym s → EigenvaluesOf s (eig s)) ∧
    stressSpace eig (fun _ => [1, 0, 2]) sym3d ⟨true, true, true⟩ [[1, 2], [3, 4]]
      [uniPath [1, 2], uniPath [3, 4]] = .ok d := by
  obtain ⟨eig, he⟩ := exists_eig
  obtain ⟨prin, -, pi, -, h⟩ := C129_tables he (perm := fun _ => [1, 0, 2]) (fun _ => by decide)
    (uni_good [[1, 2], [3, 4]] (by simp) (by simp)) (T := 2) (by simp)
  exact ⟨eig, _, he, h⟩

/-- Uniaxial tension has the triaxiality 1/3 and the Lode parameter 1. -/
example : triaxialityOf (spaceInvariants (uniaxial 5)) = some (1 / 3) ∧
    lodeOf (spaceInvariants (uniaxial 5)) = some 1 := by
  rw [triax_eq (uniaxial_isSym 5), lode_eq (uniaxial_isSym 5), uni_metrics (by norm_num)]
  exact ⟨rfl, rfl⟩

/-- **C129 is violated for the statistics of paths of different lengths.**  Of two paths of uniaxial
tension, with two times and with one, the points contain the triaxiality and Lode parameter zero, that
no stress of the paths has. -/
theorem C129_padding_violated (eig : T2 3 → List ℝ) (perm : ℕ → List ℕ) : ∃ d,
    stressSpace eig perm sym3d ⟨false, false, false⟩ [[1, 2], [1]] [uniPath [1, 2], uniPath [1]] = .ok d ∧
      d.points = [(1 / 3, 1), (1 / 3, 1), (1 / 3, 1), (0, 0)] := by
  obtain ⟨d, h1, h2, -⟩ := C129_points (eig := eig) (perm := perm)
    (uni_good [[1, 2], [1]] (by simp) (by simp))
  refine ⟨d, h1, ?_⟩
  rw [h2]
  have e0 : stressAt sym3d [uniPath [1, 2], uniPath [1]] 0 0 = uniaxial 1 := uni_stress 1
  have e1 : stressAt sym3d [uniPath [1, 2], uniPath [1]] 0 1 = uniaxial 2 := uni_stress 2
  have e2 : stressAt sym3d [uniPath [1, 2], uniPath [1]] 1 0 = uniaxial 1 := uni_stress 1
  simp [stepsOf, List.range_succ, e0, e1, e2, uni_metrics]

/-- **C129 is violated for small stresses.**  Whether a stress has a triaxiality depends on the units:
the same uniaxial tension has one in Pa and none in GPa. -/
theorem C129_units_violated : ∃ x c : ℝ, 0 < c ∧
    triaxialityOf (spaceInvariants (uniaxial x)) = some (1 / 3) ∧
    triaxialityOf (spaceInvariants (uniaxial (c * x))) = none := by
  refine ⟨1000, 1 / 10 ^ 9, by norm_num, ?_, ?_⟩
  · rw [triax_eq (uniaxial_isSym _), uni_metrics (by norm_num)]
    rfl
  · rw [triax_eq (uniaxial_isSym _), metricsOf, if_pos]
    · rfl
    · rw [(uniaxial_inv _).2.1]
      norm_num

end Hooke
