import Verif.Spec.StressSpace
import Verif.Props.LouStress
import Verif.Props.ResponseDataset
import Verif.Props.TimeSeriesBatch
import Mathlib.Tactic.LinearCombination

/-!
# C129: stress paths in the principal stress space
-/

noncomputable section

namespace Hooke

open Spec

theorem det_char (s : T2 3) (x : ℝ) :
    Matrix.det (x • (1 : Matrix (Fin 3) (Fin 3) ℝ) - Matrix.of s)
      = x ^ 3 - (spaceInvariants s).i1 * x ^ 2 + (spaceInvariants s).i2 * x - (spaceInvariants s).i3 := by
  simp only [spaceInvariants, Matrix.det_fin_three, Fin.sum_univ_three, Matrix.sub_apply,
    Matrix.smul_apply, Matrix.of_apply, Matrix.one_apply, smul_eq_mul]
  simp
  ring

/-- C129a: the computed invariants of a symmetric stress are the coefficients of its characteristic
polynomial and the invariants of its deviator. -/
theorem C129_invariants {s : T2 3} (h : IsSym s) :
    (∀ x : ℝ, Matrix.det (x • (1 : Matrix (Fin 3) (Fin 3) ℝ) - Matrix.of s)
      = x ^ 3 - (spaceInvariants s).i1 * x ^ 2 + (spaceInvariants s).i2 * x - (spaceInvariants s).i3) ∧
    (spaceInvariants s).i1 = trace s ∧ (spaceInvariants s).j1 = trace (deviator s) ∧
    (spaceInvariants s).j2 = devJ2 s ∧ (spaceInvariants s).j3 = devJ3 s := by
  have h1 : s 1 0 = s 0 1 := h 1 0
  have h2 : s 2 0 = s 0 2 := h 2 0
  have h3 : s 2 1 = s 1 2 := h 2 1
  refine ⟨det_char s, rfl, (deviator_trace s).symm, ?_, ?_⟩
  · simp only [spaceInvariants, devJ2, deviator, trace, Fin.sum_univ_three, Fin.isValue]
    simp only [h1, h2, h3]
    simp
    ring
  · simp only [spaceInvariants, devJ3, deviator, trace, Fin.sum_univ_three, Fin.isValue,
      Matrix.det_fin_three, Matrix.of_apply]
    simp only [h1, h2, h3]
    simp
    ring

theorem vonMises_sqrt (s : T2 3) : vonMises s = √(3 * devJ2 s) := by
  unfold vonMises frob devJ2
  rw [← Real.sqrt_mul (by norm_num)]
  congr 1
  ring

theorem triax_eq {s : T2 3} (h : IsSym s) : triaxialityOf (spaceInvariants s)
    = (metricsOf s).map Prod.fst := by
  obtain ⟨-, h1, -, h2, -⟩ := C129_invariants h
  unfold triaxialityOf metricsOf
  rw [h1, h2]
  split_ifs with h3
  · rfl
  · rw [Option.map_some, triaxiality, vonMises_sqrt]
    congr 2
    ring

theorem lode_eq {s : T2 3} (h : IsSym s) : lodeOf (spaceInvariants s) = (metricsOf s).map Prod.snd := by
  obtain ⟨-, -, -, h2, h3⟩ := C129_invariants h
  unfold lodeOf metricsOf
  rw [h2, h3]
  split_ifs with h4
  · rfl
  · have hj : 0 < devJ2 s := lt_of_lt_of_le (by norm_num) (not_lt.mp h4)
    rw [Option.map_some, normalizedJ3, vonMises_sqrt, Real.sqrt_mul (by norm_num)]
    congr 1
    have e : devJ2 s ^ (3 / 2 : ℝ) = √(devJ2 s) ^ 3 := by
      rw [Real.sqrt_eq_rpow, ← Real.rpow_natCast, ← Real.rpow_mul hj.le]
      norm_num
    have h5 : √(devJ2 s) ≠ 0 := (Real.sqrt_pos.mpr hj).ne'
    have h6 : √3 ^ 2 = 3 := Real.sq_sqrt (by norm_num)
    have h7 : √3 ≠ 0 := (Real.sqrt_pos.mpr (by norm_num)).ne'
    rw [e]
    generalize √(devJ2 s) = y at *
    generalize √3 = z at *
    field_simp
    linear_combination 3 * devJ3 s * (z ^ 2 + 3) * h6

/-- C129b: the Lode parameter of a symmetric stress is between -1 and 1, and the triaxiality times the
von Mises stress is the mean stress. -/
theorem C129_bounds {s : T2 3} (h : IsSym s) {a b : ℝ} (ha : triaxialityOf (spaceInvariants s) = some a)
    (hb : lodeOf (spaceInvariants s) = some b) :
    a * vonMises s = trace s / 3 ∧ -1 ≤ b ∧ b ≤ 1 := by
  rw [triax_eq h] at ha
  rw [lode_eq h] at hb
  unfold metricsOf at ha hb
  split_ifs at ha hb with h1
  · cases ha
  have hj : 0 < devJ2 s := lt_of_lt_of_le (by norm_num) (not_lt.mp h1)
  have hv : 0 < vonMises s := by rw [vonMises_sqrt]; positivity
  cases ha
  cases hb
  refine ⟨by simp only [triaxiality]; field_simp, ?_⟩
  rw [← abs_le]
  simp only [normalizedJ3]
  have h2 : vonMises s ^ 2 = 3 * devJ2 s := by rw [vonMises_sqrt, Real.sq_sqrt (by positivity)]
  have h3 := devJ3_le h
  rw [abs_div, abs_of_pos (pow_pos hv 3), div_le_one (pow_pos hv 3)]
  refine abs_le_of_sq_le_sq ?_ (pow_pos hv 3).le
  have h4 : (vonMises s ^ 3) ^ 2 = 27 * devJ2 s ^ 3 := by
    calc (vonMises s ^ 3) ^ 2 = (vonMises s ^ 2) ^ 3 := by ring
      _ = 27 * devJ2 s ^ 3 := by rw [h2]; ring
  rw [h4]
  nlinarith

/-! ### Principal stresses -/

theorem principal_ok {eig : T2 3 → List ℝ} {s : T2 3} (h : EigenvaluesOf s (eig s)) :
    PrincipalOf s (principalOf eig s) := by
  have hp : (principalOf eig s).Perm (eig s) :=
    (List.reverse_perm _).trans (List.perm_insertionSort _ _)
  refine ⟨⟨by rw [hp.length_eq, h.1], fun x => ?_⟩, ?_⟩
  · rw [h.2 x]
    exact ((hp.map _).prod_eq).symm
  · unfold principalOf
    rw [List.pairwise_reverse]
    exact List.pairwise_insertionSort _ _

theorem principal_sums {s : T2 3} {a b c : ℝ} (h : EigenvaluesOf s [a, b, c]) :
    (spaceInvariants s).i1 = a + b + c ∧ (spaceInvariants s).i2 = a * b + a * c + b * c ∧
      (spaceInvariants s).i3 = a * b * c := by
  have h1 := h.2
  simp only [det_char, List.map_cons, List.map_nil, List.prod_cons, List.prod_nil, mul_one] at h1
  have h0 := h1 0
  have h2 := h1 1
  have h3 := h1 (-1)
  refine ⟨?_, ?_, ?_⟩ <;> nlinarith

/-- C129c: for every symmetric stress and in whatever order its principal stresses are taken, the last
coordinate is the one along the hydrostatic axis and the square of the distance from this axis, in the
π-plane, is `2 J₂`. -/
theorem C129_plane {s : T2 3} (h : IsSym s) {a b c : ℝ} (he : EigenvaluesOf s [a, b, c]) :
    ∃ x y : ℝ, piCoords a b c = [x, y, trace s / √3] ∧ x ^ 2 + y ^ 2 = 2 * devJ2 s := by
  obtain ⟨-, h1, -, h2, -⟩ := C129_invariants h
  obtain ⟨e1, e2, -⟩ := principal_sums he
  refine ⟨_, _, by unfold piCoords; rw [← h1, e1], ?_⟩
  rw [← h2]
  have h3 : (spaceInvariants s).j2 = 1 / 3 * (spaceInvariants s).i1 ^ 2 - (spaceInvariants s).i2 := rfl
  rw [h3, e1, e2, div_pow, div_pow, Real.sq_sqrt (by norm_num), Real.sq_sqrt (by norm_num)]
  ring

theorem sqrt_frac {m n : ℝ} (k : ℝ) (hk : 0 ≤ k) (h : m * n = k ^ 2) (hn : 0 < n) :
    √m = k / √n := by
  have h1 : m = (k / √n) ^ 2 := by
    rw [div_pow, Real.sq_sqrt hn.le, ← h]
    field_simp
  rw [h1, Real.sqrt_sq (by positivity)]

theorem piStress_eq {perm : List ℕ} {p : List ℝ} {a b c : ℝ}
    (h : (perm.map fun j => p.getD j 0) = [a, b, c]) : piStress perm p = piCoords a b c := by
  have h1 : √(2 / 3 : ℝ) = 2 / √6 := sqrt_frac 2 (by norm_num) (by norm_num) (by norm_num)
  have h2 : √(1 / 6 : ℝ) = 1 / √6 := sqrt_frac 1 (by norm_num) (by norm_num) (by norm_num)
  have h3 : √(1 / 2 : ℝ) = 1 / √2 := sqrt_frac 1 (by norm_num) (by norm_num) (by norm_num)
  have h4 : √(1 / 3 : ℝ) = 1 / √3 := sqrt_frac 1 (by norm_num) (by norm_num) (by norm_num)
  have h5 : List.range 3 = [0, 1, 2] := rfl
  simp only [piStress, h, planeRotation, piCoords, h1, h2, h3, h4, h5, List.map_cons, List.map_nil,
    List.sum_cons, List.sum_nil, List.getD_cons_zero, List.getD_cons_succ]
  congr 1
  · ring
  congr 1
  · ring
  congr 1
  ring

/-! ### Tables -/

theorem symTensor_isSym {co : List Comp} (v : List ℝ) : IsSym (symTensor 3 co v) := by
  intro i j
  unfold symTensor
  congr 2
  funext c
  congr 1
  exact propext (or_comm)

/-- Stresses of all paths. -/
def stressesOf (co : List Comp) (times : List (List ℝ)) (paths : List (List (List ℝ))) :
    List (List (T2 3)) :=
  (List.range times.length).map fun k => (List.range (stepsOf times k)).map fun t => stressAt co paths k t

theorem tensors_eq {co : List Comp} {times : List (List ℝ)} {paths : List (List (List ℝ))}
    (h : GoodPaths co times paths) :
    (times.zip paths).mapM (fun p => spaceTensors co p.1 p.2) = .ok (stressesOf co times paths) := by
  have key : ∀ k (hk : k < times.length) (hk' : k < paths.length), spaceTensors co times[k] paths[k]
      = .ok ((List.range (stepsOf times k)).map fun t => stressAt co paths k t) := by
    intro k hk hk'
    obtain ⟨h1, h2⟩ := h.rows k _ _ (List.getElem?_eq_getElem hk) (List.getElem?_eq_getElem hk')
    have e1 : stepsOf times k = times[k].length := by simp [stepsOf, hk]
    have e2 : paths.getD k [] = paths[k] := by simp [hk']
    unfold spaceTensors
    rw [e1]
    refine mapM_of_forall fun i hi => ?_
    have hi' : i < paths[k].length := lt_of_lt_of_le (List.mem_range.mp hi) h1
    rw [List.getElem?_eq_getElem hi']
    obtain ⟨t, h3, h4⟩ := npBuild_symTensor h.comps (h2 _ (List.getElem_mem hi'))
    simp only [orRaise, bind, Except.bind, h3, pure, Except.pure]
    congr 1
    funext a b
    rw [h4, stressAt, e2]
    simp [hi']
  have e : stressesOf co times paths = (times.zip paths).zipIdx.map fun p =>
      (List.range (stepsOf times p.2)).map fun t => stressAt co paths p.2 t := by
    apply List.ext_getElem (by simp [stressesOf, h.same])
    intro k h1 h2
    simp [stressesOf]
  refine mapM_ok_of_forall₂ (List.forall₂_iff_get.mpr ⟨by simp [stressesOf, h.same], ?_⟩)
  intro k h1 h2
  have h3 : k < times.length := by simp at h1; omega
  have h4 : k < paths.length := by simp at h1; omega
  simp only [List.get_eq_getElem, List.getElem_zip, stressesOf, List.getElem_map, List.getElem_range]
  exact key k h3 h4

theorem longest_eq {times : List (List ℝ)} {T : ℕ} (h : ∀ t ∈ times, t.length = T) (hne : times ≠ []) :
    (times.map List.length).foldr max 0 = T := by
  induction times with
  | nil => exact absurd rfl hne
  | cons a l ih =>
    rw [List.map_cons, List.foldr_cons, h a List.mem_cons_self]
    by_cases hl : l = []
    · subst hl; simp
    · rw [ih (fun t ht => h t (List.mem_cons_of_mem _ ht)) hl, max_self]

theorem longest_ge {times : List (List ℝ)} {t : List ℝ} (h : t ∈ times) :
    t.length ≤ (times.map List.length).foldr max 0 := by
  induction times with
  | nil => cases h
  | cons a l ih =>
    rw [List.map_cons, List.foldr_cons]
    rcases List.mem_cons.mp h with rfl | h
    · exact le_max_left _ _
    · exact le_trans (ih h) (le_max_right _ _)

theorem start_eq {eig : T2 3 → List ℝ} {perm : ℕ → List ℕ} {co : List Comp} {flags : SpaceFlags}
    {times : List (List ℝ)} {paths : List (List (List ℝ))} (h : GoodPaths co times paths)
    {m : ℕ} (hm : (times.map List.length).foldr max 0 = m) :
    stressSpace eig perm co flags times paths = (do
      let ts := stressesOf co times paths
      let principal ← ifRequested flags.principal (blockTable m times
        (ts.map fun l => padTo m [0, 0, 0] (l.map (principalOf eig))))
      let pairs ← ifRequested flags.piPairs ([(0, 1), (0, 2), (1, 2)].mapM fun ab : ℕ × ℕ =>
        blockTable m times ((ts.zipIdx.map fun l => padTo m [0, 0, 0]
          (l.1.map fun s => piStress (perm l.2) (principalOf eig s))).map fun l =>
            l.map fun r => [r.getD ab.1 0, r.getD ab.2 0]))
      let inv := ts.map fun l => padTo m ⟨0, 0, 0, 0, 0, 0⟩ (l.map spaceInvariants)
      let tl := (times.zip inv).map fun p =>
        padTo m (some 0, some 0) ((p.2.take p.1.length).map fun v => (triaxialityOf v, lodeOf v))
      let triax ← ifRequested flags.triaxPath (blockTable m times ((times.zip tl).map fun p =>
        timeBlock m p.1 (p.2.map Prod.fst)))
      let lode ← ifRequested flags.triaxPath (blockTable m times ((times.zip tl).map fun p =>
        timeBlock m p.1 (p.2.map Prod.snd)))
      return ⟨principal, pairs, inv.flatten, triax, lode, tl.flatten.filterMap bothNumbers⟩) := by
  subst hm
  unfold stressSpace
  rw [tensors_eq h, (raiseIf_ok (u := ())).mpr (by simp [h.six]),
    (raiseIf_ok (u := ())).mpr (by simp [h.same]), (raiseIf_ok (u := ())).mpr h.some_path,
    (raiseIf_ok (u := ())).mpr (by rintro ⟨t, h1, h2⟩; exact h.some_time t h1 h2)]
  rfl

theorem padTo_full {α : Type} (T : ℕ) (z : α) (f : ℕ → α) :
    padTo T z ((List.range T).map f) = (List.range T).map f := by
  simp [padTo]

theorem blockTable_eq {α : Type} {T : ℕ} {times : List (List ℝ)} (hT : ∀ t ∈ times, t.length = T)
    {P : ℕ} {B : ℕ → ℕ → List α} :
    blockTable T times ((List.range P).map fun k => (List.range T).map (B k))
      = .ok ((List.range T).map fun t => (List.range P).flatMap fun k => B k t) := by
  unfold blockTable
  rw [(raiseIf_ok (u := ())).mpr (by rintro ⟨t, h1, h2⟩; exact h2 (hT t h1))]
  simp only [bind, Except.bind, pure, Except.pure]
  congr 1
  refine List.map_congr_left fun t ht => ?_
  rw [List.flatMap_map]
  congr 1
  funext k
  simp [List.mem_range.mp ht]

theorem bothNumbers_metrics (s : T2 3) :
    bothNumbers ((metricsOf s).map Prod.fst, (metricsOf s).map Prod.snd) = metricsOf s := by
  cases metricsOf s <;> rfl

theorem invBlock_eq {co : List Comp} {times : List (List ℝ)} {paths : List (List (List ℝ))} {m : ℕ}
    (hm : ∀ k < times.length, stepsOf times k ≤ m) :
    ((times.zip ((stressesOf co times paths).map fun l =>
      padTo m ⟨0, 0, 0, 0, 0, 0⟩ (l.map spaceInvariants))).map fun p =>
        padTo m (some 0, some 0) ((p.2.take p.1.length).map fun v => (triaxialityOf v, lodeOf v)))
      = (List.range times.length).map fun k => padTo m (some 0, some 0)
        ((List.range (stepsOf times k)).map fun t => ((metricsOf (stressAt co paths k t)).map Prod.fst,
          (metricsOf (stressAt co paths k t)).map Prod.snd)) := by
  apply List.ext_getElem (by simp [stressesOf])
  intro k h1 h2
  have hk : k < times.length := by simpa using h2
  simp only [List.getElem_map, List.getElem_zip, List.getElem_range]
  congr 1
  have e1 : stepsOf times k = times[k].length := by simp [stepsOf, hk]
  rw [← e1]
  simp only [stressesOf, List.getElem_map, List.getElem_range, List.map_map, padTo]
  rw [List.take_append_of_le_length (by simp), List.take_of_length_le (by simp), List.map_map]
  refine List.map_congr_left fun t _ => ?_
  simp only [Function.comp_apply]
  have hs : IsSym (stressAt co paths k t) := symTensor_isSym _
  rw [triax_eq hs, lode_eq hs]

theorem points_eq {co : List Comp} {paths : List (List (List ℝ))} {P m : ℕ} {S : ℕ → ℕ} :
    (((List.range P).map fun k => padTo m (some (0 : ℝ), some (0 : ℝ))
      ((List.range (S k)).map fun t => ((metricsOf (stressAt co paths k t)).map Prod.fst,
        (metricsOf (stressAt co paths k t)).map Prod.snd))).flatten.filterMap bothNumbers)
      = (List.range P).flatMap fun k => ((List.range (S k)).filterMap fun t =>
        metricsOf (stressAt co paths k t)) ++ List.replicate (m - S k) (0, 0) := by
  rw [List.filterMap_flatten, List.map_map, List.flatMap]
  congr 1
  refine List.map_congr_left fun k _ => ?_
  simp only [Function.comp_apply, padTo, List.filterMap_append, List.filterMap_map, List.length_map,
    List.length_range]
  congr 1
  · refine List.filterMap_congr fun t _ => ?_
    exact bothNumbers_metrics _
  · exact List.filterMap_replicate_of_some (f := bothNumbers) rfl

theorem steps_le {times : List (List ℝ)} {k : ℕ} (hk : k < times.length) :
    stepsOf times k ≤ (times.map List.length).foldr max 0 := by
  have : stepsOf times k = times[k].length := by simp [stepsOf, hk]
  rw [this]
  exact longest_ge (List.getElem_mem hk)

theorem permuted_three {perm : List ℕ} {p : List ℝ} (hp : perm.Perm [0, 1, 2]) (h3 : p.length = 3) :
    ∃ a b c, [a, b, c].Perm p ∧ (perm.map fun j => p.getD j 0) = [a, b, c] := by
  obtain ⟨x, y, z, rfl⟩ := List.length_eq_three.mp h3
  have h1 : (perm.map fun j => [x, y, z].getD j 0).Perm [x, y, z] := hp.map _
  have h2 := h1.length_eq
  obtain ⟨a, b, c, h4⟩ := List.length_eq_three.mp h2
  exact ⟨a, b, c, h4 ▸ h1, h4⟩

/-- C129d: for paths of the same number of times the tables of the plots hold, for every path and time,
the principal stresses in decreasing order, the coordinates of the principal stresses in some order in
the π-plane, the invariants, and the triaxiality and normalized third invariant; the points are those
of the stresses with a deviator larger than the tolerance. -/
theorem C129_tables {eig : T2 3 → List ℝ} (heig : ∀ s, IsSym s → EigenvaluesOf s (eig s))
    {perm : ℕ → List ℕ} (hperm : ∀ k, (perm k).Perm [0, 1, 2]) {co : List Comp}
    {times : List (List ℝ)} {paths : List (List (List ℝ))} (h : GoodPaths co times paths) {T : ℕ}
    (hT : ∀ t ∈ times, t.length = T) :
    ∃ prin : ℕ → ℕ → List ℝ, (∀ k t, PrincipalOf (stressAt co paths k t) (prin k t)) ∧
    ∃ pi : ℕ → ℕ → List ℝ, (∀ k t, ∃ a b c, [a, b, c].Perm (prin k t) ∧ pi k t = piCoords a b c) ∧
    stressSpace eig perm co ⟨true, true, true⟩ times paths = .ok {
      principal := some ((List.range T).map fun t => (List.range paths.length).flatMap fun k => prin k t)
      piPairs := some ([(0, 1), (0, 2), (1, 2)].map fun ab : ℕ × ℕ => (List.range T).map fun t =>
        (List.range paths.length).flatMap fun k => [(pi k t).getD ab.1 0, (pi k t).getD ab.2 0])
      invariants := (List.range paths.length).flatMap fun k => (List.range T).map fun t =>
        spaceInvariants (stressAt co paths k t)
      triax := some ((List.range T).map fun t => (List.range paths.length).flatMap fun k =>
        [(times.getD k [])[t]?, (metricsOf (stressAt co paths k t)).map Prod.fst])
      lode := some ((List.range T).map fun t => (List.range paths.length).flatMap fun k =>
        [(times.getD k [])[t]?, (metricsOf (stressAt co paths k t)).map Prod.snd])
      points := (List.range paths.length).flatMap fun k => (List.range T).filterMap fun t =>
        metricsOf (stressAt co paths k t) } := by
  have hS : ∀ k < times.length, stepsOf times k = T := by
    intro k hk
    have : stepsOf times k = times[k].length := by simp [stepsOf, hk]
    rw [this]
    exact hT _ (List.getElem_mem hk)
  have hm := longest_eq hT h.some_path
  have hst : stressesOf co times paths = (List.range paths.length).map fun k =>
      (List.range T).map fun t => stressAt co paths k t := by
    rw [stressesOf, h.same]
    refine List.map_congr_left fun k hk => ?_
    rw [hS k (by rw [h.same]; exact List.mem_range.mp hk)]
  have hp : ∀ k t, PrincipalOf (stressAt co paths k t) (principalOf eig (stressAt co paths k t)) :=
    fun k t => principal_ok (heig _ (symTensor_isSym _))
  refine ⟨fun k t => principalOf eig (stressAt co paths k t), hp,
    fun k t => piStress (perm k) (principalOf eig (stressAt co paths k t)), ?_, ?_⟩
  · intro k t
    obtain ⟨a, b, c, h1, h2⟩ := permuted_three (hperm k) (hp k t).1.1
    exact ⟨a, b, c, h1, piStress_eq h2⟩
  rw [start_eq h hm]
  have e1 : (stressesOf co times paths).map (fun l => padTo T [0, 0, 0] (l.map (principalOf eig)))
      = (List.range paths.length).map fun k => (List.range T).map fun t =>
        principalOf eig (stressAt co paths k t) := by
    rw [hst, List.map_map]
    refine List.map_congr_left fun k _ => ?_
    simp only [Function.comp_apply, List.map_map]
    exact padTo_full _ _ _
  have e2 : ∀ ab : ℕ × ℕ, (((stressesOf co times paths).zipIdx.map fun l => padTo T [0, 0, 0]
      (l.1.map fun s => piStress (perm l.2) (principalOf eig s))).map fun l =>
        l.map fun r => [r.getD ab.1 0, r.getD ab.2 0])
      = (List.range paths.length).map fun k => (List.range T).map fun t =>
        [(piStress (perm k) (principalOf eig (stressAt co paths k t))).getD ab.1 0,
          (piStress (perm k) (principalOf eig (stressAt co paths k t))).getD ab.2 0] := by
    intro ab
    rw [hst]
    apply List.ext_getElem (by simp)
    intro k h1 h2
    simp only [List.getElem_map, List.getElem_zipIdx, List.getElem_range, zero_add]
    rw [List.map_map, show ((fun s => piStress (perm k) (principalOf eig s)) ∘ fun t => stressAt co paths k t)
      = fun t => piStress (perm k) (principalOf eig (stressAt co paths k t)) from rfl, padTo_full,
      List.map_map]
    rfl
  have e3 : (stressesOf co times paths).map (fun l =>
      padTo T (⟨0, 0, 0, 0, 0, 0⟩ : SpaceInvariants) (l.map spaceInvariants))
      = (List.range paths.length).map fun k => (List.range T).map fun t =>
        spaceInvariants (stressAt co paths k t) := by
    rw [hst, List.map_map]
    refine List.map_congr_left fun k _ => ?_
    simp only [Function.comp_apply, List.map_map]
    exact padTo_full _ _ _
  have e4 : ((times.zip ((stressesOf co times paths).map fun l =>
      padTo T (⟨0, 0, 0, 0, 0, 0⟩ : SpaceInvariants) (l.map spaceInvariants))).map fun p =>
        padTo T (some 0, some 0) ((p.2.take p.1.length).map fun v => (triaxialityOf v, lodeOf v)))
      = (List.range paths.length).map fun k => padTo T (some 0, some 0)
        ((List.range T).map fun t => ((metricsOf (stressAt co paths k t)).map Prod.fst,
          (metricsOf (stressAt co paths k t)).map Prod.snd)) := by
    rw [invBlock_eq fun k hk => (hS k hk).le, h.same]
    refine List.map_congr_left fun k hk => ?_
    rw [hS k (by rw [h.same]; exact List.mem_range.mp hk)]
  have e5 : ∀ g : Option ℝ × Option ℝ → Option ℝ, ((times.zip ((List.range paths.length).map fun k =>
      padTo T (some 0, some 0) ((List.range T).map fun t =>
        ((metricsOf (stressAt co paths k t)).map Prod.fst,
          (metricsOf (stressAt co paths k t)).map Prod.snd)))).map fun p =>
        timeBlock T p.1 (p.2.map g))
      = (List.range paths.length).map fun k => (List.range T).map fun t =>
        [(times.getD k [])[t]?, g ((metricsOf (stressAt co paths k t)).map Prod.fst,
          (metricsOf (stressAt co paths k t)).map Prod.snd)] := by
    intro g
    apply List.ext_getElem (by simp [h.same])
    intro k h1 h2
    have hk : k < times.length := by rw [h.same]; simpa using h2
    simp only [List.getElem_map, List.getElem_zip, List.getElem_range, timeBlock, padTo_full, List.map_map]
    refine List.map_congr_left fun t ht => ?_
    simp [hk, List.mem_range.mp ht]
  rw [e3] at e4
  simp only [e1, e3, e4, e5, e2, blockTable_eq hT, ifRequested, if_true, Except.map]
  rw [mapM_of_forall (g := fun ab : ℕ × ℕ => (List.range T).map fun t =>
        (List.range paths.length).flatMap fun k =>
          [(piStress (perm k) (principalOf eig (stressAt co paths k t))).getD ab.1 0,
          (piStress (perm k) (principalOf eig (stressAt co paths k t))).getD ab.2 0])
    fun ab _ => rfl]
  simp only [bind, Except.bind, pure, Except.pure, points_eq]
  simp [List.flatMap]

end Hooke
