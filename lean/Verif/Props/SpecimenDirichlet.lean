import Verif.Model.SpecimenDirichlet
import Verif.Spec.SpecimenDirichlet
import Verif.Props.NumberFormatCases

/-!
# C114: the boundary conditions of specimens
-/

namespace Hooke

open Spec

/-! ## Conditions of a node -/

theorem firstCase_cons {α : Type} (default : α) (b : Bool) (a : α) (cs : List (Py Bool × α)) :
    firstCase default ((.ok b, a) :: cs) = if b then .ok a else firstCase default cs := rfl

/-- **C114 (node).** The prescribed directions of a node are those normal to the planes it is on, and its
displacement is that of the top if it is on the top (and not on the base), zero otherwise. -/
theorem C114_node {name : String} (hn : name ∈ specimenNames) (top disp x y z : ℝ) :
    specimenNode name top disp [x, y, z] = .ok (specimenCode top x y z, specimenDisps top disp y) := by
  unfold specimenNode
  rw [show raiseIf (name ∉ specimenNames) PyErr.runtimeError = .ok () from
    (raiseIf_ok (u := ())).mpr (by simp [hn])]
  have e1 : ∀ i v w, [x, y, z][i]? = some w → isNear [x, y, z] i v = .ok (nearZero (w - v)) := by
    intro i v w h
    unfold isNear coordAt
    rw [h]
    rfl
  have a1 : allNear [x, y, z] [0, 1] = .ok (nearZero x && nearZero y) := by
    simp [allNear, coordAt, orRaise, bind, Except.bind, pure, Except.pure]
  have a2 : allNear [x, y, z] [1, 2] = .ok (nearZero y && nearZero z) := by
    simp [allNear, coordAt, orRaise, bind, Except.bind, pure, Except.pure]
  have a3 : allNear [x, y, z] [0, 2] = .ok (nearZero x && nearZero z) := by
    simp [allNear, coordAt, orRaise, bind, Except.bind, pure, Except.pure]
  have an : ∀ a b : Bool, andThen (.ok a) (.ok b) = .ok (a && b) := by
    intro a b
    cases a <;> rfl
  rw [e1 0 0 x rfl, e1 1 top y rfl, e1 2 0 z rfl, e1 1 0 y rfl, a1, a2, a3]
  simp only [an, sub_zero]
  have hal : [x, y, z].all nearZero = (nearZero x && (nearZero y && nearZero z)) := by simp
  rw [hal]
  simp only [bind, Except.bind, pure, Except.pure, firstCase_cons]
  unfold specimenCode specimenDisps OnPlane
  simp only [sub_zero]
  have hx : nearZero x = decide (|x| < 1e-8) := rfl
  have hy : nearZero y = decide (|y| < 1e-8) := rfl
  have hz : nearZero z = decide (|z| < 1e-8) := rfl
  have ht : nearZero (y - top) = decide (|y - top| < 1e-8) := rfl
  rw [hx, hy, hz, ht]
  by_cases h1 : |x| < 1e-8 <;> by_cases h2 : |y| < 1e-8 <;> by_cases h3 : |z| < 1e-8 <;>
    by_cases h4 : |y - top| < 1e-8 <;> simp [h1, h2, h3, h4, nodeDisps, firstCase, pure, Except.pure]

/-- **C114 (unknown specimen).** -/
theorem C114_reject {name : String} (hn : name ∉ specimenNames) (top disp : ℝ) (coords : List ℝ) :
    specimenNode name top disp coords = .error .runtimeError := by
  unfold specimenNode raiseIf
  rw [if_pos hn]
  rfl

/-! ## Conditions of the mesh -/

/-- The row of a node, if it has prescribed directions. -/
noncomputable def dbcRowOf (top disp : ℝ) (p : List ℝ × ℕ) : List DbcRow :=
  match p.1 with
  | [x, y, z] =>
    if specimenCode top x y z = [0, 0, 0] then []
    else [⟨p.2 + 1, specimenCode top x y z, specimenDisps top disp y⟩]
  | _ => []

theorem code_all_zero (top x y z : ℝ) :
    ((specimenCode top x y z).all fun c => decide (c = 0)) = decide (specimenCode top x y z = [0, 0, 0]) := by
  unfold specimenCode
  split_ifs <;> decide

theorem dbcStep_eq {name : String} (hn : name ∈ specimenNames) (top disp : ℝ) (rows : List DbcRow)
    {p : List ℝ × ℕ} (hp : p.1.length = 3) :
    dbcStep name top disp rows p = .ok (rows ++ dbcRowOf top disp p) := by
  obtain ⟨r, n⟩ := p
  obtain ⟨x, y, z, rfl⟩ := List.length_eq_three.mp hp
  unfold dbcStep dbcRowOf
  dsimp only
  rw [C114_node hn]
  simp only [bind, Except.bind]
  rw [code_all_zero]
  by_cases h : specimenCode top x y z = [0, 0, 0]
  · simp [h, pure, Except.pure]
  · simp [h, pure, Except.pure]

theorem dbc_fold {name : String} (hn : name ∈ specimenNames) (top disp : ℝ)
    (ps : List (List ℝ × ℕ)) (hp : ∀ p ∈ ps, p.1.length = 3) (rows : List DbcRow) :
    ps.foldlM (dbcStep name top disp) rows = .ok (rows ++ ps.flatMap (dbcRowOf top disp)) := by
  induction ps generalizing rows with
  | nil => simp [pure, Except.pure]
  | cons p ps ih =>
    rw [List.foldlM_cons, dbcStep_eq hn top disp rows (hp p (by simp))]
    simp only [bind, Except.bind]
    rw [ih fun q hq => hp q (by simp [hq])]
    simp

theorem mem_dbcRowOf {top disp : ℝ} {p : List ℝ × ℕ} {r : DbcRow} (hp : p.1.length = 3) :
    r ∈ dbcRowOf top disp p ↔ ∃ x y z, p.1 = [x, y, z] ∧ specimenCode top x y z ≠ [0, 0, 0] ∧
      r = ⟨p.2 + 1, specimenCode top x y z, specimenDisps top disp y⟩ := by
  obtain ⟨c, n⟩ := p
  obtain ⟨x, y, z, rfl⟩ := List.length_eq_three.mp hp
  unfold dbcRowOf
  dsimp only
  constructor
  · intro h
    by_cases h0 : specimenCode top x y z = [0, 0, 0]
    · rw [if_pos h0] at h
      cases h
    · rw [if_neg h0] at h
      exact ⟨x, y, z, rfl, h0, List.mem_singleton.mp h⟩
  · rintro ⟨x', y', z', he, h0, rfl⟩
    cases he
    rw [if_neg h0]
    simp

theorem dbcRows_labels (top disp : ℝ) (coords : List (List ℝ)) (h3 : ∀ r ∈ coords, r.length = 3)
    (k : ℕ) :
    ((coords.zipIdx k).flatMap (dbcRowOf top disp)).Pairwise (fun a b => a.label < b.label) ∧
      ∀ r ∈ (coords.zipIdx k).flatMap (dbcRowOf top disp), k < r.label := by
  induction coords generalizing k with
  | nil => simp
  | cons c cs ih =>
    obtain ⟨i1, i2⟩ := ih (fun r hr => h3 r (by simp [hr])) (k + 1)
    rw [List.zipIdx_cons, List.flatMap_cons]
    have hc : ∀ r ∈ dbcRowOf top disp (c, k), r.label = k + 1 := by
      intro r hr
      obtain ⟨x, y, z, -, -, rfl⟩ := (mem_dbcRowOf (h3 c (by simp))).mp hr
      rfl
    refine ⟨?_, ?_⟩
    · rw [List.pairwise_append]
      refine ⟨?_, i1, ?_⟩
      · obtain ⟨x, y, z, rfl⟩ := List.length_eq_three.mp (h3 c (by simp))
        unfold dbcRowOf
        dsimp only
        split_ifs <;> simp
      · intro a ha b hb
        rw [hc a ha]
        exact i2 b hb
    · intro r hr
      rcases List.mem_append.mp hr with hr | hr
      · rw [hc r hr]
        omega
      · have := i2 r hr
        omega

/-- **C114 (mesh).** The conditions of a mesh are those of its nodes on the planes of the specimen, each
node once, in the order of the nodes. -/
theorem C114_conditions {name : String} (hn : name ∈ specimenNames) (top disp : ℝ)
    {coords : List (List ℝ)} (h3 : ∀ r ∈ coords, r.length = 3) :
    ∃ rows, buildDbc name top disp coords = .ok rows ∧
      rows.Pairwise (fun a b => a.label < b.label) ∧
      ∀ r, r ∈ rows ↔ ∃ i x y z, coords[i]? = some [x, y, z] ∧ specimenCode top x y z ≠ [0, 0, 0] ∧
        r = ⟨i + 1, specimenCode top x y z, specimenDisps top disp y⟩ := by
  have hz : ∀ p ∈ coords.zipIdx, p.1.length = 3 := by
    rintro ⟨c, k⟩ hp
    have := List.mem_zipIdx hp
    exact h3 _ (by
      have h' := this.2.2
      simp only [Nat.sub_zero] at h'
      rw [h']
      exact List.getElem_mem _)
  refine ⟨_, by
    unfold buildDbc
    rw [dbc_fold hn top disp _ hz, List.nil_append], (dbcRows_labels top disp coords h3 0).1, ?_⟩
  intro r
  rw [List.mem_flatMap]
  constructor
  · rintro ⟨⟨c, i⟩, hp, hr⟩
    obtain ⟨x, y, z, hc, h0, rfl⟩ := (mem_dbcRowOf (hz _ hp)).mp hr
    dsimp only at hc
    subst hc
    exact ⟨i, x, y, z, by simpa using (List.mk_mem_zipIdx_iff_getElem?.mp hp), h0, rfl⟩
  · rintro ⟨i, x, y, z, hc, h0, rfl⟩
    have hp : ([x, y, z], i) ∈ coords.zipIdx := List.mk_mem_zipIdx_iff_getElem?.mpr hc
    exact ⟨_, hp, (mem_dbcRowOf (hz _ hp)).mpr ⟨x, y, z, rfl, h0, rfl⟩⟩

/-- A mesh of four nodes of a specimen of height 2: the base on both symmetry planes, the top on both, a
node on the top only and a node in the interior. -/
example : ∃ rows, buildDbc "3d_tensile_dogbone" 2 1 [[0, 0, 0], [0, 2, 0], [1, 2, 3], [1, 1, 1]]
      = .ok rows ∧ (⟨2, [1, 1, 1], [0, 1, 0]⟩ : DbcRow) ∈ rows ∧
      (⟨3, [0, 1, 0], [0, 1, 0]⟩ : DbcRow) ∈ rows ∧ ∀ r ∈ rows, r.label ≠ 4 := by
  obtain ⟨rows, h, -, hm⟩ := C114_conditions (name := "3d_tensile_dogbone") (by decide) 2 1
    (coords := [[0, 0, 0], [0, 2, 0], [1, 2, 3], [1, 1, 1]]) (by simp)
  refine ⟨rows, h, (hm _).mpr ⟨1, 0, 2, 0, rfl, ?_, ?_⟩, (hm _).mpr ⟨2, 1, 2, 3, rfl, ?_, ?_⟩, ?_⟩
  · norm_num [specimenCode, OnPlane]
  · norm_num [specimenCode, specimenDisps, OnPlane]
  · norm_num [specimenCode, OnPlane]
  · norm_num [specimenCode, specimenDisps, OnPlane]
  · intro r hr h4
    obtain ⟨i, x, y, z, hc, h0, rfl⟩ := (hm r).mp hr
    have hi : i = 3 := by simpa using h4
    subst hi
    simp only [List.getElem?_cons_succ, List.getElem?_cons_zero, Option.some.injEq, List.cons.injEq,
      and_true] at hc
    obtain ⟨rfl, rfl, rfl⟩ := hc
    refine h0 ?_
    norm_num [specimenCode, OnPlane]

end Hooke
