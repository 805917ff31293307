import Verif.Spec.PatchQueries
import Verif.Props.StructuredMesh
import Verif.Lemmas.Py
import Mathlib.Tactic.FieldSimp
import Mathlib.Tactic.LinearCombination

/-!
# C123: connected nodes, edges of a patch and rotations of plane vectors
-/

noncomputable section

open Classical

namespace Hooke

open Spec

/-! ### Connected nodes -/

theorem mem_connected {n0 n1 : ℕ} {matrix : List ℕ → ℕ} {l : List (ℕ × ℕ)}
    (h : connectedNodes 2 [n0, n1] matrix = .ok l) (p q : ℕ) :
    (p, q) ∈ l ↔ p ≠ 0 ∧ q ≠ 0 ∧ ∃ a b, OnGrid [n0, n1] a ∧ OnGrid [n0, n1] b ∧ Follows a b ∧
      matrix a = p ∧ matrix b = q := by
  have hg : ∀ i j : ℕ, OnGrid [n0, n1] [i, j] ↔ i < n0 ∧ j < n1 := by
    intro i j
    simp [OnGrid]
  have hp : ∀ a b : List ℕ, nodePair matrix a b = some (p, q) ↔
      p ≠ 0 ∧ q ≠ 0 ∧ matrix a = p ∧ matrix b = q := by
    intro a b
    unfold nodePair
    split
    · rename_i h
      simp only [Option.some.injEq, Prod.mk.injEq]
      constructor
      · rintro ⟨rfl, rfl⟩
        exact ⟨h.1, h.2, rfl, rfl⟩
      · rintro ⟨_, _, h1, h2⟩
        exact ⟨h1, h2⟩
    · rename_i h
      simp only [reduceCtorEq, false_iff]
      rintro ⟨h1, h2, rfl, rfl⟩
      exact h ⟨h1, h2⟩
  unfold connectedNodes at h
  rw [if_pos rfl] at h
  cases h
  simp only [List.mem_append, List.mem_flatMap, List.mem_filterMap, List.mem_range, hp]
  constructor
  · rintro (⟨j, hj, i, hi, h1, h2, h3, h4⟩ | ⟨i, hi, j, hj, h1, h2, h3, h4⟩)
    · exact ⟨h1, h2, _, _, (hg i j).mpr ⟨by omega, hj⟩, (hg (i + 1) j).mpr ⟨by omega, hj⟩,
        ⟨i, j, rfl, .inl rfl⟩, h3, h4⟩
    · exact ⟨h1, h2, _, _, (hg i j).mpr ⟨hi, by omega⟩, (hg i (j + 1)).mpr ⟨hi, by omega⟩,
        ⟨i, j, rfl, .inr rfl⟩, h3, h4⟩
  · rintro ⟨h1, h2, a, b, ha, hb, ⟨i, j, rfl, rfl | rfl⟩, h3, h4⟩
    · obtain ⟨hi, hj⟩ := (hg _ _).mp hb
      exact .inl ⟨j, hj, i, by omega, h1, h2, h3, h4⟩
    · obtain ⟨hi, hj⟩ := (hg _ _).mp hb
      exact .inr ⟨i, hi, j, by omega, h1, h2, h3, h4⟩

theorem connected_nodup {n0 n1 : ℕ} {matrix : List ℕ → ℕ} {l : List (ℕ × ℕ)}
    (hinj : ∀ a b, matrix a ≠ 0 → matrix a = matrix b → a = b)
    (h : connectedNodes 2 [n0, n1] matrix = .ok l) : l.Nodup := by
  have hp : ∀ a b p, nodePair matrix a b = some p → ∀ a' b', nodePair matrix a' b' = some p →
      a = a' ∧ b = b' := by
    intro a b p h1 a' b' h2
    unfold nodePair at h1 h2
    split at h1
    · rename_i hn
      split at h2
      · cases h1
        simp only [Option.some.injEq, Prod.mk.injEq] at h2
        exact ⟨hinj _ _ hn.1 h2.1.symm, hinj _ _ hn.2 h2.2.symm⟩
      · cases h2
    · cases h1
  unfold connectedNodes at h
  rw [if_pos rfl] at h
  cases h
  have hfm : ∀ (n : ℕ) (f g : ℕ → List ℕ), (∀ i i', f i = f i' → i = i') →
      ((List.range n).filterMap fun i => nodePair matrix (f i) (g i)).Nodup := by
    intro n f g hf
    refine List.Nodup.filterMap ?_ List.nodup_range
    intro i i' p h1 h2
    exact hf _ _ (hp _ _ _ h1 _ _ h2).1
  rw [List.nodup_append]
  refine ⟨?_, ?_, ?_⟩
  · rw [List.nodup_flatMap]
    refine ⟨fun j _ => hfm _ _ _ (fun i i' h => by simpa using h), ?_⟩
    refine List.Pairwise.imp ?_ List.nodup_range
    intro j j' hj
    simp only [Function.onFun, List.disjoint_left, List.mem_filterMap]
    rintro p ⟨i, _, h1⟩ ⟨i', _, h2⟩
    have := (hp _ _ _ h1 _ _ h2).1
    simp only [List.cons.injEq, and_true] at this
    exact hj this.2
  · rw [List.nodup_flatMap]
    refine ⟨fun j _ => hfm _ _ _ (fun i i' h => by simpa using h), ?_⟩
    refine List.Pairwise.imp ?_ List.nodup_range
    intro j j' hj
    simp only [Function.onFun, List.disjoint_left, List.mem_filterMap]
    rintro p ⟨i, _, h1⟩ ⟨i', _, h2⟩
    have := (hp _ _ _ h1 _ _ h2).1
    simp only [List.cons.injEq, and_true] at this
    exact hj this.1
  · intro p h1 p' h2 heq
    subst heq
    simp only [List.mem_flatMap, List.mem_filterMap] at h1 h2
    obtain ⟨j, _, i, _, h1⟩ := h1
    obtain ⟨i', _, j', _, h2⟩ := h2
    obtain ⟨ha, hb⟩ := hp _ _ _ h1 _ _ h2
    simp only [List.cons.injEq, and_true] at ha hb
    omega

/-- **C123, connected nodes.** For every plane mesh that the patch generator builds, the connected nodes
are exactly the pairs of nodes at successive positions of the grid, along the first or the second
dimension, each pair once and with the smaller label first.  For patches in three dimensions they are not
available (`RuntimeError`). -/
theorem C123_connected {fl : ℝ → ℝ} (hfl : IsRounding fl) {elem : String} {isEdge : Bool} {e : ℕ}
    (hk : (elem, isEdge, 2, e) ∈ feKinds) {dims : List ℝ} {nElems : List ℕ} (hd : nElems.length = 2)
    (hn : ∀ n ∈ nElems, 1 ≤ n ∧ n * (e - 1) ≤ 2 ^ 50) {m : StructMesh} {ns : List ℕ}
    (h : generateMesh fl 2 dims elem nElems = .ok (m, ns)) :
    ∃ l, connectedNodes 2 ns m.matrix = .ok l ∧ l.Nodup ∧
      (∀ p q, (p, q) ∈ l ↔ p ≠ 0 ∧ q ≠ 0 ∧ ∃ a b, Follows a b ∧ m.matrix a = p ∧ m.matrix b = q) ∧
      ∀ p q, (p, q) ∈ l → p < q := by
  obtain ⟨m', h', h1, -, -, -, h5⟩ := C95_mesh hfl hk (dims := dims) hd hn
  have hinj := fun a b h0 heq => C95_injective hfl hk (dims := dims) hd hn h (idx := a) (idx' := b) h0 heq
  rw [h] at h'
  cases h'
  obtain ⟨x, y, rfl⟩ := List.length_eq_two.mp hd
  have hgs : gridSize e [x, y] = [x * (e - 1) + 1, y * (e - 1) + 1] := rfl
  rw [hgs] at h1 ⊢
  obtain ⟨l, hok⟩ : ∃ l, connectedNodes 2 [x * (e - 1) + 1, y * (e - 1) + 1] m.matrix = .ok l :=
    ⟨_, rfl⟩
  have hmem : ∀ p q, (p, q) ∈ l ↔ p ≠ 0 ∧ q ≠ 0 ∧ ∃ a b, Follows a b ∧ m.matrix a = p ∧
      m.matrix b = q := by
    intro p q
    rw [mem_connected hok]
    constructor
    · rintro ⟨hp, hq, a, b, _, _, hf, ha, hb⟩
      exact ⟨hp, hq, a, b, hf, ha, hb⟩
    · rintro ⟨hp, hq, a, b, hf, ha, hb⟩
      exact ⟨hp, hq, a, b, ((h1 a).mp (ha ▸ hp)).1, ((h1 b).mp (hb ▸ hq)).1, hf, ha, hb⟩
  refine ⟨_, hok, connected_nodup hinj hok, hmem, ?_⟩
  intro p q hpq
  obtain ⟨hp, hq, a, b, ⟨i, j, rfl, hb⟩, rfl, rfl⟩ := (hmem p q).mp hpq
  refine (h5 _ _ hp hq).mpr ?_
  rcases hb with rfl | rfl
  · exact Or.inr ⟨rfl, by omega⟩
  · exact Or.inl (Or.inr ⟨rfl, by omega⟩)

/-- Other dimensions. -/
theorem C123_connected_dim (nDim : ℕ) (ns : List ℕ) (matrix : List ℕ → ℕ) (h : nDim ≠ 2) :
    connectedNodes nDim ns matrix = .error .runtimeError := by
  unfold connectedNodes
  rw [if_neg h]

/-- The connected nodes of a quadrilateral with four nodes. -/
example : connectedNodes 2 [2, 2] (fun idx => if idx = [0, 0] then 1 else if idx = [1, 0] then 2
    else if idx = [0, 1] then 3 else if idx = [1, 1] then 4 else 0)
    = .ok [(1, 2), (3, 4), (1, 3), (2, 4)] := by
  simp [connectedNodes, nodePair, List.range_succ]

/-! ### Edges -/

theorem mem_ends {n i : ℕ} (hn : 0 < n) : i ∈ endIndices n ↔ i = 0 ∨ i + 1 = n := by
  unfold endIndices
  simp only [List.mem_cons, List.not_mem_nil, or_false]
  omega

/-- **C123, edges in the plane.** In two dimensions the edge nodes of a generated patch are the nodes on
its boundary. -/
theorem C123_edges_plane {fl : ℝ → ℝ} (hfl : IsRounding fl) {elem : String} {isEdge : Bool} {e : ℕ}
    (hk : (elem, isEdge, 2, e) ∈ feKinds) {dims : List ℝ} {nElems : List ℕ} (hd : nElems.length = 2)
    (hn : ∀ n ∈ nElems, 1 ≤ n ∧ n * (e - 1) ≤ 2 ^ 50) {m : StructMesh} {ns : List ℕ}
    (h : generateMesh fl 2 dims elem nElems = .ok (m, ns)) (k : ℕ) :
    k ∈ edgeLabels 2 ns m.matrix ↔ k ≠ 0 ∧ ∃ idx, m.matrix idx = k ∧ OnBoundary ns idx := by
  rw [← C95_boundary hfl hk hd hn h k]
  obtain ⟨m', h', -⟩ := C95_mesh hfl hk (dims := dims) hd hn
  rw [h] at h'
  cases h'
  obtain ⟨x, y, rfl⟩ := List.length_eq_two.mp hd
  unfold edgeLabels boundaryLabels
  rw [if_pos rfl, if_pos rfl]
  simp only [gridSize, List.map_cons, List.map_nil, List.mem_append, List.mem_flatMap, List.mem_map,
    List.mem_range, List.mem_filter, List.any_eq_true, decide_eq_true_eq, mem_gridIndices, OnGrid,
    mem_ends (Nat.succ_pos _)]
  constructor
  · rintro (⟨j, hj, i, hi, rfl⟩ | ⟨i, hi, j, hj, rfl⟩)
    · refine ⟨[i, j], ⟨?_, (j, y * (e - 1) + 1), by simp, hj⟩, rfl⟩
      exact .cons hi (.cons (by omega) .nil)
    · refine ⟨[i, j], ⟨?_, (i, x * (e - 1) + 1), by simp, hi⟩, rfl⟩
      exact .cons (by omega) (.cons hj .nil)
  · rintro ⟨idx, ⟨hg, a, ha, hab⟩, rfl⟩
    cases hg with
    | @cons i _ r _ hi hr =>
      cases hr with
      | @cons j _ r' _ hj hr' =>
        cases hr'
        simp only [List.zip_cons_cons, List.zip_nil_left, List.mem_cons, List.not_mem_nil,
          or_false] at ha
        rcases ha with rfl | rfl
        · exact .inr ⟨i, hab, j, hj, rfl⟩
        · exact .inl ⟨j, hab, i, hi, rfl⟩

/-- **C123, edges in space.** In three dimensions the edge nodes of a generated patch are the nodes with
at least two coordinates at an end of their dimension. -/
theorem C123_edges_space {fl : ℝ → ℝ} (hfl : IsRounding fl) {elem : String} {isEdge : Bool} {e : ℕ}
    (hk : (elem, isEdge, 3, e) ∈ feKinds) {dims : List ℝ} {nElems : List ℕ} (hd : nElems.length = 3)
    (hn : ∀ n ∈ nElems, 1 ≤ n ∧ n * (e - 1) ≤ 2 ^ 50) {m : StructMesh} {ns : List ℕ}
    (h : generateMesh fl 3 dims elem nElems = .ok (m, ns)) (k : ℕ) :
    k ∈ edgeLabels 3 ns m.matrix ↔ k ≠ 0 ∧ ∃ idx, m.matrix idx = k ∧ OnGridEdge ns idx := by
  obtain ⟨m', h', h1, -⟩ := C95_mesh hfl hk (dims := dims) hd hn
  rw [h] at h'
  cases h'
  obtain ⟨x, y, z, rfl⟩ := List.length_eq_three.mp hd
  have hgs : gridSize e [x, y, z] = [x * (e - 1) + 1, y * (e - 1) + 1, z * (e - 1) + 1] := rfl
  rw [hgs] at h1 ⊢
  have hgrid : ∀ i j l : ℕ, OnGrid [x * (e - 1) + 1, y * (e - 1) + 1, z * (e - 1) + 1] [i, j, l] ↔
      i < x * (e - 1) + 1 ∧ j < y * (e - 1) + 1 ∧ l < z * (e - 1) + 1 := by
    intro i j l
    simp [OnGrid]
  have hend : ∀ n i : ℕ, (i = 0 ∨ i + 1 = n * (e - 1) + 1) → (e - 1) ∣ i := by
    rintro n i (rfl | h)
    · exact dvd_zero _
    · exact ⟨n, by rw [Nat.mul_comm]; omega⟩
  have hedge : ∀ i j l : ℕ, OnGridEdge [x * (e - 1) + 1, y * (e - 1) + 1, z * (e - 1) + 1] [i, j, l] ↔
      ((j = 0 ∨ j + 1 = y * (e - 1) + 1) ∧ (l = 0 ∨ l + 1 = z * (e - 1) + 1)) ∨
      ((i = 0 ∨ i + 1 = x * (e - 1) + 1) ∧ (l = 0 ∨ l + 1 = z * (e - 1) + 1)) ∨
      ((i = 0 ∨ i + 1 = x * (e - 1) + 1) ∧ (j = 0 ∨ j + 1 = y * (e - 1) + 1)) := by
    intro i j l
    unfold OnGridEdge
    simp only [List.zip_cons_cons, List.zip_nil_left, List.filter_cons, List.filter_nil,
      decide_eq_true_eq]
    by_cases c1 : i = 0 ∨ i + 1 = x * (e - 1) + 1 <;> by_cases c2 : j = 0 ∨ j + 1 = y * (e - 1) + 1 <;>
      by_cases c3 : l = 0 ∨ l + 1 = z * (e - 1) + 1 <;>
      simp only [c1, c2, c3, if_true, if_false, List.length_cons, List.length_nil, and_true,
        and_false, or_true, or_false] <;> norm_num
  -- a position on an edge of the grid has a node
  have hnode : ∀ i j l : ℕ, OnGrid [x * (e - 1) + 1, y * (e - 1) + 1, z * (e - 1) + 1] [i, j, l] →
      OnGridEdge [x * (e - 1) + 1, y * (e - 1) + 1, z * (e - 1) + 1] [i, j, l] →
      m.matrix [i, j, l] ≠ 0 := by
    intro i j l hg he
    refine (h1 _).mpr ⟨hg, fun _ => ?_⟩
    rcases (hedge i j l).mp he with ⟨c1, c2⟩ | ⟨c1, c2⟩ | ⟨c1, c2⟩
    · have d1 := hend _ _ c1
      have d2 := hend _ _ c2
      simp only [List.filter_cons, List.filter_nil, d1, d2]
      split_ifs <;> simp_all
    · have d1 := hend _ _ c1
      have d2 := hend _ _ c2
      simp only [List.filter_cons, List.filter_nil, d1, d2]
      split_ifs <;> simp_all
    · have d1 := hend _ _ c1
      have d2 := hend _ _ c2
      simp only [List.filter_cons, List.filter_nil, d1, d2]
      split_ifs <;> simp_all
  unfold edgeLabels
  rw [if_neg (by norm_num)]
  simp only [List.mem_append, List.mem_flatMap, List.mem_map, List.mem_range,
    mem_ends (Nat.succ_pos _)]
  constructor
  · rintro ((⟨j, hj, l, hl, i, hi, rfl⟩ | ⟨i, hi, l, hl, j, hj, rfl⟩) | ⟨i, hi, j, hj, l, hl, rfl⟩)
    · have he := (hedge i j l).mpr (.inl ⟨hj, hl⟩)
      exact ⟨hnode _ _ _ ((hgrid _ _ _).mpr ⟨hi, by omega, by omega⟩) he, _, rfl, he⟩
    · have he := (hedge i j l).mpr (.inr (.inl ⟨hi, hl⟩))
      exact ⟨hnode _ _ _ ((hgrid _ _ _).mpr ⟨by omega, hj, by omega⟩) he, _, rfl, he⟩
    · have he := (hedge i j l).mpr (.inr (.inr ⟨hi, hj⟩))
      exact ⟨hnode _ _ _ ((hgrid _ _ _).mpr ⟨by omega, by omega, hl⟩) he, _, rfl, he⟩
  · rintro ⟨h0, idx, rfl, he⟩
    have hg := ((h1 idx).mp h0).1
    obtain ⟨i, j, l, rfl⟩ := List.length_eq_three.mp (by simpa using hg.length_eq)
    obtain ⟨hi, hj, hl⟩ := (hgrid _ _ _).mp hg
    rcases (hedge i j l).mp he with ⟨c1, c2⟩ | ⟨c1, c2⟩ | ⟨c1, c2⟩
    · exact .inl (.inl ⟨j, c1, l, c2, i, hi, rfl⟩)
    · exact .inl (.inr ⟨i, c1, l, c2, j, hj, rfl⟩)
    · exact .inr ⟨i, c1, j, c2, l, hl, rfl⟩

/-! ### Rotations -/

theorem planeNorm_sq (x y : ℝ) : planeNorm x y ^ 2 = x ^ 2 + y ^ 2 :=
  Real.sq_sqrt (by positivity)

theorem planeNorm_pos {x y : ℝ} (h : ¬ (x = 0 ∧ y = 0)) : 0 < planeNorm x y := by
  unfold planeNorm
  apply Real.sqrt_pos.mpr
  by_cases hx : x = 0
  · have hy : y ≠ 0 := fun hy => h ⟨hx, hy⟩
    positivity
  · positivity

theorem turn_norm (a b c d : ℝ) :
    ‖(⟨a * c + b * d, a * d - b * c⟩ : ℂ)‖ = planeNorm a b * planeNorm c d := by
  rw [Complex.norm_def, Complex.normSq_mk]
  unfold planeNorm
  rw [← Real.sqrt_mul (by positivity)]
  congr 1
  ring

/-- **C123, rotation angle.** For plane vectors other than zero the angle is the one in `(-180, 180]` by
which the first vector is rotated counterclockwise to the direction of the second one. -/
theorem C123_angle (a b c d : ℝ) (h1 : ¬ (a = 0 ∧ b = 0)) (h2 : ¬ (c = 0 ∧ d = 0)) :
    ∃ t, rotationAngle [a, b] [c, d] = .ok t ∧ -180 < t ∧ t ≤ 180 ∧
      planeNorm a b * c = planeNorm c d * (rotated t a b).1 ∧
      planeNorm a b * d = planeNorm c d * (rotated t a b).2 := by
  have hpi := Real.pi_pos
  have habs := turn_norm a b c d
  have hn1 := planeNorm_pos h1
  have hn2 := planeNorm_pos h2
  have hs1 := planeNorm_sq a b
  set w : ℂ := ⟨a * c + b * d, a * d - b * c⟩ with hw
  have hw0 : w ≠ 0 := by
    rw [← norm_pos_iff, habs]
    positivity
  refine ⟨Complex.arg w * (180 / Real.pi), rfl, ?_, ?_, ?_, ?_⟩
  · have := Complex.neg_pi_lt_arg w
    rw [← mul_div_assoc, lt_div_iff₀ hpi]
    nlinarith
  · have := Complex.arg_le_pi w
    rw [← mul_div_assoc, div_le_iff₀ hpi]
    nlinarith
  all_goals
    have ht : Complex.arg w * (180 / Real.pi) * (Real.pi / 180) = Complex.arg w := by
      field_simp
    unfold rotated
    simp only [ht, Complex.cos_arg hw0, Complex.sin_arg, habs]
    simp only [hw]
    field_simp
    first
      | linear_combination c * hs1
      | linear_combination d * hs1

theorem rotation_unique {a b r t : ℝ} (h1 : ¬ (a = 0 ∧ b = 0)) (hr : 0 < r) (ht : -180 < t)
    (ht' : t ≤ 180) :
    rotationAngle [a, b] [r * (rotated t a b).1, r * (rotated t a b).2] = .ok t := by
  have hpi := Real.pi_pos
  have hn := planeNorm_pos h1
  have hs := planeNorm_sq a b
  unfold rotationAngle arctan2
  simp only [rotated]
  set u := t * (Real.pi / 180) with hu
  have hmem : u ∈ Set.Ioc (-Real.pi) Real.pi := by
    constructor
    · rw [hu]; nlinarith
    · rw [hu]; nlinarith
  have hw : (⟨a * (r * (Real.cos u * a - Real.sin u * b)) + b * (r * (Real.sin u * a + Real.cos u * b)),
      a * (r * (Real.sin u * a + Real.cos u * b)) - b * (r * (Real.cos u * a - Real.sin u * b))⟩ : ℂ)
      = ((r * planeNorm a b ^ 2 : ℝ) : ℂ) * (Complex.cos u + Complex.sin u * Complex.I) := by
    apply Complex.ext
    · simp only [Complex.mul_re, Complex.add_re, Complex.ofReal_re, Complex.ofReal_im,
        Complex.mul_im, Complex.add_im, Complex.I_re, Complex.I_im, ← Complex.ofReal_cos,
        ← Complex.ofReal_sin]
      rw [hs]
      ring
    · simp only [Complex.mul_re, Complex.add_re, Complex.ofReal_re, Complex.ofReal_im,
        Complex.mul_im, Complex.add_im, Complex.I_re, Complex.I_im, ← Complex.ofReal_cos,
        ← Complex.ofReal_sin]
      rw [hs]
      ring
  rw [hw, Complex.arg_mul_cos_add_sin_mul_I (by positivity) hmem, hu]
  congr 1
  field_simp

/-- **C123, rotation angle, recovered.** A vector that is rotated by an angle in `(-180, 180]` and scaled
by a positive factor gives this angle, a vanishing vector gives the angle 0, and vectors without two
components are refused. -/
theorem C123_recovered :
    (∀ a b r t : ℝ, ¬ (a = 0 ∧ b = 0) → 0 < r → -180 < t → t ≤ 180 →
      rotationAngle [a, b] [r * (rotated t a b).1, r * (rotated t a b).2] = .ok t) ∧
    (∀ c d : ℝ, rotationAngle [0, 0] [c, d] = .ok 0 ∧ rotationAngle [c, d] [0, 0] = .ok 0) ∧
    ∀ x1 x2 : List ℝ, (x1.length ≠ 2 ∨ x2.length ≠ 2) → ∃ e, rotationAngle x1 x2 = .error e := by
  refine ⟨fun a b r t h1 hr ht ht' => rotation_unique h1 hr ht ht', ?_, ?_⟩
  · intro c d
    have h0 : (⟨0, 0⟩ : ℂ) = 0 := rfl
    simp [rotationAngle, arctan2, h0]
  · intro x1 x2 h
    refine ⟨.valueError, ?_⟩
    unfold rotationAngle
    split
    · simp at h
    · rfl

/-! ### Mean rotations -/

/-- **C123, mean rotation.** When all vectors are rotated by the same angle in `(-180, 180]`, their mean
rotation is this angle.  Different numbers of vectors are refused, and no vectors give NaN. -/
theorem C123_mean (t : ℝ) (ht : -180 < t) (ht' : t ≤ 180) (ps : List ((ℝ × ℝ) × ℝ)) (hne : ps ≠ [])
    (h : ∀ p ∈ ps, ¬ (p.1.1 = 0 ∧ p.1.2 = 0) ∧ 0 < p.2) :
    meanRotationAngle (ps.map fun p => [p.1.1, p.1.2])
      (ps.map fun p => [p.2 * (rotated t p.1.1 p.1.2).1, p.2 * (rotated t p.1.1 p.1.2).2])
      = .ok (some t) := by
  unfold meanRotationAngle
  rw [(raiseIf_ok (u := ())).mpr (by simp)]
  have hz : ((ps.map fun p => [p.1.1, p.1.2]).zip
      (ps.map fun p => [p.2 * (rotated t p.1.1 p.1.2).1, p.2 * (rotated t p.1.1 p.1.2).2])).mapM
      (fun p => rotationAngle p.1 p.2) = .ok (List.replicate ps.length t) := by
    clear hne
    induction ps with
    | nil => rfl
    | cons p ps ih =>
      obtain ⟨h1, hr⟩ := h p List.mem_cons_self
      simp only [List.map_cons, List.zip_cons_cons, List.mapM_cons, List.length_cons,
        List.replicate_succ]
      rw [rotation_unique h1 hr ht ht', ih (fun q hq => h q (List.mem_cons_of_mem _ hq))]
      rfl
  simp only [bind, Except.bind]
  rw [hz]
  have hl : (ps.length : ℝ) ≠ 0 := by
    simpa using hne
  simp only [List.replicate_eq_nil_iff, List.length_eq_zero_iff, hne, if_false, List.sum_replicate,
    List.length_replicate, nsmul_eq_mul]
  rw [mul_div_cancel_left₀ _ hl]

/-- The refused and the empty inputs of the mean rotation. -/
theorem C123_mean_empty :
    (∀ xs ys : List (List ℝ), xs.length ≠ ys.length →
      meanRotationAngle xs ys = .error .runtimeError) ∧
    meanRotationAngle [] [] = .ok none := by
  constructor
  · intro xs ys h
    simp [meanRotationAngle, raiseIf, h, bind, Except.bind]
  · simp [meanRotationAngle, raiseIf, bind, Except.bind, pure, Except.pure]

/-- **C123 is violated for rotations around 180 degrees.** Vectors rotated by `180 - ε` and by `180 + ε`
degrees have the mean rotation 0, although the vectors are almost reversed. -/
theorem C123_mean_violated (ε : ℝ) (h0 : 0 < ε) (h1 : ε < 180) (a b : ℝ) (h : ¬ (a = 0 ∧ b = 0)) :
    meanRotationAngle [[a, b], [a, b]]
      [[(rotated (180 - ε) a b).1, (rotated (180 - ε) a b).2],
        [(rotated (180 + ε) a b).1, (rotated (180 + ε) a b).2]] = .ok (some 0) := by
  have hper : rotated (180 + ε) a b = rotated (ε - 180) a b := by
    have h2 : (180 + ε) * (Real.pi / 180) = (ε - 180) * (Real.pi / 180) + 2 * Real.pi := by ring
    unfold rotated
    rw [h2]
    simp only [Real.cos_add_two_pi, Real.sin_add_two_pi]
  have e1 := rotation_unique (r := 1) (t := 180 - ε) h one_pos (by linarith) (by linarith)
  have e2 := rotation_unique (r := 1) (t := ε - 180) h one_pos (by linarith) (by linarith)
  simp only [one_mul] at e1 e2
  unfold meanRotationAngle
  rw [(raiseIf_ok (u := ())).mpr (by simp), hper]
  simp only [bind, Except.bind, List.zip_cons_cons, List.zip_nil_left, List.mapM_cons, List.mapM_nil,
    e1, e2, pure, Except.pure]
  simp

/-- A quarter turn. -/
example : rotationAngle [2, 0] [0, 3] = .ok 90 := by
  have h := rotation_unique (a := 2) (b := 0) (r := 3 / 2) (t := 90) (by norm_num) (by norm_num)
    (by norm_num) (by norm_num)
  have hp : (90 : ℝ) * (Real.pi / 180) = Real.pi / 2 := by ring
  simp only [rotated, hp, Real.cos_pi_div_two, Real.sin_pi_div_two] at h
  norm_num at h
  exact h

end Hooke
