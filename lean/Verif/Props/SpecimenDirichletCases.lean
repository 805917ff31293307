import Verif.Props.SpecimenDirichletFile

/-!
# C114: cases, and what goes wrong
-/

namespace Hooke

open Spec

/-- A bar of two nodes pulled by 1/2: base and top are read with their displacements. -/
example : ∃ rows bcs, buildDbc "3d_tensile_dogbone" 2 (1 / 2) [[0, 0, 0], [0, 2, 1]] = .ok rows ∧
    extractBcs (pythonNumbers (sciText 8)) (dbcFile rows true) = .ok bcs ∧
    ((2 : ℤ), [(1, (0 : ℝ)), (2, 1 / 2)]) ∈ bcs := by
  have hd : FitsField (1 / 2) := .inr ⟨by norm_num, by norm_num⟩
  obtain ⟨rows, bcs, h1, h2, -, h4⟩ := C114_file (sciText 8) (name := "3d_tensile_dogbone") (by decide)
    (top := 2) hd (coords := [[0, 0, 0], [0, 2, 1]]) (by simp) true
  refine ⟨rows, bcs, h1, h2, (h4 _ _).mpr ⟨1, 0, 2, 1, rfl, ?_, rfl, ?_⟩⟩
  · norm_num [specimenCode, OnPlane]
  · have hr : roundSig 4 (1 / 2) = 1 / 2 := by
      unfold roundSig
      rw [sciParts_exact (m := 50000) (e := -1) (by norm_num) (by norm_num)
        (by unfold partsValue; norm_num), if_neg (by norm_num)]
      unfold partsValue
      norm_num
    have hc : specimenCode 2 0 2 1 = [1, 1, 0] := by norm_num [specimenCode, OnPlane]
    have hu : specimenDisps 2 (1 / 2) 2 = [0, 1 / 2, 0] := by norm_num [specimenDisps, OnPlane]
    rw [hc, hu]
    simp only [prescribedOf, List.zip_cons_cons, List.zip_nil_right, List.zipIdx_cons, List.zipIdx_nil]
    rw [List.filterMap_cons_some (by rw [if_pos rfl]), List.filterMap_cons_some (by rw [if_pos rfl]),
      List.filterMap_cons_none (by rw [if_neg (by norm_num)]), List.filterMap_nil, roundSig_zero, hr]

/-! ## Compression -/

theorem exponent_two_le (e : ℤ) : 2 ≤ (zeroPad 2 (strNat e.natAbs)).length := by
  unfold zeroPad
  rw [List.length_append, List.length_replicate]
  omega

/-- A negative number fills its field. -/
theorem sciField_negative {x : ℝ} (hx : x < 0) : sciField 11 4 x = sciText 4 x := by
  have h := sciText_length 4 x
  have h2 := exponent_two_le (sciParts 4 x).2
  rw [if_pos hx] at h
  unfold sciField padLeft
  rw [show 11 - (sciText 4 x).length = 0 by omega, List.replicate_zero, List.nil_append]

theorem sciText_zero : sciText 4 0 = "0.0000e+00".toList := by
  unfold sciText
  rw [sciParts_zero, if_neg (lt_irrefl _)]
  decide

theorem sciText_parts (p : ℕ) (x : ℝ) : ∃ a b, sciText p x = a ++ 'e' :: b ∧
    (∀ c ∈ a, (c == 'e' || c == 'E') = false) ∧ ∀ c ∈ b, (c == 'e' || c == 'E') = false := by
  refine ⟨(if x < 0 then ['-'] else []) ++ (zeroPad (p + 1) (strNat (sciParts p x).1)).take 1
    ++ '.' :: (zeroPad (p + 1) (strNat (sciParts p x).1)).drop 1,
    (if (sciParts p x).2 < 0 then '-' else '+') :: zeroPad 2 (strNat (sciParts p x).2.natAbs), rfl, ?_, ?_⟩
  · intro c hc
    simp only [List.mem_append, List.mem_cons] at hc
    rcases hc with (hc | hc) | rfl | hc
    · split_ifs at hc
      · rw [List.mem_singleton.mp hc]
        decide
      · cases hc
    · exact (digit_not_exp (zeroPad_digit (List.mem_of_mem_take hc))).1
    · decide
    · exact (digit_not_exp (zeroPad_digit (List.mem_of_mem_drop hc))).1
  · intro c hc
    rcases List.mem_cons.mp hc with rfl | hc
    · split_ifs <;> decide
    · exact (digit_not_exp (zeroPad_digit hc)).1

/-- Two numbers without a blank between them are not a number. -/
theorem numberOfText_glued (x : ℝ) : numberOfText (sciText 4 0 ++ sciText 4 x) = none := by
  obtain ⟨a, b, h, ha, hb⟩ := sciText_parts 4 x
  rw [sciText_zero, h]
  change unsignedNumber (("0.0000".toList ++ 'e' :: "+00".toList) ++ (a ++ 'e' :: b)) = none
  have e1 : ("0.0000".toList ++ 'e' :: "+00".toList) ++ (a ++ 'e' :: b)
      = "0.0000".toList ++ 'e' :: (("+00".toList ++ a) ++ 'e' :: b) := by simp
  rw [e1]
  unfold unsignedNumber
  rw [splitText_append (p := fun c => c == 'e' || c == 'E') (by decide),
    splitText_append (p := fun c => c == 'e' || c == 'E') (by decide), splitText_none hb, splitText_none,
    splitText_none]
  · rfl
  · intro c hc
    rcases List.mem_append.mp hc with hc | hc
    · exact (by decide : ∀ c ∈ "+00".toList, (c == 'e' || c == 'E') = false) c hc
    · exact ha c hc
  · decide

theorem dispLine_negative (str : ℝ → Text) {n : ℕ} {code : List ℤ} (hc : BinaryCode code) {u : ℝ}
    (hu : u < 0) :
    dispLine (pythonNumbers str) (dbcText ⟨n, code, [0, u, 0]⟩) = .error .valueError := by
  have hz : (sciField 11 4 0).head? = some ' ' := fits_head (.inl rfl)
  have hsp : splitBlank (([0, u, 0].map (sciField 11 4)).flatten)
      = [sciText 4 0 ++ sciText 4 u, sciText 4 0] := by
    simp only [List.map_cons, List.map_nil, List.flatten_cons, List.flatten_nil, List.append_nil]
    rw [← List.append_assoc, splitBlank_append_head (.inr hz), splitBlank_field, sciField_negative hu]
    have : splitBlank (sciField 11 4 0 ++ sciText 4 u) = [sciText 4 0 ++ sciText 4 u] := by
      unfold sciField padLeft
      rw [List.append_assoc, splitBlank_blanks, splitBlank_word]
      · simp [sciText_ne_nil]
      · intro c hc
        rcases List.mem_append.mp hc with hc | hc
        · exact sciText_noBlank c hc
        · exact sciText_noBlank c hc
    rw [this]
    rfl
  have hfl : (pythonNumbers str).float (sciText 4 0 ++ sciText 4 u) = .error .valueError := by
    unfold NumberText.float
    have := stripText_word 0 (w := sciText 4 0 ++ sciText 4 u) (by
      intro c hc
      rcases List.mem_append.mp hc with hc | hc
      · exact sciText_noBlank c hc
      · exact sciText_noBlank c hc)
    rw [List.replicate_zero, List.nil_append] at this
    rw [this]
    change orRaise (numberOfText _) _ = _
    rw [numberOfText_glued]
    rfl
  unfold dispLine fieldOf
  rw [splitBlank_dbc (r := ⟨n, code, [0, u, 0]⟩) hc]
  dsimp only
  rw [hsp]
  have hm : ([sciText 4 0 ++ sciText 4 u, sciText 4 0].take 3).mapM (pythonNumbers str).float
      = .error .valueError := by
    rw [List.take_of_length_le (by simp), List.mapM_cons, hfl]
    rfl
  simp only [List.getElem?_cons_zero, List.getElem?_cons_succ, orRaise, bind, Except.bind,
    List.drop_succ_cons, List.drop_zero, intOfText_word, (code_text hc.2).1, hm]

/-- **C114 is violated for compression.** For a negative displacement of the top the numbers of a line are
glued to each other: the file cannot be read if a node is on the top, and the group of the
loaded nodes is empty. -/
theorem C114_compression_violated (str : ℝ → Text) {name : String} (hn : name ∈ specimenNames)
    {top disp : ℝ} (hd : disp < 0) {coords : List (List ℝ)} (h3 : ∀ r ∈ coords, r.length = 3)
    (reactionGroup : Bool) {i : ℕ} {x y z : ℝ} (hi : coords[i]? = some [x, y, z])
    (ht : OnPlane y top) (h0 : ¬ OnPlane y 0) :
    ∃ rows, buildDbc name top disp coords = .ok rows ∧
      extractBcs (pythonNumbers str) (dbcFile rows reactionGroup) = .error .valueError ∧
      reactionNodes rows = [] := by
  obtain ⟨rows, hr, hp, hm⟩ := C114_conditions hn top disp h3
  have hrow : ∀ r ∈ rows, dispLine (pythonNumbers str) (dbcText r) = .error .valueError ∨
      ∃ p, dispLine (pythonNumbers str) (dbcText r) = .ok p := by
    intro r hr
    obtain ⟨i, x, y, z, -, -, rfl⟩ := (hm r).mp hr
    by_cases h : OnPlane y top ∧ ¬ OnPlane y 0
    · left
      unfold specimenDisps
      rw [if_pos h]
      exact dispLine_negative str (specimenCode_binary _ _ _ _) hd
    · right
      refine ⟨_, dispLine_dbc str (specimenCode_binary _ _ _ _) rfl ?_⟩
      unfold specimenDisps
      rw [if_neg h]
      intro u hu
      simp only [List.mem_cons, List.not_mem_nil, or_false, or_self] at hu
      exact fits_head (.inl hu)
  refine ⟨rows, hr, ?_, ?_⟩
  · have hmem : (⟨i + 1, specimenCode top x y z, specimenDisps top disp y⟩ : DbcRow) ∈ rows := by
      refine (hm _).mpr ⟨i, x, y, z, hi, ?_, rfl⟩
      unfold specimenCode
      rw [if_pos (Or.inr ht)]
      simp
    rw [extractBcs_file, dispEvent_error (e := .valueError) _ _ ?_
      (List.mem_map.mpr ⟨_, hmem, rfl⟩) ?_]
    · rfl
    · intro l hl
      obtain ⟨r, hr, rfl⟩ := List.mem_map.mp hl
      exact hrow r hr
    · unfold specimenDisps
      rw [if_pos ⟨ht, h0⟩]
      exact dispLine_negative str (specimenCode_binary _ _ _ _) hd
  · unfold reactionNodes
    rw [List.map_eq_nil_iff, List.filter_eq_nil_iff]
    intro r hr
    obtain ⟨i, x, y, z, -, -, rfl⟩ := (hm r).mp hr
    rw [Bool.not_eq_true, List.any_eq_false]
    intro u hu
    unfold specimenDisps at hu
    simp only [List.mem_cons, List.not_mem_nil, or_false] at hu
    have : u ≤ 0 := by
      rcases hu with rfl | rfl | rfl
      · exact le_refl _
      · split_ifs
        · exact hd.le
        · exact le_refl _
      · exact le_refl _
    simp only [decide_eq_true_eq, not_lt]
    exact this.trans (by norm_num)

/-- Such a specimen: pressed by 1. -/
example : ∃ (coords : List (List ℝ)) (x y z : ℝ), (∀ r ∈ coords, r.length = 3) ∧
    coords[1]? = some [x, y, z] ∧ OnPlane y 2 ∧ ¬ OnPlane y 0 :=
  ⟨[[0, 0, 0], [1, 2, 3]], 1, 2, 3, by simp, rfl, by norm_num [OnPlane], by norm_num [OnPlane]⟩

/-! ## Rounded coordinates -/

theorem roundSig_third : roundSig 8 (100 / 3) = 33.3333333 := by
  have h0 : (100 / 3 : ℝ) ≠ 0 := by norm_num
  have ha : |(100 / 3 : ℝ)| = 100 / 3 := abs_of_pos (by norm_num)
  have hl : Int.log 10 |(100 / 3 : ℝ)| = 1 := log_unique (by rw [ha]; norm_num) (by rw [ha]; norm_num)
  have hs : scaled 8 (100 / 3) = 1000000000 / 3 := by
    unfold scaled
    rw [hl, ha]
    norm_num
  have hf : ⌊(1000000000 / 3 : ℝ)⌋₊ = 333333333 := by
    rw [Nat.floor_eq_iff (by norm_num)]
    norm_num
  have hr : roundEven (1000000000 / 3) = 333333333 := by
    unfold roundEven
    rw [hf, if_pos (by norm_num)]
  have hp : sciParts 8 (100 / 3) = (333333333, 1) := by
    rw [sciParts_of h0, hs, hr, hl]
    norm_num
  unfold roundSig partsValue
  rw [hp, if_neg (by norm_num)]
  norm_num

/-- **C114 is violated for tops that do not have nine digits.** The coordinates read from the input data
file are rounded to nine significant digits, and compared with the top up to 1e-8: with the top
at 100/3, a node on the top and not on the symmetry planes gets no condition, whatever the
displacement. -/
theorem C114_rounded_top_violated {name : String} (hn : name ∈ specimenNames) (disp : ℝ) :
    specimenNode name (100 / 3) disp [1, 100 / 3, 1] = .ok ([0, 1, 0], [0, disp, 0]) ∧
    specimenNode name (100 / 3) disp ([1, 100 / 3, 1].map (roundSig 8)) = .ok ([0, 0, 0], [0, 0, 0]) := by
  have h1 : roundSig 8 1 = 1 := by
    unfold roundSig
    rw [sciParts_exact (m := 100000000) (e := 0) (by norm_num) (by norm_num)
      (by unfold partsValue; norm_num), if_neg (by norm_num)]
    unfold partsValue
    norm_num
  simp only [List.map_cons, List.map_nil]
  rw [roundSig_third, h1, C114_node hn, C114_node hn]
  constructor
  · congr 2 <;> norm_num [specimenCode, specimenDisps, OnPlane, abs_of_pos]
  · have h2 : ¬ |(33.3333333 : ℝ) - 100 / 3| < 1e-8 := by
      rw [abs_of_neg (by norm_num)]
      norm_num
    have h3 : ¬ |(33.3333333 : ℝ)| < 1e-8 := by
      rw [abs_of_pos (by norm_num)]
      norm_num
    congr 2
    · unfold specimenCode OnPlane
      simp only [sub_zero]
      rw [if_neg (by norm_num), if_neg (by rintro (h | h); exacts [h3 h, h2 h])]
    · unfold specimenDisps OnPlane
      rw [if_neg fun h => h2 h.1]

/-! ## Meshes in the plane -/

/-- **C114 (plane).** A node of a mesh in the plane away from the symmetry axis raises an
`IndexError`. -/
theorem C114_plane {name : String} (hn : name ∈ specimenNames) (top disp : ℝ) {x y : ℝ}
    (hx : ¬ OnPlane x 0) : specimenNode name top disp [x, y] = .error .indexError := by
  unfold specimenNode
  rw [show raiseIf (name ∉ specimenNames) PyErr.runtimeError = .ok () from
    (raiseIf_ok (u := ())).mpr (by simp [hn])]
  have hx' : nearZero x = false := by
    unfold OnPlane at hx
    rw [sub_zero] at hx
    unfold nearZero
    simpa using hx
  have h1 : isNear [x, y] 0 0 = .ok false := by
    unfold isNear coordAt
    simp [orRaise, bind, Except.bind, pure, Except.pure, hx']
  have h2 : allNear [x, y] [0, 1] = .ok false := by
    simp [allNear, coordAt, orRaise, bind, Except.bind, pure, Except.pure, hx']
  have h3 : allNear [x, y] [1, 2] = .error .indexError := rfl
  have h4 : [x, y].all nearZero = false := by simp [hx']
  have h5 : ∀ b, andThen (.ok false) b = .ok false := fun b => rfl
  rw [h4, h1, h2, h3]
  simp only [h5]
  rfl

end Hooke
