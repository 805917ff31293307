import Verif.Lemmas.NumberFormat
import Verif.Spec.NumberFormat
import Verif.Props.LinksFileCases
import Verif.Props.LoadIncrementsRead

/-!
# C113: numbers written to files are read back to the digits written
-/

namespace Hooke

open Spec

/-- The number read from the text of `x`. -/
noncomputable def roundSig (p : ℕ) (x : ℝ) : ℝ :=
  if x < 0 then -partsValue p (sciParts p x) else partsValue p (sciParts p x)

theorem partsValue_nonneg (p : ℕ) (me : ℕ × ℤ) : 0 ≤ partsValue p me := by
  unfold partsValue
  positivity

theorem partsValue_pos (p : ℕ) {x : ℝ} (hx : x ≠ 0) : 0 < partsValue p (sciParts p x) := by
  have h := (sciParts_digits p hx).1
  have h' : (0 : ℝ) < ((sciParts p x).1 : ℝ) := by
    have : 0 < (sciParts p x).1 := lt_of_lt_of_le (by positivity) h
    exact_mod_cast this
  unfold partsValue
  positivity

theorem roundSig_abs (p : ℕ) (x : ℝ) : |roundSig p x| = partsValue p (sciParts p x) := by
  unfold roundSig
  split_ifs
  · rw [abs_neg, abs_of_nonneg (partsValue_nonneg _ _)]
  · rw [abs_of_nonneg (partsValue_nonneg _ _)]

theorem roundSig_zero (p : ℕ) : roundSig p 0 = 0 := by
  unfold roundSig partsValue
  rw [sciParts_zero]
  simp

theorem roundSig_neg_iff (p : ℕ) (x : ℝ) : roundSig p x < 0 ↔ x < 0 := by
  unfold roundSig
  split_ifs with h
  · have := partsValue_pos p h.ne
    exact ⟨fun _ => h, fun _ => by linarith⟩
  · exact ⟨fun h' => absurd h' (not_lt.mpr (partsValue_nonneg _ _)), fun h' => absurd h' h⟩

theorem sciParts_roundSig (p : ℕ) (x : ℝ) : sciParts p (roundSig p x) = sciParts p x := by
  by_cases hx : x = 0
  · rw [hx, roundSig_zero]
  · obtain ⟨h1, h2⟩ := sciParts_digits p hx
    exact sciParts_exact h1 h2 (roundSig_abs p x)

/-- **C113.** The text of a number in scientific notation with `p` digits after the point is read as the
number rounded to `p + 1` significant digits. -/
theorem C113_read (p : ℕ) (x : ℝ) : numberOfText (sciText p x) = some (roundSig p x) := by
  have h := unsigned_sci (e := (sciParts p x).2) (sciParts_lt p x)
  unfold sciText roundSig
  dsimp only
  by_cases hx : x < 0
  · rw [if_pos hx, if_pos hx]
    simp only [List.append_assoc, List.cons_append, List.nil_append] at h ⊢
    change (unsignedNumber _).map _ = _
    rw [h]
    rfl
  · rw [if_neg hx, if_neg hx, List.nil_append]
    have hne : zeroPad (p + 1) (strNat (sciParts p x).1) ≠ [] := by
      unfold zeroPad
      simp [strNat_ne_nil]
    generalize hds : zeroPad (p + 1) (strNat (sciParts p x).1) = ds at h hne ⊢
    cases ds with
    | nil => exact absurd rfl hne
    | cons c cs =>
      have hc : c.isDigit = true := zeroPad_digit (w := p + 1) (n := (sciParts p x).1) (by rw [hds]; simp)
      obtain ⟨-, -, hm, hp⟩ := digit_not_exp hc
      simp only [List.take_succ_cons, List.take_zero, List.cons_append, List.nil_append] at h ⊢
      unfold numberOfText
      split
      · rename_i heq
        exact absurd (List.cons.inj heq).1 hm
      · rename_i heq
        exact absurd (List.cons.inj heq).1 hp
      · exact h

/-- **C113.** The numbers read are the numbers written rounded to `p + 1` significant digits: at most half
a unit of the last digit away, in the same order, with the same sign, and a number that has been
read is not changed again. -/
theorem C113_rounding (p : ℕ) : RoundsTo p (roundSig p) := by
  refine ⟨?_, ?_, ?_, ?_, ?_⟩
  · intro x
    have hlt := sciParts_lt p x
    have hlt' : ((sciParts p x).1 : ℤ) < 10 ^ (p + 1) := by exact_mod_cast hlt
    have hge : x ≠ 0 → (10 : ℤ) ^ p ≤ ((sciParts p x).1 : ℤ) := fun hx => by
      exact_mod_cast (sciParts_digits p hx).1
    unfold roundSig
    split_ifs with h
    · refine ⟨-((sciParts p x).1 : ℤ), (sciParts p x).2, ?_, ?_, ?_⟩
      · unfold partsValue
        push_cast
        ring
      · rwa [abs_neg, abs_of_nonneg (by positivity)]
      · rwa [abs_neg, abs_of_nonneg (by positivity)]
    · refine ⟨((sciParts p x).1 : ℤ), (sciParts p x).2, ?_, ?_, ?_⟩
      · unfold partsValue
        push_cast
        ring
      · rwa [abs_of_nonneg (by positivity)]
      · rwa [abs_of_nonneg (by positivity)]
  · intro x
    have h := parts_error p x
    unfold roundSig
    split_ifs with hx
    · rw [show -partsValue p (sciParts p x) - x = -(partsValue p (sciParts p x) - (-x)) by ring, abs_neg]
      rwa [abs_of_neg hx] at h ⊢
    · rwa [abs_of_nonneg (not_lt.mp hx)] at h ⊢
  · intro x y hxy
    unfold roundSig
    split_ifs with hx hy hy
    · have := parts_mono p (x := y) (y := x) (by rw [abs_of_neg hx, abs_of_neg hy]; linarith)
      linarith
    · have h1 := partsValue_nonneg p (sciParts p x)
      have h2 := partsValue_nonneg p (sciParts p y)
      linarith
    · exact absurd (lt_of_le_of_lt hxy hy) hx
    · exact parts_mono p (by
        rw [abs_of_nonneg (not_lt.mp hx), abs_of_nonneg (not_lt.mp hy)]
        exact hxy)
  · intro x
    rcases lt_trichotomy x 0 with h | h | h
    · unfold roundSig
      rw [sciParts_neg, if_neg (by linarith), if_pos h, neg_neg]
    · rw [h, neg_zero, roundSig_zero, neg_zero]
    · unfold roundSig
      rw [sciParts_neg, if_pos (by linarith), if_neg (by linarith)]
  · intro x
    have h1 : roundSig p (roundSig p x) = if roundSig p x < 0
        then -partsValue p (sciParts p (roundSig p x)) else partsValue p (sciParts p (roundSig p x)) := rfl
    rw [h1, sciParts_roundSig]
    simp only [roundSig_neg_iff]
    rfl

/-- **C113 (distinct).** Numbers further apart than a unit of the last digit are not written alike. -/
theorem C113_distinct {p : ℕ} {rd : ℝ → ℝ} (h : RoundsTo p rd) {x y : ℝ}
    (hxy : max |x| |y| * ((10 : ℝ) ^ p)⁻¹ < y - x) : rd x < rd y := by
  have hp : (0 : ℝ) < ((10 : ℝ) ^ p)⁻¹ := by positivity
  have h1 := abs_le.mp (h.error x)
  have h2 := abs_le.mp (h.error y)
  have h3 : |x| * ((10 : ℝ) ^ p)⁻¹ ≤ max |x| |y| * ((10 : ℝ) ^ p)⁻¹ :=
    mul_le_mul_of_nonneg_right (le_max_left _ _) hp.le
  have h4 : |y| * ((10 : ℝ) ^ p)⁻¹ ≤ max |x| |y| * ((10 : ℝ) ^ p)⁻¹ :=
    mul_le_mul_of_nonneg_right (le_max_right _ _) hp.le
  linarith [h1.2, h2.1]

/-- **C113 (rewriting).** A number that has been read is written with the same text. -/
theorem C113_rewrite (w p : ℕ) (x : ℝ) : sciField w p (roundSig p x) = sciField w p x := by
  unfold sciField sciText
  rw [sciParts_roundSig]
  simp only [roundSig_neg_iff]

/-! ## Width of the texts -/

theorem sciText_length (p : ℕ) (x : ℝ) :
    (sciText p x).length = (if x < 0 then 1 else 0) + (p + 2) + 2
      + (zeroPad 2 (strNat (sciParts p x).2.natAbs)).length := by
  have hl := zeroPad_length (strNat_length_lt (sciParts_lt p x))
  unfold sciText
  dsimp only
  rw [List.length_append, List.length_append, List.length_append, List.length_cons, List.length_cons,
    List.length_cons, List.length_take, List.length_drop, hl]
  split_ifs
  · simp only [List.length_singleton]
    omega
  · simp only [List.length_nil]
    omega

theorem exponent_length {e : ℤ} (h : e.natAbs < 100) : (zeroPad 2 (strNat e.natAbs)).length = 2 :=
  zeroPad_length (strNat_length_lt (p := 1) (by norm_num; exact h))

theorem padLeft_head {w : ℕ} {s : Text} (h : s.length < w) : (padLeft w s).head? = some ' ' := by
  unfold padLeft
  obtain ⟨k, hk⟩ : ∃ k, w - s.length = k + 1 := ⟨w - s.length - 1, by omega⟩
  rw [hk, List.replicate_succ]
  rfl

/-- The size of the numbers with exponents of two digits (with some margin). -/
theorem exponent_small {p : ℕ} {x : ℝ} (h : x = 0 ∨ ((10 : ℝ) ^ (-99 : ℤ) ≤ |x| ∧ |x| < (10 : ℝ) ^ (99 : ℤ))) :
    (sciParts p x).2.natAbs < 100 := by
  rcases h with rfl | ⟨h1, h2⟩
  · rw [sciParts_zero]
    decide
  · have hx : x ≠ 0 := by
      rintro rfl
      rw [abs_zero] at h1
      exact absurd h1 (not_le.mpr (by positivity))
    obtain ⟨h3, h4⟩ := log_bounds hx
    have h5 : Int.log 10 |x| < 99 :=
      (zpow_lt_zpow_iff_right₀ (by norm_num : (1 : ℝ) < 10)).mp (h3.trans_lt h2)
    have h6 : -99 < Int.log 10 |x| + 1 :=
      (zpow_lt_zpow_iff_right₀ (by norm_num : (1 : ℝ) < 10)).mp (h1.trans_lt h4)
    rw [sciParts_of hx]
    split_ifs <;> dsimp only <;> omega

/-- **C113 (width).** A field of `w` characters begins with a blank if the number has an exponent of two
digits and there is room for the sign: `p + 7 < w`. -/
theorem C113_blank {w p : ℕ} (hw : p + 7 < w) {x : ℝ}
    (h : x = 0 ∨ ((10 : ℝ) ^ (-99 : ℤ) ≤ |x| ∧ |x| < (10 : ℝ) ^ (99 : ℤ))) :
    (sciField w p x).head? = some ' ' := by
  refine padLeft_head ?_
  rw [sciText_length, exponent_length (exponent_small h)]
  split_ifs <;> omega

/-! ## The characters -/

theorem sciText_char (p : ℕ) (x : ℝ) : ∀ c ∈ sciText p x, NumeralChar c := by
  intro c hc
  unfold sciText at hc
  dsimp only at hc
  simp only [List.mem_append, List.mem_cons] at hc
  rcases hc with ((hc | hc) | rfl | hc) | rfl | rfl | hc
  · split_ifs at hc
    · rw [List.mem_singleton] at hc
      exact .inr (by rw [hc]; decide)
    · cases hc
  · exact .inl (zeroPad_digit (List.mem_of_mem_take hc))
  · exact .inr (by decide)
  · exact .inl (zeroPad_digit (List.mem_of_mem_drop hc))
  · exact .inr (by decide)
  · split_ifs <;> exact .inr (by decide)
  · exact .inl (zeroPad_digit hc)

theorem sciText_ne_nil (p : ℕ) (x : ℝ) : sciText p x ≠ [] := by
  unfold sciText
  simp

/-- **C113 (files).** The texts of the numbers in the files are of the kind that the properties of the
files (C105, C106, C110) ask for. -/
theorem C113_faithful {str : ℝ → Text} (hs : ∀ x, ∀ c ∈ str x, NumeralChar c) :
    FaithfulText (pythonNumbers str) (roundSig 8) :=
  ⟨fun x => ⟨_, sciText 8 x, rfl, sciText_ne_nil 8 x, sciText_char 8 x, C113_read 8 x⟩, hs⟩

/-! ## Files -/

/-- The rounding of the numbers of the files. -/
theorem eight_error (x : ℝ) : |roundSig 8 x - x| ≤ 5e-9 * |x| := by
  have := (C113_rounding 8).error x
  calc _ ≤ _ := this
    _ = _ := by
      norm_num
      ring

/-- **C113 (meshes).** The coordinates read from a specimen mesh file are those written, with a relative
error of at most 5e-9. -/
theorem C113_mesh {str : ℝ → Text} (hs : ∀ x, ∀ c ∈ str x, NumeralChar c) {nDim : ℕ}
    {coords : List (List ℝ)} {conns : List (List ℤ)} {bcs : Option DirichletBcs}
    (hm : ProperMesh nDim coords conns bcs) {t cls : String} {g : ℕ}
    (ht : (t, cls, g) ∈ elementTable) :
    ∃ m, readSpecimenMesh (pythonNumbers str) nDim
        (writeMeshFile (pythonNumbers str) coords conns t.toList bcs) = .ok m ∧
      m.coords.length = coords.length ∧
      ∀ (i k : ℕ) (r : List ℝ) (x : ℝ), coords[i]? = some r → r[k]? = some x → k < nDim →
        ∃ r' y, m.coords[i]? = some r' ∧ r'[k]? = some y ∧ |y - x| ≤ 5e-9 * |x| := by
  obtain ⟨m, h, hb⟩ := C105_round_trip (C113_faithful hs) hm ht
  refine ⟨m, h, by rw [hb.readCoords, List.length_map], ?_⟩
  intro i k r x hr hx hk
  refine ⟨(r.take nDim).map (roundSig 8), roundSig 8 x, ?_, ?_, eight_error x⟩
  · rw [hb.readCoords, List.getElem?_map, hr]
    rfl
  · rw [List.getElem?_map, List.getElem?_take_of_lt hk, hx]
    rfl

/-- **C113 (pipeline).** Passing a mesh through a Links input data file and a specimen mesh file rounds the
coordinates only once. -/
theorem C113_pipeline {str : ℝ → Text} (hs : ∀ x, ∀ c ∈ str x, NumeralChar c) {nDim : ℕ}
    {coords : List (List ℝ)} {conns : List (List ℤ)} {cd : KDict ℕ (List ℝ)}
    {ed : KDict ℕ (List ℤ)} {phase : KDict ℕ ℕ} {disps : KDict ℕ (List (Option ℝ))}
    (hd : LinksData nDim coords conns cd ed phase disps) (hp : ShortPhases phase)
    (hb : ∀ n x u, (n, some x :: u) ∈ disps →
      x = 0 ∨ ((10 : ℝ) ^ (-99 : ℤ) ≤ |x| ∧ |x| < (10 : ℝ) ^ (99 : ℤ)))
    (hm : LinksMesh nDim coords conns disps) {t cls : String} {T : Text}
    {g g' : ℕ} (ht : linksElemTypeData nDim t = .ok (T, g)) (hk : (t, cls, g') ∈ linksKinds)
    (ip : LinksParams) (increm : List Text) (phases : List ℕ) (materials : List Text)
    (hH : KeywordFree (linksHeader ip increm phases).flatten) (hM : KeywordFree materials.flatten) :
    ∃ file mesh m,
      writeLinksFile (pythonNumbers str) nDim ip increm phases T g materials cd ed phase disps
        = .ok file ∧
      linksToMeshFile (pythonNumbers str) file = .ok mesh ∧
      readSpecimenMesh (pythonNumbers str) nDim mesh = .ok m ∧
      m.coords.length = coords.length ∧
      ∀ (i k : ℕ) (r : List ℝ) (x : ℝ), coords[i]? = some r → r[k]? = some x → k < nDim →
        ∃ r' y, m.coords[i]? = some r' ∧ r'[k]? = some y ∧ |y - x| ≤ 5e-9 * |x| := by
  obtain ⟨file, mesh, m, h1, h2, h3, h4, -⟩ := C106_pipeline (C113_faithful hs) hd hp
    (fun n x u h => C113_blank (by norm_num) (hb n x u h)) hm ht hk ip increm phases materials hH hM
  refine ⟨file, mesh, m, h1, h2, h3, by rw [h4, List.length_map], ?_⟩
  intro i k r x hr hx hk
  refine ⟨(r.take nDim).map (fun x => roundSig 8 (roundSig 8 x)), roundSig 8 x, ?_, ?_, eight_error x⟩
  · rw [h4, List.getElem?_map, hr]
    rfl
  · rw [List.getElem?_map, List.getElem?_take_of_lt hk, hx, Option.map_some, (C113_rounding 8).idem]

/-- **C113 (load factors).** The load factors read from the input data file of a simulation are those
prepared for it, each with a relative error of at most 5e-9. -/
theorem C113_loads {str : ℝ → Text} (hs : ∀ x, ∀ c ∈ str x, NumeralChar c) {S : LoadSettings}
    {d : LoadDraws} (hmode : S.mode = "increment_list") {fs : List ℝ}
    (hfs : loadFactors S.loading S.nReverse S.nInc d = .ok fs) {A T : Text} (hA : IncrementFree A)
    (hT : T = [] ∨ ∃ B, T = "\n\n".toList ++ B) :
    ∃ lines gs, loadLines (pythonNumbers str) S d = .ok lines ∧
      readLoadFile (pythonNumbers str) (A ++ lines.flatten ++ T)
        = .ok ⟨(S.nInc : ℤ), 0 :: gs, loadTotals gs⟩ ∧
      List.Forall₂ (fun x y => |y - x| ≤ 5e-9 * |x|) fs gs := by
  obtain ⟨lines, h1, h2⟩ := C110_read (C113_faithful hs) hmode hfs hA hT
  refine ⟨lines, _, h1, h2, ?_⟩
  rw [List.forall₂_map_right_iff]
  exact List.forall₂_same.mpr fun x _ => eight_error x

end Hooke
