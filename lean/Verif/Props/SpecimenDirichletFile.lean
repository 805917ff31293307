import Verif.Props.SpecimenDirichlet

/-!
# C114: the file of the boundary conditions
-/

namespace Hooke

open Spec

/-! ## Lines -/

/-- Line of a node. -/
noncomputable def dbcText (r : DbcRow) : Text :=
  ' ' :: ' ' :: (padLeft 4 (textOfInt (r.label : ℤ)) ++ ' ' :: ((r.code.map textOfInt).flatten
    ++ ' ' :: (r.disps.map (sciField 11 4)).flatten))

theorem dbcLine_eq (r : DbcRow) : dbcLine r = dbcText r ++ ['\n'] := by
  unfold dbcLine dbcText
  rw [textOfInt_natCast]
  simp

theorem sciField_char {w p : ℕ} {x : ℝ} {c : Char} (h : c ∈ sciField w p x) : LineChar c := by
  unfold sciField padLeft at h
  rcases List.mem_append.mp h with h | h
  · exact .inr (.inl (List.eq_of_mem_replicate h))
  · exact .inl (sciText_char p x c h)

theorem dbcText_data (r : DbcRow) : DataText (dbcText r) := by
  refine ⟨?_, ?_⟩
  · intro c hc
    unfold dbcText at hc
    simp only [List.mem_cons, List.mem_append] at hc
    rcases hc with rfl | rfl | hc | rfl | hc | rfl | hc
    · exact .inr (.inl rfl)
    · exact .inr (.inl rfl)
    · exact padLeft_char hc
    · exact .inr (.inl rfl)
    · obtain ⟨t, ht, hc⟩ := List.mem_flatten.mp hc
      obtain ⟨z, -, rfl⟩ := List.mem_map.mp ht
      exact .inl (numeral_int hc)
    · exact .inr (.inl rfl)
    · obtain ⟨t, ht, hc⟩ := List.mem_flatten.mp hc
      obtain ⟨z, -, rfl⟩ := List.mem_map.mp ht
      exact sciField_char hc
  · obtain ⟨c, hc, hb⟩ := padLeft_digit 4 (r.label : ℤ)
    exact ⟨c, by unfold dbcText; simp [hc], hb⟩

/-- The lines after the nodes: the group of the loaded nodes. -/
noncomputable def groupLines (rows : List DbcRow) (reactionGroup : Bool) : List Text :=
  if reactionGroup then
    [] :: "NODE_GROUPS 1".toList :: ("1 ".toList ++ strNat (reactionNodes rows).length)
      :: (reactionNodes rows).map strNat
  else []

/-- **C114 (layout).** The lines of the file: the number of nodes with prescribed displacements,
a line for each, and the group of the loaded nodes: a blank line, its keyword, its number and number of
nodes, and their labels. -/
theorem C114_layout (rows : List DbcRow) (reactionGroup : Bool) :
    fileLines (dbcFile rows reactionGroup)
      = linksDispKey rows.length :: (rows.map dbcText ++ groupLines rows reactionGroup) := by
  have hfile : dbcFile rows reactionGroup
      = ((linksDispKey rows.length :: (rows.map dbcText ++ groupLines rows reactionGroup)).map
        (· ++ ['\n'])).flatten := by
    unfold dbcFile
    have h1 : rows.map dbcLine = (rows.map dbcText).map (· ++ ['\n']) := by
      rw [List.map_map]
      exact List.map_congr_left fun r _ => dbcLine_eq r
    rw [h1]
    have h2 : "NODES_WITH_PRESCRIBED_DISPLACEMENTS ".toList ++ strNat rows.length ++ "\n".toList
        = linksDispKey rows.length ++ ['\n'] := by
      unfold linksDispKey
      simp
    rw [h2]
    cases reactionGroup with
    | false => simp [groupLines]
    | true =>
      rw [if_pos rfl]
      unfold groupLines
      rw [if_pos rfl]
      simp only [List.map_cons, List.map_append, List.flatten_cons, List.flatten_append,
        List.cons_append, List.map_map]
      simp
      rfl
  rw [hfile, fileLines_flatten]
  intro l hl
  simp only [List.mem_cons, List.mem_append, List.mem_map] at hl
  rcases hl with rfl | ⟨r, -, rfl⟩ | hl
  · unfold linksDispKey
    rw [List.mem_append, List.mem_cons]
    rintro (h | h | h)
    · exact absurd h (by decide)
    · exact absurd h (by decide)
    · exact newline_strNat _ h
  · exact (dbcText_data r).noNewline
  · unfold groupLines at hl
    split_ifs at hl
    · simp only [List.mem_cons, List.mem_map] at hl
      rcases hl with rfl | rfl | rfl | ⟨n, -, rfl⟩
      · simp
      · decide
      · rw [List.mem_append]
        rintro (h | h)
        · exact absurd h (by decide)
        · exact newline_strNat _ h
      · exact newline_strNat n
    · cases hl

/-! ## Reading -/

theorem dispEvent_rows {F : NumberText} {g : DbcRow → KDict ℕ ℝ} (rows : List DbcRow)
    (hn : rows.Pairwise fun a b => a.label < b.label)
    (h : ∀ r ∈ rows, dispLine F (dbcText r) = .ok ((r.label : ℤ), g r)) (acc : DirichletBcs)
    (ha : ∀ r ∈ rows, (r.label : ℤ) ∉ acc.keys) :
    (((rows.map dbcText).map ScanEvent.data).foldlM (dispEvent F) (some acc))
      = .ok (some (acc ++ rows.map fun r => ((r.label : ℤ), g r))) := by
  induction rows generalizing acc with
  | nil => simp [pure, Except.pure]
  | cons r rs ih =>
    rw [List.map_cons, List.map_cons, List.foldlM_cons]
    have h1 : dispEvent F (some acc) (ScanEvent.data (dbcText r))
        = .ok (some (acc ++ [((r.label : ℤ), g r)])) := by
      unfold dispEvent
      dsimp only
      rw [h r (by simp)]
      simp only [orRaise, bind, Except.bind, pure, Except.pure]
      rw [put_of_notMem _ _ _ (ha r (by simp))]
    rw [h1]
    rw [List.pairwise_cons] at hn
    have := ih hn.2 (fun b hb => h b (by simp [hb])) (acc ++ [((r.label : ℤ), g r)]) (by
      intro m hm
      unfold KDict.keys
      rw [List.map_append, List.mem_append, not_or]
      refine ⟨ha m (by simp [hm]), ?_⟩
      simp only [List.map_cons, List.map_nil, List.mem_singleton, Nat.cast_inj]
      have := hn.1 m hm
      omega)
    simp only [bind, Except.bind]
    rw [this]
    simp

theorem dispEvent_error {F : NumberText} {e : PyErr} (ls : List Text) (acc : DirichletBcs)
    (hall : ∀ l ∈ ls, dispLine F l = .error e ∨ ∃ p, dispLine F l = .ok p) {l : Text} (hl : l ∈ ls)
    (he : dispLine F l = .error e) :
    ((ls.map ScanEvent.data).foldlM (dispEvent F) (some acc)) = .error e := by
  induction ls generalizing acc with
  | nil => cases hl
  | cons m ms ih =>
    rw [List.map_cons, List.foldlM_cons]
    rcases hall m (by simp) with hm | ⟨p, hm⟩
    · have : dispEvent F (some acc) (ScanEvent.data m) = .error e := by
        unfold dispEvent
        dsimp only
        rw [hm]
        rfl
      rw [this]
      rfl
    · have : dispEvent F (some acc) (ScanEvent.data m) = .ok (some (acc.put p.1 p.2)) := by
        unfold dispEvent
        dsimp only
        rw [hm]
        rfl
      rw [this]
      rcases List.mem_cons.mp hl with rfl | hl
      · rw [hm] at he
        cases he
      · exact ih _ (fun l hl => hall l (by simp [hl])) hl

theorem extractBcs_file (F : NumberText) (rows : List DbcRow) (reactionGroup : Bool) :
    extractBcs F (dbcFile rows reactionGroup)
      = (((rows.map dbcText).map ScanEvent.data).foldlM (dispEvent F) (some [])).bind
        fun s => orRaise s .unboundLocal := by
  unfold extractBcs
  rw [C114_layout, scanLines_key _ _ (linksDispKey_key _), scanLines_data]
  · have : scanLines (searchWord "NODES_WITH_PRESCRIBED_DISPLACEMENTS".toList) true true
        (groupLines rows reactionGroup) = [] := by
      unfold groupLines
      split_ifs
      · exact scanLines_blank_stop _ (by decide)
      · rfl
    rw [this, List.append_nil, List.foldlM_cons]
    rfl
  · intro l hl
    obtain ⟨r, -, rfl⟩ := List.mem_map.mp hl
    exact (dbcText_data r).noLinksKey (by decide)
  · intro l hl
    obtain ⟨r, -, rfl⟩ := List.mem_map.mp hl
    exact (dbcText_data r).noEnd

/-! ## Fields -/

theorem splitBlank_append_head {a b : Text} (hb : b = [] ∨ b.head? = some ' ') :
    splitBlank (a ++ b) = splitBlank a ++ splitBlank b := by
  rcases hb with rfl | hb
  · rw [List.append_nil, splitBlank_nil, List.append_nil]
  · cases b with
    | nil => cases hb
    | cons c b =>
      rw [List.head?_cons, Option.some.injEq] at hb
      subst hb
      rw [splitBlank_append (by decide), splitBlank_space]

theorem sciText_noBlank {p : ℕ} {x : ℝ} : ∀ c ∈ sciText p x, isBlankChar c = false :=
  fun c hc => isBlankChar_numeral (sciText_char p x c hc)

theorem splitBlank_field (w p : ℕ) (x : ℝ) : splitBlank (sciField w p x) = [sciText p x] := by
  unfold sciField padLeft
  rw [splitBlank_blanks, splitBlank_word (sciText_ne_nil p x) sciText_noBlank]

theorem splitBlank_fields {w p : ℕ} (us : List ℝ) (h : ∀ u ∈ us, (sciField w p u).head? = some ' ') :
    splitBlank ((us.map (sciField w p)).flatten) = us.map (sciText p) := by
  induction us with
  | nil => rfl
  | cons u us ih =>
    rw [List.map_cons, List.flatten_cons, splitBlank_append_head, splitBlank_field,
      ih fun v hv => h v (by simp [hv])]
    · rfl
    · cases us with
      | nil => exact .inl rfl
      | cons v vs =>
        right
        have := h v (by simp)
        rw [List.map_cons, List.flatten_cons]
        cases hf : sciField w p v with
        | nil => rw [hf] at this; cases this
        | cons c cs => rw [hf] at this; exact this

/-- A code of zeros and ones. -/
def BinaryCode (code : List ℤ) : Prop := code.length = 3 ∧ ∀ c ∈ code, c = 0 ∨ c = 1

theorem code_text {code : List ℤ} (h : ∀ c ∈ code, c = 0 ∨ c = 1) :
    ((code.map textOfInt).flatten.mapM fun c => intOfText [c]) = .ok code ∧
      ∀ c ∈ (code.map textOfInt).flatten, isBlankChar c = false := by
  refine ⟨?_, ?_⟩
  · induction code with
    | nil => rfl
    | cons c cs ih =>
      have hr := ih fun d hd => h d (by simp [hd])
      rcases h c (by simp) with rfl | rfl
      · rw [List.map_cons, List.flatten_cons, show textOfInt 0 = ['0'] by decide, List.singleton_append,
          List.mapM_cons, show intOfText ['0'] = .ok 0 by decide, hr]
        rfl
      · rw [List.map_cons, List.flatten_cons, show textOfInt 1 = ['1'] by decide, List.singleton_append,
          List.mapM_cons, show intOfText ['1'] = .ok 1 by decide, hr]
        rfl
  · intro c hc
    obtain ⟨t, ht, hc⟩ := List.mem_flatten.mp hc
    obtain ⟨z, -, rfl⟩ := List.mem_map.mp ht
    exact isBlankChar_numeral (numeral_int hc)

theorem splitBlank_dbc {r : DbcRow} (hc : BinaryCode r.code) :
    splitBlank (dbcText r) = textOfInt (r.label : ℤ) :: (r.code.map textOfInt).flatten
      :: splitBlank ((r.disps.map (sciField 11 4)).flatten) := by
  unfold dbcText
  rw [splitBlank_space, splitBlank_space, splitBlank_append (by decide), splitBlank_append (by decide),
    splitBlank_padLeft, splitBlank_word _ (code_text hc.2).2]
  · rfl
  · obtain ⟨a, b, c, h⟩ := List.length_eq_three.mp hc.1
    rw [h]
    simp [textOfInt_ne_nil]

theorem float_sci (str : ℝ → Text) (p : ℕ) (x : ℝ) :
    (pythonNumbers str).float (sciText p x) = .ok (roundSig p x) := by
  unfold NumberText.float
  have := stripText_word 0 (w := sciText p x) sciText_noBlank
  rw [List.replicate_zero, List.nil_append] at this
  rw [this]
  change orRaise (numberOfText _) _ = _
  rw [C113_read]
  rfl

theorem nodeBcs_binary {code : List ℤ} (hc : BinaryCode code) {us : List ℝ} (hu : us.length = 3)
    (rd : ℝ → ℝ) : nodeBcs code (us.map rd) = .ok (prescribedOf rd code us) := by
  obtain ⟨a, b, c, rfl⟩ := List.length_eq_three.mp hc.1
  obtain ⟨u, v, w, rfl⟩ := List.length_eq_three.mp hu
  have h := hc.2
  rcases h a (by simp) with rfl | rfl <;> rcases h b (by simp) with rfl | rfl <;>
    rcases h c (by simp) with rfl | rfl <;> rfl

theorem dispLine_dbc (str : ℝ → Text) {r : DbcRow} (hc : BinaryCode r.code) (hu : r.disps.length = 3)
    (hb : ∀ u ∈ r.disps, (sciField 11 4 u).head? = some ' ') :
    dispLine (pythonNumbers str) (dbcText r)
      = .ok ((r.label : ℤ), prescribedOf (roundSig 4) r.code r.disps) := by
  unfold dispLine fieldOf
  rw [splitBlank_dbc hc, splitBlank_fields _ hb]
  have hm : ((r.disps.map (sciText 4)).take 3).mapM (pythonNumbers str).float
      = .ok (r.disps.map (roundSig 4)) := by
    rw [List.take_of_length_le (by rw [List.length_map]; omega), List.mapM_map]
    exact mapM_of_forall fun x _ => float_sci str 4 x
  simp only [List.getElem?_cons_zero, List.getElem?_cons_succ, orRaise, bind, Except.bind,
    List.drop_succ_cons, List.drop_zero, intOfText_word, (code_text hc.2).1, hm, nodeBcs_binary hc hu,
    pure, Except.pure]

/-! ## The conditions of a specimen -/

theorem specimenCode_binary (top x y z : ℝ) : BinaryCode (specimenCode top x y z) := by
  refine ⟨rfl, ?_⟩
  unfold specimenCode
  intro c hc
  simp only [List.mem_cons, List.not_mem_nil, or_false] at hc
  rcases hc with rfl | rfl | rfl <;> split_ifs <;> simp

/-- The numbers that are separated from each other in the file. -/
def FitsField (x : ℝ) : Prop :=
  x = 0 ∨ ((10 : ℝ) ^ (-99 : ℤ) ≤ x ∧ x < (10 : ℝ) ^ (99 : ℤ))

theorem fits_head {x : ℝ} (h : FitsField x) : (sciField 11 4 x).head? = some ' ' := by
  have h0 : ¬ x < 0 := by
    rcases h with rfl | h
    · simp
    · exact not_lt.mpr (le_trans (by positivity) h.1)
  refine padLeft_head ?_
  rw [sciText_length, exponent_length (exponent_small ?_), if_neg h0]
  · norm_num
  · rcases h with h | h
    · exact .inl h
    · rw [abs_of_nonneg (not_lt.mp h0)]
      exact .inr h

/-- **C114 (file).** The conditions of a specimen are read from the file written: of the nodes on its
planes, in the order of the nodes, the prescribed directions and displacements, rounded to five
significant digits; the group of the loaded nodes does not matter. -/
theorem C114_file (str : ℝ → Text) {name : String} (hn : name ∈ specimenNames) {top disp : ℝ}
    (hd : FitsField disp) {coords : List (List ℝ)} (h3 : ∀ r ∈ coords, r.length = 3)
    (reactionGroup : Bool) :
    ∃ rows bcs, buildDbc name top disp coords = .ok rows ∧
      extractBcs (pythonNumbers str) (dbcFile rows reactionGroup) = .ok bcs ∧
      (bcs.map Prod.fst).Pairwise (· < ·) ∧
      ∀ n b, (n, b) ∈ bcs ↔ ∃ i x y z, coords[i]? = some [x, y, z] ∧
        specimenCode top x y z ≠ [0, 0, 0] ∧ n = ((i + 1 : ℕ) : ℤ) ∧
        b = prescribedOf (roundSig 4) (specimenCode top x y z) (specimenDisps top disp y) := by
  obtain ⟨rows, hr, hp, hm⟩ := C114_conditions hn top disp h3
  have hrow : ∀ r ∈ rows, dispLine (pythonNumbers str) (dbcText r)
      = .ok ((r.label : ℤ), prescribedOf (roundSig 4) r.code r.disps) := by
    intro r hr
    obtain ⟨i, x, y, z, -, -, rfl⟩ := (hm r).mp hr
    refine dispLine_dbc str (specimenCode_binary _ _ _ _) rfl ?_
    intro u hu
    dsimp only at hu
    unfold specimenDisps at hu
    simp only [List.mem_cons, List.not_mem_nil, or_false] at hu
    refine fits_head ?_
    rcases hu with rfl | rfl | rfl
    · exact .inl rfl
    · split_ifs
      · exact hd
      · exact .inl rfl
    · exact .inl rfl
  refine ⟨rows, rows.map fun r => ((r.label : ℤ), prescribedOf (roundSig 4) r.code r.disps), hr, ?_, ?_,
    ?_⟩
  · rw [extractBcs_file, dispEvent_rows (g := fun r => prescribedOf (roundSig 4) r.code r.disps) rows hp
      hrow [] (by simp [KDict.keys]), List.nil_append]
    rfl
  · rw [List.map_map, List.pairwise_map]
    exact hp.imp fun {a b} h => by simpa using h
  · intro n b
    rw [List.mem_map]
    constructor
    · rintro ⟨r, hr, he⟩
      obtain ⟨i, x, y, z, h1, h2, rfl⟩ := (hm r).mp hr
      rw [Prod.mk.injEq] at he
      exact ⟨i, x, y, z, h1, h2, he.1.symm, he.2.symm⟩
    · rintro ⟨i, x, y, z, h1, h2, rfl, rfl⟩
      exact ⟨_, (hm _).mpr ⟨i, x, y, z, h1, h2, rfl⟩, rfl⟩

/-- **C114 (loaded nodes).** The nodes of the group are those on the top and not on the base, if the
displacement is larger than 1e-8. -/
theorem C114_reactions {name : String} (hn : name ∈ specimenNames) {top disp : ℝ}
    (hd : 1e-8 < disp) {coords : List (List ℝ)} (h3 : ∀ r ∈ coords, r.length = 3) :
    ∃ rows, buildDbc name top disp coords = .ok rows ∧
      (reactionNodes rows).Pairwise (· < ·) ∧
      ∀ n, n ∈ reactionNodes rows ↔ ∃ i x y z, coords[i]? = some [x, y, z] ∧
        OnPlane y top ∧ ¬ OnPlane y 0 ∧ n = i + 1 := by
  obtain ⟨rows, hr, hp, hm⟩ := C114_conditions hn top disp h3
  refine ⟨rows, hr, ?_, ?_⟩
  · unfold reactionNodes
    rw [List.pairwise_map]
    exact hp.filter _
  · intro n
    unfold reactionNodes
    rw [List.mem_map]
    constructor
    · rintro ⟨r, hr, rfl⟩
      obtain ⟨hr, hu⟩ := List.mem_filter.mp hr
      obtain ⟨i, x, y, z, h1, h2, rfl⟩ := (hm r).mp hr
      refine ⟨i, x, y, z, h1, ?_⟩
      by_cases h : OnPlane y top ∧ ¬ OnPlane y 0
      · exact ⟨h.1, h.2, rfl⟩
      · exfalso
        unfold specimenDisps at hu
        rw [if_neg h] at hu
        norm_num at hu
    · rintro ⟨i, x, y, z, h1, h2, h3, rfl⟩
      refine ⟨_, List.mem_filter.mpr ⟨(hm _).mpr ⟨i, x, y, z, h1, ?_, rfl⟩, ?_⟩, rfl⟩
      · unfold specimenCode
        rw [if_pos (Or.inr h2)]
        simp
      · unfold specimenDisps
        rw [if_pos ⟨h2, h3⟩]
        simp [hd]

/-! ## From the simulation file -/

theorem nodeEvent_of_rowEvent {α : Type} {row : Text → Py α} {es : List ScanEvent}
    {s t : Option (List α)} (h : es.foldlM (rowEvent row) s = .ok t) :
    es.foldlM (nodeEvent row) s = .ok t := by
  induction es generalizing s with
  | nil => exact h
  | cons e es ih =>
    rw [List.foldlM_cons] at h ⊢
    obtain ⟨s', h1, h2⟩ := bind_ok h
    have : nodeEvent row s e = .ok s' := by
      cases e with
      | key l =>
        unfold rowEvent at h1
        dsimp only at h1
        obtain ⟨f, -, h1⟩ := bind_ok h1
        obtain ⟨z, -, h1⟩ := bind_ok h1
        exact h1
      | data l => exact h1
    rw [this]
    exact ih h2

/-- The nodes read are those that `extract_mesh_coordinates_from_links_data` reads. -/
theorem readNodesMesh_of {F : NumberText} {file : Text} {coords : List (List ℝ)}
    (h : extractCoords F file = .ok coords) : readNodesMesh F file = .ok coords := by
  unfold extractCoords extractRows at h
  obtain ⟨s, h1, h2⟩ := bind_ok h
  unfold readNodesMesh
  rw [nodeEvent_of_rowEvent h1]
  exact h2

/-- **C114 (pipeline).** From the input data file of a simulation to the conditions read from the file
written for a specimen: they are those of the nodes with coordinates rounded to nine digits. -/
theorem C114_pipeline {str : ℝ → Text} (hs : ∀ x, ∀ c ∈ str x, NumeralChar c)
    {coords : List (List ℝ)} {conns : List (List ℤ)} {cd : KDict ℕ (List ℝ)}
    {ed : KDict ℕ (List ℤ)} {phase : KDict ℕ ℕ} {disps : KDict ℕ (List (Option ℝ))}
    (hd : LinksData 3 coords conns cd ed phase disps) (hp : ShortPhases phase)
    (hb : BlankBefore (pythonNumbers str) disps) {t : String} {T : Text} {g : ℕ}
    (ht : linksElemTypeData 3 t = .ok (T, g)) (ip : LinksParams) (increm : List Text)
    (phases : List ℕ) (materials : List Text)
    (hH : KeywordFree (linksHeader ip increm phases).flatten) (hM : KeywordFree materials.flatten)
    (h3 : ∀ r ∈ coords, r.length = 3) {name : String} (hn : name ∈ specimenNames) {top disp : ℝ}
    (hf : FitsField disp) :
    ∃ file dbc bcs,
      writeLinksFile (pythonNumbers str) 3 ip increm phases T g materials cd ed phase disps = .ok file ∧
      specimenDbcFile (pythonNumbers str) name top disp file = .ok dbc ∧
      extractBcs (pythonNumbers str) dbc = .ok bcs ∧
      ∀ n b, (n, b) ∈ bcs ↔ ∃ i x y z, coords[i]? = some [x, y, z] ∧
        specimenCode top (roundSig 8 x) (roundSig 8 y) (roundSig 8 z) ≠ [0, 0, 0] ∧
        n = ((i + 1 : ℕ) : ℤ) ∧
        b = prescribedOf (roundSig 4) (specimenCode top (roundSig 8 x) (roundSig 8 y) (roundSig 8 z))
          (specimenDisps top disp (roundSig 8 y)) := by
  obtain ⟨file, hw, -, hc, -⟩ :=
    C106_extract (C113_faithful hs) hd hp hb ht ip increm phases materials hH hM
  obtain ⟨rows, bcs, h1, h2, -, h4⟩ := C114_file str hn (top := top) hf
    (coords := coords.map fun r => r.map (roundSig 8)) (by
      intro r hr
      obtain ⟨r', hr', rfl⟩ := List.mem_map.mp hr
      rw [List.length_map]
      exact h3 r' hr') true
  refine ⟨file, dbcFile rows true, bcs, hw, ?_, h2, ?_⟩
  · unfold specimenDbcFile
    rw [readNodesMesh_of hc]
    simp only [bind, Except.bind]
    rw [h1]
    rfl
  · intro n b
    rw [h4]
    constructor
    · rintro ⟨i, x, y, z, hi, h0, rfl, rfl⟩
      rw [List.getElem?_map] at hi
      obtain ⟨r, hr, he⟩ := Option.map_eq_some_iff.mp hi
      obtain ⟨x', y', z', rfl⟩ := List.length_eq_three.mp (h3 r (List.mem_of_getElem? hr))
      simp only [List.map_cons, List.map_nil, List.cons.injEq, and_true] at he
      obtain ⟨rfl, rfl, rfl⟩ := he
      exact ⟨i, x', y', z', hr, h0, rfl, rfl⟩
    · rintro ⟨i, x, y, z, hi, h0, rfl, rfl⟩
      exact ⟨i, _, _, _, by rw [List.getElem?_map, hi]; rfl, h0, rfl, rfl⟩

end Hooke
