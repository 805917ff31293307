import Verif.Lemmas.MapM
import Verif.Props.LinksFile
import Verif.Props.SpecimenMeshCases

/-!
# C106: from a Links input data file to the specimen mesh, and what goes wrong
-/

namespace Hooke

open Spec

/-! ### Keywords -/

theorem matchWord_iff (pat s : Text) : matchWord pat s = true ↔
    ∃ w b, s = w ++ b ∧ w.map Char.toLower = pat.map Char.toLower ∧ noWordNext b = true := by
  constructor
  · intro h
    unfold matchWord at h
    split at h
    · rename_i r hr
      obtain ⟨w, rfl, hw⟩ := afterPrefixCI_some hr
      exact ⟨w, r, rfl, hw, h⟩
    · cases h
  · rintro ⟨w, b, rfl, hw, hb⟩
    have : afterPrefixCI pat (w ++ b) = some b := by
      induction pat generalizing w with
      | nil =>
        simp only [List.map_nil, List.map_eq_nil_iff] at hw
        subst hw
        rfl
      | cons c cs ih =>
        cases w with
        | nil => simp at hw
        | cons d ds =>
          simp only [List.map_cons, List.cons.injEq] at hw
          rw [List.cons_append, afterPrefixCI, if_pos hw.1.symm]
          exact ih ds hw.2
    unfold matchWord
    rw [this]
    exact hb

theorem searchWhole_iff (pat : Text) : ∀ (s : Text) (prev : Bool), searchWhole pat prev s = true ↔
    ∃ a w b, s = a ++ w ++ b ∧ w.map Char.toLower = pat.map Char.toLower ∧ noWordNext b = true ∧
      ((a.getLast?.map isWordChar).getD prev) = false := by
  intro s
  induction s with
  | nil =>
    intro prev
    unfold searchWhole
    rw [Bool.and_eq_true, matchWord_iff]
    constructor
    · rintro ⟨hp, w, b, hs, hw, hb⟩
      exact ⟨[], w, b, hs, hw, hb, by simpa using hp⟩
    · rintro ⟨a, w, b, hs, hw, hb, ha⟩
      obtain rfl : a = [] := by
        have := hs.symm
        simp only [List.append_eq_nil_iff] at this
        exact this.1.1
      exact ⟨by simpa using ha, w, b, by simpa using hs, hw, hb⟩
  | cons c cs ih =>
    intro prev
    unfold searchWhole
    rw [Bool.or_eq_true, Bool.and_eq_true, matchWord_iff, ih]
    constructor
    · rintro (⟨hp, w, b, hs, hw, hb⟩ | ⟨a, w, b, hs, hw, hb, ha⟩)
      · exact ⟨[], w, b, hs, hw, hb, by simpa using hp⟩
      · refine ⟨c :: a, w, b, by simp [hs], hw, hb, ?_⟩
        rw [List.getLast?_cons]
        cases h : a.getLast? <;> simpa [h] using ha
    · rintro ⟨a, w, b, hs, hw, hb, ha⟩
      cases a with
      | nil => exact .inl ⟨by simpa using ha, w, b, by simpa using hs, hw, hb⟩
      | cons d a =>
        simp only [List.cons_append, List.cons.injEq] at hs
        obtain ⟨rfl, hs⟩ := hs
        refine .inr ⟨a, w, b, by simp [hs], hw, hb, ?_⟩
        rw [List.getLast?_cons] at ha
        cases h : a.getLast? <;> simpa [h] using ha

/-- **C106 (keyword of the Gauss points).** The line with the number of Gauss points is recognised exactly
by the whole word, in upper or lower case: neither the character before it nor the one after it, if there
is one, is a letter, a digit or an underscore. -/
theorem C106_whole_word (pat s : Text) : searchWhole pat false s = true ↔
    ∃ a w b, s = a ++ w ++ b ∧ w.map Char.toLower = pat.map Char.toLower ∧
      (∀ c, a.getLast? = some c → ¬ (c.isAlphanum = true ∨ c = '_')) ∧
      (∀ c, b.head? = some c → ¬ (c.isAlphanum = true ∨ c = '_')) := by
  rw [searchWhole_iff]
  have hb : ∀ b : Text, noWordNext b = true ↔
      ∀ c, b.head? = some c → ¬ (c.isAlphanum = true ∨ c = '_') := by
    intro b
    cases b <;> simp [noWordNext, isWordChar]
  have ha : ∀ a : Text, ((a.getLast?.map isWordChar).getD false) = false ↔
      ∀ c, a.getLast? = some c → ¬ (c.isAlphanum = true ∨ c = '_') := by
    intro a
    cases a.getLast? <;> simp [isWordChar]
  constructor
  · rintro ⟨a, w, b, h1, h2, h3, h4⟩
    exact ⟨a, w, b, h1, h2, (ha a).mp h4, (hb b).mp h3⟩
  · rintro ⟨a, w, b, h1, h2, h3, h4⟩
    exact ⟨a, w, b, h1, h2, (hb b).mpr h4, (ha a).mpr h3⟩

example : searchWhole "GP".toList false "4 gp".toList = true ∧
    searchWhole "GP".toList false "NGP 4".toList = false := by decide


theorem linksToAbaqus_kind {nDim : ℕ} {t cls : String} {T : Text} {g g' : ℕ}
    (ht : linksElemTypeData nDim t = .ok (T, g)) (hk : (t, cls, g') ∈ linksKinds) :
    ∃ a : String, linksToAbaqus T (g : ℤ) = .ok a.toList ∧ (a, cls, g') ∈ elementTable := by
  simp only [linksKinds, List.mem_cons, List.not_mem_nil, or_false, Prod.mk.injEq] at hk
  unfold linksElemTypeData at ht
  rcases hk with ⟨rfl, rfl, rfl⟩ | ⟨rfl, rfl, rfl⟩ | ⟨rfl, rfl, rfl⟩ <;>
    by_cases h2 : nDim = 2 <;> simp [h2] at ht <;> obtain ⟨rfl, rfl⟩ := ht
  · exact ⟨"CPE4", by decide, by decide⟩
  · exact ⟨"C3D8", by decide, by decide⟩
  · exact ⟨"C3D20R", by decide, by decide⟩

/-- **C106.** A mesh written to a Links input data file, converted to a specimen mesh file and read
from there is the same mesh: coordinates (rounded twice), element type, connectivities, and marks of
exactly the degrees of freedom of the nodes with prescribed displacements. -/
theorem C106_pipeline {F : NumberText} {rd : ℝ → ℝ} (hF : FaithfulText F rd) {nDim : ℕ}
    {coords : List (List ℝ)} {conns : List (List ℤ)} {cd : KDict ℕ (List ℝ)}
    {ed : KDict ℕ (List ℤ)} {phase : KDict ℕ ℕ} {disps : KDict ℕ (List (Option ℝ))}
    (hd : LinksData nDim coords conns cd ed phase disps) (hp : ShortPhases phase)
    (hb : BlankBefore F disps) (hm : LinksMesh nDim coords conns disps) {t cls : String} {T : Text}
    {g g' : ℕ} (ht : linksElemTypeData nDim t = .ok (T, g)) (hk : (t, cls, g') ∈ linksKinds)
    (ip : LinksParams) (increm : List Text) (phases : List ℕ) (materials : List Text)
    (hH : KeywordFree (linksHeader ip increm phases).flatten) (hM : KeywordFree materials.flatten) :
    ∃ file mesh m,
      writeLinksFile F nDim ip increm phases T g materials cd ed phase disps = .ok file ∧
      linksToMeshFile F file = .ok mesh ∧ readSpecimenMesh F nDim mesh = .ok m ∧
      m.coords = coords.map (fun r => (r.take nDim).map fun x => rd (rd x)) ∧
      m.types = (List.range conns.length).map (fun i => (((i + 1 : ℕ) : ℤ), ⟨cls, g'⟩)) ∧
      m.conns.map Prod.fst = (List.range conns.length).map (fun i => ((i + 1 : ℕ) : ℤ)) ∧
      m.conns.map Prod.snd = conns ∧
      ∀ i d, i < coords.length → d < nDim →
        ((i + 1 ∈ disps.map Prod.fst → m.flags i d = 1) ∧
          (i + 1 ∉ disps.map Prod.fst → m.flags i d = 0)) := by
  obtain ⟨file, hw, h1, h2, h3, b, h4, -, -, hmem⟩ :=
    C106_extract hF hd hp hb ht ip increm phases materials hH hM
  obtain ⟨a, ha, hel⟩ := linksToAbaqus_kind ht hk
  have hmesh : linksToMeshFile F file = .ok
      (writeMeshFile F (coords.map fun r => r.map rd) conns a.toList (some b)) := by
    unfold linksToMeshFile
    simp only [h1, ha, h2, h3, h4, bind, Except.bind, pure, Except.pure]
  have hproper : ProperMesh nDim (coords.map fun r => r.map rd) conns (some b) := by
    obtain ⟨w, hw'⟩ := hd.coordsWidth
    refine ⟨?_, ?_, ⟨w, ?_, ?_⟩, hm.connNonempty, ?_, ?_, ?_⟩
    · rcases hm.dim with h | h <;> omega
    · simpa using hm.nonempty
    · obtain ⟨r, hr⟩ := List.exists_mem_of_ne_nil _ hm.nonempty
      rw [← hw' r hr]
      exact hm.width r hr
    · intro r hr
      obtain ⟨r', hr', rfl⟩ := List.mem_map.mp hr
      rw [List.length_map]
      exact hw' r' hr'
    · rw [List.length_map]; exact hm.connRange
    · rw [List.length_map]; exact hm.covered
    · rintro b' hb' n ds hn
      cases hb'
      obtain ⟨k, v, hv, rfl, -⟩ := (hmem n ds).mp hn
      have := hm.dispsRange _ _ hv
      rw [List.length_map]
      omega
  obtain ⟨m, hr, hrb⟩ := C105_round_trip hF hproper hel
  refine ⟨file, _, m, hw, hmesh, hr, ?_, hrb.types, hrb.labels, hrb.nodes, ?_⟩
  · rw [hrb.readCoords, List.map_map]
    refine List.map_congr_left fun r _ => ?_
    simp only [Function.comp_apply]
    rw [← List.map_take, List.map_map]
    rfl
  · intro i d hi hdn
    have key : Prescribed (some b) ((i : ℤ) + 1) (d + 1) ↔ i + 1 ∈ disps.map Prod.fst := by
      constructor
      · rintro ⟨b', ds, u, hb', hn, -⟩
        cases hb'
        obtain ⟨k, v, hv, he, -⟩ := (hmem _ _).mp hn
        have : i + 1 = k := by omega
        rw [this]
        exact List.mem_map.mpr ⟨_, hv, rfl⟩
      · intro hin
        obtain ⟨⟨n, u⟩, hu, hn⟩ := List.mem_map.mp hin
        dsimp only at hn
        subst hn
        obtain ⟨v, rfl, hl⟩ := hd.dispsValues _ _ hu
        have hl3 : (v ++ (if nDim = 2 then [0] else [])).length = 3 := by
          by_cases h2 : nDim = 2
          · rw [if_pos h2] at hl ⊢; simp [hl]
          · rw [if_neg h2] at hl ⊢; simp [hl]
        have hd3 : d < 3 := by rcases hm.dim with h | h <;> omega
        refine ⟨b, readDisps rd nDim v, rd ((v ++ (if nDim = 2 then [0] else []))[d]'(by omega)), rfl,
          (hmem _ _).mpr ⟨i + 1, v, hu, by push_cast; rfl, rfl⟩, ?_⟩
        unfold readDisps
        rw [List.mem_map]
        refine ⟨((v ++ (if nDim = 2 then [0] else []))[d]'(by omega), d + 1), ?_, rfl⟩
        rw [List.mem_iff_getElem]
        refine ⟨d, by rw [List.length_zipIdx]; omega, ?_⟩
        simp [Nat.add_comm]
    refine ⟨fun h => hrb.marked i d (by simpa using hi) hdn (key.mpr h), fun h =>
      hrb.unmarked i d (by simpa using hi) hdn fun h' => h (key.mp h')⟩

/-! ## A case -/

/-- The pattern occurs in the text, in upper or lower case. -/
def occursCI (pat : Text) : Text → Bool
  | [] => (afterPrefixCI pat []).isSome
  | c :: cs => (afterPrefixCI pat (c :: cs)).isSome || occursCI pat cs

theorem afterPrefixCI_of_map {w kw : Text} (h : w.map Char.toLower = kw.map Char.toLower) (b : Text) :
    afterPrefixCI kw (w ++ b) = some b := by
  induction kw generalizing w with
  | nil =>
    rw [List.map_nil, List.map_eq_nil_iff] at h
    subst h
    rfl
  | cons c cs ih =>
    cases w with
    | nil => cases h
    | cons d ds =>
      simp only [List.map_cons, List.cons.injEq] at h
      rw [List.cons_append, afterPrefixCI, if_pos h.1.symm]
      exact ih h.2

theorem occursCI_of {kw : Text} (a : Text) {w b : Text}
    (h : w.map Char.toLower = kw.map Char.toLower) : occursCI kw (a ++ (w ++ b)) = true := by
  induction a with
  | nil =>
    have := afterPrefixCI_of_map h b
    cases hwb : w ++ b with
    | nil => rw [hwb] at this; simp [occursCI, this]
    | cons c cs => rw [hwb] at this; simp [occursCI, this]
  | cons c cs ih => simp [occursCI, ih]

theorem keywordFree_of {s : Text} (h : (linksKeywords.all fun kw => !occursCI kw s) = true) :
    KeywordFree s := by
  rintro kw hk ⟨a, w, b, rfl, hw⟩
  rw [List.all_eq_true] at h
  have := h kw hk
  rw [List.append_assoc, occursCI_of a hw] at this
  cases this

/-- Default parameters, with a title. -/
def linksParamsOf (title : Text) : LinksParams where
  title := title
  analysisType := "5".toList
  largeStrain := "ON".toList
  solutionAlgorithm := "2".toList
  solver := "PARDISO".toList
  parallelSolver := "4".toList
  vtkOutput := "NONE".toList
  nodeData := "NODE_DATA_OUTPUT ALL".toList
  globalData := "GLOBAL_DATA_OUTPUT ALL".toList

/-- The theorems cover a mesh of two quadrilaterals pulled on the right. -/
example : ∃ file mesh m,
    writeLinksFile wholeText 2 (linksParamsOf "Patch".toList) ["\nNUMBER_OF_INCREMENTS 10\n".toList] [1]
      "QUAD4".toList 4 ["1 ELASTIC\n".toList]
      [(1, [0, 0]), (2, [1, 0]), (3, [2, 0]), (4, [0, 1]), (5, [1, 1]), (6, [2, 1])]
      [(1, [1, 2, 5, 4]), (2, [2, 3, 6, 5])] [(1, 1), (2, 1)]
      [(6, [some 3, some 1]), (1, [some 0, some 0]), (3, [some 3, some 0]), (4, [some 0, some 0])]
      = .ok file ∧
    linksToMeshFile wholeText file = .ok mesh ∧ readSpecimenMesh wholeText 2 mesh = .ok m ∧
    m.conns.map Prod.snd = [[1, 2, 5, 4], [2, 3, 6, 5]] ∧ m.flags 2 1 = 1 ∧ m.flags 1 0 = 0 := by
  obtain ⟨file, mesh, m, h1, h2, h3, -, -, -, h4, h5⟩ := C106_pipeline
    (F := wholeText) (nDim := 2) wholeText_faithful
    (coords := [[0, 0], [1, 0], [2, 0], [0, 1], [1, 1], [2, 1]])
    (conns := [[1, 2, 5, 4], [2, 3, 6, 5]])
    (cd := [(1, [0, 0]), (2, [1, 0]), (3, [2, 0]), (4, [0, 1]), (5, [1, 1]), (6, [2, 1])])
    (ed := [(1, [1, 2, 5, 4]), (2, [2, 3, 6, 5])]) (phase := [(1, 1), (2, 1)])
    (disps := [(6, [some 3, some 1]), (1, [some 0, some 0]), (3, [some 3, some 0]),
      (4, [some 0, some 0])])
    ⟨⟨rfl, fun i => by rcases i with _ | _ | _ | _ | _ | _ | i <;> simp [KDict.get?]⟩,
      ⟨rfl, fun i => by rcases i with _ | _ | i <;> simp [KDict.get?]⟩, ⟨2, by simp⟩, ⟨4, by simp⟩,
      fun i hi => by
        have : i = 0 ∨ i = 1 := by simp at hi; omega
        rcases this with rfl | rfl
        · exact ⟨1, rfl⟩
        · exact ⟨1, rfl⟩,
      by decide, fun n u h => by
        simp only [List.mem_cons, List.not_mem_nil, or_false, Prod.mk.injEq] at h
        rcases h with ⟨-, rfl⟩ | ⟨-, rfl⟩ | ⟨-, rfl⟩ | ⟨-, rfl⟩
        · exact ⟨[3, 1], rfl, rfl⟩
        · exact ⟨[0, 0], rfl, rfl⟩
        · exact ⟨[3, 0], rfl, rfl⟩
        · exact ⟨[0, 0], rfl, rfl⟩⟩
    (fun i m h => by
      rcases i with _ | _ | _ | i <;> simp [KDict.get?] at h <;> omega)
    (fun n x u h => by
      simp only [List.mem_cons, List.not_mem_nil, or_false, Prod.mk.injEq, List.cons.injEq,
        Option.some.injEq] at h
      have hx : x = ((3 : ℕ) : ℝ) ∨ x = ((0 : ℕ) : ℝ) := by
        rcases h with h | h | h | h <;> simp [h.2.1]
      rcases hx with rfl | rfl
      · simp only [wholeText, Nat.floor_natCast]; decide
      · simp only [wholeText, Nat.floor_natCast]; decide)
    ⟨Or.inl rfl, by simp, by simp, by simp, by
        intro e he v hv
        simp only [List.mem_cons, List.not_mem_nil, or_false] at he
        rcases he with rfl | rfl <;> simp at hv ⊢ <;> omega, by
        intro v h1 h2
        have : v = 1 ∨ v = 2 ∨ v = 3 ∨ v = 4 ∨ v = 5 ∨ v = 6 := by simp at h2; omega
        rcases this with rfl | rfl | rfl | rfl | rfl | rfl <;> simp, by
        intro n u h
        simp only [List.mem_cons, List.not_mem_nil, or_false, Prod.mk.injEq] at h
        simp only [List.length_cons, List.length_nil]
        omega⟩
    (t := "SQUAD4") (T := "QUAD4".toList) (g := 4) (cls := "FEQuad4") (g' := 4) rfl (by decide)
    (linksParamsOf "Patch".toList)
    ["\nNUMBER_OF_INCREMENTS 10\n".toList] [1] ["1 ELASTIC\n".toList]
    (keywordFree_of (by decide +kernel)) (keywordFree_of (by decide +kernel))
  exact ⟨file, mesh, m, h1, h2, h3, h4, (h5 2 1 (by simp) (by simp)).1 (by simp),
    (h5 1 0 (by simp) (by simp)).2 (by simp)⟩

/-! ## What goes wrong -/

theorem strNat_length_four {m : ℕ} (h1 : 1000 ≤ m) (h2 : m < 10000) : (strNat m).length = 4 := by
  unfold strNat
  rw [if_neg (by omega), List.length_reverse, List.length_map]
  apply le_antisymm
  · exact (Nat.digits_length_le_iff (by norm_num) _).mpr h2
  · exact (Nat.lt_digits_length_iff (by norm_num) _).mpr h1

theorem elemRow_glued {i m : ℕ} (e : List ℤ) (h1 : 1000 ≤ m) (h2 : m < 10000) :
    ((splitBlank (linksElemText i m e)).drop 2).mapM intOfText = .ok e.tail := by
  have hl := strNat_length_four h1 h2
  have e1 : linksElemText i m e = (List.replicate (3 - (textOfInt (i : ℤ)).length) ' '
      ++ (textOfInt (i : ℤ) ++ strNat m)) ++ ' ' :: joinText " ".toList (e.map textOfInt) := by
    unfold linksElemText padCenter padLeft
    rw [textOfInt_natCast m, hl]
    simp
  rw [e1, splitBlank_append (by decide), splitBlank_blanks, splitBlank_ints, splitBlank_word]
  · cases e with
    | nil => rfl
    | cons z zs =>
      simp only [List.map_cons, List.singleton_append, List.drop_succ_cons, List.drop_zero,
        List.tail_cons]
      rw [List.mapM_map]
      have := mapM_of_forall (l := zs) (f := intOfText ∘ textOfInt) (g := id)
        fun z _ => intOfText_word z
      rwa [List.map_id] at this
  · intro h
    exact textOfInt_ne_nil _ (List.append_eq_nil_iff.mp h).1
  · intro c hc
    rcases List.mem_append.mp hc with hc | hc
    · exact isBlankChar_numeral (numeral_int hc)
    · exact isBlankChar_digit (isDigit_of_mem_strNat hc)

/-- **C106 is violated for quadrilaterals of eight nodes.** A simulation can be written with them; the
conversion to a specimen mesh raises an error, whatever the mesh. -/
theorem C106_quad8_violated {F : NumberText} {rd : ℝ → ℝ} (hF : FaithfulText F rd)
    {coords : List (List ℝ)} {conns : List (List ℤ)} {cd : KDict ℕ (List ℝ)}
    {ed : KDict ℕ (List ℤ)} {phase : KDict ℕ ℕ} {disps : KDict ℕ (List (Option ℝ))}
    (hd : LinksData 2 coords conns cd ed phase disps)
    (ip : LinksParams) (increm : List Text) (phases : List ℕ) (materials : List Text)
    (hH : KeywordFree (linksHeader ip increm phases).flatten) :
    ∃ T g file, linksElemTypeData 2 "SQUAD8" = .ok (T, g) ∧
      writeLinksFile F 2 ip increm phases T g materials cd ed phase disps = .ok file ∧
      linksToMeshFile F file = .error .runtimeError := by
  obtain ⟨file, hw, hf⟩ := writeLinks_lines hF hd ip increm phases (T := "QUAD8".toList) (by decide)
    4 materials
  refine ⟨_, _, file, rfl, hw, ?_⟩
  have h1 := extractElemType_of hH (Or.inr (Or.inl ⟨rfl, rfl⟩)) hf
  have h2 : linksToAbaqus "QUAD8".toList ((4 : ℕ) : ℤ) = .error .runtimeError := by decide
  unfold linksToMeshFile
  simp only [h1, h2, bind, Except.bind]

/-- The first lines of the file. -/
theorem writeLinks_title {F : NumberText} {nDim : ℕ} {ip : LinksParams} {increm : List Text}
    {phases : List ℕ} {T : Text} {g : ℕ} {materials : List Text} {cd : KDict ℕ (List ℝ)}
    {ed : KDict ℕ (List ℤ)} {phase : KDict ℕ ℕ} {disps : KDict ℕ (List (Option ℝ))} {file : Text}
    (h : writeLinksFile F nDim ip increm phases T g materials cd ed phase disps = .ok file) :
    ∃ rest, file = "\nTITLE \n".toList ++ (ip.title ++ '\n' :: rest) := by
  unfold writeLinksFile at h
  obtain ⟨els, -, h⟩ := bind_ok h
  obtain ⟨nds, -, h⟩ := bind_ok h
  obtain ⟨bcs, -, h⟩ := bind_ok h
  cases h
  unfold linksHeader
  simp only [List.cons_append, List.flatten_cons, List.append_assoc, List.nil_append]
  exact ⟨_, rfl⟩

/-- **C106 is violated for titles.** If the title of the simulation is `Tension of 8 elements`, the
connectivities cannot be extracted from the file written: the title is taken for the keyword of the
elements. -/
theorem C106_title_violated {F : NumberText} {nDim : ℕ} {ip : LinksParams} {increm : List Text}
    {phases : List ℕ} {T : Text} {g : ℕ} {materials : List Text} {cd : KDict ℕ (List ℝ)}
    {ed : KDict ℕ (List ℤ)} {phase : KDict ℕ ℕ} {disps : KDict ℕ (List (Option ℝ))} {file : Text}
    (h : writeLinksFile F nDim ip increm phases T g materials cd ed phase disps = .ok file)
    (ht : ip.title = "Tension of 8 elements".toList) :
    extractConns file = .error .valueError := by
  obtain ⟨rest, rfl⟩ := writeLinks_title h
  have hl : fileLines ("\nTITLE \n".toList ++ (ip.title ++ '\n' :: rest))
      = [[], "TITLE ".toList] ++ ("Tension of 8 elements".toList :: fileLines rest) := by
    have := fileLines_lines [[], "TITLE ".toList, "Tension of 8 elements".toList] (by decide) rest
    rw [ht]
    exact this
  unfold extractConns extractRows
  rw [hl, scanLines_skip _ _ (by decide), scanLines_key _ _ (by decide), List.foldlM_cons]
  have h1 : rowEvent (fun l => ((splitBlank l).drop 2).mapM intOfText) none
      (ScanEvent.key "Tension of 8 elements".toList) = .error .valueError := rfl
  rw [h1]
  rfl

/-- **C106 is violated for free degrees of freedom.** A displacement `None`, for which the code of the
prescription has a zero, cannot be written. -/
theorem C106_free_dof_violated {F : NumberText} {nDim : ℕ} {ip : LinksParams} {increm : List Text}
    {phases : List ℕ} {T : Text} {g : ℕ} {materials : List Text} {cd : KDict ℕ (List ℝ)}
    {ed : KDict ℕ (List ℤ)} {phase : KDict ℕ ℕ} {disps : KDict ℕ (List (Option ℝ))}
    {els nds : List Text} (he : linksElementLines ed phase = .ok els)
    (hn : linksNodeLines F cd = .ok nds) {n : ℕ} {u : List (Option ℝ)} (hu : (n, u) ∈ disps)
    (hnone : none ∈ u) (hdup : (disps.map Prod.fst).Nodup) :
    writeLinksFile F nDim ip increm phases T g materials cd ed phase disps = .error .typeError := by
  have key : ∀ m ∈ sortedLabels disps, (linksDispLine F nDim disps m = .error .typeError ∨
      ∃ b, linksDispLine F nDim disps m = .ok b) ∧
      (m = n → linksDispLine F nDim disps m = .error .typeError) := by
    intro m hm
    obtain ⟨⟨k, w⟩, hk, hkm⟩ := List.mem_map.mp (mem_sortedLabels.mp hm)
    dsimp only at hkm
    subst hkm
    have hg : disps.get? k = some w := get?_of_mem disps hdup _ _ hk
    unfold linksDispLine
    rw [hg]
    simp only [orRaise, bind, Except.bind]
    by_cases hw : none ∈ w
    · have h1 : none ∈ (if nDim = 2 then w ++ [some 0] else w) := by
        by_cases h2 : nDim = 2
        · rw [if_pos h2]; exact List.mem_append_left _ hw
        · rw [if_neg h2]; exact hw
      have h2 := mapM_error (f := fun x : Option ℝ => orRaise x PyErr.typeError) h1 rfl
        (by rintro (_ | y) _; exacts [Or.inl rfl, Or.inr ⟨y, rfl⟩])
      simp only [orRaise] at h2
      rw [h2]
      exact ⟨Or.inl rfl, fun _ => rfl⟩
    · refine ⟨?_, ?_⟩
      · rcases hres : (if nDim = 2 then w ++ [some 0] else w).mapM
          (fun x : Option ℝ => orRaise x PyErr.typeError) with e | vals
        · obtain ⟨x, hx, hxe⟩ := mapM_error_mem hres
          cases x with
          | some y => cases hxe
          | none =>
            exfalso
            by_cases h2 : nDim = 2
            · rw [if_pos h2] at hx; simp at hx; exact hw hx
            · rw [if_neg h2] at hx; exact hw hx
        · simp only [orRaise] at hres
          rw [hres]
          exact Or.inr ⟨_, rfl⟩
      · rintro rfl
        have : u = w := by
          have h1 := get?_of_mem disps hdup _ _ hu
          rw [hg] at h1
          exact (Option.some.inj h1).symm
        exact absurd (this ▸ hnone) hw
  unfold writeLinksFile
  have hmem : n ∈ sortedLabels disps := mem_sortedLabels.mpr (List.mem_map.mpr ⟨_, hu, rfl⟩)
  rw [he, hn, mapM_error hmem ((key n hmem).2 rfl) fun m hm => (key m hm).1]
  rfl

/-- **C106 is violated for material phases of four digits.** The number of the phase is glued to the
label of the element in the file, and the first node of every element is lost when the connectivities
are extracted. -/
theorem C106_phase_violated {F : NumberText} {rd : ℝ → ℝ} (hF : FaithfulText F rd) {nDim : ℕ}
    {coords : List (List ℝ)} {conns : List (List ℤ)} {cd : KDict ℕ (List ℝ)}
    {ed : KDict ℕ (List ℤ)} {phase : KDict ℕ ℕ} {disps : KDict ℕ (List (Option ℝ))}
    (hd : LinksData nDim coords conns cd ed phase disps)
    (hp : ∀ i m, phase.get? i = some m → 1000 ≤ m ∧ m < 10000) {t : String} {T : Text} {g : ℕ}
    (ht : linksElemTypeData nDim t = .ok (T, g)) (ip : LinksParams) (increm : List Text)
    (phases : List ℕ) (materials : List Text)
    (hH : KeywordFree (linksHeader ip increm phases).flatten) (hM : KeywordFree materials.flatten) :
    ∃ file, writeLinksFile F nDim ip increm phases T g materials cd ed phase disps = .ok file ∧
      extractConns file = .ok (conns.map List.tail) := by
  have hT := linksElemTypeData_cases ht
  have hTn : '\n' ∉ T := by
    rcases hT with ⟨rfl, rfl⟩ | ⟨rfl, rfl⟩ | ⟨rfl, rfl⟩ | ⟨rfl, rfl⟩ <;> decide
  obtain ⟨file, hw, hf⟩ := writeLinks_lines hF hd ip increm phases hTn g materials
  refine ⟨file, hw, ?_⟩
  unfold extractConns
  obtain ⟨-, -, hfs⟩ := splitBlank_key (kw := "ELEMENTS".toList) (by decide) (by decide)
    conns.length []
  rw [extractRows_section (kw := "ELEMENTS".toList) (List.range conns.length)
    (f := fun i => linksElemText (i + 1) (linksPhase phase i) (conns[i]?.getD []))
    (g := fun i => (conns[i]?.getD []).tail) (n := conns.length) (fs := [])
    (key := linksElemKey conns.length)
    (pre := splitText (· == '\n') (linksHeader ip increm phases).flatten
      ++ (linksTypeLines T g phases.length ++ splitText (· == '\n') materials.flatten))
    (post := linksNodeKey coords.length :: (linksNodeTexts F coords
      ++ ([] :: linksDispKey disps.length :: linksDispTexts F nDim disps)))]
  · have := congrArg (List.map List.tail) (range_getD conns [])
    rw [List.map_map] at this
    exact congrArg Except.ok this
  · rw [hf]
    unfold linksMeshLines linksElemTexts
    simp
  · intro l hl
    simp only [List.mem_append] at hl
    rcases hl with hl | hl | hl
    · exact keywordFree_split hH (by decide) l hl
    · exact linksTypeLines_noKey _ hT (by decide) l hl
    · exact keywordFree_split hM (by decide) l hl
  · exact linksElemKey_key _
  · exact hfs
  · intro i hi
    rw [List.mem_range] at hi
    obtain ⟨m, hm⟩ := hd.phases i hi
    refine ⟨(linksElemText_data _ _ _).noLinksKey (by decide), (linksElemText_data _ _ _).noEnd, ?_⟩
    unfold linksPhase
    rw [hm, Option.getD_some]
    exact elemRow_glued _ (hp _ _ hm).1 (hp _ _ hm).2
  · decide
  · obtain ⟨w, hw⟩ := hd.connsWidth
    refine ⟨w - 1, fun i hi => ?_⟩
    rw [List.mem_range] at hi
    rw [List.getElem?_eq_getElem hi, Option.getD_some, List.length_tail]
    rw [hw _ (List.getElem_mem hi)]

end Hooke
