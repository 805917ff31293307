import Verif.Spec.NoisyHistory
import Verif.Props.SpecimenHistory
import Verif.Props.Noise
import Verif.Props.Denoise
import Verif.Props.LearnableParameters
import Verif.Props.TimeSeriesBatch

/-!
# C124: noise in the displacements of the history files of a specimen
-/

noncomputable section

open Classical

namespace Hooke

open Spec

/-! ### Names of time steps -/

theorem stepNumber_iff {f : Text} {n : ℕ} : stepNumber f = some n ↔ IsStepName f n := by
  unfold stepNumber IsStepName
  constructor
  · intro h
    cases h1 : afterPrefix ".csv".toList.reverse f.reverse with
    | none => rw [h1] at h; cases h
    | some r =>
      rw [h1] at h
      dsimp only at h
      cases h2 : afterPrefix "_tstep_".toList.reverse (r.dropWhile Char.isDigit) with
      | none => rw [h2] at h; cases h
      | some q =>
        rw [h2] at h
        dsimp only at h
        refine ⟨q.reverse, (r.takeWhile Char.isDigit).reverse, ?_, h⟩
        have e1 := afterPrefix_eq.mp h1
        have e2 := afterPrefix_eq.mp h2
        have e3 := List.takeWhile_append_dropWhile (p := Char.isDigit) (l := r)
        rw [e2] at e3
        rw [← e3] at e1
        have := congrArg List.reverse e1
        simp only [List.reverse_reverse, List.reverse_append] at this
        rw [this]
  · rintro ⟨p, w, rfl, hw⟩
    obtain ⟨hne, hd⟩ := parseInt_some hw
    have e : (p ++ "_tstep_".toList ++ w ++ ".csv".toList).reverse
        = ".csv".toList.reverse ++ (w.reverse ++ ("_tstep_".toList.reverse ++ p.reverse)) := by
      simp only [List.reverse_append, List.append_assoc]
    rw [e, afterPrefix_append]
    dsimp only
    have hr : "_tstep_".toList.reverse = '_' :: "pets".toList.reverse.reverse ++ "t_".toList := by decide
    have hx : ∀ x ∈ w.reverse, Char.isDigit x = true := fun x hx => hd x (List.mem_reverse.mp hx)
    have h1 : (w.reverse ++ ("_tstep_".toList.reverse ++ p.reverse)).dropWhile Char.isDigit
        = "_tstep_".toList.reverse ++ p.reverse := by
      rw [List.dropWhile_append_of_pos hx, hr]
      rfl
    have h2 : (w.reverse ++ ("_tstep_".toList.reverse ++ p.reverse)).takeWhile Char.isDigit
        = w.reverse := by
      rw [List.takeWhile_append_of_pos hx, hr]
      exact List.append_nil _
    rw [h1, h2, afterPrefix_append]
    dsimp only
    rw [List.reverse_reverse, hw]

/-- The files that the conversion of a simulation writes are time steps with the same numbers. -/
theorem stepName_history (name : Text) (t : ℕ) : IsStepName (historyFile name t) t :=
  ⟨name, strNat t, rfl, parseInt_strNat t⟩

theorem stepName_unique {f : Text} {m n : ℕ} (h : IsStepName f m) (h' : IsStepName f n) : m = n := by
  have := stepNumber_iff.mpr h
  rw [stepNumber_iff.mpr h'] at this
  exact (Option.some.inj this).symm

theorem stepFiles_eq {D : CsvDir} {dirname : Text} (hf : FreshName D dirname)
    {steps : List (ℕ × Text × Frame)} (hs : StepsOf D steps) {subs : KDict Text (KDict Text Frame)}
    (hsub : ∀ s ∈ subs.keys, s ∈ D.subs.keys ∨ s = dirname) :
    stepFiles (CsvDir.names ⟨D.files, subs⟩) = steps.map fun s => (s.1, s.2.1) := by
  have hl : ((steps.map fun s => (s.1, s.2.1)).map Prod.fst).Pairwise (· < ·) := by
    rw [List.map_map]
    exact hs.sorted
  unfold stepFiles
  refine insertionSort_perm hl ?_
  have hnd : (steps.map fun s => (s.1, s.2.1)).Nodup := by
    have : ((steps.map fun s => (s.1, s.2.1)).map Prod.fst).Nodup := hl.imp fun h => ne_of_lt h
    exact List.Nodup.of_map _ this
  have hsubs : (subs.keys.filterMap fun f => (stepNumber f).map fun n => (n, f)) = [] := by
    rw [List.filterMap_eq_nil_iff]
    intro s hs'
    cases h : stepNumber s with
    | none => rfl
    | some n => exact absurd (stepNumber_iff.mp h) (hf.subs s (hsub s hs') n)
  unfold CsvDir.names
  rw [List.filterMap_append, hsubs, List.append_nil]
  refine (List.perm_ext_iff_of_nodup ?_ hnd).mpr ?_
  · refine List.Nodup.filterMap ?_ hf.files
    intro a b c ha hb
    simp only [Option.mem_def, Option.map_eq_some_iff] at ha hb
    obtain ⟨_, _, rfl⟩ := ha
    obtain ⟨_, _, h⟩ := hb
    simp only [Prod.mk.injEq] at h
    exact h.2.symm
  · rintro ⟨n, f⟩
    simp only [List.mem_filterMap, Option.map_eq_some_iff, Prod.mk.injEq, List.mem_map, Prod.exists]
    constructor
    · rintro ⟨f', hf', n', hn, rfl, rfl⟩
      obtain ⟨fr, hfr⟩ := KDict.mem_keys_iff.mp hf'
      exact ⟨n', f', fr, (hs.mem _ _ _).mpr ⟨mem_of_get? hfr, stepNumber_iff.mp hn⟩, rfl, rfl⟩
    · rintro ⟨n', f', fr, hm, rfl, rfl⟩
      obtain ⟨h1, h2⟩ := (hs.mem _ _ _).mp hm
      exact ⟨f', List.mem_map.mpr ⟨_, h1, rfl⟩, n', stepNumber_iff.mpr h2, rfl, rfl⟩

/-! ### Files -/

theorem overwriteSub_eq {D : CsvDir} {dirname : Text} (hf : FreshName D dirname) :
    D.overwriteSub dirname = (⟨D.files, D.subs.put dirname []⟩, .ok ()) := by
  unfold CsvDir.overwriteSub
  rw [if_neg (by
    rintro (h | h)
    · exact hf.name.1 h
    · exact hf.name.2.1 h), if_neg (by
    rw [KDict.has_iff]
    exact hf.name.2.2)]

theorem put_subs {D : CsvDir} {dirname : Text} :
    ∀ s ∈ (D.subs.put dirname []).keys, s ∈ D.subs.keys ∨ s = dirname := by
  intro s hs
  rw [KDict.keys_put] at hs
  split_ifs at hs
  · exact .inl hs
  · simpa using hs

theorem writes_eq (dirname : Text) (l : List (Text × Frame)) :
    ∀ (D : CsvDir) (out : KDict Text Frame), D.subs.get? dirname = some out →
      (∀ p ∈ l, p.1 ∉ out.keys) → (l.map Prod.fst).Nodup →
      WithSub D (l.foldl (fun D p => D.write dirname p.1 p.2) D) dirname (out ++ l) := by
  induction l with
  | nil =>
    intro D out h _ _
    exact ⟨rfl, by simpa using h, fun _ _ => rfl⟩
  | cons p l ih =>
    intro D out h hn hd
    rw [List.foldl_cons]
    rw [List.map_cons, List.nodup_cons] at hd
    have hw : D.write dirname p.1 p.2 = ⟨D.files, D.subs.put dirname (out ++ [p])⟩ := by
      unfold CsvDir.write
      rw [h, Option.getD_some, put_of_notMem _ _ _ (hn p List.mem_cons_self)]
    rw [hw]
    obtain ⟨h1, h2, h3⟩ := ih ⟨D.files, D.subs.put dirname (out ++ [p])⟩ (out ++ [p])
      (KDict.get?_put_self _ _ _) (by
        intro q hq
        unfold KDict.keys
        rw [List.map_append, List.mem_append, not_or]
        refine ⟨hn q (List.mem_cons_of_mem _ hq), ?_⟩
        rw [List.map_cons, List.map_nil, List.mem_singleton]
        intro he
        exact hd.1 (he ▸ List.mem_map.mpr ⟨q, hq, rfl⟩)) hd.2
    refine ⟨h1, ?_, ?_⟩
    · rw [h2, List.append_assoc, List.singleton_append]
    · intro s hs
      rw [h3 s hs]
      exact KDict.get?_put_ne _ _ hs

theorem read_step {D : CsvDir} {dirname : Text} (hf : FreshName D dirname)
    {steps : List (ℕ × Text × Frame)} (hs : StepsOf D steps)
    {subs : KDict Text (KDict Text Frame)} {s : ℕ × Text × Frame} (h : s ∈ steps) :
    CsvDir.read ⟨D.files, subs⟩ s.2.1 = .ok s.2.2 := by
  unfold CsvDir.read
  rw [get?_of_mem _ hf.files _ _ ((hs.mem s.1 s.2.1 s.2.2).mp h).1]
  rfl

theorem step_names_nodup {D : CsvDir} {steps : List (ℕ × Text × Frame)} (hs : StepsOf D steps) :
    (steps.map fun s => s.2.1).Nodup := by
  rw [List.nodup_map_iff_inj_on]
  · intro a ha b hb hab
    have h1 := ((hs.mem a.1 a.2.1 a.2.2).mp ha).2
    have h2 := ((hs.mem b.1 b.2.1 b.2.2).mp hb).2
    rw [hab] at h1
    have h3 := stepName_unique h1 h2
    exact List.inj_on_of_nodup_map (hs.sorted.imp fun h => ne_of_lt h) ha hb h3
  · exact List.Nodup.of_map _ (hs.sorted.imp fun h => ne_of_lt h)

/-! ### Tables -/

theorem getD_at {α : Type} {l : List α} {i : ℕ} (d : α) (h : i < l.length) : l.getD i d = l[i] := by
  rw [List.getD_eq_getElem?_getD, List.getElem?_eq_getElem h, Option.getD_some]

theorem otherDisps_setDisps {fr : Frame} (hr : ∀ r ∈ fr.rows, r.length = 10) {U : List (List ℝ)}
    (hU : HasShape fr.rows.length 3 U) {u : ℕ → ℕ → ℝ}
    (hu : ∀ i < fr.rows.length, ∀ c < 3, valueAt U i c = u i c) : OtherDisps fr (setDisps fr U) u := by
  have hlen : (setDisps fr U).rows.length = fr.rows.length := by
    simp [setDisps, hU.1]
  refine ⟨rfl, hlen, ?_, ?_⟩
  · intro r hr'
    obtain ⟨i, hi, rfl⟩ := List.getElem_of_mem hr'
    have hi1 : i < fr.rows.length := hlen ▸ hi
    have hi2 : i < U.length := hU.1 ▸ hi1
    have e : (setDisps fr U).rows[i] = fr.rows[i].take 4 ++ U[i] ++ fr.rows[i].drop 7 := by
      simp only [setDisps, List.getElem_zipWith]
    rw [e]
    simp [hr _ (List.getElem_mem hi1), hU.2 _ (List.getElem_mem hi2)]
  · intro i hi j hj
    have hi2 : i < U.length := hU.1 ▸ hi
    have e : (setDisps fr U).rows[i]'(hlen ▸ hi) = fr.rows[i].take 4 ++ U[i] ++ fr.rows[i].drop 7 := by
      simp only [setDisps, List.getElem_zipWith]
    have hl1 := hr _ (List.getElem_mem hi)
    have hl2 := hU.2 _ (List.getElem_mem hi2)
    have ha : (setDisps fr U).at i j = (fr.rows[i].take 4 ++ U[i] ++ fr.rows[i].drop 7).getD j 0 := by
      unfold Frame.at
      rw [getD_at (l := (setDisps fr U).rows) [] (hlen ▸ hi), e]
    have hb : fr.at i j = fr.rows[i].getD j 0 := by
      unfold Frame.at
      rw [getD_at _ hi]
    rw [ha, hb]
    have hv : ∀ c < 3, U[i].getD c 0 = u i c := by
      intro c hc
      rw [← hu i hi c hc]
      unfold valueAt
      rw [getD_at _ hi2]
    generalize hR : fr.rows[i] = R at hl1 ⊢
    generalize hV : U[i] = V at hl2 hv ⊢
    match R, hl1 with
    | [r0, r1, r2, r3, r4, r5, r6, r7, r8, r9], _ =>
      match V, hl2 with
      | [v0, v1, v2], _ =>
        have e0 := hv 0 (by norm_num)
        have e1 := hv 1 (by norm_num)
        have e2 := hv 2 (by norm_num)
        simp only [List.getD_cons_zero, List.getD_cons_succ] at e0 e1 e2
        clear ha hb e hv
        interval_cases j <;> simp [e0, e1, e2]

theorem getDisps_shape {fr : Frame} (hr : ∀ r ∈ fr.rows, r.length = 10) :
    HasShape fr.rows.length 3 (getDisps fr) := by
  refine ⟨by simp [getDisps], ?_⟩
  intro r h
  obtain ⟨q, hq, rfl⟩ := List.mem_map.mp h
  simp [hr q hq]

theorem getDisps_value {fr : Frame} {i c : ℕ} (hi : i < fr.rows.length) (hc : c < 3) :
    valueAt (getDisps fr) i c = dispAt fr i c := by
  unfold valueAt dispAt Frame.at getDisps
  have h1 : (fr.rows.map fun r => (r.drop 4).take 3).getD i [] = (fr.rows[i].drop 4).take 3 := by
    rw [getD_at _ (by simpa using hi), List.getElem_map]
  rw [h1, getD_at _ hi]
  simp only [List.getD_eq_getElem?_getD, List.getElem?_take, List.getElem?_drop, hc, if_true]

theorem addPaths_shape {T F : ℕ} {a b : List (List ℝ)} (ha : HasShape T F a) (hb : HasShape T F b) :
    HasShape T F (addPaths a b) := by
  refine ⟨by simp [addPaths, ha.1, hb.1], ?_⟩
  intro r h
  obtain ⟨i, hi, rfl⟩ := List.getElem_of_mem h
  have hi' : i < a.length ∧ i < b.length := by
    simp only [addPaths, List.length_zipWith] at hi
    omega
  simp [addPaths, ha.2 _ (List.getElem_mem hi'.1), hb.2 _ (List.getElem_mem hi'.2)]

theorem addPaths_value {T F : ℕ} {a b : List (List ℝ)} (ha : HasShape T F a) (hb : HasShape T F b)
    {t c : ℕ} (ht : t < T) (hc : c < F) :
    valueAt (addPaths a b) t c = valueAt a t c + valueAt b t c := by
  have h1 : t < a.length := ha.1 ▸ ht
  have h2 : t < b.length := hb.1 ▸ ht
  have l1 := ha.2 _ (List.getElem_mem h1)
  have l2 := hb.2 _ (List.getElem_mem h2)
  unfold valueAt addPaths
  have e : (List.zipWith (fun r s => List.zipWith (· + ·) r s) a b).getD t []
      = List.zipWith (· + ·) a[t] b[t] := by
    rw [getD_at _ (by simp [h1, h2]), List.getElem_zipWith]
  rw [e, getD_at _ h1, getD_at _ h2,
    getD_at _ (by simp [l1, l2, hc]), List.getElem_zipWith,
    getD_at _ (by omega), getD_at _ (by omega)]

/-! ### Injection -/

theorem injectSteps_eq {g : NoiseGen} {dirname : Text} {draws : ℕ → NoiseDraws}
    (l : List (Text × Frame × Frame)) :
    ∀ (t : ℕ) (D : CsvDir), (∀ p ∈ l, D.files.get? p.1 = some p.2.1) →
      (∀ (k : ℕ) (h : k < l.length), noisyFrame g (draws (t + k)) l[k].2.1 = .ok l[k].2.2) →
      injectSteps g dirname draws t (l.map fun p => p.1) D
        = ((l.map fun p => (p.1, p.2.2)).foldl (fun D p => D.write dirname p.1 p.2) D, .ok ()) := by
  induction l with
  | nil => intro t D _ _; rfl
  | cons p l ih =>
    intro t D h1 h2
    rw [List.map_cons, List.map_cons, List.foldl_cons]
    unfold injectSteps
    have hr : (D.read p.1).bind (noisyFrame g (draws t)) = .ok p.2.2 := by
      unfold CsvDir.read
      rw [h1 p List.mem_cons_self]
      exact h2 0 (by simp)
    rw [hr]
    refine ih (t + 1) _ ?_ ?_
    · intro q hq
      exact h1 q (List.mem_cons_of_mem _ hq)
    · intro k hk
      have := h2 (k + 1) (by simpa using hk)
      rw [show t + (k + 1) = t + 1 + k by omega] at this
      exact this

theorem noisyFrame_eq {g : NoiseGen} {d : NoiseDraws} {fr : Frame} (h10 : TenColumns fr)
    {p : List (List ℝ)} (hp : generateNoise g fr.rows.length 3 "homoscedastic" none d = .ok p)
    (hs : HasShape fr.rows.length 3 p) :
    ∃ fr', noisyFrame g d fr = .ok fr' ∧
      OtherDisps fr fr' fun i c => dispAt fr i c + valueAt p i c := by
  refine ⟨setDisps fr (addPaths (getDisps fr) p), ?_, ?_⟩
  · unfold noisyFrame
    rw [(raiseIf_ok (u := ())).mpr (by simp [h10.1])]
    simp only [bind, Except.bind]
    rw [hp]
  · refine otherDisps_setDisps h10.2 (addPaths_shape (getDisps_shape h10.2) hs) ?_
    intro i hi c hc
    rw [addPaths_value (getDisps_shape h10.2) hs hi hc, getDisps_value hi hc]

/-- Injection into a directory whose steps are known. -/
theorem inject_steps {g : NoiseGen} {dirname : Text} {draws : ℕ → NoiseDraws} {D : CsvDir}
    {f0 : Text} {fr0 : Frame} {l : List (Text × Frame)}
    (hst : (stepFiles D.names).map Prod.snd = f0 :: l.map Prod.fst)
    (hsub : D.subs.get? dirname = some []) (hnd : (f0 :: l.map Prod.fst).Nodup)
    (hget : D.files.get? f0 = some fr0 ∧ ∀ p ∈ l, D.files.get? p.1 = some p.2)
    (h10 : ∀ p ∈ l, TenColumns p.2) {noise : ℕ → ℕ → ℕ → ℝ}
    (hgen : ∀ k n, ∃ p, generateNoise g n 3 "homoscedastic" none (draws k) = .ok p ∧
      HasShape n 3 p ∧ ∀ i < n, ∀ c < 3, valueAt p i c = noise k i c) :
    ∃ (D' : CsvDir) (out : KDict Text Frame), injectFiles g dirname draws D = (D', .ok ()) ∧ WithSub D D' dirname ((f0, fr0) :: out) ∧
      out.keys = l.map Prod.fst ∧ ∀ (k : ℕ) (h : k < l.length), ∃ fr', out.get? l[k].1 = some fr' ∧
        OtherDisps l[k].2 fr' fun i c => dispAt l[k].2 i c + noise (k + 1) i c := by
  have hframe : ∀ (k : ℕ) (p : Text × Frame), p ∈ l → ∃ fr', noisyFrame g (draws (1 + k)) p.2 = .ok fr' ∧
      OtherDisps p.2 fr' fun i c => dispAt p.2 i c + noise (k + 1) i c := by
    intro k p hp
    obtain ⟨q, hq, hqs, hqv⟩ := hgen (1 + k) p.2.rows.length
    obtain ⟨fr', h1, h2, h3, h4, h5⟩ := noisyFrame_eq (h10 p hp) hq hqs
    refine ⟨fr', h1, h2, h3, h4, ?_⟩
    intro i hi j hj
    rw [h5 i hi j hj]
    split_ifs with h
    · dsimp only
      rw [hqv i hi (j - 4) (by omega), Nat.add_comm 1 k]
    · rfl
  have hlist : ∃ m : List (Text × Frame × Frame), m.map (fun p => (p.1, p.2.1)) = l ∧
      ∀ (k : ℕ) (h : k < m.length), noisyFrame g (draws (1 + k)) m[k].2.1 = .ok m[k].2.2 ∧
        OtherDisps m[k].2.1 m[k].2.2 fun i c => dispAt m[k].2.1 i c + noise (k + 1) i c := by
    clear hst hsub hnd hget h10 hgen
    suffices ∀ (a : ℕ), (∀ (k : ℕ) (p : Text × Frame), p ∈ l → ∃ fr',
        noisyFrame g (draws (a + (1 + k))) p.2 = .ok fr' ∧
        OtherDisps p.2 fr' fun i c => dispAt p.2 i c + noise (a + (k + 1)) i c) →
        ∃ m : List (Text × Frame × Frame), m.map (fun p => (p.1, p.2.1)) = l ∧
        ∀ (k : ℕ) (h : k < m.length), noisyFrame g (draws (a + (1 + k))) m[k].2.1 = .ok m[k].2.2 ∧
        OtherDisps m[k].2.1 m[k].2.2 fun i c => dispAt m[k].2.1 i c + noise (a + (k + 1)) i c by
      have h0 := this 0 (by simpa using hframe)
      simpa using h0
    clear hframe
    induction l with
    | nil => exact fun a _ => ⟨[], rfl, fun k h => absurd h (by simp)⟩
    | cons p l ih =>
      intro a ha
      obtain ⟨m, hm1, hm2⟩ := ih (a + 1) (by
        intro k q hq
        have := ha (k + 1) q (List.mem_cons_of_mem _ hq)
        rw [show a + (1 + (k + 1)) = a + 1 + (1 + k) by omega,
          show a + (k + 1 + 1) = a + 1 + (k + 1) by omega] at this
        exact this)
      obtain ⟨fr', hf1, hf2⟩ := ha 0 p List.mem_cons_self
      refine ⟨(p.1, p.2, fr') :: m, by rw [List.map_cons, hm1], ?_⟩
      intro k hk
      cases k with
      | zero => exact ⟨hf1, hf2⟩
      | succ k =>
        have := hm2 k (by simpa using hk)
        rw [show a + 1 + (1 + k) = a + (1 + (k + 1)) by omega,
          show a + 1 + (k + 1) = a + (k + 1 + 1) by omega] at this
        exact this
  obtain ⟨m, hm, hmk⟩ := hlist
  have hkeys : (m.map fun p => p.1) = l.map Prod.fst := by
    rw [← hm, List.map_map]
    rfl
  have hkeys' : ((m.map fun p => (p.1, p.2.2)).map Prod.fst) = l.map Prod.fst := by
    rw [List.map_map, ← hkeys]
    rfl
  rw [List.nodup_cons] at hnd
  have hrun : injectFiles g dirname draws D = (((f0, fr0) :: m.map fun p => (p.1, p.2.2)).foldl
      (fun D p => D.write dirname p.1 p.2) D, .ok ()) := by
    unfold injectFiles
    rw [hst]
    dsimp only
    have hr : D.read f0 = .ok fr0 := by
      unfold CsvDir.read
      rw [hget.1]
      rfl
    rw [hr]
    dsimp only
    rw [← hkeys, injectSteps_eq m]
    · rw [List.foldl_cons]
    · intro p hp
      refine hget.2 (p.1, p.2.1) ?_
      rw [← hm]
      exact List.mem_map.mpr ⟨p, hp, rfl⟩
    · intro k hk
      exact (hmk k hk).1
  refine ⟨_, m.map fun p : Text × Frame × Frame => (p.1, p.2.2), hrun, ?_, hkeys', ?_⟩
  · have := writes_eq dirname ((f0, fr0) :: m.map fun p => (p.1, p.2.2)) D [] hsub
      (by intro p _; simp [KDict.keys]) (by
        rw [List.map_cons, hkeys', List.nodup_cons]
        exact hnd)
    simpa using this
  · intro k hk
    have hk' : k < m.length := by
      rw [← hm, List.length_map] at hk
      exact hk
    have e : l[k] = (m[k].1, m[k].2.1) := by
      subst hm
      rw [List.getElem_map]
    refine ⟨m[k].2.2, ?_, ?_⟩
    · refine get?_of_mem _ ?_ _ _ ?_
      · unfold KDict.keys
        rw [hkeys']
        exact hnd.2
      · rw [e]
        exact List.mem_map.mpr ⟨m[k], List.getElem_mem hk', rfl⟩
    · rw [e]
      exact (hmk k hk').2

theorem withSub_put {D D' : CsvDir} {dirname : Text} {out o : KDict Text Frame}
    (h : WithSub ⟨D.files, D.subs.put dirname o⟩ D' dirname out) : WithSub D D' dirname out := by
  obtain ⟨h1, h2, h3⟩ := h
  refine ⟨h1, h2, ?_⟩
  intro s hs
  rw [h3 s hs]
  exact KDict.get?_put_ne _ _ hs

theorem inject_eq {dist : String} {ps : KDict String ℝ} {g : NoiseGen} (hg : noiseSetup dist ps = .ok g)
    {dirname : Text} {draws : ℕ → NoiseDraws} {D : CsvDir} (hf : FreshName D dirname)
    {steps : List (ℕ × Text × Frame)} (hs : StepsOf D steps) (hne : steps ≠ [])
    (h10 : ∀ s ∈ steps.tail, TenColumns s.2.2) {noise : ℕ → ℕ → ℕ → ℝ}
    (hgen : ∀ k n, ∃ p, generateNoise g n 3 "homoscedastic" none (draws k) = .ok p ∧
      HasShape n 3 p ∧ ∀ i < n, ∀ c < 3, valueAt p i c = noise k i c) :
    ∃ D', injectNoise dist ps dirname draws D = (D', .ok ()) ∧ Injected D D' dirname steps noise := by
  unfold injectNoise
  rw [hg]
  dsimp only
  rw [overwriteSub_eq hf]
  dsimp only
  have hst := stepFiles_eq hf hs (put_subs (D := D) (dirname := dirname))
  have hnames := step_names_nodup hs
  have hgets : ∀ s ∈ steps, D.files.get? s.2.1 = some s.2.2 := fun s h =>
    get?_of_mem _ hf.files _ _ ((hs.mem s.1 s.2.1 s.2.2).mp h).1
  cases steps with
  | nil => exact absurd rfl hne
  | cons s0 rest =>
    obtain ⟨D', out, h1, h2, h3, h4⟩ := inject_steps (g := g) (dirname := dirname) (draws := draws)
      (D := ⟨D.files, D.subs.put dirname []⟩) (f0 := s0.2.1) (fr0 := s0.2.2)
      (l := rest.map fun s => (s.2.1, s.2.2)) (by
        rw [hst]
        simp [Function.comp_def]) (KDict.get?_put_self _ _ _) (by
        have := hnames
        simpa [Function.comp_def] using this) ⟨hgets s0 List.mem_cons_self, by
        intro p hp
        obtain ⟨s, hs', rfl⟩ := List.mem_map.mp hp
        exact hgets s (List.mem_cons_of_mem _ hs')⟩ (by
        intro p hp
        obtain ⟨s, hs', rfl⟩ := List.mem_map.mp hp
        exact h10 s hs') hgen
    refine ⟨D', h1, (s0.2.1, s0.2.2) :: out, withSub_put h2, ?_, ?_⟩
    · have : KDict.keys out = rest.map fun s => s.2.1 := by
        rw [h3, List.map_map]
        rfl
      unfold KDict.keys at this ⊢
      rw [List.map_cons, List.map_cons, this]
    · intro k hk
      cases k with
      | zero =>
        refine ⟨s0.2.2, ?_, ?_⟩
        · simp [KDict.get?]
        · rw [if_pos rfl]
          rfl
      | succ k =>
        have hk' : k < rest.length := by simpa using hk
        obtain ⟨fr', h5, h6⟩ := h4 k (by simpa using hk')
        rw [List.getElem_map] at h5 h6
        refine ⟨fr', ?_, ?_⟩
        · have hneq : s0.2.1 ≠ rest[k].2.1 := by
            intro he
            rw [List.map_cons, List.nodup_cons] at hnames
            exact hnames.1 (he ▸ List.mem_map.mpr ⟨rest[k], List.getElem_mem hk', rfl⟩)
          simp only [KDict.get?, List.getElem_cons_succ]
          rw [if_neg hneq]
          exact h5
        · rw [if_neg (by omega)]
          exact h6

/-- **C124, uniform noise.** For every history of a specimen in tables of ten columns, whose first time
step may be any table, the injection of uniform noise of an amplitude succeeds: the new directory has one
file for each time step, of the same name; the first step is as it was, and in the others each
displacement changes by a number of the interval of this length around zero, while labels, coordinates
and reactions do not.  The data themselves and other directories are not changed. -/
theorem C124_uniform {ps : KDict String ℝ} {amp : ℝ} (ha : ps.get? "amp" = some amp) {dirname : Text}
    {draws : ℕ → NoiseDraws} (hd : ∀ k, UnitDraws (draws k)) {D : CsvDir} (hf : FreshName D dirname)
    {steps : List (ℕ × Text × Frame)} (hs : StepsOf D steps) (hne : steps ≠ [])
    (h10 : ∀ s ∈ steps.tail, TenColumns s.2.2) :
    ∃ D' noise, injectNoise "uniform" ps dirname draws D = (D', .ok ()) ∧
      Injected D D' dirname steps noise ∧
      ∀ k i c, noise k i c = |amp| * ((draws k).unit i c - 1 / 2) ∧ |noise k i c| ≤ |amp| / 2 := by
  have hg : noiseSetup "uniform" ps = .ok ⟨some .uniform, some ps⟩ := by
    have hh : ps.has "amp" = true := by simp [KDict.has, ha]
    simp [noiseSetup, NoiseGen.setDistribution, noiseDist?, orRaise, NoiseGen.setParameters,
      requiredParameters, raiseIf, hh, bind, Except.bind, pure, Except.pure, NoiseGen.new]
  obtain ⟨D', h1, h2⟩ := inject_eq hg hf hs hne h10
    (noise := fun k i c => |amp| * ((draws k).unit i c - 1 / 2)) (by
      intro k n
      obtain ⟨p, hp, hps, hpv⟩ := C108_uniform (g := ⟨some .uniform, some ps⟩) (T := n) (F := 3)
        (v := "homoscedastic") (weights := none) (amp := amp) rfl
        (by simp [NoiseGen.param, orRaise, ha, bind, Except.bind]) (.inl rfl) (hd k)
      refine ⟨p, hp, hps, ?_⟩
      intro i hi c hc
      rw [(hpv i hi c hc).1]
      simp [weightAt])
  refine ⟨D', _, h1, h2, ?_⟩
  intro k i c
  refine ⟨rfl, ?_⟩
  obtain ⟨u1, u2, -, -⟩ := hd k i c
  rw [abs_mul, abs_abs]
  have : |(draws k).unit i c - 1 / 2| ≤ 1 / 2 := abs_le.mpr ⟨by linarith, by linarith⟩
  nlinarith [abs_nonneg amp]

/-- **C124, Gaussian noise.** The same for Gaussian noise of a deviation that is not negative. -/
theorem C124_gaussian {ps : KDict String ℝ} {std : ℝ} (ha : ps.get? "std" = some std) (hstd : 0 ≤ std)
    {dirname : Text} {draws : ℕ → NoiseDraws} {D : CsvDir} (hf : FreshName D dirname)
    {steps : List (ℕ × Text × Frame)} (hs : StepsOf D steps) (hne : steps ≠ [])
    (h10 : ∀ s ∈ steps.tail, TenColumns s.2.2) :
    ∃ D', injectNoise "gaussian" ps dirname draws D = (D', .ok ()) ∧
      Injected D D' dirname steps fun k i c => std * (draws k).normal i c := by
  have hg : noiseSetup "gaussian" ps = .ok ⟨some .gaussian, some ps⟩ := by
    have hh : ps.has "std" = true := by simp [KDict.has, ha]
    simp [noiseSetup, NoiseGen.setDistribution, noiseDist?, orRaise, NoiseGen.setParameters,
      requiredParameters, raiseIf, hh, bind, Except.bind, pure, Except.pure, NoiseGen.new]
  refine inject_eq hg hf hs hne h10 ?_
  intro k n
  have hb : baseNoise ⟨some .gaussian, some ps⟩ n 3 "homoscedastic" none (draws k)
      = .ok (some (pathOfShape n 3 fun t c => std * (draws k).normal t c)) := by
    unfold baseNoise homNoise
    rw [if_pos rfl]
    simp [NoiseGen.param, orRaise, ha, raiseIf, not_lt.mpr hstd, bind, Except.bind, pure, Except.pure]
  have hsp : spikeNoise ⟨some .gaussian, some ps⟩ n 3 (draws k) = .ok (pathOfShape n 3 fun _ _ => 0) := by
    unfold spikeNoise
    rw [if_neg (by simp)]
  refine ⟨addPaths (pathOfShape n 3 fun t c => std * (draws k).normal t c)
    (pathOfShape n 3 fun _ _ => 0), ?_, ?_⟩
  · unfold generateNoise
    rw [hb, hsp]
    simp only [bind, Except.bind, pure, Except.pure, orRaise]
  · rw [addPaths_pathOfShape]
    refine ⟨pathOfShape_shape _ _ _, ?_⟩
    intro i hi c hc
    rw [pathOfShape_value _ hi hc, add_zero]

/-! ### Denoising -/

theorem historyTables_eq {D : CsvDir} {l : List (Text × Frame)} {n : ℕ} (hne : l ≠ [])
    (hget : ∀ p ∈ l, D.files.get? p.1 = some p.2) (h10 : ∀ p ∈ l, p.2.cols = 10)
    (hn : ∀ p ∈ l, p.2.rows.length = n) :
    historyTables D (l.map Prod.fst) = .ok (l.map Prod.snd) := by
  unfold historyTables
  have hm : (l.map Prod.fst).mapM (fun f => do
      let fr ← D.read f
      raiseIf (fr.cols ≠ 10) .runtimeError
      pure fr) = Except.ok (ε := PyErr) (l.map Prod.snd) := by
    clear hne hn
    induction l with
    | nil => rfl
    | cons p l ih =>
      rw [List.map_cons, List.mapM_cons, ih (fun q hq => hget q (List.mem_cons_of_mem _ hq))
        (fun q hq => h10 q (List.mem_cons_of_mem _ hq))]
      have hr : D.read p.1 = .ok p.2 := by
        unfold CsvDir.read
        rw [hget p List.mem_cons_self]
        rfl
      rw [hr]
      simp [raiseIf, h10 p List.mem_cons_self, bind, Except.bind, pure, Except.pure]
  simp only [bind, Except.bind] at hm ⊢
  rw [hm]
  cases l with
  | nil => exact absurd rfl hne
  | cons p l =>
    simp only [List.map_cons]
    rw [(raiseIf_ok (u := ())).mpr]
    · rfl
    · simp only [Bool.not_eq_false, List.all_eq_true, decide_eq_true_eq]
      intro fr hfr
      rw [hn p List.mem_cons_self]
      rw [← List.map_cons (f := Prod.snd)] at hfr
      obtain ⟨q, hq, rfl⟩ := List.mem_map.mp hfr
      exact hn q hq

/-- **C124, denoising.** For every history of a specimen in tables of ten columns with the same nodes,
and every denoiser that accepts the displacement histories of the nodes, the new directory has one file
for each time step, of the same name.  The displacements of each node are those of its denoised history,
except for the first step, where they are zero; all other entries, the data and other directories are
not changed. -/
theorem C124_denoise {den : Series → Py Series} {dirname : Text} {D : CsvDir} (hf : FreshName D dirname)
    {steps : List (ℕ × Text × Frame)} (hs : StepsOf D steps) (hne : steps ≠ []) {n : ℕ}
    (h10 : ∀ s ∈ steps, TenColumns s.2.2 ∧ s.2.2.rows.length = n) {y : ℕ → Series}
    (hy : ∀ i < n, den (dispSeries (steps.map fun s => s.2.2) i) = .ok (y i)) :
    ∃ D' out, denoiseFiles den dirname D = (D', .ok ()) ∧ WithSub D D' dirname out ∧
      out.keys = steps.map (fun s => s.2.1) ∧
      ∀ (k : ℕ) (h : k < steps.length), ∃ fr', out.get? steps[k].2.1 = some fr' ∧
        OtherDisps steps[k].2.2 fr' fun i c => if k = 0 then 0 else (y i).val k c := by
  have hst := stepFiles_eq hf hs (put_subs (D := D) (dirname := dirname))
  have hnames := step_names_nodup hs
  have hgets : ∀ s ∈ steps, D.files.get? s.2.1 = some s.2.2 := fun s h =>
    get?_of_mem _ hf.files _ _ ((hs.mem s.1 s.2.1 s.2.2).mp h).1
  have hfs : (stepFiles (CsvDir.names ⟨D.files, D.subs.put dirname []⟩)).map Prod.snd
      = (steps.map fun s => (s.2.1, s.2.2)).map Prod.fst := by
    rw [hst]
    simp [Function.comp_def]
  have hfrs : (steps.map fun s => (s.2.1, s.2.2)).map Prod.snd = steps.map fun s => s.2.2 := by
    simp [Function.comp_def]
  have htab : historyTables ⟨D.files, D.subs.put dirname []⟩
      ((steps.map fun s => (s.2.1, s.2.2)).map Prod.fst)
      = .ok (steps.map fun s => s.2.2) := by
    rw [← hfrs]
    refine historyTables_eq (n := n) (by simpa using hne) ?_ ?_ ?_ <;>
    · intro p hp
      obtain ⟨s, hs', rfl⟩ := List.mem_map.mp hp
      first
        | exact hgets s hs'
        | exact (h10 s hs').1.1
        | exact (h10 s hs').2
  have hn : (((steps.map fun s => s.2.2).getD 0 (⟨0, []⟩ : Frame))).rows.length = n := by
    obtain ⟨s, rest, rfl⟩ := List.exists_cons_of_ne_nil hne
    exact (h10 s List.mem_cons_self).2
  have hclean : (List.range n).mapM (cleanSeries den (steps.map fun s => s.2.2))
      = .ok ((List.range n).map fun i => fun t c => if t = 0 then 0 else (y i).val t c) := by
    refine mapM_of_forall fun i hi => ?_
    unfold cleanSeries
    have := hy i (List.mem_range.mp hi)
    have he : nodeSeries (steps.map fun s => s.2.2) i = dispSeries (steps.map fun s => s.2.2) i := rfl
    rw [he, this]
    rfl
  -- the written tables
  set U : ℕ → List (List ℝ) := fun k => (List.range n).map fun i =>
    (List.range 3).map fun c => if k = 0 then 0 else (y i).val k c with hU
  set l : List (Text × Frame) := steps.zipIdx.map fun p => (p.1.2.1, setDisps p.1.2.2 (U p.2)) with hl
  have hrun : denoiseFiles den dirname D = (l.foldl (fun D p => D.write dirname p.1 p.2)
      ⟨D.files, D.subs.put dirname []⟩, .ok ()) := by
    unfold denoiseFiles
    rw [overwriteSub_eq hf]
    dsimp only
    rw [hfs, htab]
    dsimp only
    rw [hn, hclean]
    dsimp only
    have hz : ((steps.map fun s => (s.2.1, s.2.2)).map Prod.fst).zip (steps.map fun s => s.2.2)
        = steps.map fun s => (s.2.1, s.2.2) := by
      rw [List.map_map, List.zip_map', ]
      rfl
    have hUk : ∀ k, ((List.range n).map fun i => fun t c => if t = 0 then 0 else (y i).val t c).map
        (fun u => [u k 0, u k 1, u k 2]) = U k := by
      intro k
      rw [List.map_map]
      rfl
    rw [hz, hl, List.foldl_map, List.zipIdx_map, List.foldl_map]
    simp only [Prod.map_fst, Prod.map_snd, id_eq, hUk]
  have hlk : l.map Prod.fst = steps.map fun s => s.2.1 := by
    rw [hl, List.map_map]
    have : (Prod.fst ∘ fun p : (ℕ × Text × Frame) × ℕ => (p.1.2.1, setDisps p.1.2.2 (U p.2)))
        = (fun s => s.2.1) ∘ Prod.fst := rfl
    rw [this, ← List.map_map, List.zipIdx_map_fst]
  refine ⟨_, l, hrun, ?_, hlk, ?_⟩
  · have := writes_eq dirname l ⟨D.files, D.subs.put dirname []⟩ [] (KDict.get?_put_self _ _ _)
      (by intro p _; simp [KDict.keys]) (by rw [hlk]; exact hnames)
    exact withSub_put (by simpa using this)
  · intro k hk
    refine ⟨setDisps steps[k].2.2 (U k), ?_, ?_⟩
    · refine get?_of_mem _ (by unfold KDict.keys; rw [hlk]; exact hnames) _ _ ?_
      rw [hl]
      refine List.mem_map.mpr ⟨(steps[k], k), ?_, rfl⟩
      rw [List.mem_zipIdx_iff_getElem?]
      exact List.getElem?_eq_getElem hk
    · obtain ⟨ht, hr⟩ := h10 _ (List.getElem_mem hk)
      refine otherDisps_setDisps ht.2 ?_ ?_
      · rw [hr]
        exact pathOfShape_shape n 3 _
      · intro i hi c hc
        rw [hr] at hi
        exact pathOfShape_value _ hi hc

/-- **C124, moving averages.** In double precision, with a window of at least one step, the moving
average accepts every history; displacements that stay between two bounds after the first step do so
without noise. -/
theorem C124_average {cf : ℕ → ℕ → Py (List ℝ)} {w cycles : ℤ} (hw : 1 ≤ w) {dirname : Text} {D : CsvDir}
    (hf : FreshName D dirname) {steps : List (ℕ × Text × Frame)} (hs : StepsOf D steps)
    (hne : steps ≠ []) {n : ℕ} (h10 : ∀ s ∈ steps, TenColumns s.2.2 ∧ s.2.2.rows.length = n) :
    ∃ D' out, denoiseFiles (fun x => denoise .float64 cf (.series x) "moving_average" (.window w) cycles)
        dirname D = (D', .ok ()) ∧ WithSub D D' dirname out ∧
      out.keys = steps.map (fun s => s.2.1) ∧
      ∀ i < n, ∀ c < 3, ∀ lo hi : ℝ, (∀ s ∈ steps, lo ≤ dispAt s.2.2 i c ∧ dispAt s.2.2 i c ≤ hi) →
        ∀ (k : ℕ) (h : k < steps.length), ∃ fr', out.get? steps[k].2.1 = some fr' ∧
          if k = 0 then dispAt fr' i c = 0 else lo ≤ dispAt fr' i c ∧ dispAt fr' i c ≤ hi := by
  have hlen : ∀ i, 0 < (dispSeries (steps.map fun s => s.2.2) i).len := by
    intro i
    simpa [dispSeries, List.length_pos_iff] using hne
  have hex : ∀ i, ∃ y, denoise .float64 cf (.series (dispSeries (steps.map fun s => s.2.2) i))
      "moving_average" (.window w) cycles = .ok y ∧
      SameShape (dispSeries (steps.map fun s => s.2.2) i) y := fun i =>
    C67_shape .float64 cf _ w cycles hw rfl (hlen i) (by simp [dispSeries])
  choose y hy hys using hex
  obtain ⟨D', out, h1, h2, h3, h4⟩ := C124_denoise hf hs hne h10
    (den := fun x => denoise .float64 cf (.series x) "moving_average" (.window w) cycles)
    (y := y) (fun i _ => hy i)
  refine ⟨D', out, h1, h2, h3, ?_⟩
  intro i hi c hc lo hi' hb k hk
  obtain ⟨fr', h5, -, -, -, h6⟩ := h4 k hk
  refine ⟨fr', h5, ?_⟩
  have hv := h6 i (by rw [(h10 _ (List.getElem_mem hk)).2]; exact hi) (4 + c) (by omega)
  rw [if_pos ⟨by omega, by omega⟩, Nat.add_sub_cancel_left] at hv
  unfold dispAt
  rw [hv]
  split_ifs with h0
  · rfl
  · refine C67_bounds .float64 cf _ w cycles hw rfl (hlen i) (by simp [dispSeries]) (y i) (hy i) c lo hi'
      ?_ k ?_
    · intro t ht
      have ht' : t < steps.length := by simpa [dispSeries] using ht
      have he : (dispSeries (steps.map fun s => s.2.2) i).val t c = dispAt steps[t].2.2 i c := by
        unfold dispSeries
        dsimp only
        rw [getD_at _ (by simpa using ht'), List.getElem_map]
      rw [he]
      exact hb _ (List.getElem_mem ht')
    · rw [(hys i).2.1]
      simpa [dispSeries] using hk

end Hooke
