import Verif.Spec.Pruning
import Verif.Props.Dataset
import Verif.Lemmas.Py
import Verif.Lemmas.StrainPath

/-!
# Lemmas on the pruning of a data set
-/

namespace Hooke

variable {M : Type}

/-! ## Association lists -/

theorem lookup_mem {β : Type} {l : List (String × β)} {k : String} {v : β}
    (h : l.lookup k = some v) : (k, v) ∈ l := by
  induction l with
  | nil => simp at h
  | cons p l ih =>
    obtain ⟨a, b⟩ := p
    rw [List.lookup_cons] at h
    by_cases hk : k = a
    · subst hk
      simp at h
      subst h
      exact List.mem_cons_self
    · rw [beq_eq_false_iff_ne.mpr hk] at h
      exact List.mem_cons_of_mem _ (ih h)

theorem mem_lookup {β : Type} {l : List (String × β)} {k : String} {v : β}
    (hn : (l.map Prod.fst).Nodup) (h : (k, v) ∈ l) : l.lookup k = some v := by
  induction l with
  | nil => simp at h
  | cons p l ih =>
    obtain ⟨a, b⟩ := p
    rw [List.map_cons, List.nodup_cons] at hn
    rw [List.lookup_cons]
    rcases List.mem_cons.mp h with h' | h'
    · obtain ⟨rfl, rfl⟩ := Prod.mk.inj h'
      simp
    · have hk : k ≠ a := by
        rintro rfl
        exact hn.1 (List.mem_map.mpr ⟨_, h', rfl⟩)
      rw [beq_eq_false_iff_ne.mpr hk]
      exact ih hn.2 h'

theorem lookup_of_key {β : Type} {l : List (String × β)} {k : String}
    (h : k ∈ l.map Prod.fst) : ∃ v, l.lookup k = some v := by
  induction l with
  | nil => simp at h
  | cons p l ih =>
    obtain ⟨a, b⟩ := p
    rw [List.lookup_cons]
    by_cases hk : k = a
    · subst hk
      simp
    · rw [beq_eq_false_iff_ne.mpr hk]
      rw [List.map_cons, List.mem_cons] at h
      exact ih (h.resolve_left hk)

theorem perm_of_lookup {β : Type} {l : List (String × β)} {ks : List String} {vs : List β}
    (hp : (l.map Prod.fst).Perm ks) (hn : ks.Nodup)
    (h : List.Forall₂ (fun k v => l.lookup k = some v) ks vs) : l.Perm (ks.zip vs) := by
  have hl : (l.map Prod.fst).Nodup := hp.nodup_iff.mpr hn
  have hz : ((ks.zip vs).map Prod.fst) = ks := by
    rw [List.map_fst_zip (by rw [h.length_eq])]
  refine (List.perm_ext_iff_of_nodup (List.Nodup.of_map _ hl)
    (List.Nodup.of_map Prod.fst (by rw [hz]; exact hn))).mpr fun p => ?_
  obtain ⟨k, v⟩ := p
  have key : ∀ q ∈ ks.zip vs, l.lookup q.1 = some q.2 := fun q hq =>
    (List.forall₂_iff_zip.mp h).2 hq
  constructor
  · intro hm
    have hk : k ∈ (ks.zip vs).map Prod.fst := by
      rw [hz]; exact hp.mem_iff.mp (List.mem_map.mpr ⟨_, hm, rfl⟩)
    obtain ⟨q, hq, rfl⟩ := List.mem_map.mp hk
    have h1 := key q hq
    rw [mem_lookup hl hm] at h1
    obtain rfl := Option.some.inj h1
    exact hq
  · intro hm
    exact lookup_mem (key _ hm)

/-! ## Splits -/

/-- Indexes of a subset. -/
def DS.idx {α : Type} : DS α → List ℕ
  | .base _ => []
  | .subset _ i => i

theorem split_indices {α : Type} {d : DS α} {sizes : List (String × ℝ)} {perm : List ℕ}
    {subs : List (String × DS α)} (hperm : perm.Perm (List.range d.len))
    (h : splitDataset d sizes perm = .ok subs) :
    subs.map Prod.fst = sizes.map Prod.fst ∧ (∀ q ∈ subs, q.2 = .subset d q.2.idx ∧ q.2.idx ≠ []) ∧
      ((subs.map fun q => q.2.idx).flatten).Perm (List.range d.len) := by
  obtain ⟨idx, rfl, hlen, hne, hp⟩ := C43_partition hperm h
  have hlen' : (sizes.map Prod.fst).length = idx.length := by rw [List.length_map, hlen]
  refine ⟨?_, ?_, ?_⟩
  · rw [List.map_zipWith]
    apply List.ext_getElem
    · simp [hlen]
    · intro i h1 h2
      simp
  · intro q hq
    obtain ⟨i, hi, rfl⟩ := List.mem_iff_getElem.mp hq
    rw [List.length_zipWith] at hi
    rw [List.getElem_zipWith]
    exact ⟨rfl, hne _ (List.getElem_mem _)⟩
  · rw [List.map_zipWith]
    have : List.zipWith (fun (x : String) (y : List ℕ) => ((x, DS.subset d y) : String × DS α).2.idx)
        (sizes.map Prod.fst) idx = idx := by
      apply List.ext_getElem
      · simp [hlen]
      · intro i h1 h2
        simp [DS.idx]
    rw [this]
    exact hp

theorem split_lookup {α : Type} {d : DS α} {sizes : List (String × ℝ)} {perm : List ℕ}
    {subs : List (String × DS α)} {ks : List String} {vs : List (DS α)}
    (hperm : perm.Perm (List.range d.len)) (h : splitDataset d sizes perm = .ok subs)
    (hk : (sizes.map Prod.fst).Perm ks) (hn : ks.Nodup)
    (hv : List.Forall₂ (fun k v => subs.lookup k = some v) ks vs) :
    (∀ v ∈ vs, v = .subset d v.idx ∧ v.idx ≠ []) ∧
      ((vs.map DS.idx).flatten).Perm (List.range d.len) := by
  obtain ⟨h1, h2, h3⟩ := split_indices hperm h
  have hp := perm_of_lookup (l := subs) (by rw [h1]; exact hk) hn hv
  have hz : (ks.zip vs).map Prod.snd = vs := List.map_snd_zip (by rw [hv.length_eq])
  constructor
  · intro v hv'
    rw [← hz] at hv'
    obtain ⟨q, hq, rfl⟩ := List.mem_map.mp hv'
    exact h2 q (hp.mem_iff.mpr hq)
  · refine List.Perm.trans ?_ h3
    have : vs.map DS.idx = (ks.zip vs).map fun q => q.2.idx := by
      rw [← hz, List.map_map, hz]; rfl
    rw [this]
    exact (hp.symm.map _).flatten

/-- The samples at given indexes. -/
def samplesAt (l : List ℕ) (idx : List ℕ) : List ℕ := idx.map fun i => l.getD i 0

@[simp] theorem samplesAt_length (l idx : List ℕ) : (samplesAt l idx).length = idx.length := by
  simp [samplesAt]

theorem samplesAt_append (l a b : List ℕ) : samplesAt l (a ++ b) = samplesAt l a ++ samplesAt l b := by
  simp [samplesAt]

theorem samplesAt_range (l : List ℕ) : samplesAt l (List.range l.length) = l := by
  apply List.ext_getElem
  · simp
  · intro i h1 h2
    simp [samplesAt, h2]

theorem samplesAt_perm {l a b : List ℕ} (h : a.Perm b) : (samplesAt l a).Perm (samplesAt l b) :=
  h.map _

theorem pyIndex_nat {γ : Type} {l : List γ} {i : ℕ} (h : i < l.length) :
    pyIndex l (i : ℤ) = .ok l[i] := by
  unfold pyIndex
  rw [if_pos (by omega), Int.toNat_natCast, List.getElem?_eq_getElem h]
  rfl

theorem toList_subset {l idx : List ℕ} (h : ∀ i ∈ idx, i < l.length) :
    (DS.subset (.base l) idx).toList = .ok (samplesAt l idx) := by
  unfold DS.toList
  rw [mapM_of_forall (g := fun i => l.getD (idx.getD i 0) 0)]
  · congr 1
    apply List.ext_getElem
    · simp [DS.len]
    · intro i h1 h2
      have : i < idx.length := by simpa [DS.len] using h1
      simp [samplesAt, this]
  · intro i hi
    have hi' : i < idx.length := by simpa [DS.len] using hi
    have hlt := h _ (List.getElem_mem hi')
    show (pyIndex idx (i : ℤ) >>= fun j => pyIndex l (j : ℤ)) = _
    rw [pyIndex_nat hi']
    show pyIndex l ((idx[i] : ℕ) : ℤ) = _
    rw [pyIndex_nat hlt]
    simp [hi', hlt]

theorem toList_base (l : List ℕ) : (DS.base l).toList = .ok l := by
  unfold DS.toList
  rw [mapM_of_forall (g := fun i => l.getD i 0)]
  · congr 1
    exact samplesAt_range l
  · intro i hi
    have hi' : i < l.length := by simpa [DS.len] using hi
    show pyIndex l (i : ℤ) = _
    rw [pyIndex_nat hi']
    simp [hi']

/-! ## Losses of the samples -/

theorem readSamplesLoss_files {env : PruneEnv M} (he : Spec.Shuffles env) (k : ℕ) (m : M)
    {l : List ℕ} (hl : l ≠ []) :
    readSamplesLoss (predictionFiles env k m l) = .ok (l.map (env.loss m)) := by
  have hp := he.listdir k l.length
  have hne : predictionFiles env k m l ≠ [] := by
    intro e
    have : (predictionFiles env k m l).length = l.length := by
      simp [predictionFiles, hp.length_eq]
    rw [e] at this
    exact hl (List.length_eq_zero_iff.mp this.symm)
  unfold readSamplesLoss
  rw [raiseIf, if_neg hne]
  show (_ : Py (List ℝ)) = _
  set s := (predictionFiles env k m l).mergeSort fun a b => decide (a.1 ≤ b.1) with hs
  have hsp : s.Perm (predictionFiles env k m l) := List.mergeSort_perm _ _
  have hsorted : s.Pairwise fun a b => a.1 ≤ b.1 := by
    have := List.pairwise_mergeSort (le := fun (a b : ℕ × Option ℝ) => decide (a.1 ≤ b.1))
      (fun a b c => by simp; omega) (fun a b => by simp; omega) (predictionFiles env k m l)
    simpa using this
  have hfst : s.map Prod.fst = List.range l.length := by
    have h1 : (s.map Prod.fst).Perm (List.range l.length) := by
      refine (hsp.map _).trans ?_
      rw [predictionFiles, List.map_map]
      show ((env.listdir k l.length).map fun i => i).Perm _
      rw [List.map_id']
      exact hp
    refine h1.eq_of_pairwise (le := (· ≤ ·)) (fun a b _ _ h1 h2 => Nat.le_antisymm h1 h2) ?_ ?_
    · exact List.pairwise_map.mpr hsorted
    · exact List.pairwise_le_range
  have hsnd : ∀ q ∈ s, q.2 = l[q.1]?.map (env.loss m) := by
    intro q hq
    have := hsp.mem_iff.mp hq
    rw [predictionFiles, List.mem_map] at this
    obtain ⟨i, -, rfl⟩ := this
    rfl
  have hse : s = (List.range l.length).map fun i => (i, l[i]?.map (env.loss m)) := by
    rw [← hfst, List.map_map]
    apply List.ext_getElem
    · simp
    · intro i h1 h2
      rw [List.getElem_map]
      exact Prod.ext rfl (hsnd _ (List.getElem_mem _))
  show (s.mapM fun f => orRaise f.2 .runtimeError) = _
  rw [hse, mapM_of_forall (g := fun q => (q.2).getD 0)]
  · congr 1
    apply List.ext_getElem
    · simp
    · intro i h1 h2
      have : i < l.length := by simpa using h2
      simp [this]
  · intro q hq
    obtain ⟨i, hi, rfl⟩ := List.mem_map.mp hq
    have hi' : i < l.length := by simpa using hi
    simp [orRaise, hi']

theorem sortedByLoss_perm (loss : List ℝ) : (sortedByLoss loss).Perm (List.range loss.length) :=
  List.mergeSort_perm _ _

theorem sortedByLoss_sorted (loss : List ℝ) :
    (sortedByLoss loss).Pairwise fun i j => loss.getD i 0 ≤ loss.getD j 0 := by
  have := List.pairwise_mergeSort
    (le := fun (i j : ℕ) => @decide (loss.getD i 0 ≤ loss.getD j 0) (Classical.propDecidable _))
    (fun a b c h1 h2 => by
      rw [decide_eq_true_eq] at *
      exact le_trans h1 h2)
    (fun a b => by
      rw [Bool.or_eq_true, decide_eq_true_eq, decide_eq_true_eq]
      exact le_total _ _) (List.range loss.length)
  refine this.imp ?_
  intro a b h
  simpa using h

theorem pySliceTo_take {γ : Type} (l : List γ) (n : ℤ) :
    ∃ c, pySliceTo l n = l.take c ∧ (0 ≤ n → c = n.toNat) := by
  unfold pySliceTo
  split_ifs with h
  · exact ⟨_, rfl, fun _ => rfl⟩
  · exact ⟨_, rfl, fun h' => absurd h' h⟩

/-! ## Removal of samples -/

theorem removeFrom_filter (l js : List ℕ) :
    InMemory.removeFrom (js.map Int.ofNat) 0 l =
      samplesAt l ((List.range l.length).filter fun i => i ∉ js) := by
  rw [removeFrom_eq]
  have hz : l.zipIdx 0 = (List.range l.length).map fun i => (l.getD i 0, i) := by
    apply List.ext_getElem
    · simp
    · intro i h1 h2
      have : i < l.length := by simpa using h2
      simp [this]
  rw [hz, List.filter_map, List.map_map]
  unfold samplesAt
  congr 1
  apply List.filter_congr
  intro i _
  simp

theorem remove_perm {l js : List ℕ} (hn : js.Nodup) (hlt : ∀ i ∈ js, i < l.length) :
    (samplesAt l js ++ InMemory.removeFrom (js.map Int.ofNat) 0 l).Perm l := by
  rw [removeFrom_filter, ← samplesAt_append]
  have h1 : js.Perm ((List.range l.length).filter fun i => i ∈ js) := by
    refine (List.perm_ext_iff_of_nodup hn (List.nodup_range.filter _)).mpr fun i => ?_
    simp only [List.mem_filter, List.mem_range, decide_eq_true_eq]
    exact ⟨fun h => ⟨hlt i h, h⟩, fun h => h.2⟩
  have h2 : (js ++ (List.range l.length).filter fun i => i ∉ js).Perm (List.range l.length) := by
    refine (h1.append_right _).trans ?_
    have := List.filter_append_perm (fun i => decide (i ∈ js)) (List.range l.length)
    simpa using this
  have := samplesAt_perm (l := l) h2
  rwa [samplesAt_range] at this

end Hooke
