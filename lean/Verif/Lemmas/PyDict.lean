import Verif.Model.PyDict

namespace Hooke.KDict

variable {K β : Type} [DecidableEq K]

theorem get?_eq_none {d : KDict K β} {k : K} : d.get? k = none ↔ k ∉ d.keys := by
  induction d with
  | nil => simp [get?, keys]
  | cons p d ih =>
    obtain ⟨k', v⟩ := p
    by_cases h : k' = k
    · simp [get?, keys, h]
    · simp only [get?, h, if_false, ih, keys, List.map_cons, List.mem_cons, not_or]
      exact ⟨fun h' => ⟨fun e => h e.symm, h'⟩, fun h' => h'.2⟩

theorem has_iff {d : KDict K β} {k : K} : d.has k = true ↔ k ∈ d.keys := by
  have := @get?_eq_none K β _ d k
  unfold has
  cases h : d.get? k with
  | none => simp [this.mp h]
  | some v =>
    simp only [Option.isSome_some, true_iff]
    by_contra hk
    rw [this.mpr hk] at h
    cases h

theorem mem_keys_iff {d : KDict K β} {k : K} : k ∈ d.keys ↔ ∃ v, d.get? k = some v := by
  rw [← has_iff, has, Option.isSome_iff_exists]

@[simp] theorem get?_put_self (d : KDict K β) (k : K) (v : β) : (d.put k v).get? k = some v := by
  induction d with
  | nil => simp [put, get?]
  | cons p d ih =>
    obtain ⟨k', v'⟩ := p
    by_cases h : k' = k <;> simp [put, get?, h, ih]

theorem get?_put_ne (d : KDict K β) {k l : K} (v : β) (h : l ≠ k) :
    (d.put k v).get? l = d.get? l := by
  induction d with
  | nil => simp [put, get?, h.symm]
  | cons p d ih =>
    obtain ⟨k', v'⟩ := p
    by_cases hk : k' = k
    · subst hk; simp [put, get?, h.symm]
    · by_cases hl : k' = l
      · subst hl; simp [put, get?, hk]
      · simp [put, get?, hk, hl, ih]

theorem get?_put (d : KDict K β) (k l : K) (v : β) :
    (d.put k v).get? l = if l = k then some v else d.get? l := by
  split_ifs with h
  · subst h; simp
  · exact get?_put_ne d v h

theorem get?_del_ne (d : KDict K β) {k l : K} (h : l ≠ k) :
    (d.del k).get? l = d.get? l := by
  induction d with
  | nil => simp [del, get?]
  | cons p d ih =>
    obtain ⟨k', v'⟩ := p
    by_cases hk : k' = k
    · subst hk; simp [del, get?, h.symm]
    · by_cases hl : k' = l
      · subst hl; simp [del, get?, hk]
      · simp [del, get?, hk, hl, ih]

theorem keys_put (d : KDict K β) (k : K) (v : β) :
    (d.put k v).keys = if k ∈ d.keys then d.keys else d.keys ++ [k] := by
  induction d with
  | nil => simp [put, keys]
  | cons p d ih =>
    obtain ⟨k', v'⟩ := p
    by_cases hk : k' = k
    · subst hk; simp [put, keys]
    · have hk' : k ≠ k' := fun e => hk e.symm
      have : (put ((k', v') :: d) k v).keys = k' :: (put d k v).keys := by simp [put, hk, keys]
      rw [this, ih]
      by_cases hm : k ∈ keys d
      · have hm' : k ∈ keys ((k', v') :: d) := List.mem_cons_of_mem _ hm
        rw [if_pos hm, if_pos hm']; rfl
      · have hm' : k ∉ keys ((k', v') :: d) := by
          simp only [keys, List.map_cons, List.mem_cons, not_or]; exact ⟨hk', hm⟩
        rw [if_neg hm, if_neg hm']; rfl

theorem keys_del (d : KDict K β) (k : K) : (d.del k).keys = d.keys.erase k := by
  induction d with
  | nil => simp [del, keys]
  | cons p d ih =>
    obtain ⟨k', v'⟩ := p
    by_cases hk : k' = k
    · subst hk; simp [del, keys]
    · have : (del ((k', v') :: d) k).keys = k' :: (del d k).keys := by simp [del, hk, keys]
      rw [this, ih]
      simp [keys, hk]

/-- The keys of a dictionary are distinct. -/
theorem nodup_put {d : KDict K β} (h : d.keys.Nodup) (k : K) (v : β) :
    (d.put k v).keys.Nodup := by
  rw [keys_put]
  split_ifs with hk
  · exact h
  · exact List.nodup_append.mpr ⟨h, by simp, fun a ha b hb => by
      rw [List.mem_singleton] at hb; subst hb; rintro rfl; exact hk ha⟩

theorem nodup_del {d : KDict K β} (h : d.keys.Nodup) (k : K) : (d.del k).keys.Nodup := by
  rw [keys_del]; exact h.erase k

theorem get?_del_self {d : KDict K β} (h : d.keys.Nodup) (k : K) :
    (d.del k).get? k = none := by
  rw [get?_eq_none, keys_del]
  exact h.not_mem_erase

theorem get?_del {d : KDict K β} (h : d.keys.Nodup) (k l : K) :
    (d.del k).get? l = if l = k then none else d.get? l := by
  split_ifs with hl
  · subst hl; exact get?_del_self h l
  · exact get?_del_ne d hl

end Hooke.KDict
