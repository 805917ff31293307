import Verif.Model.TypeConversion

/-! # C42: conversion of parameter dictionaries -/

namespace Hooke

/-! ### Specification -/

/-- Path of keys to a value inside nested dictionaries. -/
inductive At : Items → List String → PVal → Prop
  | here {d k v} : (k, v) ∈ d → At d [k] v
  | deeper {d k items ks v} : (k, .dict items) ∈ d → At items ks v → At d (k :: ks) v

/-- The dictionary directly contains a dictionary. -/
def HasDict (d : Items) : Prop := ∃ k items, (k, PVal.dict items) ∈ d

/-- What a value becomes when cast to precision `p`, for values which are not dictionaries. -/
def castLeaf (p : FPrec) : PVal → PVal
  | .ftensor _ data => .ftensor p data
  | v => v

/-- Not a dictionary. -/
def IsLeaf (v : PVal) : Prop := ∀ items, v ≠ .dict items

/-- What a number becomes when turned into a tensor. -/
def tensorLeaf : PVal → PVal
  | .num x => .ofNum x
  | v => v

/-! ### `convert_dict_to_tensor` -/

theorem hasDict_cons {k : String} {v : PVal} {rest : Items} :
    HasDict ((k, v) :: rest) ↔ (∃ items, v = .dict items) ∨ HasDict rest := by
  constructor
  · rintro ⟨k', items, h⟩
    rcases List.mem_cons.mp h with h | h
    · exact .inl ⟨items, (Prod.mk.inj h).2.symm⟩
    · exact .inr ⟨k', items, h⟩
  · rintro (⟨items, rfl⟩ | ⟨k', items, h⟩)
    · exact ⟨k, items, by simp⟩
    · exact ⟨k', items, by simp [h]⟩

/-- C42a: the conversion to tensors raises TypeError for every dictionary which contains a
dictionary, in place or not, and for no other dictionary. -/
theorem C42_tensor_nested_violated (d : Items) (inplace : Bool) :
    (convertDictToTensor d inplace).1 = .error .typeError ↔ HasDict d := by
  cases inplace with
  | false =>
    simp only [convertDictToTensor]
    induction d with
    | nil => simp [toTensorNew, HasDict]
    | cons kv rest ih =>
      obtain ⟨k, v⟩ := kv
      rw [hasDict_cons]
      cases v <;> simp_all [toTensorNew]
      all_goals
        rw [← ih]
        cases toTensorNew rest <;> simp [Except.map]
  | true =>
    have key : (toTensorInplace d).1 = .error .typeError ↔ HasDict d := by
      induction d with
      | nil => simp [toTensorInplace, HasDict]
      | cons kv rest ih =>
        obtain ⟨k, v⟩ := kv
        rw [hasDict_cons]
        cases v <;> simp_all [toTensorInplace, toTensorEntry]
    rw [← key]
    simp only [convertDictToTensor, if_true]
    cases (toTensorInplace d).1 <;> simp [Except.map]

/-- C42b: for a dictionary without nested dictionaries the in-place conversion replaces every number
by a tensor and keeps every other entry, and the argument is the returned dictionary. -/
theorem C42_tensor_flat {d : Items} (h : ¬ HasDict d) :
    convertDictToTensor d true = (.ok (d.map fun kv => (kv.1, tensorLeaf kv.2)),
      d.map fun kv => (kv.1, tensorLeaf kv.2)) := by
  have key : toTensorInplace d = (.ok (), d.map fun kv => (kv.1, tensorLeaf kv.2)) := by
    induction d with
    | nil => rfl
    | cons kv rest ih =>
      obtain ⟨k, v⟩ := kv
      rw [hasDict_cons, not_or] at h
      have := ih h.2
      cases v with
      | dict items => exact absurd ⟨items, rfl⟩ h.1
      | _ => simp [toTensorInplace, toTensorEntry, toTensor, this, tensorLeaf]
  simp [convertDictToTensor, key, Except.map]

/-- Is a Python number. -/
def isNum : PVal → Bool
  | .num _ => true
  | _ => false

/-- C42c: when not in place (and without nested dictionaries) the argument is untouched, but the
returned dictionary only contains the entries which were numbers: tensors, strings and other values
are dropped. -/
theorem C42_tensor_copy_drops_violated {d : Items} (h : ¬ HasDict d) :
    convertDictToTensor d false =
      (.ok ((d.filter fun kv => isNum kv.2).map fun kv => (kv.1, tensorLeaf kv.2)), d) := by
  have key : toTensorNew d =
      .ok ((d.filter fun kv => isNum kv.2).map fun kv => (kv.1, tensorLeaf kv.2)) := by
    induction d with
    | nil => rfl
    | cons kv rest ih =>
      obtain ⟨k, v⟩ := kv
      rw [hasDict_cons, not_or] at h
      have := ih h.2
      cases v with
      | dict items => exact absurd ⟨items, rfl⟩ h.1
      | _ => simp [toTensorNew, toTensor, this, tensorLeaf, isNum, Except.map]
  simp [convertDictToTensor, key]

/-- A concrete loss: the entry `"v"`, already a tensor, is absent from the copy. -/
theorem C42_tensor_copy_witness_violated :
    (convertDictToTensor [("E", .num 1), ("v", .ftensor .f32 7)] false).1 =
      .ok [("E", .ofNum 1)] := rfl

/-! ### `convert_dict_to_float32`, `convert_dict_to_float64` -/

theorem mem_castItems {p : FPrec} {d : Items} {k : String} {v : PVal} (h : (k, v) ∈ d) :
    (k, castVal p v) ∈ castItems p d := by
  induction d with
  | nil => cases h
  | cons kv rest ih =>
    obtain ⟨k', v'⟩ := kv
    rw [castItems]
    rcases List.mem_cons.mp h with h | h
    · obtain ⟨rfl, rfl⟩ := Prod.mk.inj h; simp
    · exact List.mem_cons_of_mem _ (ih h)

theorem of_mem_castItems {p : FPrec} {d : Items} {k : String} {w : PVal}
    (h : (k, w) ∈ castItems p d) : ∃ v, (k, v) ∈ d ∧ w = castVal p v := by
  induction d with
  | nil => cases h
  | cons kv rest ih =>
    obtain ⟨k', v'⟩ := kv
    rw [castItems] at h
    rcases List.mem_cons.mp h with h | h
    · obtain ⟨rfl, rfl⟩ := Prod.mk.inj h; exact ⟨v', by simp, rfl⟩
    · obtain ⟨v, h1, h2⟩ := ih h
      exact ⟨v, List.mem_cons_of_mem _ h1, h2⟩

theorem castVal_leaf {p : FPrec} {v : PVal} (h : IsLeaf v) : castVal p v = castLeaf p v := by
  cases v with
  | dict items => exact absurd rfl (h items)
  | _ => rfl

/-- C42d: in the returned dictionary, in place or not, every floating point tensor at any depth has
the requested precision and the same contents, and every other value is kept at its place. -/
theorem C42_float_converts {p : FPrec} {d : Items} {path : List String} {v : PVal}
    (h : At d path v) (hl : IsLeaf v) (inplace : Bool) :
    At (convertDictToFloat p d inplace).1 path (castLeaf p v) := by
  have key : At (castItems p d) path (castLeaf p v) := by
    induction h with
    | here h => rw [← castVal_leaf hl]; exact .here (mem_castItems h)
    | deeper h _ ih =>
      have := mem_castItems (p := p) h
      rw [castVal] at this
      exact .deeper this (ih hl)
  cases inplace <;> exact key

/-- C42e: and it contains nothing else: every value of the returned dictionary comes from the value
at the same place of the argument. -/
theorem C42_float_only {p : FPrec} {d : Items} {path : List String} {w : PVal} {inplace : Bool}
    (h : At (convertDictToFloat p d inplace).1 path w) (hl : IsLeaf w) :
    ∃ v, At d path v ∧ w = castLeaf p v := by
  have key : ∀ {e path w}, At e path w → IsLeaf w → ∀ d, e = castItems p d →
      ∃ v, At d path v ∧ w = castLeaf p v := by
    intro e path w h
    induction h with
    | here h =>
      rintro hl d rfl
      obtain ⟨v, h1, h2⟩ := of_mem_castItems h
      refine ⟨v, .here h1, ?_⟩
      cases v with
      | dict items => rw [castVal] at h2; exact absurd h2 (hl _)
      | _ => exact h2
    | deeper h _ ih =>
      rintro hl d rfl
      obtain ⟨v, h1, h2⟩ := of_mem_castItems h
      cases v with
      | dict items =>
        rw [castVal] at h2
        obtain ⟨v', h3, h4⟩ := ih hl items (PVal.dict.inj h2)
        exact ⟨v', .deeper h1 h3, h4⟩
      | _ => cases h2
  cases inplace <;> exact key h hl d rfl

/-- C42g: in place, the argument afterwards is the returned dictionary. -/
theorem C42_float_inplace (p : FPrec) (d : Items) :
    (convertDictToFloat p d true).2 = (convertDictToFloat p d true).1 := rfl

/-- C42f: not in place, the entries of the argument which are not dictionaries are untouched. -/
theorem C42_float_copy_top {p : FPrec} {d : Items} {k : String} {v : PVal} (h : (k, v) ∈ d)
    (hl : IsLeaf v) : (k, v) ∈ (convertDictToFloat p d false).2 := by
  change (k, v) ∈ castNested p d
  refine List.mem_map.mpr ⟨(k, v), h, ?_⟩
  cases v with
  | dict items => exact absurd rfl (hl items)
  | _ => rfl

theorem castVal_of_castItems {p : FPrec} {d : Items} (h : castItems p d = d) {k : String} {v : PVal}
    (hm : (k, v) ∈ d) : castVal p v = v := by
  induction d with
  | nil => cases hm
  | cons kv rest ih =>
    obtain ⟨k', v'⟩ := kv
    rw [castItems] at h
    obtain ⟨h1, h2⟩ := List.cons.inj h
    rcases List.mem_cons.mp hm with hm | hm
    · obtain ⟨rfl, rfl⟩ := Prod.mk.inj hm
      exact (Prod.mk.inj h1).2
    · exact ih h2 hm

theorem prec_of_castItems {p q : FPrec} {data : ℕ} {d : Items} {path : List String}
    (h : castItems p d = d) (ha : At d path (.ftensor q data)) : q = p := by
  generalize hv : PVal.ftensor q data = v at ha
  induction ha with
  | here hm =>
    subst hv
    have := castVal_of_castItems h hm
    rw [castVal] at this
    exact (PVal.ftensor.inj this).1.symm
  | deeper hm _ ih =>
    have := castVal_of_castItems h hm
    rw [castVal] at this
    exact ih (PVal.dict.inj this) hv

theorem map_eq_self {α : Type} {f : α → α} {l : List α} : l.map f = l ↔ ∀ a ∈ l, f a = a := by
  conv_lhs => rw [← List.map_id l, List.map_map]
  rw [List.map_inj_left]
  rfl

mutual
theorem castVal_fixed {p : FPrec} : ∀ (v : PVal),
    (∀ q data, v = .ftensor q data → q = p) →
    (∀ items, v = .dict items → ∀ path q data, At items path (.ftensor q data) → q = p) →
    castVal p v = v
  | .dict items, _, h => by
    rw [castVal, castItems_fixed items (h items rfl)]
  | .ftensor q data, h, _ => by rw [castVal, h q data rfl]
  | .num _, _, _ => by rw [castVal]
  | .itensor _, _, _ => by rw [castVal]
  | .ofNum _, _, _ => by rw [castVal]
  | .other _, _, _ => by rw [castVal]
theorem castItems_fixed {p : FPrec} : ∀ (d : List (String × PVal)),
    (∀ path q data, At d path (.ftensor q data) → q = p) → castItems p d = d
  | [], _ => by rw [castItems]
  | (k, v) :: rest, h => by
    rw [castItems, castVal_fixed v, castItems_fixed rest]
    · intro path q data ha
      refine h path q data ?_
      cases ha with
      | here hm => exact .here (List.mem_cons_of_mem _ hm)
      | deeper hm ha => exact .deeper (List.mem_cons_of_mem _ hm) ha
    · rintro q data rfl
      exact h [k] q data (.here (by simp))
    · rintro items rfl path q data ha
      exact h (k :: path) q data (.deeper (by simp) ha)
end

/-- C42g: not in place, the argument is left unchanged exactly when every floating point tensor
stored inside a nested dictionary already has the requested precision: otherwise the caller's
nested dictionaries are modified. -/
theorem C42_float_copy_unchanged_iff {p : FPrec} {d : Items} :
    (convertDictToFloat p d false).2 = d ↔
      ∀ k k' ks q data, At d (k :: k' :: ks) (.ftensor q data) → q = p := by
  change castNested p d = d ↔ _
  unfold castNested
  constructor
  · intro h k k' ks q data ha
    cases ha with
    | @deeper _ _ items _ _ hm ha =>
      have h1 : (k, castNestedVal p (.dict items)) = (k, .dict items) := by
        have := map_eq_self.mp h
        exact this (k, .dict items) hm
      have h2 := (Prod.mk.inj h1).2
      rw [castNestedVal] at h2
      exact prec_of_castItems (PVal.dict.inj h2) ha
  · intro h
    refine map_eq_self.mpr fun kv hm => ?_
    obtain ⟨k, v⟩ := kv
    cases v with
    | dict items =>
      simp only [castNestedVal]
      rw [castItems_fixed]
      intro path q data ha
      cases path with
      | nil => cases ha
      | cons k' ks => exact h k k' ks q data (.deeper hm ha)
    | _ => rfl

/-- C42h: the claim that the argument is never modified is false: a float64 tensor inside the nested
dictionary of hardening parameters becomes float32 in the caller's dictionary. -/
theorem C42_float_copy_violated :
    (convertDictToFloat .f32 [("hardening_parameters", .dict [("s0", .ftensor .f64 0)])] false).2 =
      [("hardening_parameters", .dict [("s0", .ftensor .f32 0)])] := by
  simp [convertDictToFloat, castNested, castNestedVal, castItems, castVal]

/-- a nested dictionary with a value two levels deep meets the hypotheses of C42d -/
example : At [("a", .dict [("b", .dict [("c", .ftensor .f64 3)])])] ["a", "b", "c"]
    (.ftensor .f64 3) ∧ IsLeaf (.ftensor .f64 3) :=
  ⟨.deeper (List.mem_singleton.mpr rfl) (.deeper (List.mem_singleton.mpr rfl)
    (.here (List.mem_singleton.mpr rfl))), fun _ => by simp⟩
/-- a flat dictionary -/
example : ¬ HasDict [("E", .num 1), ("v", .ftensor .f32 7)] := by
  rintro ⟨k, items, h⟩; simp at h

end Hooke
