import Verif.Spec.ParameterDict
import Verif.Lemmas.PyDict
import Verif.Lemmas.Py
import Mathlib.Data.List.Induction

/-!
# C63: nested parameter dictionaries hold every named parameter
-/

namespace Hooke

open Spec

variable {V : Type}

/-- What one successful call of `set_parameter_in_dict` does to every path. -/
theorem setParameterInDict_read (p : List PName) (v : V) : ∀ (d d' : ParamDict V),
    setParameterInDict d p v = .ok d' →
    ∀ q, readParam d' q = if q = p then some v else if p <+: q then none else readParam d q := by
  induction p with
  | nil => intro d d' h; simp [setParameterInDict] at h
  | cons k rest ih =>
    cases rest with
    | nil =>
      intro d d' h q
      simp only [setParameterInDict, Except.ok.injEq] at h
      subst h
      match q with
      | [] => simp [readParam]
      | [a] =>
        by_cases ha : a = k
        · subst ha; simp [readParam]
        · simp only [readParam, KDict.get?_put_ne d _ ha]
          have h1 : ¬ ([a] = [k]) := by simpa using ha
          have h2 : ¬ ([k] <+: [a]) := by simpa [List.cons_prefix_cons] using fun h => ha h.symm
          simp [h2, ha]
      | a :: b :: q =>
        by_cases ha : a = k
        · subst ha
          simp [readParam]
        · have h2 : ¬ ([k] <+: a :: b :: q) := by
            simpa [List.cons_prefix_cons] using fun h => ha h.symm
          simp [readParam, KDict.get?_put_ne d _ ha, h2]
    | cons k' rest =>
      -- the nested dictionary that is updated, and what it was before
      have key : ∀ (d d' : ParamDict V) (items sub : ParamDict V),
          setParameterInDict items (k' :: rest) v = .ok sub →
          (∀ q : List PName, q ≠ [] → readParam d (k :: q) = readParam items q) →
          (∀ w, d.get? k ≠ some (.leaf w)) → d' = d.put k (.node sub) →
          ∀ q, readParam d' q = if q = k :: k' :: rest then some v
            else if k :: k' :: rest <+: q then none else readParam d q := by
        intro d d' items sub hs hold hnl hd' q
        subst hd'
        match q with
        | [] => simp [readParam]
        | [a] =>
          have h1 : ¬ (k :: k' :: rest <+: [a]) := by
            intro h
            have := h.length_le
            simp at this
          by_cases ha : a = k
          · subst ha
            have h3 : readParam d [a] = none := by
              simp only [readParam]
            simp only [h3]
            simp [readParam]
          · simp [readParam, KDict.get?_put_ne d _ ha, h1]
        | a :: b :: q =>
          by_cases ha : a = k
          · subst ha
            have := ih items sub hs (b :: q)
            have h2 := hold (b :: q) (by simp)
            simp only [readParam, KDict.get?_put_self] at h2 ⊢
            rw [this, h2]
            simp [List.cons_prefix_cons]
          · have h2 : ¬ (k :: k' :: rest <+: a :: b :: q) := by
              simpa [List.cons_prefix_cons] using fun h => absurd h.symm ha
            simp [readParam, KDict.get?_put_ne d _ ha, h2, ha]
      intro d d' h
      cases hg : d.get? k with
      | none =>
        simp only [setParameterInDict, hg] at h
        obtain ⟨sub, hs, h⟩ := bind_ok h
        simp only [Except.ok.injEq] at h
        refine key d d' [] sub hs ?_ (by simp [hg]) h.symm
        intro q hq
        cases q with
        | nil => exact absurd rfl hq
        | cons b q => cases q <;> simp [readParam, hg, KDict.get?]
      | some n =>
        cases n with
        | leaf w => simp [setParameterInDict, hg] at h
        | node items =>
          simp only [setParameterInDict, hg] at h
          obtain ⟨sub, hs, h⟩ := bind_ok h
          simp only [Except.ok.injEq] at h
          refine key d d' items sub hs ?_ (by simp [hg]) h.symm
          intro q hq
          cases q with
          | nil => exact absurd rfl hq
          | cons b q => simp [readParam, hg]

/-- `set_parameter_in_dict` succeeds unless the path goes through a stored parameter. -/
theorem setParameterInDict_ok (p : List PName) (v : V) : ∀ (d : ParamDict V), p ≠ [] →
    (∀ q, q ≠ p → q <+: p → readParam d q = none) →
    ∃ d', setParameterInDict d p v = .ok d' := by
  induction p with
  | nil => intro d h; exact absurd rfl h
  | cons k rest ih =>
    intro d _ hq
    cases rest with
    | nil => exact ⟨_, rfl⟩
    | cons k' rest =>
      have hsub : ∀ items : ParamDict V,
          (∀ q : List PName, q ≠ [] → readParam d (k :: q) = readParam items q) →
          ∃ sub, setParameterInDict items (k' :: rest) v = .ok sub := by
        intro items hold
        refine ih items (by simp) fun q hne hpre => ?_
        cases q with
        | nil => rfl
        | cons b q =>
          rw [← hold (b :: q) (by simp)]
          exact hq _ (by simpa using hne) (by simpa [List.cons_prefix_cons] using hpre)
      cases hg : d.get? k with
      | none =>
        obtain ⟨sub, hs⟩ := hsub [] (by
          intro q hne
          cases q with
          | nil => exact absurd rfl hne
          | cons b q => cases q <;> simp [readParam, hg, KDict.get?])
        exact ⟨d.put k (.node sub), by simp [setParameterInDict, hg, hs, bind, Except.bind]⟩
      | some n =>
        cases n with
        | leaf w =>
          have := hq [k] (by simp) (by simp [List.cons_prefix_cons])
          simp [readParam, hg] at this
        | node items =>
          obtain ⟨sub, hs⟩ := hsub items (by
            intro q hne
            cases q with
            | nil => exact absurd rfl hne
            | cons b q => simp [readParam, hg])
          exact ⟨d.put k (.node sub), by simp [setParameterInDict, hg, hs, bind, Except.bind]⟩

/-- A dictionary that holds a parameter at a path holds nothing below it. -/
theorem readParam_below (p r : List PName) (hr : r ≠ []) : ∀ (d : ParamDict V) (v : V),
    readParam d p = some v → readParam d (p ++ r) = none := by
  induction p with
  | nil => intro d v h; simp [readParam] at h
  | cons k rest ih =>
    intro d v h
    cases rest with
    | nil =>
      cases r with
      | nil => exact absurd rfl hr
      | cons b r =>
        cases hg : d.get? k with
        | none => simp [readParam, hg]
        | some n => cases n <;> simp_all [readParam]
    | cons k' rest =>
      cases hg : d.get? k with
      | none => simp [readParam, hg]
      | some n =>
        cases n with
        | leaf w => simp [readParam, hg]
        | node items =>
          simp only [readParam, hg] at h
          simpa [readParam, hg] using ih items v h

/-- Storing below a stored parameter raises. -/
theorem setParameterInDict_below (p r : List PName) (hr : r ≠ []) (v : V) :
    ∀ (d : ParamDict V) (u : V), readParam d p = some u →
      setParameterInDict d (p ++ r) v = .error .typeError := by
  induction p with
  | nil => intro d u h; simp [readParam] at h
  | cons k rest ih =>
    intro d u h
    cases rest with
    | nil =>
      cases r with
      | nil => exact absurd rfl hr
      | cons b r =>
        cases hg : d.get? k with
        | none => simp [readParam, hg] at h
        | some n => cases n <;> simp_all [readParam, setParameterInDict]
    | cons k' rest =>
      cases hg : d.get? k with
      | none => simp [readParam, hg] at h
      | some n =>
        cases n with
        | leaf w => simp [readParam, hg] at h
        | node items =>
          simp only [readParam, hg] at h
          have := ih items u h
          simp only [List.cons_append] at this
          simp [setParameterInDict, hg, this, bind, Except.bind]

theorem readParam_nil (q : List PName) : readParam ([] : ParamDict V) q = none := by
  match q with
  | [] => rfl
  | [a] => simp [readParam, KDict.get?]
  | a :: b :: q => simp [readParam, KDict.get?]

theorem intercalate_append_cons (l : List PName) (hl : l ≠ []) (b : PName) (r : List PName) :
    (['.'] : PName).intercalate (l ++ b :: r)
      = (['.'] : PName).intercalate l ++ '.' :: (['.'] : PName).intercalate (b :: r) := by
  induction l with
  | nil => exact absurd rfl hl
  | cons a l ih =>
    cases l with
    | nil => simp [List.intercalate]
    | cons c l =>
      have := ih (by simp)
      simp only [List.intercalate, List.cons_append, List.intersperse_cons_cons, List.flatten_cons,
        List.append_assoc] at this ⊢
      rw [this]

/-- The components of one name are the first components of another exactly when the names are equal
or the first is a dotted prefix of the second. -/
theorem splitOn_prefix (a b : PName) :
    a.splitOn '.' <+: b.splitOn '.' ↔ a = b ∨ DottedPrefix a b := by
  constructor
  · rintro ⟨r, hr⟩
    have hb : b = (['.'] : PName).intercalate (b.splitOn '.') := (List.intercalate_splitOn '.').symm
    cases r with
    | nil =>
      left
      rw [List.append_nil] at hr
      rw [hb, ← hr, List.intercalate_splitOn]
    | cons c r =>
      right
      refine ⟨(['.'] : PName).intercalate (c :: r), ?_⟩
      rw [hb, ← hr, intercalate_append_cons _ (List.splitOn_ne_nil _ _), List.intercalate_splitOn]
  · rintro (rfl | ⟨s, rfl⟩)
    · exact List.prefix_refl _
    · exact ⟨s.splitOn '.', (List.splitOn_append_cons_self a s).symm⟩

/-- **C63.** If the names are distinct and none is a proper dotted prefix of another,
`get_model_parameter_dict` succeeds, whatever the order of the parameters, and reading the dictionary
along a sequence of keys returns a value exactly when that sequence is the components of the name of
a parameter, and then it returns that parameter. -/
theorem C63_dict (params : List (PName × V))
    (hn : params.Pairwise fun p q =>
      p.1 ≠ q.1 ∧ ¬ DottedPrefix p.1 q.1 ∧ ¬ DottedPrefix q.1 p.1) :
    ∃ d, getModelParameterDict params = .ok d ∧
      ∀ q v, readParam d q = some v ↔ ∃ n, (n, v) ∈ params ∧ q = n.splitOn '.' := by
  induction params using List.reverseRecOn with
  | nil =>
    refine ⟨[], rfl, fun q v => ?_⟩
    match q with
    | [] => simp [readParam]
    | [a] => simp [readParam, KDict.get?]
    | a :: b :: q => simp [readParam, KDict.get?]
  | append_singleton params p ih =>
    rw [List.pairwise_append] at hn
    obtain ⟨hp, -, hlast⟩ := hn
    obtain ⟨d, hd, hread⟩ := ih hp
    obtain ⟨d', hd'⟩ := setParameterInDict_ok (p.1.splitOn '.') p.2 d (List.splitOn_ne_nil _ _) (by
      intro q hne hpre
      cases h : readParam d q with
      | none => rfl
      | some v =>
        obtain ⟨n, hmem, rfl⟩ := (hread q v).1 h
        obtain ⟨h1, h2, -⟩ := hlast _ hmem p (by simp)
        rcases (splitOn_prefix _ _).1 hpre with h | h
        · exact absurd h h1
        · exact absurd h h2)
    refine ⟨d', ?_, fun q v => ?_⟩
    · unfold getModelParameterDict at hd ⊢
      simp [List.foldlM_append, hd, hd', bind, Except.bind, pure, Except.pure]
    · rw [setParameterInDict_read _ _ _ _ hd' q]
      split
      · next hq =>
        subst hq
        simp only [Option.some.injEq, List.mem_append, List.mem_singleton]
        constructor
        · rintro rfl; exact ⟨p.1, Or.inr rfl, rfl⟩
        · rintro ⟨n, hm | hm, hs⟩
          · have := (splitOn_prefix n p.1).1 (hs ▸ List.prefix_refl _)
            obtain ⟨h1, h2, -⟩ := hlast _ hm p (by simp)
            rcases this with h | h
            · exact absurd h h1
            · exact absurd h h2
          · rw [← hm]
      · next hq =>
        split
        · next hpre =>
          constructor
          · intro h; cases h
          · rintro ⟨n, hm, rfl⟩
            exfalso
            rw [List.mem_append, List.mem_singleton] at hm
            rcases hm with hm | hm
            · obtain ⟨h1, -, h3⟩ := hlast _ hm p (by simp)
              rcases (splitOn_prefix _ _).1 hpre with h | h
              · exact h1 h.symm
              · exact h3 h
            · exact hq (by rw [← hm])
        · rw [hread q v]
          constructor
          · rintro ⟨n, hm, rfl⟩; exact ⟨n, List.mem_append_left _ hm, rfl⟩
          · rintro ⟨n, hm, rfl⟩
            rw [List.mem_append, List.mem_singleton] at hm
            rcases hm with hm | hm
            · exact ⟨n, hm, rfl⟩
            · exact absurd (by rw [← hm]) hq

/-- The names of a model with a nested module and a top-level parameter. -/
example : ([("rnn.weight".toList, (1 : ℕ)), ("rnn.bias".toList, 2), ("rn".toList, 3)] :
    List (PName × ℕ)).Pairwise fun p q =>
      p.1 ≠ q.1 ∧ ¬ DottedPrefix p.1 q.1 ∧ ¬ DottedPrefix q.1 p.1 := by
  have aux : ∀ (a b : PName), ¬ (a.length < b.length ∧ b.take (a.length + 1) = a ++ ['.']) →
      ¬ DottedPrefix a b := by
    rintro a b h ⟨s, rfl⟩
    apply h
    refine ⟨by simp, ?_⟩
    rw [List.take_append, List.take_of_length_le (by omega)]
    simp
  simp only [List.pairwise_cons, List.mem_cons, List.not_mem_nil, or_false, forall_eq_or_imp,
    forall_eq, IsEmpty.forall_iff, implies_true, List.Pairwise.nil, and_true]
  refine ⟨⟨⟨by decide, aux _ _ (by decide), aux _ _ (by decide)⟩,
    ⟨by decide, aux _ _ (by decide), aux _ _ (by decide)⟩⟩,
    ⟨by decide, aux _ _ (by decide), aux _ _ (by decide)⟩⟩

/-- **C63.** The condition on the names is needed: no dictionary of the function holds both a
parameter and another whose name extends it.  Whatever the parameters are, if one name is a proper
dotted prefix of another, then the call raises or one of the two cannot be read back. -/
theorem C63_prefix_needed (params : List (PName × V)) (a b : PName) (v w : V)
    (hab : DottedPrefix a b) (d : ParamDict V) (_ : getModelParameterDict params = .ok d) :
    ¬ (readParam d (a.splitOn '.') = some v ∧ readParam d (b.splitOn '.') = some w) := by
  rintro ⟨h1, h2⟩
  obtain ⟨s, rfl⟩ := hab
  rw [List.splitOn_append_cons_self] at h2
  rw [readParam_below _ _ (List.splitOn_ne_nil _ _) d v h1] at h2
  cases h2

/-- **C63.** Which of the two it is depends on the order: with the shorter name first the call
raises; with the longer name first the call succeeds and silently loses the longer one. -/
theorem C63_prefix_order (a b : PName) (v w : V) (hab : DottedPrefix a b) :
    getModelParameterDict [(a, v), (b, w)] = .error .typeError ∧
    ∃ d, getModelParameterDict [(b, w), (a, v)] = .ok d ∧
      readParam d (a.splitOn '.') = some v ∧ readParam d (b.splitOn '.') = none := by
  have hpre : a.splitOn '.' <+: b.splitOn '.' := (splitOn_prefix a b).2 (Or.inr hab)
  obtain ⟨s, rfl⟩ := hab
  have hsplit := List.splitOn_append_cons_self (a := '.') a s
  have hne : (a ++ '.' :: s).splitOn '.' ≠ a.splitOn '.' := by
    rw [hsplit]
    intro h
    exact List.splitOn_ne_nil '.' s (List.append_right_eq_self.1 h)
  obtain ⟨d₁, h₁⟩ := setParameterInDict_ok (a.splitOn '.') v [] (List.splitOn_ne_nil _ _)
    fun q _ _ => readParam_nil q
  obtain ⟨d₂, h₂⟩ := setParameterInDict_ok ((a ++ '.' :: s).splitOn '.') w []
    (List.splitOn_ne_nil _ _) fun q _ _ => readParam_nil q
  have r₁ := setParameterInDict_read _ _ _ _ h₁
  have r₂ := setParameterInDict_read _ _ _ _ h₂
  obtain ⟨d₃, h₃⟩ := setParameterInDict_ok (a.splitOn '.') v d₂ (List.splitOn_ne_nil _ _) (by
    intro q hq hqp
    rw [r₂ q, if_neg, if_neg, readParam_nil]
    · intro h
      exact hq (hqp.eq_of_length_le ((hpre.trans h).length_le))
    · rintro rfl
      exact hne (hqp.eq_of_length_le hpre.length_le))
  have r₃ := setParameterInDict_read _ _ _ _ h₃
  refine ⟨?_, d₃, ?_, ?_, ?_⟩
  · have := setParameterInDict_below (a.splitOn '.') (s.splitOn '.') (List.splitOn_ne_nil _ _) w d₁ v
      (by rw [r₁, if_pos rfl])
    simp [getModelParameterDict, h₁, hsplit, this, bind, Except.bind]
  · simp only [getModelParameterDict, List.foldlM_cons, List.foldlM_nil, h₂, h₃, bind, Except.bind,
      pure, Except.pure]
  · rw [r₃, if_pos rfl]
  · rw [r₃, if_neg hne, if_pos hpre]

example : DottedPrefix "rnn".toList "rnn.weight".toList := ⟨"weight".toList, rfl⟩

end Hooke
