import Verif.Model.StructureState
import Verif.Lemmas.Py
import Mathlib.Data.List.Nodup
import Mathlib.Data.List.Induction
import Mathlib.Tactic.Linarith

/-!
# C23 the element state store as a pair of registers; C71 model assignment
-/

namespace Hooke

variable {σ : Type}

/-- What a client can do.  `i` refers to the `i`-th object the client obtained (created or
received from `get`). -/
inductive StateOp (σ : Type)
  | create (v : σ)
  | modify (i : ℕ) (v : σ)
  | update (k i : ℕ) (time : String) (isCopy : Bool)
  | get (k : ℕ) (time : String) (isCopy : Bool)
  | converge (isCopy : Bool)

/-- The operation asks for copies. -/
def StateOp.copies : StateOp σ → Bool
  | .update _ _ _ c => c
  | .get _ _ c => c
  | .converge c => c
  | _ => true

/-- Run one client operation on the store; `held` lists the references the client holds.
Operations that raise have no effect. -/
def StateOp.run (s : StateStore σ × List ℕ) : StateOp σ → StateStore σ × List ℕ
  | .create v => ((s.1.alloc v).1, s.2 ++ [(s.1.alloc v).2])
  | .modify i v => match s.2[i]? with
    | some r => ({ s.1 with obj := Function.update s.1.obj r (some v) }, s.2)
    | none => s
  | .update k i time c => match s.2[i]? with
    | some r => match s.1.updateElementState k r time c with
      | .ok s' => (s', s.2)
      | .error _ => s
    | none => s
  | .get k time c => match s.1.getElementState k time c with
    | .ok (s', r) => (s', s.2 ++ [r])
    | .error _ => s
  | .converge c => (s.1.updateConverged c, s.2)

namespace Spec

/-- The specification: two registers per element and the client's own values, all
independent values. -/
structure Registers (σ : Type) where
  cur : ℕ → Option σ
  old : ℕ → Option σ
  vars : List σ

/-- The register selected by a time option. -/
def Registers.reg (p : Registers σ) (time : String) : Option (ℕ → Option σ) :=
  if time = "last" then some p.old else if time = "current" then some p.cur else none

/-- Value semantics of the client operations. -/
def Registers.step (p : Registers σ) : StateOp σ → Registers σ
  | .create v => { p with vars := p.vars ++ [v] }
  | .modify i v => { p with vars := p.vars.set i v }
  | .update k i time _ => match p.vars[i]? with
    | some v => if time = "last" then { p with old := Function.update p.old k (some v) }
      else if time = "current" then { p with cur := Function.update p.cur k (some v) } else p
    | none => p
  | .get k time _ => match p.reg time with
    | some f => match f k with
      | some v => { p with vars := p.vars ++ [v] }
      | none => p
    | none => p
  | .converge _ => { p with old := p.cur }

end Spec

/-- What a client observes of the store: the values in both dictionaries and of its own
objects. -/
def observe (s : StateStore σ × List ℕ) : (ℕ → Option σ) × (ℕ → Option σ) × List (Option σ) :=
  (fun k => (s.1.dict s.1.cur k).bind s.1.obj, fun k => (s.1.dict s.1.old k).bind s.1.obj,
    s.2.map s.1.obj)

/-- Invariant relating store and registers. -/
structure Rel (s : StateStore σ × List ℕ) (p : Spec.Registers σ) : Prop where
  cur_lt : s.1.cur < s.1.nextDict
  old_lt : s.1.old < s.1.nextDict
  ne : s.1.cur ≠ s.1.old
  curLt : ∀ k r, s.1.dict s.1.cur k = some r → r < s.1.next
  oldLt : ∀ k r, s.1.dict s.1.old k = some r → r < s.1.next
  allSome : ∀ r < s.1.next, (s.1.obj r).isSome
  heldLt : ∀ r ∈ s.2, r < s.1.next
  nodup : s.2.Nodup
  curHeld : ∀ k r, s.1.dict s.1.cur k = some r → r ∉ s.2
  oldHeld : ∀ k r, s.1.dict s.1.old k = some r → r ∉ s.2
  hcur : ∀ k, (s.1.dict s.1.cur k).bind s.1.obj = p.cur k
  hold : ∀ k, (s.1.dict s.1.old k).bind s.1.obj = p.old k
  hvars : s.2.map s.1.obj = p.vars.map some

theorem rel_alloc {s : StateStore σ × List ℕ} {p : Spec.Registers σ} (h : Rel s p) (v : σ) :
    Rel ({ s.1 with obj := Function.update s.1.obj s.1.next (some v), next := s.1.next + 1 },
      s.2 ++ [s.1.next]) { p with vars := p.vars ++ [v] } := by
  have hne : ∀ r, r < s.1.next → Function.update s.1.obj s.1.next (some v) r = s.1.obj r := by
    intro r hr
    rw [Function.update_of_ne (by omega)]
  have hb : ∀ (o : Option ℕ), (∀ r, o = some r → r < s.1.next) →
      o.bind (Function.update s.1.obj s.1.next (some v)) = o.bind s.1.obj := by
    intro o ho
    cases o with
    | none => rfl
    | some r => exact hne r (ho r rfl)
  refine ⟨h.cur_lt, h.old_lt, h.ne, ?_, ?_, ?_, ?_, ?_, ?_, ?_, ?_, ?_, ?_⟩
  · intro k r hr; exact Nat.lt_succ_of_lt (h.curLt k r hr)
  · intro k r hr; exact Nat.lt_succ_of_lt (h.oldLt k r hr)
  · intro r hr
    simp only at hr ⊢
    rcases Nat.lt_succ_iff_lt_or_eq.1 hr with hr | rfl
    · rw [hne r hr]; exact h.allSome r hr
    · simp
  · intro r hr
    simp only at hr ⊢
    rcases List.mem_append.1 hr with hr | hr
    · exact Nat.lt_succ_of_lt (h.heldLt r hr)
    · rw [List.mem_singleton.1 hr]; exact Nat.lt_succ_self _
  · simp only
    rw [List.nodup_append]
    refine ⟨h.nodup, by simp, ?_⟩
    intro a ha b hb'
    rw [List.mem_singleton.1 hb']
    exact (h.heldLt a ha).ne
  · intro k r hr hm
    rcases List.mem_append.1 hm with hm | hm
    · exact h.curHeld k r hr hm
    · have := h.curLt k r hr
      rw [List.mem_singleton.1 hm] at this
      omega
  · intro k r hr hm
    rcases List.mem_append.1 hm with hm | hm
    · exact h.oldHeld k r hr hm
    · have := h.oldLt k r hr
      rw [List.mem_singleton.1 hm] at this
      omega
  · intro k
    simp only
    rw [hb _ (h.curLt k), h.hcur k]
  · intro k
    simp only
    rw [hb _ (h.oldLt k), h.hold k]
  · simp only [List.map_append, List.map_cons, List.map_nil, Function.update_self]
    rw [← h.hvars]
    congr 1
    apply List.map_congr_left
    intro r hr
    exact hne r (h.heldLt r hr)

/-- A private fresh copy of object value `v` (not held by the client). -/
theorem rel_fresh {s : StateStore σ × List ℕ} {p : Spec.Registers σ} (h : Rel s p) (v : σ) :
    Rel ({ s.1 with obj := Function.update s.1.obj s.1.next (some v), next := s.1.next + 1 },
      s.2) p := by
  have h' := rel_alloc h v
  refine ⟨h'.cur_lt, h'.old_lt, h'.ne, h'.curLt, h'.oldLt, h'.allSome, ?_, h.nodup, h.curHeld,
    h.oldHeld, h'.hcur, h'.hold, ?_⟩
  · intro r hr; exact Nat.lt_succ_of_lt (h.heldLt r hr)
  · simp only
    rw [← h.hvars]
    apply List.map_congr_left
    intro r hr
    exact Function.update_of_ne (h.heldLt r hr).ne _ _

theorem held_value {s : StateStore σ × List ℕ} {p : Spec.Registers σ} (h : Rel s p) {i r : ℕ}
    (hi : s.2[i]? = some r) : ∃ v, p.vars[i]? = some v ∧ s.1.obj r = some v := by
  have := congrArg (fun l => l[i]?) h.hvars
  simp only [List.getElem?_map, hi, Option.map_some] at this
  cases hv : p.vars[i]? with
  | none => rw [hv] at this; simp at this
  | some v => rw [hv] at this; exact ⟨v, rfl, by simpa using this⟩

theorem held_none {s : StateStore σ × List ℕ} {p : Spec.Registers σ} (h : Rel s p) {i : ℕ}
    (hi : s.2[i]? = none) : p.vars[i]? = none := by
  have := congrArg (fun l => l[i]?) h.hvars
  simp only [List.getElem?_map, hi, Option.map_none] at this
  cases hv : p.vars[i]? with
  | none => rfl
  | some v => rw [hv] at this; simp at this

theorem rel_setItem {s : StateStore σ × List ℕ} {p : Spec.Registers σ} (h : Rel s p) (k : ℕ)
    {r : ℕ} {v : σ} (hr : r < s.1.next) (hh : r ∉ s.2) (hv : s.1.obj r = some v) :
    Rel (s.1.setItem s.1.old k r, s.2) { p with old := Function.update p.old k (some v) } ∧
    Rel (s.1.setItem s.1.cur k r, s.2) { p with cur := Function.update p.cur k (some v) } := by
  constructor
  · refine ⟨h.cur_lt, h.old_lt, h.ne, ?_, ?_, h.allSome, h.heldLt, h.nodup, ?_, ?_, ?_, ?_, h.hvars⟩
    · intro k' r' hr'
      simp only [StateStore.setItem, Function.update_of_ne h.ne] at hr'
      exact h.curLt k' r' hr'
    · intro k' r' hr'
      simp only [StateStore.setItem, Function.update_self] at hr'
      by_cases hk : k' = k
      · subst hk; rw [Function.update_self] at hr'; cases hr'; exact hr
      · rw [Function.update_of_ne hk] at hr'; exact h.oldLt k' r' hr'
    · intro k' r' hr'
      simp only [StateStore.setItem, Function.update_of_ne h.ne] at hr'
      exact h.curHeld k' r' hr'
    · intro k' r' hr'
      simp only [StateStore.setItem, Function.update_self] at hr'
      by_cases hk : k' = k
      · subst hk; rw [Function.update_self] at hr'; cases hr'; exact hh
      · rw [Function.update_of_ne hk] at hr'; exact h.oldHeld k' r' hr'
    · intro k'
      simp only [StateStore.setItem, Function.update_of_ne h.ne]
      exact h.hcur k'
    · intro k'
      simp only [StateStore.setItem, Function.update_self]
      by_cases hk : k' = k
      · subst hk; simp [hv]
      · rw [Function.update_of_ne hk, Function.update_of_ne hk]; exact h.hold k'
  · refine ⟨h.cur_lt, h.old_lt, h.ne, ?_, ?_, h.allSome, h.heldLt, h.nodup, ?_, ?_, ?_, ?_, h.hvars⟩
    · intro k' r' hr'
      simp only [StateStore.setItem, Function.update_self] at hr'
      by_cases hk : k' = k
      · subst hk; rw [Function.update_self] at hr'; cases hr'; exact hr
      · rw [Function.update_of_ne hk] at hr'; exact h.curLt k' r' hr'
    · intro k' r' hr'
      simp only [StateStore.setItem, Function.update_of_ne h.ne.symm] at hr'
      exact h.oldLt k' r' hr'
    · intro k' r' hr'
      simp only [StateStore.setItem, Function.update_self] at hr'
      by_cases hk : k' = k
      · subst hk; rw [Function.update_self] at hr'; cases hr'; exact hh
      · rw [Function.update_of_ne hk] at hr'; exact h.curHeld k' r' hr'
    · intro k' r' hr'
      simp only [StateStore.setItem, Function.update_of_ne h.ne.symm] at hr'
      exact h.oldHeld k' r' hr'
    · intro k'
      simp only [StateStore.setItem, Function.update_self]
      by_cases hk : k' = k
      · subst hk; simp [hv]
      · rw [Function.update_of_ne hk, Function.update_of_ne hk]; exact h.hcur k'
    · intro k'
      simp only [StateStore.setItem, Function.update_of_ne h.ne.symm]
      exact h.hold k'

theorem rel_modify {s : StateStore σ × List ℕ} {p : Spec.Registers σ} (h : Rel s p) {i r : ℕ}
    (hi : s.2[i]? = some r) (v : σ) :
    Rel ({ s.1 with obj := Function.update s.1.obj r (some v) }, s.2)
      { p with vars := p.vars.set i v } := by
  have hmem : r ∈ s.2 := List.mem_of_getElem? hi
  have hb : ∀ (o : Option ℕ), (∀ r', o = some r' → r' ∉ s.2) →
      o.bind (Function.update s.1.obj r (some v)) = o.bind s.1.obj := by
    intro o ho
    cases o with
    | none => rfl
    | some r' =>
      have hne : r' ≠ r := by
        rintro rfl
        exact ho _ rfl hmem
      exact Function.update_of_ne hne _ _
  refine ⟨h.cur_lt, h.old_lt, h.ne, h.curLt, h.oldLt, ?_, h.heldLt, h.nodup, h.curHeld, h.oldHeld,
    ?_, ?_, ?_⟩
  · intro r' hr'
    simp only
    by_cases e : r' = r
    · subst e; simp
    · rw [Function.update_of_ne e]; exact h.allSome r' hr'
  · intro k
    simp only
    rw [hb _ (h.curHeld k), h.hcur k]
  · intro k
    simp only
    rw [hb _ (h.oldHeld k), h.hold k]
  · simp only
    apply List.ext_getElem?
    intro j
    have hj := congrArg (fun l => l[j]?) h.hvars
    simp only [List.getElem?_map] at hj ⊢
    rw [List.getElem?_set]
    by_cases hij : i = j
    · subst hij
      obtain ⟨v', hv', _⟩ := held_value h hi
      have hlt : i < p.vars.length := by
        by_contra hc
        rw [List.getElem?_eq_none (by omega)] at hv'
        simp at hv'
      simp [hi, hlt]
    · rw [if_neg hij, ← hj]
      cases hs : s.2[j]? with
      | none => rfl
      | some r' =>
        have : r' ≠ r := by
          intro e
          subst e
          have hlt : i < s.2.length := by
            by_contra hc
            rw [List.getElem?_eq_none (by omega)] at hi
            simp at hi
          exact hij ((List.getElem?_inj hlt h.nodup).1 (hi.trans hs.symm))
        simp [Function.update_of_ne this]

theorem rel_converge {s : StateStore σ × List ℕ} {p : Spec.Registers σ} (h : Rel s p) :
    Rel (s.1.updateConverged true, s.2) { p with old := p.cur } := by
  have hc : s.1.cur ≠ s.1.nextDict := h.cur_lt.ne
  have hob : ∀ r, r < s.1.next →
      (if r < s.1.next then s.1.obj r else s.1.obj (r - s.1.next)) = s.1.obj r := by
    intro r hr; rw [if_pos hr]
  refine ⟨?_, ?_, ?_, ?_, ?_, ?_, ?_, h.nodup, ?_, ?_, ?_, ?_, ?_⟩
  · exact Nat.lt_succ_of_lt h.cur_lt
  · exact Nat.lt_succ_self _
  · exact hc
  · intro k r hr
    simp only [StateStore.updateConverged, StateStore.deepcopyDict, if_true,
      Function.update_of_ne hc] at hr ⊢
    have := h.curLt k r hr
    omega
  · intro k r hr
    simp only [StateStore.updateConverged, StateStore.deepcopyDict, if_true,
      Function.update_self, Option.map_eq_some_iff] at hr ⊢
    obtain ⟨a, ha, rfl⟩ := hr
    have := h.curLt k a ha
    omega
  · intro r hr
    simp only [StateStore.updateConverged, StateStore.deepcopyDict, if_true] at hr ⊢
    split
    · exact h.allSome r ‹_›
    · exact h.allSome _ (by omega)
  · intro r hr
    simp only [StateStore.updateConverged, StateStore.deepcopyDict, if_true]
    have := h.heldLt r hr
    omega
  · intro k r hr
    simp only [StateStore.updateConverged, StateStore.deepcopyDict, if_true,
      Function.update_of_ne hc] at hr ⊢
    exact h.curHeld k r hr
  · intro k r hr hm
    simp only [StateStore.updateConverged, StateStore.deepcopyDict, if_true,
      Function.update_self, Option.map_eq_some_iff] at hr
    obtain ⟨a, _, rfl⟩ := hr
    have := h.heldLt _ hm
    omega
  · intro k
    simp only [StateStore.updateConverged, StateStore.deepcopyDict, if_true,
      Function.update_of_ne hc]
    rw [← h.hcur k]
    cases hk : s.1.dict s.1.cur k with
    | none => rfl
    | some r => exact hob r (h.curLt k r hk)
  · intro k
    simp only [StateStore.updateConverged, StateStore.deepcopyDict, if_true,
      Function.update_self]
    rw [← h.hcur k]
    cases hk : s.1.dict s.1.cur k with
    | none => rfl
    | some r => simp
  · simp only [StateStore.updateConverged, StateStore.deepcopyDict, if_true]
    rw [← h.hvars]
    apply List.map_congr_left
    intro r hr
    exact hob r (h.heldLt r hr)

theorem rel_step {s : StateStore σ × List ℕ} {p : Spec.Registers σ} (h : Rel s p)
    (op : StateOp σ) (hop : op.copies = true) : Rel (op.run s) (p.step op) := by
  cases op with
  | create v => exact rel_alloc h v
  | modify i v =>
    unfold StateOp.run Spec.Registers.step
    cases hi : s.2[i]? with
    | none =>
      have := held_none h hi
      have hset : p.vars.set i v = p.vars := by
        rw [List.set_eq_of_length_le]
        rw [List.getElem?_eq_none_iff] at this
        exact this
      simp only [hset, hi]
      exact h
    | some r =>
      simp only [hi]
      exact rel_modify h hi v
  | update k i time c =>
    simp only [StateOp.copies] at hop
    subst hop
    unfold StateOp.run Spec.Registers.step
    cases hi : s.2[i]? with
    | none => simp only [held_none h hi, hi]; exact h
    | some r =>
      obtain ⟨v, hv, hrv⟩ := held_value h hi
      simp only [hv, hi]
      have hf := rel_fresh h v
      have hn : s.1.next ∉ s.2 := fun hm => absurd (h.heldLt _ hm) (lt_irrefl _)
      obtain ⟨h1, h2⟩ := rel_setItem hf k (r := s.1.next) (v := v) (Nat.lt_succ_self _) hn
        (by simp)
      simp only [StateStore.updateElementState, StateStore.copyIf, if_true, StateStore.deepcopy,
        StateStore.dictOf, hrv]
      by_cases ht : time = "last"
      · simp only [ht, if_true]; exact h1
      · by_cases ht' : time = "current"
        · simp only [ht', if_true]; exact h2
        · simp only [ht, ht', if_false]; exact h
  | get k time c =>
    simp only [StateOp.copies] at hop
    subst hop
    unfold StateOp.run Spec.Registers.step Spec.Registers.reg
    simp only [StateStore.getElementState, StateStore.dictOf]
    by_cases ht : time = "last"
    · simp only [ht, if_true, bind, Except.bind, pure, Except.pure]
      cases hd : s.1.dict s.1.old k with
      | none =>
        have := h.hold k
        rw [hd] at this
        simp only [Option.bind_none] at this
        rw [← this]
        exact h
      | some r =>
        obtain ⟨v, hv⟩ := Option.isSome_iff_exists.1 (h.allSome r (h.oldLt k r hd))
        have := h.hold k
        rw [hd] at this
        simp only [Option.bind_some, hv] at this
        rw [← this]
        simp only [orRaise, StateStore.copyIf, if_true, StateStore.deepcopy, hv]
        exact rel_alloc h v
    · by_cases ht' : time = "current"
      · simp only [ht', if_true, bind, Except.bind, pure, Except.pure]
        rw [if_neg (by decide), if_neg (by decide)]
        cases hd : s.1.dict s.1.cur k with
        | none =>
          have := h.hcur k
          rw [hd] at this
          simp only [Option.bind_none] at this
          simp only [hd]
          rw [← this]
          exact h
        | some r =>
          obtain ⟨v, hv⟩ := Option.isSome_iff_exists.1 (h.allSome r (h.curLt k r hd))
          have := h.hcur k
          rw [hd] at this
          simp only [Option.bind_some, hv] at this
          simp only [hd]
          rw [← this]
          simp only [orRaise, StateStore.copyIf, if_true, StateStore.deepcopy, hv]
          exact rel_alloc h v
      · simp only [ht, ht', if_false, bind, Except.bind]
        exact h
  | converge c =>
    simp only [StateOp.copies] at hop
    subst hop
    exact rel_converge h

theorem rel_new : Rel ((StateStore.new : StateStore σ), ([] : List ℕ))
    ⟨fun _ => none, fun _ => none, []⟩ := by
  refine ⟨?_, ?_, ?_, ?_, ?_, ?_, ?_, ?_, ?_, ?_, ?_, ?_, ?_⟩ <;>
    simp [StateStore.new]

/-- **C23.** Run any history of creating, modifying, storing, reading and converging in which
every call asks for copies.  What is observable (both dictionaries and the client's own
objects) is what two independent registers per element, with value semantics, hold: a
stored state is read back, later modifications of the passed or returned object have no
effect on the store, convergence copies `current` to `last`, and a later update of
`current` does not touch `last`. -/
theorem C23_registers (ops : List (StateOp σ)) (hops : ∀ op ∈ ops, op.copies = true) :
    let s := ops.foldl StateOp.run (StateStore.new, [])
    let p := ops.foldl Spec.Registers.step ⟨fun _ => none, fun _ => none, []⟩
    observe s = (p.cur, p.old, p.vars.map some) := by
  have key : ∀ (ops : List (StateOp σ)) s p, Rel s p → (∀ op ∈ ops, op.copies = true) →
      Rel (ops.foldl StateOp.run s) (ops.foldl Spec.Registers.step p) := by
    intro ops
    induction ops with
    | nil => intro s p h _; exact h
    | cons op ops ih =>
      intro s p h ho
      exact ih _ _ (rel_step h op (ho op (by simp))) (fun o hm => ho o (by simp [hm]))
  have h := key ops _ _ rel_new hops
  intro s p
  unfold observe
  rw [funext h.hcur, funext h.hold, h.hvars]

/-- **C23.** Converging without a copy makes the two registers one: a later update of
`current` also changes `last`. -/
theorem C23_converge_alias_violated (a b : σ) (hab : a ≠ b) :
    ∃ ops : List (StateOp σ),
      (observe (ops.foldl StateOp.run (StateStore.new, []))).2.1 1 = some a ∧
      (observe ((ops ++ [StateOp.update 1 1 "current" true]).foldl StateOp.run
        (StateStore.new, []))).2.1 1 = some b ∧ a ≠ b := by
  refine ⟨[.create a, .create b, .update 1 0 "current" true, .converge false], ?_, ?_, hab⟩ <;>
    simp [StateOp.run, observe, StateStore.new, StateStore.alloc, StateStore.updateElementState,
      StateStore.copyIf, StateStore.deepcopy, StateStore.dictOf, StateStore.setItem,
      StateStore.updateConverged, bind, Except.bind, pure, Except.pure, Function.update]

/-- **C23.** Storing or reading without a copy hands out the stored object: a modification by
the client changes the store. -/
theorem C23_nocopy_alias_violated (a b : σ) (hab : a ≠ b) :
    (∃ ops : List (StateOp σ),
      (observe (ops.foldl StateOp.run (StateStore.new, []))).1 1 = some a ∧
      (observe ((ops ++ [StateOp.modify 0 b]).foldl StateOp.run (StateStore.new, []))).1 1 = some b) ∧
    (∃ ops : List (StateOp σ),
      (observe (ops.foldl StateOp.run (StateStore.new, []))).1 1 = some a ∧
      (observe ((ops ++ [StateOp.get 1 "current" false, .modify 1 b]).foldl StateOp.run
        (StateStore.new, []))).1 1 = some b) ∧ a ≠ b := by
  refine ⟨⟨[.create a, .update 1 0 "current" false], ?_, ?_⟩,
    ⟨[.create a, .update 1 0 "current" true], ?_, ?_⟩, hab⟩ <;>
    simp [StateOp.run, observe, StateStore.new, StateStore.alloc, StateStore.updateElementState,
      StateStore.copyIf, StateStore.deepcopy, StateStore.dictOf, StateStore.setItem, orRaise,
      StateStore.getElementState, bind, Except.bind, pure, Except.pure, Function.update]

/-- One step of the element loop of the force equilibrium forward pass
(material_discovery.py:1055-1113): read the last state of an element without copying,
create its new state, store it as current without copying. -/
def sweepStep (v : ℕ → σ) (s : StateStore σ × List ℕ) (k : ℕ) :
    StateStore σ × List ℕ :=
  let s := StateOp.run s (.get k "last" false)
  let s := StateOp.run s (.create (v k))
  StateOp.run s (.update k (s.2.length - 1) "current" false)

theorem sweepStep_eq (v : ℕ → σ) (s : StateStore σ × List ℕ) (k : ℕ) :
    (sweepStep v s k).1 = { (s.1.setItem s.1.cur k s.1.next) with
      obj := Function.update s.1.obj s.1.next (some (v k)), next := s.1.next + 1 } := by
  obtain ⟨held, hh⟩ : ∃ held, StateOp.run s (.get k "last" false) = (s.1, held) := by
    simp only [StateOp.run, StateStore.getElementState, StateStore.dictOf, if_true, bind,
      Except.bind]
    cases hd : s.1.dict s.1.old k with
    | none => exact ⟨s.2, rfl⟩
    | some r => exact ⟨s.2 ++ [r], rfl⟩
  unfold sweepStep
  simp only [hh]
  simp [StateOp.run, StateStore.alloc, StateStore.updateElementState, StateStore.copyIf,
    StateStore.dictOf, StateStore.setItem, bind, Except.bind, pure, Except.pure]

theorem sweep_fold (v : ℕ → σ) : ∀ (l : List ℕ) (s : StateStore σ × List ℕ),
    (∀ d k r, s.1.dict d k = some r → r < s.1.next) →
    (∀ d k r, (l.foldl (sweepStep v) s).1.dict d k = some r →
      r < (l.foldl (sweepStep v) s).1.next) ∧
    (l.foldl (sweepStep v) s).1.cur = s.1.cur ∧ (l.foldl (sweepStep v) s).1.old = s.1.old ∧
    (∀ d j, j ∉ l → ((l.foldl (sweepStep v) s).1.dict d j).bind (l.foldl (sweepStep v) s).1.obj =
      (s.1.dict d j).bind s.1.obj) ∧
    (l.Nodup → ∀ j ∈ l, ((l.foldl (sweepStep v) s).1.dict s.1.cur j).bind
      (l.foldl (sweepStep v) s).1.obj = some (v j)) := by
  intro l
  induction l with
  | nil => intro s h; exact ⟨h, rfl, rfl, fun _ _ _ => rfl, fun _ j hj => by simp at hj⟩
  | cons k l ih =>
    intro s h
    have e := sweepStep_eq v s k
    have h1 : ∀ d j r, (sweepStep v s k).1.dict d j = some r → r < (sweepStep v s k).1.next := by
      intro d j r hr
      rw [e] at hr ⊢
      simp only [StateStore.setItem] at hr ⊢
      by_cases hd : d = s.1.cur
      · subst hd
        rw [Function.update_self] at hr
        by_cases hj : j = k
        · subst hj; rw [Function.update_self] at hr; cases hr; omega
        · rw [Function.update_of_ne hj] at hr; have := h _ _ _ hr; omega
      · rw [Function.update_of_ne hd] at hr; have := h _ _ _ hr; omega
    have h2 : ∀ d j, j ≠ k → ((sweepStep v s k).1.dict d j).bind (sweepStep v s k).1.obj =
        (s.1.dict d j).bind s.1.obj := by
      intro d j hj
      rw [e]
      simp only [StateStore.setItem]
      have : Function.update s.1.dict s.1.cur
          (Function.update (s.1.dict s.1.cur) k (some s.1.next)) d j = s.1.dict d j := by
        by_cases hd : d = s.1.cur
        · subst hd; rw [Function.update_self, Function.update_of_ne hj]
        · rw [Function.update_of_ne hd]
      rw [this]
      cases hr : s.1.dict d j with
      | none => rfl
      | some r => exact Function.update_of_ne (h _ _ _ hr).ne _ _
    have h3 : ((sweepStep v s k).1.dict s.1.cur k).bind (sweepStep v s k).1.obj
        = some (v k) := by
      rw [e]
      simp [StateStore.setItem]
    have hcur : (sweepStep v s k).1.cur = s.1.cur := by rw [e]; rfl
    have hold : (sweepStep v s k).1.old = s.1.old := by rw [e]; rfl
    obtain ⟨i1, i2, i3, i4, i5⟩ := ih (sweepStep v s k) h1
    rw [List.foldl_cons]
    refine ⟨i1, i2.trans hcur, i3.trans hold, ?_, ?_⟩
    · intro d j hj
      rw [i4 d j (fun hm => hj (by simp [hm])), h2 d j (fun hm => hj (by simp [hm]))]
    · intro hnd j hj
      rw [List.nodup_cons] at hnd
      rcases List.mem_cons.1 hj with rfl | hj
      · rw [i4 _ _ hnd.1, h3]
      · have := i5 hnd.2 j hj
        rwa [hcur] at this

/-- **C23.** Without copies the forward pass is still right, even when `last` and `current`
are the same dictionary: in a sweep over distinct elements, the last state read for each
element is the one stored before the sweep, and afterwards its current state is the new
one. -/
theorem C23_sweep_without_copies (s : StateStore σ × List ℕ) (v : ℕ → σ)
    (pre : List ℕ) (k : ℕ) (post : List ℕ) (hnd : (pre ++ k :: post).Nodup)
    (hlt : ∀ d k r, s.1.dict d k = some r → r < s.1.next) :
    let before := pre.foldl (sweepStep v) s
    let after := (pre ++ k :: post).foldl (sweepStep v) s
    (before.1.dict before.1.old k).bind before.1.obj =
      (s.1.dict s.1.old k).bind s.1.obj ∧
    (after.1.dict after.1.cur k).bind after.1.obj = some (v k) := by
  intro before after
  obtain ⟨_, _, b3, b4, _⟩ := sweep_fold v pre s hlt
  obtain ⟨_, a2, _, _, a5⟩ := sweep_fold v (pre ++ k :: post) s hlt
  constructor
  · simp only [before]
    rw [b3, b4 _ _ ?_]
    intro hk
    rw [List.nodup_append] at hnd
    exact hnd.2.2 k hk k (by simp) rfl
  · simp only [after]
    rw [a2]
    exact a5 hnd k (by simp)

/-- A history with copies: the client's later modification and the later update of `current`
leave `last` alone. -/
example (a b c : σ) :
    let ops : List (StateOp σ) := [.create a, .update 7 0 "current" true, .modify 0 b,
      .converge true, .create c, .update 7 1 "current" true, .get 7 "last" true]
    let s := ops.foldl StateOp.run (StateStore.new, [])
    (observe s).1 7 = some c ∧ (observe s).2.1 7 = some a ∧
      (observe s).2.2 = [some b, some c, some a] := by
  intro ops s
  have h := C23_registers ops (by simp [ops, StateOp.copies])
  simp only at h
  simp only [s, h]
  simp [ops, Spec.Registers.step, Spec.Registers.reg]

/-- The sweep theorem applies to an aliased store (after a convergence without copy). -/
example (a : σ) (v : ℕ → σ) :
    let s := ([.create a, .update 1 0 "current" true, .update 2 0 "current" true,
      .converge false] : List (StateOp σ)).foldl StateOp.run (StateStore.new, [])
    s.1.cur = s.1.old ∧
    ((sweepStep v s 1).1.dict (sweepStep v s 1).1.old 2).bind (sweepStep v s 1).1.obj = some a := by
  refine ⟨by simp [StateOp.run, StateStore.new, StateStore.alloc, StateStore.updateElementState,
      StateStore.copyIf, StateStore.deepcopy, StateStore.dictOf, StateStore.setItem,
      StateStore.updateConverged, bind, Except.bind, pure, Except.pure], ?_⟩
  have h := (C23_sweep_without_copies (([.create a, .update 1 0 "current" true,
    .update 2 0 "current" true, .converge false] : List (StateOp σ)).foldl StateOp.run
      (StateStore.new, [])) v [1] 2 [] (by simp) (by
        intro d k r
        simp [StateOp.run, StateStore.new, StateStore.alloc, StateStore.updateElementState,
          StateStore.copyIf, StateStore.deepcopy, StateStore.dictOf, StateStore.setItem,
          StateStore.updateConverged, bind, Except.bind, pure, Except.pure, Function.update]
        by_cases hd : d = 0
        · rw [if_pos hd]
          by_cases h2 : k = 2
          · subst h2; simp; omega
          · by_cases h1 : k = 1
            · subst h1; simp; omega
            · simp [Function.update, h1, h2]
        · simp [hd])).1
  simp only [List.foldl_cons, List.foldl_nil] at h
  simp only [List.foldl_cons, List.foldl_nil]
  rw [h]
  simp [StateOp.run, StateStore.new, StateStore.alloc, StateStore.updateElementState,
    StateStore.copyIf, StateStore.deepcopy, StateStore.dictOf, StateStore.setItem,
    StateStore.updateConverged, bind, Except.bind, pure, Except.pure, Function.update]

/-! ## C71 -/

/-- **C71.** The conventional models can never be assigned to elements: the call raises and
(raising before any assignment) leaves no trace. -/
theorem C71_conventional_raises (t : ModelTable σ) (init : σ) (ids : List ℕ) (name : String)
    (h : name ∈ ["elastic", "von_mises", "von_mises_mixed", "drucker_prager"]) :
    initElementsModel t name init ids = .error .runtimeError := by
  have : dispatchModel name = .ok (false, false) := by
    unfold dispatchModel
    rw [if_pos]
    simpa using h
  simp [initElementsModel, this, orRaise, raiseIf, bind, Except.bind]

theorem assign_fold (mid : ℕ) (init : σ) : ∀ (ids : List ℕ) (t : ModelTable σ), t.nModel = mid →
    let t' := ids.foldl (fun t k => t.assign t.nModel true init k) t
    t'.nModel = mid ∧
    (∀ k ∈ ids, t'.material k = some mid ∧ t'.isRecurrent k = some true ∧
      t'.state k = some none ∧ t'.stateOld k = some none) ∧
    (∀ k, k ∉ ids → t'.material k = t.material k ∧ t'.isRecurrent k = t.isRecurrent k ∧
      t'.state k = t.state k ∧ t'.stateOld k = t.stateOld k) := by
  intro ids
  induction ids using List.reverseRecOn with
  | nil => intro t h; simp [h]
  | append_singleton l a ih =>
    intro t h
    obtain ⟨h1, h2, h3⟩ := ih t h
    simp only [List.foldl_append, List.foldl_cons, List.foldl_nil] at *
    generalize List.foldl (fun t k => t.assign t.nModel true init k) t l = t1 at *
    clear ih
    refine ⟨?_, ?_, ?_⟩
    · simp [ModelTable.assign, h1]
    · intro k hk
      by_cases hka : k = a
      · subst hka; simp [ModelTable.assign, h1]
      · have hk' : k ∈ l := by simpa [hka] using hk
        have := h2 k hk'
        simpa [ModelTable.assign, Function.update_of_ne hka] using this
    · intro k hk
      have hka : k ≠ a := by rintro rfl; simp at hk
      have hk' : k ∉ l := fun hm => hk (by simp [hm])
      have := h3 k hk'
      simpa [ModelTable.assign, Function.update_of_ne hka] using this

/-- **C71.** A successful assignment creates one new model label, gives it to exactly the
listed elements, marks them recurrent and leaves them without stored state; every other
element keeps its assignment. -/
theorem C71_assignment (t t' : ModelTable σ) (init : σ) (ids : List ℕ) (name : String)
    (h : initElementsModel t name init ids = .ok t') :
    t'.nModel = t.nModel + 1 ∧
    (∀ k ∈ ids, t'.material k = some (t.nModel + 1) ∧ t'.isRecurrent k = some true ∧
      t'.state k = some none ∧ t'.stateOld k = some none) ∧
    (∀ k, k ∉ ids → t'.material k = t.material k ∧ t'.isRecurrent k = t.isRecurrent k ∧
      t'.state k = t.state k ∧ t'.stateOld k = t.stateOld k) := by
  unfold initElementsModel at h
  obtain ⟨⟨isM, isR⟩, hd, h⟩ := bind_ok h
  obtain ⟨_, hm, h⟩ := bind_ok h
  rw [raiseIf_ok] at hm
  have hR : isR = true := by
    unfold dispatchModel at hd
    split_ifs at hd <;> simp_all
  subst hR
  have := Except.ok.inj h
  rw [← this]
  exact assign_fold (t.nModel + 1) init ids { t with nModel := t.nModel + 1 } rfl

/-- **C71 is violated for GRU material models.** A call with a GRU model always raises, after creating the
model and before assigning it to any element: the data scalers are set by a method which the model does not
have. -/
theorem C71_gru_violated (t : ModelTable σ) (init : σ) (ids : List ℕ) :
    initElementsModel t "gru_material_model" init ids = .error .attributeError := by
  have hd : dispatchModel "gru_material_model" = .error .attributeError := by decide
  simp [initElementsModel, hd, bind, Except.bind]

/-- **C71.** Exactly the names of wrapped recurrent constitutive models, which begin with `rc_`, and of hybrid
models can be assigned to elements. -/
theorem C71_assignable (t : ModelTable σ) (init : σ) (ids : List ℕ) (name : String) :
    (∃ t', initElementsModel t name init ids = .ok t') ↔
      (∃ rest, name.toList = "rc_".toList ++ rest) ∨ name = "hybrid_material_model" := by
  have hp : "rc_".toList.isPrefixOf name.toList = true ↔
      ∃ rest, name.toList = "rc_".toList ++ rest := by
    rw [List.isPrefixOf_iff_prefix]
    exact ⟨fun ⟨r, h⟩ => ⟨r, h.symm⟩, fun ⟨r, h⟩ => ⟨r, h.symm⟩⟩
  have hne : ∀ n ∈ ["elastic", "von_mises", "von_mises_mixed", "drucker_prager",
      "gru_material_model"], "rc_".toList.isPrefixOf n.toList = false ∧
        n ≠ "hybrid_material_model" := by decide
  rw [← hp]
  unfold initElementsModel dispatchModel
  have hn := hne name
  generalize "rc_".toList.isPrefixOf name.toList = b at hn ⊢
  simp only [List.mem_cons, List.not_mem_nil, or_false] at hn
  split_ifs with h1 h2 h3 h4
  · obtain ⟨h5, h6⟩ := hn (by tauto)
    simp [h5, h6, bind, Except.bind, raiseIf]
  · simp [h2, bind, Except.bind, raiseIf, pure, Except.pure]
  · obtain ⟨h5, h6⟩ := hn (by tauto)
    simp [h5, h6, bind, Except.bind]
  · simp [h4, bind, Except.bind, raiseIf, pure, Except.pure]
  · simp [h2, h4, bind, Except.bind]

example (init : σ) : ∃ t', initElementsModel (ModelTable.new σ) "hybrid_material_model" init [2, 5]
    = .ok t' ∧ t'.material 5 = some 1 ∧ t'.material 3 = none := by
  have hd : dispatchModel "hybrid_material_model" = .ok (true, true) := by decide
  have : ∃ t', initElementsModel (ModelTable.new σ) "hybrid_material_model" init [2, 5] = .ok t' := by
    simp [initElementsModel, hd, raiseIf, bind, Except.bind, pure, Except.pure]
  obtain ⟨t', h⟩ := this
  obtain ⟨_, h2, h3⟩ := C71_assignment _ _ _ _ _ h
  exact ⟨t', h, (h2 5 (by simp)).1, by rw [(h3 3 (by simp)).1]; rfl⟩

end Hooke
