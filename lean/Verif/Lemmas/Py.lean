import Verif.Model.PyUtil

namespace Hooke

theorem bind_ok {α β : Type} {x : Py α} {f : α → Py β} {b : β} (h : x >>= f = .ok b) :
    ∃ a, x = .ok a ∧ f a = .ok b := by
  cases x with
  | error e => exact absurd h (by simp [bind, Except.bind])
  | ok a => exact ⟨a, rfl, h⟩

theorem bind_ok_iff {α β : Type} {x : Py α} {f : α → Py β} {b : β} :
    x >>= f = .ok b ↔ ∃ a, x = .ok a ∧ f a = .ok b := by
  refine ⟨bind_ok, ?_⟩
  rintro ⟨a, rfl, h⟩
  exact h

theorem orRaise_ok {α : Type} {o : Option α} {e : PyErr} {a : α} :
    orRaise o e = .ok a ↔ o = some a := by
  cases o <;> simp [orRaise]

theorem raiseIf_ok {c : Prop} [Decidable c] {e : PyErr} {u : Unit} :
    raiseIf c e = .ok u ↔ ¬ c := by
  unfold raiseIf
  split <;> simp_all

theorem foldlM_range_succ {α : Type} (f : α → ℕ → Py α) (a : α) (n : ℕ) :
    (List.range (n + 1)).foldlM f a = (List.range n).foldlM f a >>= fun x => f x n := by
  rw [List.range_succ, List.foldlM_append]
  simp

end Hooke
