import Verif.Lemmas.Py

/-!
# Errors of loops
-/

namespace Hooke

theorem mapM_error_mem {α β : Type} {f : α → Py β} {e : PyErr} {l : List α}
    (h : l.mapM f = .error e) : ∃ x ∈ l, f x = .error e := by
  induction l with
  | nil => cases h
  | cons y l ih =>
    rw [List.mapM_cons] at h
    rcases hy : f y with e' | b
    · rw [hy] at h
      cases h
      exact ⟨y, by simp, hy⟩
    · rw [hy] at h
      rcases hr : l.mapM f with e' | bs
      · rw [hr] at h
        cases h
        obtain ⟨x, hx, hxe⟩ := ih hr
        exact ⟨x, by simp [hx], hxe⟩
      · rw [hr] at h
        cases h

theorem mapM_error {α β : Type} {f : α → Py β} {e : PyErr} {l : List α} {x : α} (hx : x ∈ l)
    (he : f x = .error e) (h : ∀ y ∈ l, f y = .error e ∨ ∃ b, f y = .ok b) : l.mapM f = .error e := by
  induction l with
  | nil => cases hx
  | cons y l ih =>
    rw [List.mapM_cons]
    rcases h y (by simp) with hy | ⟨b, hy⟩
    · rw [hy]; rfl
    · rw [hy]
      rcases List.mem_cons.mp hx with rfl | hx
      · rw [he] at hy; cases hy
      · rw [show (do let r ← Except.ok b; let rs ← l.mapM f; pure (r :: rs) : Py (List β))
          = (do let rs ← l.mapM f; pure (b :: rs)) from rfl, ih hx fun z hz => h z (by simp [hz])]
        rfl

theorem mapM_congr_of_mem {α β : Type} {f g : α → Py β} {l : List α} (h : ∀ x ∈ l, f x = g x) :
    l.mapM f = l.mapM g := by
  induction l with
  | nil => rfl
  | cons x l ih =>
    rw [List.mapM_cons, List.mapM_cons, h x (by simp), ih fun y hy => h y (by simp [hy])]

end Hooke
