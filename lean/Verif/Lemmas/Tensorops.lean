import Verif.Model.Tensorops
import Mathlib.Algebra.BigOperators.Ring.Finset
import Verif.Lemmas.Tactics

namespace Hooke

variable {n : ℕ}

theorem ite_ite_or (p q r : Prop) [Decidable p] [Decidable q] [Decidable r] (x : ℝ)
    (h : (p ∨ q) ↔ r) : (if p then 1 else if q then 1 else x) = if r then 1 else x := by
  split_ifs <;> tauto

/-- Writes of the inner loop of `get_id_operators`. -/
theorem idLoop_inner (i : Fin n) (l : List (Fin n)) (acc : T4 n × T4 n) :
    l.foldl (fun (acc : T4 n × T4 n) j => (acc.1.set i j i j 1, acc.2.set i j j i 1)) acc =
      (fun a b c d => if a = i ∧ c = i ∧ b = d ∧ b ∈ l then 1 else acc.1 a b c d,
       fun a b c d => if a = i ∧ d = i ∧ b = c ∧ b ∈ l then 1 else acc.2 a b c d) := by
  induction l generalizing acc with
  | nil => simp
  | cons j l ih =>
    rw [List.foldl_cons, ih]
    congr 1
    · funext a b c d
      simp only [T4.set, List.mem_cons]
      apply ite_ite_or
      constructor
      · rintro (⟨h1, h2, h3, h4⟩ | ⟨h1, h2, h3, h4⟩)
        · exact ⟨h1, h2, h3, Or.inr h4⟩
        · exact ⟨h1, h3, h2.trans h4.symm, Or.inl h2⟩
      · rintro ⟨h1, h2, h3, h4 | h4⟩
        · exact Or.inr ⟨h1, h4, h2, h3 ▸ h4⟩
        · exact Or.inl ⟨h1, h2, h3, h4⟩
    · funext a b c d
      simp only [T4.set, List.mem_cons]
      apply ite_ite_or
      constructor
      · rintro (⟨h1, h2, h3, h4⟩ | ⟨h1, h2, h3, h4⟩)
        · exact ⟨h1, h2, h3, Or.inr h4⟩
        · exact ⟨h1, h4, h2.trans h3.symm, Or.inl h2⟩
      · rintro ⟨h1, h2, h3, h4 | h4⟩
        · exact Or.inr ⟨h1, h4, h3 ▸ h4, h2⟩
        · exact Or.inl ⟨h1, h2, h3, h4⟩

theorem idLoop_outer (l : List (Fin n)) (acc : T4 n × T4 n) :
    l.foldl (fun acc i => (List.finRange n).foldl (fun (acc : T4 n × T4 n) j =>
      (acc.1.set i j i j 1, acc.2.set i j j i 1)) acc) acc =
      (fun a b c d => if a ∈ l ∧ a = c ∧ b = d then 1 else acc.1 a b c d,
       fun a b c d => if a ∈ l ∧ a = d ∧ b = c then 1 else acc.2 a b c d) := by
  induction l generalizing acc with
  | nil => simp
  | cons i l ih =>
    rw [List.foldl_cons, ih, idLoop_inner]
    congr 1
    · funext a b c d
      simp only [List.mem_cons, List.mem_finRange, and_true]
      apply ite_ite_or
      constructor
      · rintro (⟨h1, h2, h3⟩ | ⟨h1, h2, h3⟩)
        · exact ⟨Or.inr h1, h2, h3⟩
        · exact ⟨Or.inl h1, h1.trans h2.symm, h3⟩
      · rintro ⟨h1 | h1, h2, h3⟩
        · exact Or.inr ⟨h1, h2 ▸ h1, h3⟩
        · exact Or.inl ⟨h1, h2, h3⟩
    · funext a b c d
      simp only [List.mem_cons, List.mem_finRange, and_true]
      apply ite_ite_or
      constructor
      · rintro (⟨h1, h2, h3⟩ | ⟨h1, h2, h3⟩)
        · exact ⟨Or.inr h1, h2, h3⟩
        · exact ⟨Or.inl h1, h1.trans h2.symm, h3⟩
      · rintro ⟨h1 | h1, h2, h3⟩
        · exact Or.inr ⟨h1, h2 ▸ h1, h3⟩
        · exact Or.inl ⟨h1, h2, h3⟩

theorem foid_eq (n : ℕ) : (getIdOperators n).foid =
    fun i j k l => if i = k ∧ j = l then 1 else 0 := by
  simp only [getIdOperators, idLoop_outer, List.mem_finRange, true_and]

theorem fotransp_eq (n : ℕ) : (getIdOperators n).fotransp =
    fun i j k l => if i = l ∧ j = k then 1 else 0 := by
  simp only [getIdOperators, idLoop_outer, List.mem_finRange, true_and]

theorem ddot_foid (a : T2 n) : ddot42_1 (getIdOperators n).foid a = a := by
  funext i j
  simp only [ddot42_1, foid_eq]
  simp [ite_and]

theorem ddot_fotransp (a : T2 n) : ddot42_1 (getIdOperators n).fotransp a = fun i j => a j i := by
  funext i j
  simp only [ddot42_1, fotransp_eq]
  rw [Finset.sum_comm]
  simp [ite_and]

theorem ddot_fodiagtrace (a : T2 n) : ddot42_1 (getIdOperators n).fodiagtrace a =
    fun i j => if i = j then ∑ k, a k k else 0 := by
  funext i j
  simp only [ddot42_1, getIdOperators, dyad22_1]
  by_cases h : i = j <;> simp [h]

end Hooke
