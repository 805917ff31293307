import Verif.Model.Py

/-!
# Independent vocabulary for the matricial storage properties
-/

namespace Hooke.Spec

/-- `idx` is a valid index tuple for `shape`. -/
def InBounds (shape idx : List ℕ) : Prop := List.Forall₂ (· < ·) idx shape

/-- Two tensors are equal: same shape, same entries. -/
def SameTensor (a b : Tensor) : Prop :=
  a.shape = b.shape ∧ ∀ idx, InBounds a.shape idx → a.val idx = b.val idx

/-- Symmetric second-order tensor of dimension `n`. -/
def IsSym2 (n : ℕ) (t : Tensor) : Prop :=
  t.shape = [n, n] ∧ ∀ i < n, ∀ j < n, t.val [i, j] = t.val [j, i]

/-- Fourth-order tensor of dimension `n` with both minor symmetries. -/
def IsMinorSym4 (n : ℕ) (t : Tensor) : Prop :=
  t.shape = [n, n, n, n] ∧ ∀ i < n, ∀ j < n, ∀ k < n, ∀ l < n,
    t.val [i, j, k, l] = t.val [j, i, k, l] ∧ t.val [i, j, k, l] = t.val [i, j, l, k]

/-- A list of components, each a pair of digits between `1` and `n`, no component
twice. -/
structure ValidPairs (n : ℕ) (co : List (List ℕ)) : Prop where
  pair : ∀ c ∈ co, ∃ a b, 1 ≤ a ∧ a ≤ n ∧ 1 ≤ b ∧ b ≤ n ∧ c = [a, b]
  nodup : co.Nodup

/-- A complete symmetric order: of the two labels `ab` and `ba` of each unordered
pair of directions exactly one is listed (in any position). -/
structure CompleteSym (n : ℕ) (co : List (List ℕ)) : Prop extends ValidPairs n co where
  covers : ∀ a b, 1 ≤ a → a ≤ n → 1 ≤ b → b ≤ n → [a, b] ∈ co ∨ [b, a] ∈ co
  once : ∀ a b, a ≠ b → [a, b] ∈ co → [b, a] ∉ co

/-- A complete full order: every label is listed. -/
structure CompleteFull (n : ℕ) (co : List (List ℕ)) : Prop extends ValidPairs n co where
  covers : ∀ a b, 1 ≤ a → a ≤ n → 1 ≤ b → b ≤ n → [a, b] ∈ co

end Hooke.Spec

namespace Hooke.Spec

/-- `v` is the engineering Voigt vector of the strain tensor `e` for the order `co`:
normal components as they are, shear components doubled. -/
def IsEngVoigt (co : List (List ℕ)) (e v : Tensor) : Prop :=
  v.shape = [co.length] ∧ ∀ k a b, co[k]? = some [a, b] →
    v.val [k] = if a = b then e.val [a - 1, b - 1] else 2 * e.val [a - 1, b - 1]

end Hooke.Spec
