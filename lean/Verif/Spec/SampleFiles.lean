import Verif.Model.SampleFiles

/-!
# Specification vocabulary of data sets with sample files
-/

namespace Hooke.Spec

open Hooke

/-- Name of a file: not empty, without slash, and not one of the two names of directories. -/
def FileName (s : Text) : Prop := s ≠ [] ∧ '/' ∉ s ∧ s ≠ ['.'] ∧ s ≠ ['.', '.']

/-- The samples of a data set, in order. -/
def HasSamples {σ : Type} (w : SampleWorld σ) (s : StoredSet σ) (xs : List σ) : Prop :=
  s.len = xs.length ∧ ∀ (i : ℕ) x, xs[i]? = some x → s.item w i = .ok x

end Hooke.Spec
