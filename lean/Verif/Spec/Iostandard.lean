import Verif.Model.Iostandard

/-!
# Specification: the file system and numbered paths
-/

namespace Hooke.Spec

/-- A state of the file system that can exist: no path is both a directory and a file, and every
ancestor of a path is a directory. -/
def FsWellFormed (fs : FileSys) : Prop :=
  (∀ p ∈ fs.dirs, p ∉ fs.files) ∧
    ∀ p, p ∈ fs.dirs ∨ p ∈ fs.files → ∀ q, q <+: p → q ≠ p → q ∈ fs.dirs

/-- The path exists. -/
def FsExists (fs : FileSys) (p : APath) : Prop := p ∈ fs.dirs ∨ p ∈ fs.files

end Hooke.Spec
