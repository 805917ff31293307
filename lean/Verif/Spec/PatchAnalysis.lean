import Verif.Model.PatchAnalysis

/-! # Copies of files and directories -/

namespace Hooke.Spec

/-- A path at or below another one. -/
def Below (p q : APath) : Prop := ∃ r, q = p ++ r

/-- Nothing changed except at or below a path. -/
def UnchangedOutside (fs fs' : DataFs) (p : APath) : Prop :=
  ∀ q, ¬ Below p q → (fs'.isDir q ↔ fs.isDir q) ∧ fs'.file q = fs.file q

/-- The directory `dst` of the second state is a copy of the directory `src` of the first one. -/
def CopiedTree (fs fs' : DataFs) (src dst : APath) : Prop :=
  ∀ r, (fs'.isDir (dst ++ r) ↔ fs.isDir (src ++ r)) ∧ fs'.file (dst ++ r) = fs.file (src ++ r)

end Hooke.Spec
