import Verif.Model.PatchRuns

/-!
# Specification: directories of random material patches
-/

namespace Hooke.Spec

variable {P : Type}

/-- What exists lies in a directory, and a directory is not a file. -/
def Sound (d : PatchDisk P) : Prop :=
  (∀ q r, q <+: r → q ≠ r → (d.dirs r = true ∨ d.file r ≠ none) → d.dirs q = true) ∧
  ∀ q, d.dirs q = true → d.file q = none

/-- The directory of patch `i` of `n`: with its number unless it is the only one. -/
def patchRoot (base : APath) (name : PName) (n i : ℕ) : APath :=
  base ++ [if n = 1 then name else name ++ "_".toList ++ strNat i]

/-- The name of a single patch is a name of a file; with several patches the number is appended. -/
def NameFits (name : PName) (n : ℕ) : Prop :=
  n = 1 → name ≠ [] ∧ name ≠ ".".toList ∧ name ≠ "..".toList

/-- The path is outside the directories of the patches in `s`. -/
def Outside (base : APath) (name : PName) (n : ℕ) (s : Set ℕ) (q : APath) : Prop :=
  ∀ i ∈ s, ¬ patchRoot base name n i <+: q

/-- The disks agree on a path. -/
def SameAt (d d' : PatchDisk P) (q : APath) : Prop := d'.dirs q = d.dirs q ∧ d'.file q = d.file q

/-- The results of a simulation of patch `x` in the directory `p`: the input data file of `x`, the
screen file of a successful run of `x` and the figure of `x`, and nothing else in `simulations` and
`plots`. -/
structure Simulated (d : PatchDisk P) (p : APath) (x : P) : Prop where
  root : d.dirs p = true
  folder : d.dirs (p ++ ["simulations".toList]) = true
  input : d.file (p ++ ["simulations".toList, "random_specimen.dat".toList]) = some (.input x)
  screen : d.file (p ++ ["simulations".toList, "random_specimen".toList,
    "random_specimen.screen".toList]) = some (.screen x true)
  output : d.dirs (p ++ ["simulations".toList, "random_specimen".toList]) = true
  figure : d.file (p ++ ["plots".toList, "specimen_deformed_configuration.pdf".toList]) =
    some (.figure x)
  only : ∀ s q, s = "simulations".toList ∨ s = "plots".toList → p ++ [s] <+: q → d.file q ≠ none →
    q = p ++ ["simulations".toList, "random_specimen.dat".toList] ∨
    q = p ++ ["simulations".toList, "random_specimen".toList, "random_specimen.screen".toList] ∨
    q = p ++ ["plots".toList, "specimen_deformed_configuration.pdf".toList]

/-- The patch `x` and its attributes are saved in the directory `p`. -/
def SavedPatch (d : PatchDisk P) (p : APath) (x : P) : Prop :=
  d.file (p ++ ["material_patch".toList, "material_patch.pkl".toList]) = some (.patch x) ∧
  d.file (p ++ ["material_patch".toList, "material_patch_attributes.pkl".toList]) =
    some (.attributes x)

/-- Everything in the directory `p` belongs to the simulation or to the saved patch. -/
def NoLeftovers (d : PatchDisk P) (p : APath) : Prop :=
  ∀ q, p <+: q → d.file q ≠ none → p ++ ["simulations".toList] <+: q ∨ p ++ ["plots".toList] <+: q ∨
    q = p ++ ["material_patch".toList, "material_patch.pkl".toList] ∨
    q = p ++ ["material_patch".toList, "material_patch_attributes.pkl".toList]

/-- The tools work for the patch. -/
structure ToolsWork (T : PatchTools P) (x : P) : Prop where
  figure : T.figure x = .ok ()
  input : (T.input x).2 = .ok ()
  loads : T.loads x = .ok ()
  run : ∃ f, T.bin = some f ∧ f x = some (some true)

/-- The names of what is in the directory. -/
def ListsDir (d : PatchDisk P) (p : APath) (names : List Text) : Prop :=
  names.Nodup ∧ ∀ w, w ∈ names ↔ d.dirs (p ++ [w]) = true ∨ d.file (p ++ [w]) ≠ none

/-- Nothing in the directory has a name that ends with a number after the name of the patches. -/
def NoNumbered (d : PatchDisk P) (p : APath) (name : PName) : Prop :=
  ∀ w, d.dirs (p ++ [w]) = true ∨ d.file (p ++ [w]) ≠ none →
    ¬∃ v : Text, v ≠ [] ∧ (∀ x ∈ v, x.isDigit = true) ∧
      (w = name ++ '_' :: v ∨ w = name ++ '_' :: v ++ ['\n'])

end Hooke.Spec
