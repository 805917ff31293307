import Verif.Model.LmuData
import Verif.Spec.LmuParameters

/-!
# Specification vocabulary of the local model updating data
-/

noncomputable section

namespace Hooke.Spec

open Hooke

variable {α : Type}

/-- `y` lies between the grid values next to `x` on either side (`x` itself at an end of the grid). -/
def BetweenNeighbours (l : List ℝ) (x y : ℝ) : Prop :=
  ∃ lo ∈ l, ∃ hi ∈ l, lo ≤ x ∧ x ≤ hi ∧ (∀ z ∈ l, ¬(lo < z ∧ z < x)) ∧ (∀ z ∈ l, ¬(x < z ∧ z < hi)) ∧
    lo ≤ y ∧ y ≤ hi

/-- The uniform numbers belong to the unit interval. -/
def LmuUnitDraws (env : LmuEnv α) : Prop :=
  ∀ p ty i, (0 ≤ env.uT p ty i ∧ env.uT p ty i ≤ 1) ∧ 0 ≤ env.uC p ty i ∧ env.uC p ty i ≤ 1

/-- Data set types of a pipeline. -/
def knownTypes : List Text := ["training".toList, "validation".toList, "testing_id".toList]

/-- The random choices choose: distinct samples of a file, and every sample once. -/
def ValidPick (pick : LmuPick) : Prop :=
  (∀ ty k n m, m ≤ n → (pick.sample ty k n m).length = m ∧ (pick.sample ty k n m).Nodup ∧
    ∀ i ∈ pick.sample ty k n m, i < n) ∧
  ∀ ty n, (pick.perm ty n).Perm (List.range n)

/-- What is expected of sample `i` of the `n` samples of a data set of type `ty` generated for the
temperature `T` and the composition `C` of the grid, with the ratio `x` of random strain paths. -/
structure Expected (env : LmuEnv α) (temps comps : List ℝ) (x : ℝ) (p : ℕ) (T C : ℝ) (ty : Text)
    (n i : ℕ) (s : LmuSample α) : Prop where
  /-- The first `⌊n x⌋` strain paths are random, the others proportional. -/
  kind : s.random = true ↔ (i : ℤ) < ⌊(n : ℝ) * x⌋
  /-- Training data belong to the grid; validation and testing data lie between grid values. -/
  temperature : if ty = "validation".toList ∨ ty = "testing_id".toList then
    BetweenNeighbours temps T s.temperature else s.temperature = T
  composition : if ty = "validation".toList ∨ ty = "testing_id".toList then
    BetweenNeighbours comps C s.composition else s.composition = C
  admissible : TcAdmissible s.temperature s.composition
  /-- The response is that of the first trial that did not fail, among the first ten, with the material
  of the temperature and composition of the sample. -/
  response : ∃ params, tcParameters "von_mises" s.temperature s.composition = .ok params ∧
    ∃ k < 10, env.attempt s.random params p ty i k = .ok (s.response, false) ∧
      ∀ j < k, ∃ r, env.attempt s.random params p ty i j = .ok (r, true)

/-- The data sets expected of a temperature and a composition. -/
def ExpectedSets (env : LmuEnv α) (temps comps : List ℝ) (counts : KDict Text ℕ) (ratio : KDict Text ℝ)
    (p : ℕ) (T C : ℝ) (ds : KDict Text (List (LmuSample α))) : Prop :=
  List.Forall₂ (fun c d => d.1 = c.1 ∧ d.2.length = c.2 ∧ ∃ x, ratio.get? c.1 = some x ∧
    ∀ (i : ℕ) s, d.2[i]? = some s → Expected env temps comps x p T C c.1 c.2 i s) counts ds

/-- Names of the directories, in the order of the pairs. -/
def pairNames (temps comps : List ℝ) : List DepName :=
  (temps.product comps).map fun q => (fixed2 q.1, fixed2 q.2)

end Hooke.Spec
