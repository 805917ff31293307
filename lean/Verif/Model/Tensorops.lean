import Verif.Model.Py
import Mathlib.Algebra.BigOperators.Fin
import Mathlib.Data.List.FinRange

/-!
# Model of `simulators/fetorch/math/tensorops.py`

Tensors of `n` dimensions as functions on `Fin n`; `torch.einsum` as the sum it
denotes.
-/

namespace Hooke

/-- Vector. -/
abbrev T1 (n : ℕ) := Fin n → ℝ
/-- Second-order tensor. -/
abbrev T2 (n : ℕ) := Fin n → Fin n → ℝ
/-- Fourth-order tensor. -/
abbrev T4 (n : ℕ) := Fin n → Fin n → Fin n → Fin n → ℝ

variable {n : ℕ}

/-- tensorops.py:78 -/
def dyad11 (a b : T1 n) : T2 n := fun i j => a i * b j
/-- tensorops.py:79, `ij,kl -> ijkl` -/
def dyad22_1 (a b : T2 n) : T4 n := fun i j k l => a i j * b k l
/-- tensorops.py:80, `ik,jl -> ijkl` -/
def dyad22_2 (a b : T2 n) : T4 n := fun i j k l => a i k * b j l
/-- tensorops.py:81, `il,jk -> ijkl` -/
def dyad22_3 (a b : T2 n) : T4 n := fun i j k l => a i l * b j k
/-- tensorops.py:83, `ij,j -> i` -/
def dot21_1 (a : T2 n) (b : T1 n) : T1 n := fun i => ∑ j, a i j * b j
/-- tensorops.py:84, `i,ij -> j` -/
def dot12_1 (a : T1 n) (b : T2 n) : T1 n := fun j => ∑ i, a i * b i j
/-- tensorops.py:85, `ijkm,lm -> ijkl` -/
def dot42_1 (a : T4 n) (b : T2 n) : T4 n := fun i j k l => ∑ m, a i j k m * b l m
/-- tensorops.py:86, `ipkl,jp -> ijkl` -/
def dot42_2 (a : T4 n) (b : T2 n) : T4 n := fun i j k l => ∑ p, a i p k l * b j p
/-- tensorops.py:87, `ijkm,ml -> ijkl` -/
def dot42_3 (a : T4 n) (b : T2 n) : T4 n := fun i j k l => ∑ m, a i j k m * b m l
/-- tensorops.py:88, `im,mjkl -> ijkl` -/
def dot24_1 (a : T2 n) (b : T4 n) : T4 n := fun i j k l => ∑ m, a i m * b m j k l
/-- tensorops.py:89, `jm,imkl -> ijkl` -/
def dot24_2 (a : T2 n) (b : T4 n) : T4 n := fun i j k l => ∑ m, a j m * b i m k l
/-- tensorops.py:90, `km,ijml -> ijkl` -/
def dot24_3 (a : T2 n) (b : T4 n) : T4 n := fun i j k l => ∑ m, a k m * b i j m l
/-- tensorops.py:91, `lm,ijkm -> ijkl` -/
def dot24_4 (a : T2 n) (b : T4 n) : T4 n := fun i j k l => ∑ m, a l m * b i j k m
/-- tensorops.py:93, `ij,ij` -/
def ddot22_1 (a b : T2 n) : ℝ := ∑ i, ∑ j, a i j * b i j
/-- tensorops.py:94, `ijkl,kl -> ij` -/
def ddot42_1 (a : T4 n) (b : T2 n) : T2 n := fun i j => ∑ k, ∑ l, a i j k l * b k l
/-- tensorops.py:95, `ijmn,mnkl -> ijkl` -/
def ddot44_1 (a b : T4 n) : T4 n := fun i j k l => ∑ m, ∑ p, a i j m p * b m p k l
/-- tensorops.py:96, `kl,klij -> ij` -/
def ddot24_1 (a : T2 n) (b : T4 n) : T2 n := fun i j => ∑ k, ∑ l, a k l * b k l i j

/-- Arguments of `dd`: a Python integer or anything else. -/
inductive DdArg | int (v : ℤ) | other

/-- `dd`, tensorops.py:100-131.  `isinstance(i, torch.int)` has a dtype as second
argument, which raises `TypeError` as soon as it is evaluated, that is, as soon as
one argument is not a Python integer. -/
def dd : DdArg → DdArg → Py ℤ
  | .int i, .int j => .ok (if i = j then 1 else 0)
  | _, _ => .error .typeError

/-- Item assignment in a fourth-order tensor. -/
def T4.set (t : T4 n) (i j k l : Fin n) (v : ℝ) : T4 n := fun i' j' k' l' =>
  if i' = i ∧ j' = j ∧ k' = k ∧ l' = l then v else t i' j' k' l'

/-- Outputs of `get_id_operators`. -/
structure IdOps (n : ℕ) where
  soid : T2 n
  foid : T4 n
  fotransp : T4 n
  fosym : T4 n
  fodiagtrace : T4 n
  fodevproj : T4 n
  fodevprojsym : T4 n

/-- `get_id_operators`, tensorops.py:133-211.  The double loop 197-200 writes
`foid[i, j, i, j]` and `fotransp[i, j, j, i]`; the factor 1/3 does not depend on
`n_dim`. -/
noncomputable def getIdOperators (n : ℕ) : IdOps n :=
  let soid : T2 n := fun i j => if i = j then 1 else 0
  let zero : T4 n := fun _ _ _ _ => 0
  let loop := (List.finRange n).foldl (fun acc i =>
    (List.finRange n).foldl (fun (acc : T4 n × T4 n) j =>
      (acc.1.set i j i j 1, acc.2.set i j j i 1)) acc) (zero, zero)
  let foid := loop.1
  let fotransp := loop.2
  let fosym : T4 n := fun i j k l => 0.5 * (foid i j k l + fotransp i j k l)
  let fodiagtrace := dyad22_1 soid soid
  let fodevproj : T4 n := fun i j k l => foid i j k l - (1 / 3) * fodiagtrace i j k l
  let fodevprojsym : T4 n := fun i j k l => fosym i j k l - (1 / 3) * fodiagtrace i j k l
  ⟨soid, foid, fotransp, fosym, fodiagtrace, fodevproj, fodevprojsym⟩

/-- `fo_dinv_sym`, tensorops.py:213-244. -/
noncomputable def foDinvSym (inv : T2 n) : T4 n := fun i j k l =>
  -0.5 * (inv i k * inv l j + inv i l * inv k j)

end Hooke
