import Verif.Lemmas.LouUnits
import Verif.Props.Units

/-!
# C146: the Lou-Zhang-Yoon model in another unit of stress
-/

noncomputable section

namespace Hooke

open Spec

/-- **C146.** Lou-Zhang-Yoon plasticity, every strain history: with Young's modulus and yield stress law in
another unit of stress the run raises the same errors and fails at the same steps, all strains, accumulated
plastic strains and flags are the same, and the stresses are those of the first unit in the other one.  The
yield stresses must be well above the number `1e-8` in both units. -/
theorem C146_lou {p : PType} {k : ℝ} (hk : 0 < k) (m : LouParams) (hw : ∀ x, WellAbove k (m.y x).1)
    (incs : List (T2 p.dim)) :
    louRun p (unitLou k m) incs = (louRun p m incs).map (unitVMVars p k) := by
  have h0 : (VMVars.good (vmInit p) : VMVars p) = unitVMVars p k (.good (vmInit p)) := by
    show VMVars.good (vmInit p) = VMVars.good (unitVM p k (vmInit p))
    simp only [vmInit, unitVM, Pi.zero_apply, mul_zero]
    rfl
  unfold louRun
  conv_lhs => rw [h0]
  generalize VMVars.good (vmInit p) = st
  induction incs generalizing st with
  | nil => rfl
  | cons inc incs ih =>
    have hstep : louStep p (unitLou k m) (unitVMVars p k st) inc = (louStep p m st inc).map (unitVMVars p k) := by
      cases st with
      | nan s => rfl
      | good s => exact unit_louUpdate hk p m hw inc s
    simp only [List.foldlM_cons, hstep]
    cases louStep p m st inc with
    | error e => rfl
    | ok n => exact ih n

/-- **C146.** The batched Lou-Zhang-Yoon model, with and without apex handling and fixed yield parameters: every
step from every state. -/
theorem C146_lou_batched {p : PType} {k : ℝ} (hk : 0 < k) (m : LouParams) (o : LouOptions)
    (hw : ∀ x, WellAbove k (m.y x).1) (inc : T2 p.dim) (s : VMState p) :
    louVmapUpdate p (unitLou k m) o inc (unitVM p k s) = (louVmapUpdate p m o inc s).map (unitVMVars p k) :=
  unit_louVmapUpdate hk p m o hw inc s

/-- A step of the Lou-Zhang-Yoon model that neither fails nor raises an error. -/
def louGood (p : PType) (m : LouParams) (inc : T2 p.dim) (s : VMState p) : Option (VMState p) :=
  match louUpdate p m inc s with
  | .ok (.good n) => some n
  | _ => none

/-- **C146.** The Lou-Zhang-Yoon model in two units of stress is the same material for the internal forces. -/
theorem C146_lou_material {p : PType} {k : ℝ} (hk : 0 < k) (m : LouParams) (hw : ∀ x, WellAbove k (m.y x).1) :
    SameMaterial (libraryMaterial p (louGood p m) VMState.stress)
      (libraryMaterial p (louGood p (unitLou k m)) VMState.stress) p.dim (kelvinOrder p) k
      (fun s s' : VMState p => s' = unitVM p k s ∧ True) (fun s s' => s' = unitVM p k s) := by
  refine library_unit (ok := fun _ => True) (fun inc s _ => ?_) fun s => rfl
  unfold louGood
  rw [unit_louUpdate hk p m hw]
  rcases louUpdate p m inc s with _ | (_ | _) <;> rfl

/-- A material with hardening, given in MPa and in kPa: every history. -/
example (incs : List (T2 3)) :
    louRun .solid ⟨1000 * 110000, 0.33, linearHardening (1000 * 900) (1000 * 300), linearHardening 1 0,
        linearHardening 0.05 0, linearHardening 1 0, linearHardening 0.5 0, false⟩ incs =
      (louRun .solid ⟨110000, 0.33, linearHardening 900 300, linearHardening 1 0, linearHardening 0.05 0,
        linearHardening 1 0, linearHardening 0.5 0, false⟩ incs).map (unitVMVars .solid 1000) := by
  have := C146_lou (p := .solid) (k := 1000) (by norm_num)
    ⟨110000, 0.33, linearHardening 900 300, linearHardening 1 0, linearHardening 0.05 0, linearHardening 1 0,
      linearHardening 0.5 0, false⟩ (fun x => ?_) incs
  · simp only [unitLou, unitLaw_linear] at this
    exact this
  · have : (0 : ℝ) ≤ relu x := le_max_right _ _
    constructor
    · simp only [linearHardening]
      norm_num
      linarith
    · simp only [linearHardening]
      norm_num
      linarith

end Hooke
