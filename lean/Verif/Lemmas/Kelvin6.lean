import Verif.Spec.Continuum
import Verif.Lemmas.Kelvin
import Verif.Lemmas.Tensorops
import Mathlib.Tactic.FinCases
import Mathlib.Tactic.FieldSimp
import Mathlib.Tactic.Linarith

/-! # Matricial forms of problem types 1 and 4 -/

noncomputable section

namespace Hooke

open Spec

theorem sqrt2_mul : √(2 : ℝ) * √2 = 2 := Real.mul_self_sqrt (by norm_num)
theorem sqrt2_ne : √(2 : ℝ) ≠ 0 := by positivity
theorem sqrt2_sq : √(2 : ℝ) ^ 2 = 2 := Real.sq_sqrt (by norm_num)

/-! ### Agreement with the general model of matrixops.py -/

/-- `kel6` is `vget_tensor_mf` for the 3D symmetric order. -/
theorem kel6_eq_vget (t : Tensor) (ht : t.shape = [3, 3]) :
    ∃ m, vgetTensorMf t 3 sym3d = .ok m ∧ m.shape = [6] ∧
      ∀ k : Fin 6, m.val [k] = kel6 (fun i j => t.val [i, j]) k := by
  refine ⟨_, by simp [vgetTensorMf, ht, kelvinFlag, sym3d, vIndexOk]; rfl, by simp [sym3d], ?_⟩
  intro k
  fin_cases k <;> simp [kel6, ci, cj, kf, vKelvin, sym3d, Comp.i, Comp.j]

/-- `kel66` is `vget_tensor_mf` for the 3D symmetric order. -/
theorem kel66_eq_vget (t : Tensor) (ht : t.shape = [3, 3, 3, 3]) :
    ∃ m, vgetTensorMf t 3 sym3d = .ok m ∧ m.shape = [6, 6] ∧
      ∀ k l : Fin 6, m.val [k, l] = kel66 (fun i j k l => t.val [i, j, k, l]) k l := by
  refine ⟨_, by simp [vgetTensorMf, ht, kelvinFlag, sym3d, vIndexOk]; rfl, by simp [sym3d], ?_⟩
  intro k l
  fin_cases k <;> fin_cases l <;> simp [kel66, ci, cj, kf, vKelvin, sym3d, Comp.i, Comp.j]

/-- `mf .plane` is `vget_tensor_mf` for the 2D symmetric order. -/
theorem mf_plane_eq_vget (t : Tensor) (ht : t.shape = [2, 2]) :
    ∃ m, vgetTensorMf t 2 sym2d = .ok m ∧ m.shape = [3] ∧
      ∀ k : Fin 3, m.val [k] = mf .plane (fun i j => t.val [i, j]) k := by
  refine ⟨_, by simp [vgetTensorMf, ht, kelvinFlag, sym2d, vIndexOk]; rfl, by simp [sym2d], ?_⟩
  intro k
  fin_cases k <;> simp [mf, vKelvin, sym2d, Comp.i, Comp.j]

/-- `unkel6` is `vget_tensor_from_mf` for the 3D symmetric order. -/
theorem unkel6_eq_vget (m : Tensor) (hm : m.shape = [6]) :
    ∃ t, vgetTensorFromMf m 3 sym3d = .ok t ∧ t.shape = [3, 3] ∧
      ∀ i j : Fin 3, t.val [i, j] = unkel6 (fun k => m.val [k]) i j := by
  refine ⟨_, by simp [vgetTensorFromMf, hm, kelvinFlag, sym3d, gatherIndex, List.range_succ,
    SProd.sprod]; rfl, rfl, ?_⟩
  intro i j
  fin_cases i <;> fin_cases j <;>
    simp [unkel6, pos6, kf, vKelvinInv, sym3d, gatherIndex, List.idxOf_cons]

/-- `to3D .plane` is `vget_state_3Dmf_from_2Dmf` for the symmetric orders. -/
theorem to3D_eq_vget (v : Vmf .plane) (c : ℝ) :
    vgetState3DmfFrom2Dmf (List.ofFn v) c = .ok (List.ofFn (to3D .plane v c)) := by
  simp [vgetState3DmfFrom2Dmf, ordersFrom2d, sym2d, sym3d, to3D, List.ofFn_succ, List.idxOf_cons]

/-- `to2D .plane` is `vget_state_2Dmf_from_3Dmf` for the symmetric orders. -/
theorem to2D_eq_vget (v : V6) :
    vgetState2DmfFrom3Dmf (List.ofFn v) = .ok (List.ofFn (to2D .plane v)) := by
  simp [vgetState2DmfFrom3Dmf, ordersFrom3d, sym2d, sym3d, to2D, List.ofFn_succ, List.idxOf_cons]

/-- `to2DM .plane` is `vget_state_2Dmf_from_3Dmf` of a tangent for the symmetric orders. -/
theorem to2DM_eq_vget (t : Tensor) (ht : t.shape = [6, 6]) :
    ∃ u, vgetState2DmfFrom3Dmf2 t = .ok u ∧ u.shape = [3, 3] ∧
      ∀ i j : Fin 3, u.val [i, j] = to2DM .plane (fun k l => t.val [k, l]) i j := by
  refine ⟨_, by simp [vgetState2DmfFrom3Dmf2, ht, ordersFrom3d, sym3d, sym2d]; rfl, rfl, ?_⟩
  intro i j
  fin_cases i <;> fin_cases j <;> simp [to2DM]

/-! ### Kelvin vectors and tensors -/

theorem unkel6_kel6 {t : T2 3} (h : IsSym t) : unkel6 (kel6 t) = t := by
  funext i j
  have h10 := h 1 0; have h20 := h 2 0; have h21 := h 2 1
  fin_cases i <;> fin_cases j <;>
    simp [unkel6, kel6, pos6, ci, cj, kf, h10, h20, h21]

theorem kel6_unkel6 (v : V6) : kel6 (unkel6 v) = v := by
  funext k
  fin_cases k <;> simp [unkel6, kel6, pos6, ci, cj, kf]

theorem unkel6_isSym (v : V6) : IsSym (unkel6 v) := by
  intro i j
  fin_cases i <;> fin_cases j <;> simp [unkel6, pos6, kf]

theorem tr6_kel6 (t : T2 3) : tr6 (kel6 t) = trace t := by
  simp [tr6, kel6, ci, cj, kf, trace, Fin.sum_univ_three]

theorem one6_kel6 : one6 = kel6 (fun i j => if i = j then 1 else 0) := by
  funext k
  fin_cases k <;> simp [one6, kel6, ci, cj, kf]

theorem dev6_kel6 (t : T2 3) : dev6 (kel6 t) = kel6 (deviator t) := by
  funext k
  simp only [dev6, tr6_kel6]
  fin_cases k <;> simp [one6, kel6, ci, cj, kf, deviator]

theorem sum_sq_kel6 {t : T2 3} (h : IsSym t) : ∑ k, kel6 t k ^ 2 = ∑ i, ∑ j, t i j ^ 2 := by
  have h01 := h 0 1; have h02 := h 0 2; have h12 := h 1 2
  simp [Fin.sum_univ_succ, kel6, ci, cj, kf, mul_pow, h01, h02, h12]
  ring

theorem norm6_kel6 {t : T2 3} (h : IsSym t) : norm6 (kel6 t) = frob t := by
  rw [norm6, sum_sq_kel6 h, frob]

theorem deviator_isSym {t : T2 3} (h : IsSym t) : IsSym (deviator t) := by
  intro i j
  simp only [deviator, h i j, eq_comm (a := i)]

theorem vm6_kel6 {t : T2 3} (h : IsSym t) : vm6 (kel6 t) = vonMises t := by
  have := norm6_kel6 (deviator_isSym h)
  rw [vm6, dev6_kel6, vonMises, ← this, norm6]

theorem hooke6_kel6 (lam G : ℝ) (e : T2 3) : hooke6 lam G (kel6 e) = kel6 (hooke lam G e) := by
  funext k
  simp only [hooke6, tr6_kel6]
  fin_cases k <;> simp [one6, kel6, ci, cj, kf, hooke] <;> ring

/-! ### Operators -/

theorem fosym_eq (i j k l : Fin 3) : (getIdOperators 3).fosym i j k l =
    0.5 * ((if i = k ∧ j = l then 1 else 0) + (if i = l ∧ j = k then 1 else 0)) := by
  have : (getIdOperators 3).fosym i j k l =
    0.5 * ((getIdOperators 3).foid i j k l + (getIdOperators 3).fotransp i j k l) := rfl
  rw [this, foid_eq, fotransp_eq]

theorem fodiagtrace_eq (i j k l : Fin 3) : (getIdOperators 3).fodiagtrace i j k l =
    (if i = j then 1 else 0) * (if k = l then 1 else 0) := rfl

theorem fodevprojsym_eq (i j k l : Fin 3) : (getIdOperators 3).fodevprojsym i j k l =
    (getIdOperators 3).fosym i j k l - (1 / 3) * (getIdOperators 3).fodiagtrace i j k l := rfl

theorem mv6_iso (lam miu : ℝ) (e : V6) : mv6 (kel66 (isoTensor lam miu)) e = hooke6 lam miu e := by
  funext k
  simp only [mv6, hooke6, tr6, kel66, isoTensor, fosym_eq, fodiagtrace_eq, Fin.sum_univ_succ]
  fin_cases k <;> simp [one6, ci, cj, kf] <;> (try left) <;> ring

theorem mv6_devprojsym (e : V6) : mv6 (kel66 (getIdOperators 3).fodevprojsym) e = dev6 e := by
  funext k
  simp only [mv6, dev6, tr6, kel66, fodevprojsym_eq, fosym_eq, fodiagtrace_eq, Fin.sum_univ_succ]
  fin_cases k <;> simp [one6, ci, cj, kf] <;> (try left) <;> ring

end Hooke
