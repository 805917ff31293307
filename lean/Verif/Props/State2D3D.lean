import Verif.Model.Matrixops
import Mathlib.Tactic.NormNum

/-!
# C10: 2D and 3D matricial forms
-/

namespace Hooke

/-- C10a: from 2D to 3D and back is the identity, the loop and the vectorised versions
agree, and the 3D form has `c33` at component 33, zero at the other out-of-plane components
and the 2D values at the in-plane components. -/
theorem C10_2d_3d_2d {p : ℕ} (hp : p ≠ 3 ∧ p ≠ 4) {v : List ℝ}
    (hv : v.length = 3 ∨ v.length = 4) (c33 : ℝ) :
    ∃ w, getState3DmfFrom2Dmf p v c33 = .ok w ∧
      vgetState3DmfFrom2Dmf v c33 = .ok w ∧
      getState2DmfFrom3Dmf w = .ok v ∧ vgetState2DmfFrom3Dmf w = .ok v ∧
      (∀ (co2 co3 : List Comp),
        (co2, co3) = (if v.length = 3 then (sym2d, sym3d) else (nsym2d, nsym3d)) →
        w.length = co3.length ∧
        ∀ (k a b : ℕ), co3[k]? = some [a, b] → ∃ x, w[k]? = some x ∧
          (a = 3 ∧ b = 3 → x = c33) ∧
          ((a = 3 ∧ b ≠ 3) ∨ (a ≠ 3 ∧ b = 3) → x = 0) ∧
          (a ≠ 3 ∧ b ≠ 3 → ∀ l : ℕ, co2[l]? = some [a, b] → v[l]? = some x)) := by
  rcases hv with hv | hv
  · obtain ⟨x, y, z, rfl⟩ := List.length_eq_three.1 hv
    refine ⟨[x, y, c33, z, 0, 0], ?_, ?_, ?_, ?_, ?_⟩
    · simp [getState3DmfFrom2Dmf, ordersFrom2d, sym2d, sym3d, hp, List.range_succ, List.idxOf,
        List.findIdx_cons, List.replicate]
    · simp [vgetState3DmfFrom2Dmf, ordersFrom2d, sym2d, sym3d, List.idxOf, List.findIdx_cons]
    · simp [getState2DmfFrom3Dmf, ordersFrom3d, sym2d, sym3d, List.range_succ, List.idxOf,
        List.findIdx_cons, List.replicate]
    · simp [vgetState2DmfFrom3Dmf, ordersFrom3d, sym2d, sym3d, List.idxOf, List.findIdx_cons]
    · intro co2 co3 hco
      simp at hco
      obtain ⟨rfl, rfl⟩ := hco
      refine ⟨rfl, ?_⟩
      intro k a b hk
      rcases k with _ | _ | _ | _ | _ | _ | k <;> simp [sym3d] at hk <;>
        obtain ⟨rfl, rfl⟩ := hk <;> simp
      all_goals
        intro l hl
        rcases l with _ | _ | _ | l <;> simp [sym2d] at hl ⊢
  · obtain ⟨x, y, z, u, rfl⟩ : ∃ x y z u, v = [x, y, z, u] := by
      match v, hv with
      | [x, y, z, u], _ => exact ⟨x, y, z, u, rfl⟩
    refine ⟨[x, y, 0, z, u, 0, 0, 0, c33], ?_, ?_, ?_, ?_, ?_⟩
    · simp [getState3DmfFrom2Dmf, ordersFrom2d, sym2d, nsym2d, nsym3d, hp, List.range_succ,
        List.idxOf, List.findIdx_cons, List.replicate]
    · simp [vgetState3DmfFrom2Dmf, ordersFrom2d, sym2d, nsym2d, nsym3d, List.idxOf,
        List.findIdx_cons]
    · simp [getState2DmfFrom3Dmf, ordersFrom3d, sym3d, nsym2d, nsym3d, List.range_succ, List.idxOf,
        List.findIdx_cons, List.replicate]
    · simp [vgetState2DmfFrom3Dmf, ordersFrom3d, sym3d, nsym2d, nsym3d, List.idxOf,
        List.findIdx_cons]
    · intro co2 co3 hco
      simp at hco
      obtain ⟨rfl, rfl⟩ := hco
      refine ⟨rfl, ?_⟩
      intro k a b hk
      rcases k with _ | _ | _ | _ | _ | _ | _ | _ | _ | k <;> simp [nsym3d] at hk <;>
        obtain ⟨rfl, rfl⟩ := hk <;> simp
      all_goals
        intro l hl
        rcases l with _ | _ | _ | _ | l <;> simp [nsym2d] at hl ⊢

example : (1 ≠ 3 ∧ 1 ≠ 4) ∧ ([1, 2, 3] : List ℝ).length = 3 := by simp

/-- C10b: problem types 3 and 4 are rejected, whatever the vector. -/
theorem C10_rejects {p : ℕ} (hp : p = 3 ∨ p = 4) (v : List ℝ) (c33 : ℝ) :
    getState3DmfFrom2Dmf p v c33 = .error .runtimeError := by
  simp [getState3DmfFrom2Dmf, hp]

/-- C10c: the 2D block of a 3D tangent (symmetric order): loop and vectorised versions agree,
and the entry of the 2D components `(a, b)`, `(c, d)` is the 3D entry of the same components. -/
theorem C10_tangent_block (t : Tensor) (ht : t.shape = [6, 6]) :
    ∃ u u', getState2DmfFrom3Dmf2 t = .ok u ∧ vgetState2DmfFrom3Dmf2 t = .ok u' ∧
      u.shape = [3, 3] ∧ u'.shape = [3, 3] ∧
      ∀ (i j k l : ℕ) (a b : Comp), sym2d[i]? = some a → sym2d[j]? = some b →
        sym3d[k]? = some a → sym3d[l]? = some b →
        u.val [i, j] = t.val [k, l] ∧ u'.val [i, j] = t.val [k, l] := by
  refine ⟨_, _, by simp [getState2DmfFrom3Dmf2, ht, ordersFrom3d, sym3d, sym2d, List.range_succ]; rfl,
    by simp [vgetState2DmfFrom3Dmf2, ht, ordersFrom3d, sym3d, sym2d]; rfl, rfl, rfl, ?_⟩
  intro i j k l a b hi hj hk hl
  rcases i with _ | _ | _ | i <;> simp [sym2d] at hi <;>
  rcases j with _ | _ | _ | j <;> simp [sym2d] at hj <;>
  subst hi <;> subst hj <;>
  rcases k with _ | _ | _ | _ | _ | _ | k <;> simp [sym3d] at hk <;>
  rcases l with _ | _ | _ | _ | _ | _ | l <;> simp [sym3d] at hl <;>
  simp [Tensor.set]

end Hooke
