import Verif.Spec.SpecimenWork
import Verif.Spec.ElasticElement

/-!
# Specification: the loading determines the states of a specimen
-/

noncomputable section

namespace Hooke.Spec

/-- A material whose steps from two states bring the states together: half the squared distance grows by no
more than the work of the difference of the stresses on the difference of the strain increments, up to an error
which is given by the `slack` of the states (zero for an exact material). -/
structure Contractive {σ : Type} (mat : Material σ) (n : ℕ) (co : List Comp) (inv : σ → Prop)
    (dist : σ → σ → ℝ) (norm : T2 n → ℝ) (slack : σ → ℝ) : Prop where
  dist_nonneg : ∀ s t, 0 ≤ dist s t
  dist_self : ∀ s, dist s s = 0
  norm_nonneg : ∀ x, 0 ≤ norm x
  slack_nonneg : ∀ s, inv s → 0 ≤ slack s
  keeps : ∀ inc s new rest, IsSym2 n inc → inv s → mat.stateUpdate inc s = .ok (new, rest) →
    inv new ∧ slack s ≤ slack new
  close : ∀ inc₁ inc₂ s₁ s₂ new₁ new₂ rest₁ rest₂, IsSym2 n inc₁ → IsSym2 n inc₂ → inv s₁ → inv s₂ →
    mat.stateUpdate inc₁ s₁ = .ok (new₁, rest₁) → mat.stateUpdate inc₂ s₂ = .ok (new₂, rest₂) →
    dist new₁ new₂ ≤ dist s₁ s₂ + norm (tens2 n inc₁ - tens2 n inc₂) + (slack s₁ + slack s₂)
  work : ∀ inc₁ inc₂ s₁ s₂ new₁ new₂ rest₁ rest₂ t₁ t₂, IsSym2 n inc₁ → IsSym2 n inc₂ → inv s₁ → inv s₂ →
    mat.stateUpdate inc₁ s₁ = .ok (new₁, rest₁) → mat.stateUpdate inc₂ s₂ = .ok (new₂, rest₂) →
    getTensorFromMf (mat.stressMf new₁) n co true = .ok t₁ →
    getTensorFromMf (mat.stressMf new₂) n co true = .ok t₂ →
    1 / 2 * dist new₁ new₂ ^ 2 - 1 / 2 * dist s₁ s₂ ^ 2 ≤
      ∑ i : Fin n, ∑ j : Fin n, (tens2 n t₁ i j - tens2 n t₂ i j) * (tens2 n inc₁ i j - tens2 n inc₂ i j) +
        (3 * (slack s₁ + slack s₂) * (dist s₁ s₂ + norm (tens2 n inc₁ - tens2 n inc₂)) +
          (slack s₁ + slack s₂) ^ 2)

/-- Value of a function of the states of a Gauss point in two runs. -/
def onPair {σ : Type} (f : σ → σ → ℝ) : Option σ → Option σ → ℝ
  | some s, some t => f s t
  | _, _ => 0

/-- Half the squared distance of the states of an element in two runs: those of its Gauss points, times weight
and Jacobian determinant. -/
def elementGap {σ : Type} (dist : σ → σ → ℝ) (e : ElementType) (rule : GaussRule e.dim)
    (X : Fin e.nNode → Fin e.dim → ℝ) (st₁ st₂ : GpDict σ) : ℝ :=
  ∑ g : Fin rule.length, rule[g].2 * (e.jacobian X rule[g].1).det *
    (1 / 2 * onPair dist (st₁ (g + 1)) (st₂ (g + 1)) ^ 2)

/-- Work of the difference of the forces in two runs on the difference of the displacement increments. -/
def elementPairWork (m n : ℕ) : List Tensor → List Tensor → List Tensor → List Tensor → ℝ
  | f₁ :: fs₁, f₂ :: fs₂, u₁ :: us₁, u₂ :: us₂ =>
    ∑ a ∈ Finset.range m, ∑ q ∈ Finset.range n,
      (f₁.val [a * n + q] - f₂.val [a * n + q]) * (u₁.val [a, q] - u₂.val [a, q]) +
    elementPairWork m n fs₁ fs₂ us₁ us₂
  | _, _, _, _ => 0

/-- How far the strains of two runs are apart at a Gauss point: sum over the increments. -/
def strainGap (e : ElementType) (X : Fin e.nNode → Fin e.dim → ℝ) (c : Fin e.dim → ℝ) (n : ℕ)
    (norm : T2 n → ℝ) (us₁ us₂ : List Tensor) : ℝ :=
  (List.zipWith (fun u₁ u₂ => norm (strainAt e X c n u₁ - strainAt e X c n u₂)) us₁ us₂).sum

/-- Error of `N` steps of two states at the initial distance `d`, whose strain histories are `H` apart, when
every step has the error `q`. -/
def stepsError (N : ℕ) (q d H : ℝ) : ℝ := N * (3 * q * (d + H + N * q) + q ^ 2)

/-- Error of two runs of an element: those of its Gauss points, times weight and Jacobian determinant. -/
def elementError {σ : Type} (dist : σ → σ → ℝ) {n : ℕ} (norm : T2 n → ℝ) (slack : σ → ℝ) (e : ElementType)
    (rule : GaussRule e.dim) (X : Fin e.nNode → Fin e.dim → ℝ) (us₁ us₂ : List Tensor)
    (old₁ old₂ st₁ st₂ : GpDict σ) : ℝ :=
  ∑ g : Fin rule.length, rule[g].2 * (e.jacobian X rule[g].1).det *
    stepsError us₁.length (onPair (fun s t => slack s + slack t) (st₁ (g + 1)) (st₂ (g + 1)))
      (onPair dist (old₁ (g + 1)) (old₂ (g + 1))) (strainGap e X rule[g].1 n norm us₁ us₂)

end Hooke.Spec
