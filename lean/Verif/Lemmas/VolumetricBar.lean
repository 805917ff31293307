import Mathlib.Tactic.Ring
import Mathlib.Tactic.FieldSimp
import Mathlib.Tactic.IntervalCases
import Verif.Model.VolumetricBar
import Verif.Props.Gradients
import Verif.Lemmas.Scalers
import Verif.Lemmas.Py

namespace Hooke

open Spec

/-- The two problem types accepted by the code. -/
def ProblemData (pt n : ℕ) (co : List Comp) : Prop :=
  (pt = 1 ∧ n = 2 ∧ co = sym2d) ∨ (pt = 4 ∧ n = 3 ∧ co = sym3d)

theorem ProblemData.params {pt n : ℕ} {co : List Comp} (h : ProblemData pt n co) :
    ∃ l, getProblemTypeParameters pt = .ok (n, co, l) := by
  rcases h with ⟨rfl, rfl, rfl⟩ | ⟨rfl, rfl, rfl⟩ <;> exact ⟨_, rfl⟩

theorem volProj_sym3d (n k l : ℕ) (hk : k < 6) (hl : l < 6) :
    volProjVmf n sym3d k l = if k < 3 ∧ l < 3 then 1 / (n : ℝ) else 0 := by
  interval_cases k <;> interval_cases l <;> simp [volProjVmf, volIndicator, sym3d]

theorem projTensors_sym3d {n : ℕ} (hn : n ≠ 0) :
    getProjectionTensorsVmf n sym3d = .ok (volProjVmf n sym3d, devProjVmf n sym3d) := by
  simp [getProjectionTensorsVmf, hn, sym3d]

theorem sum_volProj (n k : ℕ) (hk : k < 6) (f : ℕ → ℝ) :
    ∑ p ∈ Finset.range 6, volProjVmf n sym3d k p * f p =
      if k < 3 then (f 0 + f 1 + f 2) / n else 0 := by
  simp only [Finset.sum_range_succ, Finset.sum_range_zero]
  rw [volProj_sym3d n k 0 hk (by omega), volProj_sym3d n k 1 hk (by omega), volProj_sym3d n k 2 hk (by omega),
    volProj_sym3d n k 3 hk (by omega), volProj_sym3d n k 4 hk (by omega), volProj_sym3d n k 5 hk (by omega)]
  by_cases h : k < 3
  · simp [h]; ring
  · simp [h]

theorem sum_devProj (n k : ℕ) (hk : k < 6) (f : ℕ → ℝ) :
    ∑ p ∈ Finset.range 6, devProjVmf n sym3d k p * f p =
      f k - if k < 3 then (f 0 + f 1 + f 2) / n else 0 := by
  have : ∀ p, devProjVmf n sym3d k p * f p =
      (if k = p then f p else 0) - volProjVmf n sym3d k p * f p := by
    intro p; rw [devProjVmf]; split <;> ring
  simp only [this, Finset.sum_sub_distrib, sum_volProj n k hk]
  rw [Finset.sum_ite_eq, if_pos (Finset.mem_range.2 hk)]

theorem expand_eq {m : ℕ} {g : Tensor} (hg : g.shape = [3, m * 2]) :
    expandGradSym2d3d g = .ok ⟨[6, 3 * m], fun idx =>
      if sym3d.getD (idx.getD 0 0) [] ∈ sym2d then
        if idx.getD 1 0 % 3 < 2 then
          g.val [sym2d.idxOf (sym3d.getD (idx.getD 0 0) []), idx.getD 1 0 / 3 * 2 + idx.getD 1 0 % 3] else 0
      else 0⟩ := by
  have h1 : m * 2 / 2 = m := by omega
  simp only [expandGradSym2d3d, hg, h1]
  rw [if_neg (by omega), if_neg (by omega)]
  rfl

theorem reduce_eq {m : ℕ} {g : Tensor} (hg : g.shape = [6, 3 * m]) :
    reduceGradSym3d2d g = .ok ⟨[3, 2 * m], fun idx =>
      g.val [sym3d.idxOf (sym2d.getD (idx.getD 0 0) []), idx.getD 1 0 / 2 * 3 + idx.getD 1 0 % 2]⟩ := by
  have h1 : 3 * m / 3 = m := by omega
  simp only [reduceGradSym3d2d, hg, h1]
  rw [if_neg (by omega), if_neg (by omega)]
  rfl

theorem projMul_eq {k c : ℕ} {g : Tensor} (hg : g.shape = [k, c]) (P : ℕ → ℕ → ℝ) :
    projMul k P g = .ok ⟨[k, c], fun idx =>
      ∑ p ∈ Finset.range k, P (idx.getD 0 0) p * g.val [p, idx.getD 1 0]⟩ := by
  simp [projMul, hg]

/-- The three steps shared by the volumetric and the deviatoric operators. -/
theorem projected_spec {pt n m : ℕ} {co : List Comp} (hp : ProblemData pt n co) {g : Tensor}
    (hg : g.shape = [co.length, m * n]) (P : ℕ → ℕ → ℝ) :
    ∃ g' h r, expandIf2d n g = .ok g' ∧ projMul 6 P g' = .ok h ∧ reduceIf2d n h = .ok r ∧
      r.shape = [co.length, m * n] ∧
      ∀ k < co.length, ∀ q < m * n, ∃ k' < 6, (k' < 3 ↔ k < n) ∧ ∃ f : ℕ → ℝ,
        r.val [k, q] = ∑ p ∈ Finset.range 6, P k' p * f p ∧ f k' = g.val [k, q] ∧
        f 0 + f 1 + f 2 = ∑ i ∈ Finset.range n, g.val [i, q] := by
  rcases hp with ⟨rfl, rfl, rfl⟩ | ⟨rfl, rfl, rfl⟩
  · have hr : ∀ {h : Tensor}, h.shape = [6, 3 * m] → reduceIf2d 2 h = .ok ⟨[3, 2 * m], fun idx =>
        h.val [sym3d.idxOf (sym2d.getD (idx.getD 0 0) []), idx.getD 1 0 / 2 * 3 + idx.getD 1 0 % 2]⟩ :=
      fun hh => reduce_eq hh
    refine ⟨_, _, _, expand_eq hg, projMul_eq rfl P, hr rfl, ?_, ?_⟩
    · simp [mul_comm, sym2d]
    · intro k hk q hq
      have e1 : (q / 2 * 3 + q % 2) % 3 = q % 2 := by omega
      have e2 : (q / 2 * 3 + q % 2) / 3 * 2 + q % 2 = q := by omega
      have e3 : q % 2 < 2 := by omega
      have hk : k < 3 := hk
      refine ⟨sym3d.idxOf (sym2d.getD k []), ?_, ?_, fun p =>
        if sym3d.getD p [] ∈ sym2d then g.val [sym2d.idxOf (sym3d.getD p []), q] else 0, ?_, ?_, ?_⟩
      · interval_cases k <;> decide
      · interval_cases k <;> decide
      · simp only [List.getD_cons_zero, List.getD_cons_succ, e1, e2, e3, if_true]
      · interval_cases k <;> rfl
      · simp [Finset.sum_range_succ, sym3d, sym2d, List.idxOf_cons]
  · refine ⟨g, _, _, rfl, projMul_eq hg P, rfl, ?_, ?_⟩
    · simp [sym3d]
    · intro k hk q hq
      refine ⟨k, hk, Iff.rfl, fun p => g.val [p, q], ?_, rfl, ?_⟩
      · simp [sym3d]
      · simp [Finset.sum_range_succ]

theorem localVol_spec {pt n m : ℕ} {co : List Comp} (hp : ProblemData pt n co) {g : Tensor}
    (hg : g.shape = [co.length, m * n]) :
    ∃ r, localVolSymGradient g n = .ok r ∧ r.shape = [co.length, m * n] ∧
      ∀ k < co.length, ∀ q < m * n, r.val [k, q] =
        if k < n then (∑ i ∈ Finset.range n, g.val [i, q]) / 3 else 0 := by
  obtain ⟨g', h, r, h1, h2, h3, h4, h5⟩ := projected_spec hp hg (volProjVmf 3 sym3d)
  refine ⟨r, ?_, h4, ?_⟩
  · have e : getProblemTypeParameters 4 = .ok (3, sym3d, nsym3d) := rfl
    have e' : sym3d.length = 6 := rfl
    simp only [localVolSymGradient, h1, e, projTensors_sym3d (n := 3) (by omega), bind, Except.bind, e', h2, h3]
  · intro k hk q hq
    obtain ⟨k', hk', hkn, f, e1, -, e3⟩ := h5 k hk q hq
    rw [e1, sum_volProj 3 k' hk', e3]
    simp only [hkn, Nat.cast_ofNat]

theorem localDev_spec {pt n m : ℕ} {co : List Comp} (hp : ProblemData pt n co) {g : Tensor}
    (hg : g.shape = [co.length, m * n]) :
    ∃ r, localDevSymGradient g n = .ok r ∧ r.shape = [co.length, m * n] ∧
      ∀ k < co.length, ∀ q < m * n, r.val [k, q] = g.val [k, q] -
        if k < n then (∑ i ∈ Finset.range n, g.val [i, q]) / n else 0 := by
  obtain ⟨g', h, r, h1, h2, h3, h4, h5⟩ := projected_spec hp hg (devProjVmf n sym3d)
  refine ⟨r, ?_, h4, ?_⟩
  · have e : getProblemTypeParameters 4 = .ok (3, sym3d, nsym3d) := rfl
    have e' : sym3d.length = 6 := rfl
    have hn : n ≠ 0 := by rcases hp with ⟨-, rfl, -⟩ | ⟨-, rfl, -⟩ <;> omega
    simp only [localDevSymGradient, h1, e, projTensors_sym3d hn, bind, Except.bind, e', h2, h3]
  · intro k hk q hq
    obtain ⟨k', hk', hkn, f, e1, e2, e3⟩ := h5 k hk q hq
    rw [e1, sum_devProj n k' hk', e3, e2]
    simp only [hkn]

end Hooke
