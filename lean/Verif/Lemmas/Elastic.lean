import Verif.Spec.Elastic
import Verif.Lemmas.Kelvin6

noncomputable section

namespace Hooke

open Spec

/-- Components of the 3D symmetric order as functions of the position. -/
def comp6 : Fin 6 → Comp := ![[1,1],[2,2],[3,3],[1,2],[2,3],[1,3]]

theorem comp6_eq : List.ofFn comp6 = sym3d := by
  simp [List.ofFn_succ, sym3d, comp6]

theorem kfOf_comp6 (k : Fin 6) : kfOf (comp6 k) = kf k := by
  fin_cases k <;> simp [kfOf, comp6, kf]

/-- `kfOf` is `kelvin_factor` on the 3D symmetric order. -/
theorem kfOf_eq_kelvinFactor (k : Fin 6) :
    kelvinFactor1 (sym3d.idxOf (comp6 k)) sym3d = .ok (kfOf (comp6 k)) := by
  fin_cases k <;> simp [kfOf, comp6, kelvinFactor1, sym3d, List.idxOf_cons]

/-- Modulus stored at an entry. -/
def modAt (i j : Fin 6) : Modulus := if i ≤ j then (comp6 i, comp6 j) else (comp6 j, comp6 i)

set_option maxHeartbeats 2000000 in
theorem fillTangent_entry (all : Modulus → ℝ) (i j : Fin 6) :
    fillTangent all i j = kf i * kf j * all (modAt i j) := by
  rw [← kfOf_comp6, ← kfOf_comp6]
  fin_cases i <;> fin_cases j <;> first | rfl | (rw [mul_comm (kfOf _)]; rfl)

theorem indModuli_ok {d : Props} {f : Modulus → ℝ} (req : List Modulus)
    (h : ∀ m ∈ req, d (.mod m) = some (f m)) :
    indModuli d req = .ok (fun m => if m ∈ req then f m else 0) := by
  suffices H : ∀ (req : List Modulus) (g : Modulus → ℝ), (∀ m ∈ req, d (.mod m) = some (f m)) →
      req.foldlM (indStep d) g =
        .ok (fun m => if m ∈ req then f m else g m) by
    exact H req _ h
  intro req
  induction req with
  | nil => intro g _; simp [pure, Except.pure]
  | cons m req ih =>
    intro g h
    simp only [List.foldlM_cons, indStep, h m (by simp), bind, Except.bind]
    rw [ih _ (fun m' hm' => h m' (by simp [hm']))]
    congr 1
    funext m'
    by_cases h1 : m' = m
    · subst h1; simp
    · simp [h1, Function.update_of_ne h1]

theorem indModuli_missing {d : Props} {m : Modulus} (hm : d (.mod m) = none)
    (hb : d (.bare (m.2, m.1)) = none) (req : List Modulus) (h : m ∈ req) :
    indModuli d req = .error .runtimeError := by
  suffices H : ∀ (req : List Modulus) (g : Modulus → ℝ), m ∈ req →
      req.foldlM (indStep d) g = .error .runtimeError by
    exact H req _ h
  intro req
  induction req with
  | nil => intro g h; simp at h
  | cons m' req ih =>
    intro g h
    simp only [List.foldlM_cons, indStep]
    by_cases h1 : m' = m
    · subst h1; simp [hm, hb, bind, Except.bind]
    · have h2 : m ∈ req := by
        rcases List.mem_cons.mp h with h | h
        · exact absurd h.symm h1
        · exact h
      cases d (.mod m') with
      | some x => exact ih _ h2
      | none =>
        cases d (.bare (m'.2, m'.1)) with
        | some x => exact ih _ h2
        | none => rfl

theorem required_triclinic {s : ElSym} {req : List Modulus} (h : requiredModuli s = some req) :
    ∀ m ∈ req, m ∈ triclinicModuli := by
  cases s <;> simp [requiredModuli] at h <;> subst h <;> decide

theorem filterModuli_mod {d : Props} {s : ElSym} {req : List Modulus}
    (h : requiredModuli s = some req) {m : Modulus} (hm : m ∈ req) :
    filterModuli d (.mod m) = d (.mod m) := by
  simp [filterModuli, required_triclinic h m hm]

theorem entry_comp6 (C : T4 3) (i j : Fin 6) :
    entry C (comp6 i, comp6 j) = C (ci i) (cj i) (ci j) (cj j) := by
  fin_cases i <;> fin_cases j <;> rfl

theorem entry_modAt {C : T4 3} (hC : IsStiffness C) (i j : Fin 6) :
    entry C (modAt i j) = C (ci i) (cj i) (ci j) (cj j) := by
  unfold modAt
  split
  · exact entry_comp6 C i j
  · rw [entry_comp6]; exact hC.major _ _ _ _

theorem mv6_kel66 {C : T4 3} (hC : IsStiffness C) {e : T2 3} (he : IsSym e) :
    mv6 (kel66 C) (kel6 e) = kel6 (ddot42_1 C e) := by
  funext k
  have h10 := he 1 0; have h20 := he 2 0; have h21 := he 2 1
  simp only [mv6, kel66, kel6, ddot42_1, Fin.sum_univ_succ]
  simp [ci, cj, kf, h10, h20, h21, hC.right _ _ 1 0, hC.right _ _ 2 0, hC.right _ _ 2 1]
  ring_nf
  simp only [sqrt2_sq]
  ring

theorem reflection_zero {a : Fin 3} {C : T4 3} (h : ReflectionInvariant a C) {i j k l : Fin 3}
    (hs : [i, j, k, l].count a % 2 = 1) : C i j k l = 0 := by
  have := h i j k l
  have h2 : axisSign a i * axisSign a j * axisSign a k * axisSign a l = -1 := by
    simp only [List.count_cons, List.count_nil] at hs
    by_cases h1 : i = a <;> by_cases h2 : j = a <;> by_cases h3 : k = a <;> by_cases h4 : l = a <;>
      simp [h1, h2, h3, h4, axisSign] at hs ⊢
  rw [h2] at this
  linarith

theorem modAt_mem (i j : Fin 6) : modAt i j ∈ triclinicModuli := by revert i j; decide

theorem allModuli_monoclinic {C : T4 3} (hs : HasSymmetry .monoclinic C) (f : Modulus → ℝ)
    (hf : ∀ req, requiredModuli .monoclinic = some req → ∀ m ∈ req, f m = entry C m) (i j : Fin 6) :
    allModuli .monoclinic f (modAt i j) = entry C (modAt i j) := by
  have hz := fun i j k l => @reflection_zero 2 C hs i j k l
  have hf := hf _ rfl
  simp only [List.forall_mem_cons] at hf
  obtain ⟨h1, h2, h3, h4, h5, h6, h7, h8, h9, h10, h11, h12, h13, -⟩ := hf
  fin_cases i <;> fin_cases j <;>
    simp [allModuli, modAt, comp6, Function.update_apply, *] <;>
    exact (hz _ _ _ _ (by decide)).symm

theorem allModuli_orthotropic {C : T4 3} (hs : HasSymmetry .orthotropic C) (f : Modulus → ℝ)
    (hf : ∀ req, requiredModuli .orthotropic = some req → ∀ m ∈ req, f m = entry C m)
    (i j : Fin 6) : allModuli .orthotropic f (modAt i j) = entry C (modAt i j) := by
  have hz := fun a i j k l => @reflection_zero a C (hs a) i j k l
  have hf := hf _ rfl
  simp only [List.forall_mem_cons] at hf
  obtain ⟨h1, h2, h3, h4, h5, h6, h7, h8, h9, -⟩ := hf
  fin_cases i <;> fin_cases j <;>
    simp [allModuli, modAt, comp6, Function.update_apply, *] <;>
    first
    | exact (hz 0 _ _ _ _ (by decide)).symm
    | exact (hz 1 _ _ _ _ (by decide)).symm
    | exact (hz 2 _ _ _ _ (by decide)).symm

theorem allModuli_transverse {C : T4 3} (hs : HasSymmetry .transverse C) (f : Modulus → ℝ)
    (hf : ∀ req, requiredModuli .transverse = some req → ∀ m ∈ req, f m = entry C m)
    (i j : Fin 6) : allModuli .transverse f (modAt i j) = entry C (modAt i j) := by
  obtain ⟨hs, e1, e2, e3, e4⟩ := hs
  have hz := fun a i j k l => @reflection_zero a C (hs a) i j k l
  have hf := hf _ rfl
  simp only [List.forall_mem_cons] at hf
  obtain ⟨h1, h2, h3, h4, h5, -⟩ := hf
  fin_cases i <;> fin_cases j <;>
    simp [allModuli, modAt, comp6, Function.update_apply, h1, h2, h3, h4, h5] <;>
    first
    | exact (hz 0 _ _ _ _ (by decide)).symm
    | exact (hz 1 _ _ _ _ (by decide)).symm
    | exact (hz 2 _ _ _ _ (by decide)).symm
    | exact e1
    | exact e2
    | exact e3
    | (simp [entry, axis]; rw [e4]; ring)

theorem allModuli_isotropic {C : T4 3} (hs : HasSymmetry .isotropic C) (f : Modulus → ℝ)
    (hf : ∀ req, requiredModuli .isotropic = some req → ∀ m ∈ req, f m = entry C m)
    (i j : Fin 6) : allModuli .isotropic f (modAt i j) = entry C (modAt i j) := by
  obtain ⟨lam, G, h⟩ := hs
  have hf := hf _ rfl
  simp only [List.forall_mem_cons] at hf
  obtain ⟨h1, h2, -⟩ := hf
  fin_cases i <;> fin_cases j <;>
    simp [allModuli, modAt, comp6, Function.update_apply, h1, h2, entry, axis, h] <;> ring

theorem allModuli_entry {C : T4 3} {s : ElSym} (hs : HasSymmetry s C) {req : List Modulus}
    (hreq : requiredModuli s = some req) (i j : Fin 6) :
    allModuli s (fun m => if m ∈ req then entry C m else 0) (modAt i j) = entry C (modAt i j) := by
  have hf : ∀ req', requiredModuli s = some req' → ∀ m ∈ req',
      (fun m => if m ∈ req then entry C m else 0) m = entry C m := by
    intro req' h m hm
    rw [hreq] at h
    cases h
    simp [hm]
  cases s with
  | unknown => exact hs.elim
  | triclinic =>
    simp [requiredModuli] at hreq; subst hreq
    simp [allModuli, modAt_mem]
  | monoclinic => exact allModuli_monoclinic hs _ hf i j
  | orthotropic => exact allModuli_orthotropic hs _ hf i j
  | transverse => exact allModuli_transverse hs _ hf i j
  | isotropic => exact allModuli_isotropic hs _ hf i j

end Hooke
