import Verif.Model.Scalers
import Verif.Spec.Scalers
import Mathlib.Algebra.BigOperators.Fin
import Mathlib.Data.List.Induction
import Mathlib.Tactic.Ring
import Mathlib.Tactic.Linarith
import Mathlib.Tactic.FieldSimp
import Mathlib.Tactic.Positivity

namespace Hooke

namespace Fl

@[simp] theorem neg_fin (x : ℝ) : (fin x).neg = fin (-x) := rfl
@[simp] theorem add_fin (x y : ℝ) : (fin x).add (fin y) = fin (x + y) := rfl
@[simp] theorem sub_fin (x y : ℝ) : (fin x).sub (fin y) = fin (x - y) := by
  simp [sub, sub_eq_add_neg]
@[simp] theorem mul_fin (x y : ℝ) : (fin x).mul (fin y) = fin (x * y) := rfl
theorem div_fin {x y : ℝ} (h : y ≠ 0) : (fin x).div (fin y) = fin (x / y) := by
  simp [div, h]
theorem sqrt_fin {x : ℝ} (h : 0 ≤ x) : (fin x).sqrt = fin (√x) := by
  simp [sqrt, not_lt.mpr h]
@[simp] theorem min_fin (x y : ℝ) : (fin x).min (fin y) = fin (Min.min x y) := by
  by_cases h : y < x
  · simp [min, lt, h, min_eq_right h.le]
  · simp [min, lt, h, min_eq_left (not_lt.mp h)]
@[simp] theorem max_fin (x y : ℝ) : (fin x).max (fin y) = fin (Max.max x y) := by
  by_cases h : x < y
  · simp [max, lt, h, max_eq_right h.le]
  · simp [max, lt, h, max_eq_left (not_lt.mp h)]
@[simp] theorem fin_ne_nan (x : ℝ) : ¬ (fin x).IsNan := by simp [IsNan]

theorem sum_fin (l : List ℝ) : sum (l.map fin) = fin l.sum := by
  induction l using List.reverseRecOn with
  | nil => rfl
  | append_singleton l a ih =>
    simp only [sum, List.map_append, List.foldl_append, List.map_cons, List.map_nil,
      List.foldl_cons, List.foldl_nil] at ih ⊢
    rw [ih]; simp

theorem mean_fin {l : List ℝ} (h : l ≠ []) : mean (l.map fin) = fin (l.sum / l.length) := by
  have : (l.length : ℝ) ≠ 0 := by
    simpa using h
  rw [mean, sum_fin, List.length_map, div_fin this]

end Fl

theorem foldl_min_fin (a : ℝ) (l : List ℝ) :
    (l.map Fl.fin).foldl Fl.min (Fl.fin a) = Fl.fin (l.foldl min a) := by
  induction l generalizing a with
  | nil => rfl
  | cons b l ih => simp [ih]

theorem foldl_max_fin (a : ℝ) (l : List ℝ) :
    (l.map Fl.fin).foldl Fl.max (Fl.fin a) = Fl.fin (l.foldl max a) := by
  induction l generalizing a with
  | nil => rfl
  | cons b l ih => simp [ih]

theorem foldl_min_mem (a : ℝ) (l : List ℝ) : l.foldl min a ∈ a :: l := by
  induction l generalizing a with
  | nil => simp
  | cons b l ih =>
    simp only [List.foldl_cons]
    rcases List.mem_cons.mp (ih (min a b)) with h | h
    · rw [h]; rcases min_choice a b with h | h <;> simp [h]
    · simp [h]

theorem foldl_min_le (a : ℝ) (l : List ℝ) : ∀ x ∈ a :: l, l.foldl min a ≤ x := by
  induction l generalizing a with
  | nil => simp
  | cons b l ih =>
    intro x hx
    simp only [List.foldl_cons]
    rcases List.mem_cons.mp hx with rfl | hx
    · exact (ih (min x b) _ List.mem_cons_self).trans (min_le_left _ _)
    · rcases List.mem_cons.mp hx with rfl | hx
      · exact (ih (min a x) _ List.mem_cons_self).trans (min_le_right _ _)
      · exact ih _ x (by simp [hx])

theorem foldl_max_mem (a : ℝ) (l : List ℝ) : l.foldl max a ∈ a :: l := by
  induction l generalizing a with
  | nil => simp
  | cons b l ih =>
    simp only [List.foldl_cons]
    rcases List.mem_cons.mp (ih (max a b)) with h | h
    · rw [h]; rcases max_choice a b with h | h <;> simp [h]
    · simp [h]

theorem le_foldl_max (a : ℝ) (l : List ℝ) : ∀ x ∈ a :: l, x ≤ l.foldl max a := by
  induction l generalizing a with
  | nil => simp
  | cons b l ih =>
    intro x hx
    simp only [List.foldl_cons]
    rcases List.mem_cons.mp hx with rfl | hx
    · exact (le_max_left _ _).trans (ih (max x b) _ List.mem_cons_self)
    · rcases List.mem_cons.mp hx with rfl | hx
      · exact (le_max_right _ _).trans (ih (max a x) _ List.mem_cons_self)
      · exact ih _ x (by simp [hx])

theorem colMin_fin {l : List ℝ} (h : l ≠ []) :
    ∃ a, colMin (l.map Fl.fin) = some (Fl.fin a) ∧ a ∈ l ∧ ∀ x ∈ l, a ≤ x := by
  cases l with
  | nil => exact absurd rfl h
  | cons b l =>
    exact ⟨l.foldl min b, by simp [colMin, foldl_min_fin], foldl_min_mem b l, foldl_min_le b l⟩

theorem colMax_fin {l : List ℝ} (h : l ≠ []) :
    ∃ a, colMax (l.map Fl.fin) = some (Fl.fin a) ∧ a ∈ l ∧ ∀ x ∈ l, x ≤ a := by
  cases l with
  | nil => exact absurd rfl h
  | cons b l =>
    exact ⟨l.foldl max b, by simp [colMax, foldl_max_fin], foldl_max_mem b l, le_foldl_max b l⟩

variable {n : ℕ}

@[simp] theorem checkTensor_feat (t : FT Fl n) : checkTensor n (.feat n t) = .ok t := by
  simp [checkTensor]

theorem onRows_eq (f : Fin n → Fl → Fl) (t : FT Fl n) : onRows f t = t.mapF f := by
  cases t with
  | d2 => rfl
  | d3 l m x =>
    simp only [onRows, FT.mapF]
    congr 1
    funext t i j
    simp only [FT.unflat, FT.flat, Equiv.symm_apply_apply]

theorem mapF_mapF {α β γ : Type} (f : Fin n → α → β) (g : Fin n → β → γ) (t : FT α n) :
    (t.mapF f).mapF g = t.mapF fun j x => g j (f j x) := by
  cases t <;> rfl

theorem mapF_id {α : Type} (t : FT α n) : (t.mapF fun _ x => x) = t := by cases t <;> rfl

theorem fl_mapF (g : Fin n → Fl → Fl) (h : Fin n → ℝ → ℝ) (t : FT ℝ n)
    (hg : ∀ j x, g j (Fl.fin x) = Fl.fin (h j x)) : t.fl.mapF g = (t.mapF h).fl := by
  unfold FT.fl
  rw [mapF_mapF, mapF_mapF]
  simp [hg]

theorem fl_no_nan (t : FT ℝ n) : ¬ anyNan t.fl := by
  cases t <;> simp [FT.fl, FT.mapF, anyNan]

/-- Real values of feature `j` in row-major order. -/
def FT.col (t : FT ℝ n) (j : Fin n) : List ℝ :=
  match t with
  | .d2 _ x => (List.ofFn x).map fun r => r j
  | .d3 _ _ x => (List.ofFn (FT.flat x)).map fun r => r j

theorem column_fl (t : FT ℝ n) (j : Fin n) : column (fitRows t.fl) j = (t.col j).map Fl.fin := by
  cases t with
  | d2 m x =>
    simp only [column, fitRows, FT.fl, FT.mapF, FT.col, List.map_ofFn]
    rfl
  | d3 l m x =>
    simp only [column, fitRows, FT.fl, FT.mapF, FT.col, List.map_ofFn]
    rfl

theorem col_length (t : FT ℝ n) (j : Fin n) : (t.col j).length = t.count := by
  cases t <;> simp [FT.col, FT.count]

theorem mem_col (t : FT ℝ n) (j : Fin n) (v : ℝ) : v ∈ t.col j ↔ t.Has j v := by
  cases t with
  | d2 m x => simp [FT.col, FT.Has, List.mem_ofFn]
  | d3 l m x =>
    simp only [FT.col, FT.Has, List.map_ofFn, List.mem_ofFn, Function.comp, FT.flat]
    constructor
    · rintro ⟨r, hr⟩; exact ⟨_, _, hr⟩
    · rintro ⟨k, i, h⟩; exact ⟨finProdFinEquiv (k, i), by simpa using h⟩

theorem sum_col (t : FT ℝ n) (j : Fin n) (f : ℝ → ℝ) : ((t.col j).map f).sum = t.total j f := by
  cases t with
  | d2 m x => simp [FT.col, FT.total, List.map_ofFn, List.sum_ofFn]
  | d3 l m x =>
    simp only [FT.col, FT.total, List.map_ofFn, List.sum_ofFn, Function.comp, FT.flat]
    rw [← Fintype.sum_prod_type', ← finProdFinEquiv.symm.sum_comp
      (fun p : Fin l × Fin m => f (x p.1 p.2 j))]

theorem has_mapF {α β : Type} (f : Fin n → α → β) (t : FT α n) (j : Fin n) (w : β) :
    (t.mapF f).Has j w ↔ ∃ v, t.Has j v ∧ f j v = w := by
  cases t with
  | d2 m x => simp [FT.mapF, FT.Has]
  | d3 l m x =>
    simp only [FT.mapF, FT.Has]
    constructor
    · rintro ⟨k, i, h⟩; exact ⟨_, ⟨k, i, rfl⟩, h⟩
    · rintro ⟨v, ⟨k, i, rfl⟩, h⟩; exact ⟨k, i, h⟩

theorem total_mapF (h : Fin n → ℝ → ℝ) (t : FT ℝ n) (j : Fin n) (f : ℝ → ℝ) :
    (t.mapF h).total j f = t.total j fun x => f (h j x) := by
  cases t <;> rfl

theorem total_add (t : FT ℝ n) (j : Fin n) (f g : ℝ → ℝ) :
    (t.total j fun x => f x + g x) = t.total j f + t.total j g := by
  cases t <;> simp [FT.total, Finset.sum_add_distrib]

theorem total_smul (t : FT ℝ n) (j : Fin n) (c : ℝ) (f : ℝ → ℝ) :
    (t.total j fun x => c * f x) = c * t.total j f := by
  cases t <;> simp [FT.total, Finset.mul_sum]

theorem total_const (t : FT ℝ n) (j : Fin n) (c : ℝ) :
    (t.total j fun _ => c) = t.count * c := by
  cases t <;> simp [FT.total, FT.count, mul_assoc]

theorem total_nonneg (t : FT ℝ n) (j : Fin n) {f : ℝ → ℝ} (h : ∀ x, 0 ≤ f x) :
    0 ≤ t.total j f := by
  cases t <;> simp only [FT.total]
  · exact Finset.sum_nonneg fun _ _ => h _
  · exact Finset.sum_nonneg fun _ _ => Finset.sum_nonneg fun _ _ => h _

theorem total_eq_zero (t : FT ℝ n) (j : Fin n) {f : ℝ → ℝ} (h : ∀ x, 0 ≤ f x)
    (h0 : t.total j f = 0) {v : ℝ} (hv : t.Has j v) : f v = 0 := by
  cases t with
  | d2 m x =>
    obtain ⟨i, rfl⟩ := hv
    exact (Finset.sum_eq_zero_iff_of_nonneg fun _ _ => h _).mp h0 i (Finset.mem_univ _)
  | d3 l m x =>
    obtain ⟨k, i, rfl⟩ := hv
    have h1 := (Finset.sum_eq_zero_iff_of_nonneg
      fun _ _ => Finset.sum_nonneg fun _ _ => h _).mp h0 k (Finset.mem_univ _)
    exact (Finset.sum_eq_zero_iff_of_nonneg fun _ _ => h _).mp h1 i (Finset.mem_univ _)

theorem has_count {t : FT ℝ n} {j : Fin n} {v : ℝ} (h : t.Has j v) : 0 < t.count := by
  have := (mem_col t j v).mpr h
  rw [← col_length t j]
  exact List.length_pos_of_mem this

end Hooke
