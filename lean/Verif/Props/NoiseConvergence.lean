import Verif.Spec.NoiseConvergence
import Verif.Lemmas.StrainPath
import Verif.Lemmas.StrainPathHist
import Verif.Props.ConvergenceDataCases
import Verif.Props.ConvergenceParameters

/-!
# C163: convergence plots for several noise cases
-/

noncomputable section

namespace Hooke

open Spec

theorem flatten_block {α : Type} (K : ℕ) : ∀ (L : List (List α)), (∀ l ∈ L, l.length = K) →
    ∀ (i : ℕ) (l : List α), L[i]? = some l → (L.flatten.drop (K * i)).take K = l := by
  intro L
  induction L with
  | nil => intro _ i l h; simp at h
  | cons a L ih =>
    intro hL i l h
    have ha : a.length = K := hL a (by simp)
    cases i with
    | zero =>
      simp only [List.getElem?_cons_zero, Option.some.injEq] at h
      subst h
      simp [← ha]
    | succ i =>
      rw [List.flatten_cons, Nat.mul_succ, Nat.add_comm, ← List.drop_drop]
      have : (a ++ L.flatten).drop K = L.flatten := by rw [← ha]; simp
      rw [this]
      exact ih (fun l hl => hL l (by simp [hl])) i l (by simpa using h)

/-- Row `r` of the array: the rows of the noise cases side by side. -/
def noiseRow (rows : List (List (ℕ × ℝ))) (n m r : ℕ) : List (List (ℕ × ℝ)) :=
  (List.range n).map fun k => rows.getD (k * m + r) []

theorem block_lt {n m k r : ℕ} (hk : k < n) (hr : r < m) : k * m + r < n * m := by
  calc k * m + r < k * m + m := by omega
    _ = (k + 1) * m := by ring
    _ ≤ n * m := Nat.mul_le_mul_right m hk

theorem arranged {rows : List (List (ℕ × ℝ))} {n m : ℕ} (hn : 0 < n) (hm : rows.length = n * m) :
    (npSplitRows n rows >>= npHstack)
      = .ok ((List.range m).map fun r => (noiseRow rows n m r).flatten) := by
  have hdiv : rows.length / n = m := by rw [hm, Nat.mul_div_cancel_left m hn]
  have hsplit : npSplitRows n rows
      = .ok ((List.range n).map fun k => (rows.drop (k * m)).take m) := by
    unfold npSplitRows
    rw [raiseIf, if_neg (by omega), raiseIf, if_neg (by rw [hm]; simp), hdiv]
    rfl
  rw [hsplit]
  simp only [bind, Except.bind]
  unfold npHstack
  have hhead : ((List.range n).map fun k => (rows.drop (k * m)).take m).head? = some (rows.take m) := by
    rw [List.head?_eq_getElem?]
    simp [hn]
  rw [hhead]
  simp only [orRaise, bind, Except.bind]
  have hlen : (rows.take m).length = m := by
    rw [List.length_take, hm]
    exact min_eq_left (Nat.le_mul_of_pos_left m hn)
  rw [hlen]
  refine mapM_of_forall fun r hr => ?_
  rw [List.mem_range] at hr
  have hparts : ((List.range n).map fun k => (rows.drop (k * m)).take m).mapM
      (fun b : List (List (ℕ × ℝ)) => orRaise b[r]? .valueError)
      = Except.ok (ε := PyErr) (noiseRow rows n m r) := by
    rw [List.mapM_map]
    refine mapM_of_forall fun k hk => ?_
    rw [List.mem_range] at hk
    have hlt : k * m + r < rows.length := by rw [hm]; exact block_lt hk hr
    simp only [Function.comp]
    rw [List.getElem?_take_of_lt hr, List.getElem?_drop, List.getElem?_eq_getElem hlt]
    simp only [orRaise]
    rw [List.getD_eq_getElem?_getD, List.getElem?_eq_getElem hlt, Option.getD_some]
  unfold orRaise at hparts
  rw [hparts]
  rfl

/-- The curves of an array of rows of noise cases. -/
theorem curves_of {rows : List (List (ℕ × ℝ))} {n m K : ℕ} (hn : 0 < n) (hm : rows.length = n * m)
    (hK : 0 < K) (hrow : ∀ row ∈ rows, row.length = K) {labels : List String} (hl : labels.length = n)
    (range : String) (e : List ℝ → Option (ℝ × ℝ))
    (he : ∀ l : List ℝ, l.length = K → barErr range l = .ok (e l)) :
    noiseCurves n K labels range ((List.range m).map fun r => (noiseRow rows n m r).flatten)
      = .ok ((List.range n).map fun k => ⟨labels.getD k "", (List.range m).map fun r =>
        ⟨((rows.getD r []).headD (0, 0)).1, sampleMean ((rows.getD (k * m + r) []).map Prod.snd),
          e ((rows.getD (k * m + r) []).map Prod.snd)⟩⟩) := by
  have hget : ∀ k < n, ∀ r < m, (rows.getD (k * m + r) []).length = K := by
    intro k hk r hr
    have hlt : k * m + r < rows.length := by rw [hm]; exact block_lt hk hr
    rw [List.getD_eq_getElem?_getD, List.getElem?_eq_getElem hlt, Option.getD_some]
    exact hrow _ (List.getElem_mem hlt)
  have hall : ∀ r < m, ∀ l ∈ noiseRow rows n m r, l.length = K := by
    intro r hr l hl
    obtain ⟨k, hk, rfl⟩ := List.mem_map.mp hl
    exact hget k (List.mem_range.mp hk) r hr
  unfold noiseCurves
  rw [raiseIf, if_neg (by simpa using hl)]
  have hxs : ((List.range m).map fun r => (noiseRow rows n m r).flatten).mapM
      (fun row : List (ℕ × ℝ) => (do
        let p ← orRaise row.head? PyErr.indexError
        return p.1 : Py ℕ))
      = .ok ((List.range m).map fun r => ((rows.getD r []).headD (0, 0)).1) := by
    rw [List.mapM_map]
    refine mapM_of_forall fun r hr => ?_
    rw [List.mem_range] at hr
    have h0 := hget 0 hn r hr
    rw [Nat.zero_mul, Nat.zero_add] at h0
    have hhead : (noiseRow rows n m r).flatten.head? = some ((rows.getD r []).headD (0, 0)) := by
      obtain ⟨n', rfl⟩ : ∃ n', n = n' + 1 := ⟨n - 1, by omega⟩
      unfold noiseRow
      rw [List.range_succ_eq_map, List.map_cons, List.flatten_cons, Nat.zero_mul, Nat.zero_add]
      cases hr0 : rows.getD r [] with
      | nil => rw [hr0] at h0; simp at h0; omega
      | cons a l => simp
    simp only [Function.comp]
    rw [hhead]
    rfl
  rw [hxs]
  simp only [bind, Except.bind]
  refine mapM_of_forall fun k hk => ?_
  rw [List.mem_range] at hk
  rw [List.zip_map', List.mapM_map]
  rw [mapM_of_forall (g := fun r => (⟨((rows.getD r []).headD (0, 0)).1,
      sampleMean ((rows.getD (k * m + r) []).map Prod.snd),
      e ((rows.getD (k * m + r) []).map Prod.snd)⟩ : BarPoint)) (fun r hr => by
    rw [List.mem_range] at hr
    have hb := flatten_block K (noiseRow rows n m r) (hall r hr) k (rows.getD (k * m + r) [])
      (by simp [noiseRow, hk])
    simp only [Function.comp]
    rw [hb]
    have := he ((rows.getD (k * m + r) []).map Prod.snd) (by rw [List.length_map]; exact hget k hk r hr)
    rw [show (List.map (fun p : ℕ × ℝ => p.2) (rows.getD (k * m + r) []))
      = (rows.getD (k * m + r) []).map Prod.snd from rfl, this]
    rfl)]
  have hkl : k < labels.length := by omega
  rw [List.getElem?_eq_getElem hkl]
  simp only [orRaise, pure, Except.pure]
  rw [List.getD_eq_getElem?_getD, List.getElem?_eq_getElem hkl, Option.getD_some]

theorem sampleMean_isMean {l : List ℝ} (h : l ≠ []) : IsMean l (sampleMean l) := by
  have : (l.length : ℝ) ≠ 0 := by
    simpa using h
  unfold IsMean sampleMean
  field_simp

theorem sum_between {l : List ℝ} {a b : ℝ} (h : ∀ x ∈ l, a ≤ x ∧ x ≤ b) :
    a * l.length ≤ l.sum ∧ l.sum ≤ b * l.length := by
  induction l with
  | nil => simp
  | cons x l ih =>
    obtain ⟨h1, h2⟩ := ih fun y hy => h y (by simp [hy])
    obtain ⟨h3, h4⟩ := h x (by simp)
    rw [List.sum_cons, List.length_cons]
    push_cast
    constructor <;> linarith

theorem mean_between {l : List ℝ} (hl : l ≠ []) {a b : ℝ} (h : ∀ x ∈ l, a ≤ x ∧ x ≤ b) :
    a ≤ sampleMean l ∧ sampleMean l ≤ b := by
  have hpos : (0 : ℝ) < l.length := by
    have := List.length_pos_iff.mpr hl
    exact_mod_cast this
  obtain ⟨h1, h2⟩ := sum_between h
  unfold sampleMean
  exact ⟨(le_div_iff₀ hpos).mpr h1, (div_le_iff₀ hpos).mpr h2⟩

/-- The error bar from the smallest to the largest value. -/
theorem barErr_minmax {l : List ℝ} (hl : l ≠ []) : ∃ e : ℝ × ℝ, barErr "min-max" l = .ok (some e) ∧
    Spans l (sampleMean l - e.1) (sampleMean l + e.2) := by
  obtain ⟨mn, h1, h2, h3⟩ := npMin_spec hl
  obtain ⟨mx, h4, h5, h6⟩ := npMax_spec hl
  obtain ⟨h7, h8⟩ := mean_between hl fun x hx => ⟨h3 x hx, h6 x hx⟩
  refine ⟨(|sampleMean l - mn|, |sampleMean l - mx|), ?_, ?_⟩
  · unfold barErr
    rw [if_pos rfl, h1, h4]
    rfl
  · have e1 : sampleMean l - |sampleMean l - mn| = mn := by
      rw [abs_of_nonneg (by linarith)]; ring
    have e2 : sampleMean l + |sampleMean l - mx| = mx := by
      rw [abs_of_nonpos (by linarith)]; ring
    simp only [e1, e2]
    exact ⟨fun x hx => ⟨h3 x hx, h6 x hx⟩, h2, h5⟩

/-- **C163 (curves).** If the rows of the models (C134 tells what is in them) are those of `n` noise cases with
`m` models each, one noise case after the other, and every model has the same positive number of realizations,
there is a curve for each noise case, with its label and `m` points.  Point `r` of the curve of case `k` shows
the losses of the realizations of model `k*m + r`: their mean, with a bar from the smallest to the largest.
Its abscissa is the size of the training data set of model `r`, that is of the first noise case. -/
theorem C163_curves {train : List (Option (KDict Text ℕ))} {types : List Text}
    {models : List (Option (List (Text × Realization)))} {rows : List (List (ℕ × ℝ))}
    (h : lossConvergenceUq train types models = .ok rows) {n m K : ℕ} (hn : 0 < n) (hm0 : 0 < m)
    (hm : rows.length = n * m) (hK : 0 < K) (hrow : ∀ row ∈ rows, row.length = K)
    {labels : List String} (hl : labels.length = n) :
    ∃ curves, noiseConvergence n labels train types models = .ok curves ∧
      curves.map NoiseCurve.label = labels ∧
      ∀ k < n, ∃ c, curves[k]? = some c ∧ c.points.length = m ∧
        ∀ r < m, ∃ p row0 q0 row, c.points[r]? = some p ∧ rows[r]? = some row0 ∧ row0.head? = some q0 ∧
          rows[k * m + r]? = some row ∧ Shows p q0.1 (row.map Prod.snd) := by
  classical
  have hex : ∀ l : List ℝ, ∃ e : ℝ × ℝ, l ≠ [] → barErr "min-max" l = .ok (some e) ∧
      Spans l (sampleMean l - e.1) (sampleMean l + e.2) := by
    intro l
    by_cases hl : l = []
    · exact ⟨(0, 0), fun h => absurd hl h⟩
    · obtain ⟨e, he⟩ := barErr_minmax hl
      exact ⟨e, fun _ => he⟩
  choose e he using hex
  have hne : ∀ l : List ℝ, l.length = K → l ≠ [] := by
    rintro l hl rfl
    simp at hl
    omega
  have hrne : rows ≠ [] := by
    intro h0
    rw [h0] at hm
    have : 0 < n * m := Nat.mul_pos hn hm0
    simp at hm
    omega
  have hlast : ∃ last, rows.getLast? = some last ∧ last.length = K :=
    ⟨rows.getLast hrne, List.getLast?_eq_some_getLast hrne, hrow _ (List.getLast_mem hrne)⟩
  obtain ⟨last, hlast, hlk⟩ := hlast
  have harr := arranged hn hm
  have hc := curves_of hn hm hK hrow hl "min-max" (fun l => some (e l))
    fun l hl => (he l (hne l hl)).1
  have hfig : noiseConvergence n labels train types models = noiseCurves n K labels "min-max"
      ((List.range m).map fun r => (noiseRow rows n m r).flatten) := by
    unfold noiseConvergence noiseFigure
    rw [h]
    simp only [bind, Except.bind] at harr ⊢
    rw [hlast]
    simp only [orRaise]
    cases hs : npSplitRows n rows with
    | error err => rw [hs] at harr; cases harr
    | ok blocks =>
      rw [hs] at harr
      simp only at harr ⊢
      rw [harr]
      simp only
      rw [hlk]
  refine ⟨_, hfig.trans hc, ?_, ?_⟩
  · rw [List.map_map]
    apply List.ext_getElem
    · simp [hl]
    · intro i h1 h2
      rw [List.getElem_map, List.getElem_range]
      simp only [Function.comp]
      rw [List.getD_eq_getElem?_getD, List.getElem?_eq_getElem h2, Option.getD_some]
  · intro k hk
    refine ⟨_, by rw [List.getElem?_map, List.getElem?_range hk]; rfl, by simp, ?_⟩
    intro r hr
    have hlt : k * m + r < rows.length := by rw [hm]; exact block_lt hk hr
    have hlt0 : r < rows.length := by
      have := block_lt (n := n) (m := m) hn hr
      omega
    have hr0 : rows.getD r [] = rows[r] := by
      rw [List.getD_eq_getElem?_getD, List.getElem?_eq_getElem hlt0, Option.getD_some]
    have hrk : rows.getD (k * m + r) [] = rows[k * m + r] := by
      rw [List.getD_eq_getElem?_getD, List.getElem?_eq_getElem hlt, Option.getD_some]
    have hlen0 := hrow _ (List.getElem_mem hlt0)
    have hlenk := hrow _ (List.getElem_mem hlt)
    have hhead : rows[r].head? = some (rows[r].headD (0, 0)) := by
      cases hq : rows[r] with
      | nil => rw [hq] at hlen0; simp at hlen0; omega
      | cons a l => rfl
    refine ⟨_, rows[r], rows[r].headD (0, 0), rows[k * m + r],
      by rw [List.getElem?_map, List.getElem?_range hr]; rfl, List.getElem?_eq_getElem hlt0, hhead,
      List.getElem?_eq_getElem hlt, ?_⟩
    beta_reduce
    rw [hr0, hrk]
    have hm' := hne (rows[k * m + r].map Prod.snd) (by rw [List.length_map]; exact hlenk)
    exact ⟨rfl, sampleMean_isMean hm', _, rfl, (he _ hm').2⟩

/-- **C163.** If model `r` of every noise case was trained with the same size as model `r` of the first one,
every point shows the losses of its model at the size of its own training data set. -/
theorem C163_own {train : List (Option (KDict Text ℕ))} {types : List Text}
    {models : List (Option (List (Text × Realization)))} {rows : List (List (ℕ × ℝ))}
    (h : lossConvergenceUq train types models = .ok rows) {n m K : ℕ} (hn : 0 < n) (hm0 : 0 < m)
    (hm : rows.length = n * m) (hK : 0 < K) (hrow : ∀ row ∈ rows, row.length = K)
    {labels : List String} (hl : labels.length = n) (size : ℕ → ℕ)
    (hs : ∀ k < n, ∀ r < m, ∀ row, rows[k * m + r]? = some row → ∀ q ∈ row, q.1 = size r) :
    ∃ curves, noiseConvergence n labels train types models = .ok curves ∧
      curves.map NoiseCurve.label = labels ∧
      ∀ k < n, ∃ c, curves[k]? = some c ∧ c.points.length = m ∧
        ∀ r < m, ∃ p row, c.points[r]? = some p ∧ rows[k * m + r]? = some row ∧
          Shows p (size r) (row.map Prod.snd) := by
  obtain ⟨curves, h1, h2, h3⟩ := C163_curves h hn hm0 hm hK hrow hl
  refine ⟨curves, h1, h2, fun k hk => ?_⟩
  obtain ⟨c, hc, hlen, hp⟩ := h3 k hk
  refine ⟨c, hc, hlen, fun r hr => ?_⟩
  obtain ⟨p, row0, q0, row, e1, e2, e3, e4, e5⟩ := hp r hr
  refine ⟨p, row, e1, e4, ?_⟩
  rw [← hs 0 hn r hr row0 (by rw [Nat.zero_mul, Nat.zero_add]; exact e2) q0 (List.mem_of_mem_head? e3)]
  exact e5

/-- **C163 is violated for different training sizes.** If a model of another noise case was trained with
another size than the model with the same position of the first noise case, its point is drawn at the size of
the latter, without an error. -/
theorem C163_sizes_violated {train : List (Option (KDict Text ℕ))} {types : List Text}
    {models : List (Option (List (Text × Realization)))} {rows : List (List (ℕ × ℝ))}
    (h : lossConvergenceUq train types models = .ok rows) {n m K : ℕ} (hn : 0 < n) (hm0 : 0 < m)
    (hm : rows.length = n * m) (hK : 0 < K) (hrow : ∀ row ∈ rows, row.length = K)
    {labels : List String} (hl : labels.length = n) {k r s s' : ℕ} (hk : k < n) (hr : r < m)
    (h0 : ∀ row, rows[r]? = some row → ∀ q ∈ row, q.1 = s)
    (h1 : ∀ row, rows[k * m + r]? = some row → ∀ q ∈ row, q.1 = s') (hne : s ≠ s') :
    ∃ curves c p row, noiseConvergence n labels train types models = .ok curves ∧
      curves[k]? = some c ∧ c.points[r]? = some p ∧ rows[k * m + r]? = some row ∧
      Shows p s (row.map Prod.snd) ∧ ∀ q ∈ row, q.1 ≠ p.x := by
  obtain ⟨curves, e1, -, e3⟩ := C163_curves h hn hm0 hm hK hrow hl
  obtain ⟨c, hc, -, hp⟩ := e3 k hk
  obtain ⟨p, row0, q0, row, f1, f2, f3, f4, f5⟩ := hp r hr
  rw [h0 row0 f2 q0 (List.mem_of_mem_head? f3)] at f5
  refine ⟨curves, c, p, row, e1, hc, f1, f4, f5, fun q hq => ?_⟩
  rw [h1 row f4 q hq, f5.1]
  exact hne.symm

/-- **C163 (refusals).** With rows collected, no noise cases raise `ZeroDivisionError`, a number of models that
is not a multiple of the number of noise cases raises `ValueError`, a number of labels that differs from it
raises `RuntimeError`, and models without realizations raise `IndexError`. -/
theorem C163_refusals {train : List (Option (KDict Text ℕ))} {types : List Text}
    {models : List (Option (List (Text × Realization)))} {rows : List (List (ℕ × ℝ))}
    (h : lossConvergenceUq train types models = .ok rows) (hne : rows ≠ []) (n : ℕ) (labels : List String) :
    (n = 0 → noiseConvergence n labels train types models = .error .zeroDivision) ∧
    (n ≠ 0 → ¬ n ∣ rows.length → noiseConvergence n labels train types models = .error .valueError) ∧
    (n ≠ 0 → n ∣ rows.length → labels.length ≠ n →
      noiseConvergence n labels train types models = .error .runtimeError) ∧
    (n ≠ 0 → n ∣ rows.length → labels.length = n → (∀ row ∈ rows, row = []) →
      noiseConvergence n labels train types models = .error .indexError) := by
  have hlast : rows.getLast? = some (rows.getLast hne) := List.getLast?_eq_some_getLast hne
  have harr : ∀ m, n ≠ 0 → rows.length = n * m → noiseConvergence n labels train types models
      = noiseCurves n (rows.getLast hne).length labels "min-max"
        ((List.range m).map fun r => (noiseRow rows n m r).flatten) := by
    intro m hn hm
    have harr := arranged (Nat.pos_of_ne_zero hn) hm
    unfold noiseConvergence noiseFigure
    rw [h]
    simp only [bind, Except.bind] at harr ⊢
    rw [hlast]
    simp only [orRaise]
    cases hs : npSplitRows n rows with
    | error err => rw [hs] at harr; cases harr
    | ok blocks =>
      rw [hs] at harr
      simp only at harr ⊢
      rw [harr]
  refine ⟨?_, ?_, ?_, ?_⟩
  · rintro rfl
    unfold noiseConvergence noiseFigure
    rw [h]
    simp only [bind, Except.bind]
    rw [hlast]
    rfl
  · intro hn hd
    have hd' : rows.length % n ≠ 0 := fun e => hd (Nat.dvd_of_mod_eq_zero e)
    unfold noiseConvergence noiseFigure npSplitRows
    rw [h]
    simp only [bind, Except.bind]
    rw [hlast]
    simp only [orRaise, raiseIf]
    rw [if_neg hn, if_pos hd']
  · rintro hn ⟨m, hm⟩ hl
    rw [harr m hn hm]
    unfold noiseCurves
    rw [raiseIf, if_pos hl]
    rfl
  · rintro hn ⟨m, hm⟩ hl hrow
    rw [harr m hn hm]
    have hflat : ∀ r, (noiseRow rows n m r).flatten = [] := by
      intro r
      rw [List.flatten_eq_nil_iff]
      intro l hl
      obtain ⟨k, -, rfl⟩ := List.mem_map.mp hl
      rw [List.getD_eq_getElem?_getD]
      cases hg : rows[k * m + r]? with
      | none => rfl
      | some row => exact hrow row (List.mem_of_getElem? hg)
    obtain ⟨m', rfl⟩ : ∃ m', m = m' + 1 := by
      refine ⟨m - 1, ?_⟩
      have : m ≠ 0 := by
        rintro rfl
        exact hne (List.eq_nil_of_length_eq_zero hm)
      omega
    unfold noiseCurves
    rw [raiseIf, if_neg (by simpa using hl), List.range_succ_eq_map, List.map_cons, hflat]
    rfl

/-- **C163 (range types).** With the range `mean-std` the bar reaches 1.96 standard deviations to both sides;
with an unknown range there is no bar. -/
theorem C163_ranges {rows : List (List (ℕ × ℝ))} {n m K : ℕ} (hn : 0 < n) (hm : rows.length = n * m)
    (hK : 0 < K) (hrow : ∀ row ∈ rows, row.length = K) {labels : List String} (hl : labels.length = n)
    (range : String) (hr : range ≠ "min-max") :
    ∃ curves, noiseCurves n K labels range ((List.range m).map fun r => (noiseRow rows n m r).flatten)
        = .ok curves ∧
      ∀ k < n, ∃ c, curves[k]? = some c ∧ ∀ r < m, ∃ p row, c.points[r]? = some p ∧
        rows[k * m + r]? = some row ∧ IsMean (row.map Prod.snd) p.mean ∧
        (range = "mean-std" → ∃ e, p.err = some (e, e) ∧ 0 ≤ e ∧
          e ^ 2 * row.length = 1.96 ^ 2 * ((row.map fun q => (q.2 - p.mean) ^ 2).sum)) ∧
        (range ≠ "mean-std" → p.err = none) := by
  have hc := curves_of hn hm hK hrow hl range
    (fun l => if range = "mean-std" then some (1.96 * sampleStd l, 1.96 * sampleStd l) else none)
    (fun l _ => by
      unfold barErr
      rw [if_neg hr]
      split_ifs <;> rfl)
  refine ⟨_, hc, fun k hk => ?_⟩
  refine ⟨_, by rw [List.getElem?_map, List.getElem?_range hk]; rfl, fun r hr' => ?_⟩
  have hlt : k * m + r < rows.length := by rw [hm]; exact block_lt hk hr'
  have hrk : rows.getD (k * m + r) [] = rows[k * m + r] := by
    rw [List.getD_eq_getElem?_getD, List.getElem?_eq_getElem hlt, Option.getD_some]
  have hlen := hrow _ (List.getElem_mem hlt)
  refine ⟨_, rows[k * m + r], by rw [List.getElem?_map, List.getElem?_range hr']; rfl,
    List.getElem?_eq_getElem hlt, ?_⟩
  beta_reduce
  rw [hrk]
  generalize rows[k * m + r] = row at hlen
  have hne : row.map Prod.snd ≠ [] := by
    intro e
    have := congrArg List.length e
    simp at this
    rw [this] at hlen
    simp at hlen
    omega
  refine ⟨sampleMean_isMean hne, fun hms => ?_, fun hms => if_neg hms⟩
  refine ⟨1.96 * sampleStd (row.map Prod.snd), if_pos hms, ?_, ?_⟩
  · unfold sampleStd
    positivity
  · have hpos : (0 : ℝ) < row.length := by rw [hlen]; exact_mod_cast hK
    have hnn : 0 ≤ ((row.map Prod.snd).map fun x => (x - sampleMean (row.map Prod.snd)) ^ 2).sum := by
      refine List.sum_nonneg fun x hx => ?_
      obtain ⟨y, -, rfl⟩ := List.mem_map.mp hx
      positivity
    unfold sampleStd
    rw [mul_pow, Real.sq_sqrt (by positivity), List.length_map, List.map_map] at *
    rw [mul_assoc, div_mul_cancel₀ _ hpos.ne']
    rfl

/-! ### A case -/

/-- Two noise cases with one model each and two realizations; the second model has another training size. -/
example : ∃ curves, noiseFigure 2 ["clean", "noisy"] [[(10, 1), (10, 3)], [(20, 4), (20, 8)]] = .ok curves ∧
    curves.map NoiseCurve.label = ["clean", "noisy"] ∧
    curves.map (fun c => c.points.map fun p => (p.x, p.mean, p.err))
      = [[(10, 2, some (1, 1))], [(10, 6, some (2, 2))]] := by
  refine ⟨[⟨"clean", [⟨10, 2, some (1, 1)⟩]⟩, ⟨"noisy", [⟨10, 6, some (2, 2)⟩]⟩], ?_, rfl, rfl⟩
  have h := curves_of (rows := [[(10, 1), (10, 3)], [(20, 4), (20, 8)]]) (n := 2) (m := 1) (K := 2)
    (labels := ["clean", "noisy"]) (by norm_num) rfl (by norm_num)
    (by intro row hr; simp at hr; rcases hr with rfl | rfl <;> rfl) rfl "min-max"
    (fun l => some (|sampleMean l - (l.foldl min (l.headD 0))|, |sampleMean l - (l.foldl max (l.headD 0))|))
    (fun l hl => by
      match l, hl with
      | [a, b], _ => simp [barErr, npMin, npMax, bind, Except.bind, pure, Except.pure])
  have harr := arranged (rows := [[(10, (1 : ℝ)), (10, 3)], [(20, 4), (20, 8)]]) (n := 2) (m := 1)
    (by norm_num) rfl
  unfold noiseFigure
  simp only [bind, Except.bind] at harr ⊢
  cases hs : npSplitRows 2 [[(10, (1 : ℝ)), (10, 3)], [(20, 4), (20, 8)]] with
  | error err => rw [hs] at harr; cases harr
  | ok blocks =>
    rw [hs] at harr
    simp only [List.getLast?_cons_cons, List.getLast?_singleton, orRaise] at harr ⊢
    rw [harr]
    simp only
    refine h.trans ?_
    simp [List.range_succ, sampleMean]
    norm_num [abs_of_nonneg, abs_of_nonpos]

/-- A model with one realization with the given loss. -/
def oneRealization (x : ℝ) : Option (List (Text × Realization)) :=
  some [(realizationName 0, [("in_distribution".toList, predictionDir x)])]

theorem oneRealization_uq {x : ℝ} (hx : x ≠ 0) : UqModel "in_distribution".toList (oneRealization x) [x] :=
  ⟨_, [(0, [("in_distribution".toList, predictionDir x)])], rfl,
    ⟨by simp, [], by simp, by simp⟩,
    .cons ⟨hx, predictionDir x, by rw [KDict.get?, if_pos rfl], predictedWith_example x⟩ .nil⟩

/-- Two noise cases with one model each: the hypotheses of `C163_own` are met. -/
example : ∃ curves, noiseConvergence 2 ["clean", "noisy"]
      (List.replicate 2 (some [("ss_paths_dataset_n10.pkl".toList, 10)]))
      (List.replicate 2 "in_distribution".toList) [oneRealization 0.25, oneRealization 0.5] = .ok curves ∧
    curves.map NoiseCurve.label = ["clean", "noisy"] := by
  obtain ⟨y, ys, h, -, h2⟩ := C134_repeated_violated holdsOne_example holdsOne_example
    (oneRealization_uq (x := 0.25) (by norm_num)) (oneRealization_uq (x := 0.5) (by norm_num))
  have hlen : ys.length = 1 := h2.length_eq.symm
  obtain ⟨curves, h1, h3, -⟩ := C163_own h (n := 2) (m := 1) (K := 1) (labels := ["clean", "noisy"])
    (by norm_num) one_pos rfl one_pos
    (by
      intro row hr
      rcases List.mem_cons.mp hr with rfl | hr
      · rfl
      · rw [List.mem_singleton.mp hr, List.length_map, hlen]) rfl (fun _ => 10)
    (by
      intro k hk r hr row hrow q hq
      have hmem := List.mem_of_getElem? hrow
      rcases List.mem_cons.mp hmem with rfl | hmem
      · rw [List.eq_of_mem_replicate hq]
      · rw [List.mem_singleton.mp hmem] at hq
        obtain ⟨z, -, rfl⟩ := List.mem_map.mp hq
        rfl)
  exact ⟨curves, h1, h3⟩

end Hooke
