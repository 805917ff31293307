import Verif.Props.FinderForward
import Verif.Props.Gradients

/-!
# C100: when the element-wise modes return, and where they differ
-/

noncomputable section

namespace Hooke

open Spec

theorem localStrain_ok {e : ElementType} {co : List Comp} (hco : CompleteSym e.dim co)
    {X : Fin e.nNode → Fin e.dim → ℝ} {u : Tensor} {c : Fin e.dim → ℝ}
    (hJ : (e.jacobian X c).det ≠ 0) (hu : u.shape = [e.nNode, e.dim]) :
    ∃ l, localStrain e e.dim co X u c = .ok l := by
  obtain ⟨d, hd, hds, -⟩ := evalShapefunDeriv_ok e X c hJ
  obtain ⟨g, hg, hgs, -⟩ := vbuildSym_spec hco.toValidPairs hco.two_length hds
  obtain ⟨v, hv, hvs, -⟩ := matVec_flatten hgs hu
  obtain ⟨s, hs, -⟩ := vgetStrainFromVmf_sym hco hvs
  refine ⟨(s, (e.jacobian X c).det, g), ?_⟩
  simp only [localStrain, hd, bind, Except.bind, hg, hv, hs, pure, Except.pure]

theorem vlocalForce_ok {e : ElementType} {n : ℕ} {co : List Comp}
    {X : Fin e.nNode → Fin e.dim → ℝ} {u : Tensor} {c : Fin e.dim → ℝ} {l : Tensor × ℝ × Tensor}
    (h : localStrain e n co X u c = .ok l) (w : ℝ) {row : List ℝ} (hr : 2 * co.length ≤ row.length) :
    ∃ f, vlocalForce co w l row = .ok f := by
  obtain ⟨d, J, hd, hg, hs⟩ := localStrain_inv h
  have hr' : raiseIf (row.length < 2 * co.length) PyErr.indexError = .ok () := raiseIf_ok.2 (by omega)
  simp [vlocalForce, hr', Tensor.matVec, Tensor.transpose, hs, bind, Except.bind, pure, Except.pure]

/-- One point of the vectorised mode with a total model. -/
theorem vpoint_ok {e : ElementType} {co : List Comp} (hco : CompleteSym e.dim co) {M : RecMaterial}
    (hin : M.normIn = none) (hout : M.denormOut = none)
    (hrun : ∀ fin, ∃ fout, M.run true fin = .ok fout ∧ fout.length = fin.length ∧
      ∀ r ∈ fout, co.length ≤ r.length)
    (X : ℕ → Fin e.nNode → Fin e.dim → ℝ) (u : ℕ → Tensor) {T : ℕ} (hT : T ≠ 0)
    (cw : (Fin e.dim → ℝ) × ℝ) (hJ : ∀ t < T, (e.jacobian (X t) cw.1).det ≠ 0)
    (hu : ∀ t < T, (u t).shape = [e.nNode, e.dim]) :
    ∃ fin fout fs st, fin.length = T ∧ M.run true fin = .ok fout ∧
      vpointHist .infinitesimal e e.dim co M X u T cw = .ok (fs, st) ∧
      (st.map fun row => (row.drop co.length).take co.length) = fout.map fun r => r.take co.length := by
  have hl : ∀ t, ∃ l, t < T → localStrain e e.dim co (X t) (u t) cw.1 = .ok l := by
    intro t
    by_cases ht : t < T
    · obtain ⟨l, hl⟩ := localStrain_ok hco (hJ t ht) (hu t ht)
      exact ⟨l, fun _ => hl⟩
    · exact ⟨(Tensor.zeros [], 0, Tensor.zeros []), fun h => absurd h ht⟩
  choose loc hloc using hl
  have h1 : ((List.range T).mapM fun t => localStrain e e.dim co (X t) (u t) cw.1) =
      .ok ((List.range T).map loc) := mapM_of_forall fun t ht => hloc t (List.mem_range.1 ht)
  set fin := (((List.range T).map loc).map fun l => l.1).map (vstoreTensorComps co) with hfin
  have hfl : fin.length = T := by simp [hfin]
  obtain ⟨fout, r1, r2, r3⟩ := hrun fin
  set rows := List.zipWith (fun a b : List ℝ => a.take co.length ++ b.take co.length) fin fout with hrows
  have hrl : rows.length = T := by simp [hrows, hfl, r2]
  have hfr : ∀ t (ht : t < T), (fin[t]'(by omega)).length = co.length := by
    intro t ht; simp [hfin, vstoreTensorComps]
  have hrt : ∀ t (ht : t < T), rows[t]'(by omega) = (fin[t]'(by omega)).take co.length ++
      (fout[t]'(by omega)).take co.length := by
    intro t ht; simp [hrows]
  have h2 : vrecurrentStateUpdate co M (((List.range T).map loc).map fun l => l.1) = .ok rows := by
    have e1 : raiseIf ((((List.range T).map loc).map fun l => l.1) = []) PyErr.runtimeError = .ok () :=
      raiseIf_ok.2 (by simpa using hT)
    have e2 : raiseIf (fin.length ≠ fout.length) PyErr.runtimeError = .ok () := raiseIf_ok.2 (by omega)
    simp only [vrecurrentStateUpdate, e1, ← hfin, hin, hout, scaleIf, r1, e2, bind, Except.bind, pure,
      Except.pure, hrows]
  have hz : ((List.range T).map loc).zip rows = (List.range T).map fun t => (loc t, rows.getD t []) := by
    refine List.ext_getElem (by simp [hrl]) fun t x1 x2 => ?_
    have ht : t < T := by simpa using x2
    simp [List.getElem?_eq_getElem (show t < rows.length by omega)]
  have hf : ∀ t, ∃ f, t < T → vlocalForce co cw.2 (loc t) (rows.getD t []) = .ok f := by
    intro t
    by_cases ht : t < T
    · obtain ⟨f, hf⟩ := vlocalForce_ok (hloc t ht) cw.2 (row := rows.getD t []) (by
        have a1 := hfr t ht
        have a2 := r3 _ (List.getElem_mem (show t < fout.length by omega))
        simp only [List.getD_eq_getElem?_getD, List.getElem?_eq_getElem (show t < rows.length by omega),
          Option.getD_some, hrt t ht, List.length_append, List.length_take]
        omega)
      exact ⟨f, fun _ => hf⟩
    · exact ⟨Tensor.zeros [], fun h => absurd h ht⟩
  choose F hF using hf
  refine ⟨fin, fout, (List.range T).map F, rows, hfl, r1, ?_, ?_⟩
  · have e0 : raiseIf (StrainFormulation.infinitesimal ≠ .infinitesimal) PyErr.runtimeError = .ok () :=
      raiseIf_ok.2 (by simp)
    simp only [vpointHist, e0, h1, h2, bind, Except.bind]
    rw [hz, mapM_map_range (h := F) _ _ fun t ht => hF t ht]
    rfl
  · refine List.ext_getElem (by simp [hrl, r2, hfl]) fun t x1 x2 => ?_
    have ht : t < T := by simpa [hrl] using x1
    have := hfr t ht
    simp [hrt t ht, this]

/-- One element of the vectorised mode with a total model. -/
theorem velement_ok {e : ElementType} {co : List Comp} (hco : CompleteSym e.dim co) {M : RecMaterial}
    (hin : M.normIn = none) (hout : M.denormOut = none)
    (hrun : ∀ fin, ∃ fout, M.run true fin = .ok fout ∧ fout.length = fin.length ∧
      ∀ r ∈ fout, co.length ≤ r.length)
    (X : ℕ → Fin e.nNode → Fin e.dim → ℝ) (u : ℕ → Tensor) {T : ℕ} (hT : T ≠ 0)
    {rule : GaussRule e.dim} (hr : rule ≠ [])
    (hJ : ∀ cw ∈ rule, ∀ t < T, (e.jacobian (X t) cw.1).det ≠ 0)
    (hu : ∀ t < T, (u t).shape = [e.nNode, e.dim]) :
    ∃ r, velementForcesHist .infinitesimal e e.dim co rule M X u T = .ok r ∧
      (vsamplesOf co r.2).length = rule.length ∧
      ∀ s ∈ vsamplesOf co r.2, ∃ fin fout, fin.length = T ∧ M.run true fin = .ok fout ∧
        s.2 = fout.map fun r => r.take co.length := by
  have h1 : ∀ cw ∈ rule, ∃ q, vpointHist .infinitesimal e e.dim co M X u T cw = .ok q ∧
      ∃ fin fout, fin.length = T ∧ M.run true fin = .ok fout ∧
      (q.2.map fun row => (row.drop co.length).take co.length) = fout.map fun r => r.take co.length := by
    intro cw hcw
    obtain ⟨fin, fout, fs, st, a1, a2, a3, a4⟩ := vpoint_ok hco hin hout hrun X u hT cw (hJ cw hcw) hu
    exact ⟨_, a3, fin, fout, a1, a2, a4⟩
  have h2 : ∃ qs, rule.mapM (vpointHist .infinitesimal e e.dim co M X u T) = .ok qs ∧
      qs.length = rule.length ∧ ∀ q ∈ qs, ∃ fin fout, fin.length = T ∧ M.run true fin = .ok fout ∧
      (q.2.map fun row => (row.drop co.length).take co.length) = fout.map fun r => r.take co.length := by
    clear hr hJ
    induction rule with
    | nil => exact ⟨[], rfl, rfl, by simp⟩
    | cons cw rule ih =>
      obtain ⟨q, b1, b2⟩ := h1 cw (by simp)
      obtain ⟨qs, b3, b4, b5⟩ := ih fun x hx => h1 x (by simp [hx])
      refine ⟨q :: qs, by rw [List.mapM_cons, b1, b3]; rfl, by simp [b4], ?_⟩
      intro x hx
      rcases List.mem_cons.1 hx with rfl | hx
      · exact b2
      · exact b5 x hx
  obtain ⟨qs, b1, b2, b3⟩ := h2
  have e0 : raiseIf (rule = []) PyErr.runtimeError = .ok () := raiseIf_ok.2 hr
  refine ⟨((List.range T).map fun t => ⟨[e.nNode * e.dim], fun idx =>
      (qs.map fun q => (q.1.getD t (Tensor.zeros [])).val idx).sum⟩, qs.map fun q => q.2),
    by simp only [velementForcesHist, e0, b1, bind, Except.bind, pure, Except.pure], ?_, ?_⟩
  · simp [vsamplesOf, b2]
  · intro s hs
    simp only [vsamplesOf, List.map_map, List.mem_map, Function.comp] at hs
    obtain ⟨q, hq, rfl⟩ := hs
    exact b3 q hq

section
variable {e : ElementType} {N T : ℕ} {co : List Comp}

theorem velem_ok (hco : CompleteSym e.dim co) {S : FinderSpec e N e.dim T} (hS : UniformSpecimen co S)
    (hJ : Nonsingular S) (hrun : ∀ fin, ∃ fout, (S.mats 1).run false fin = .ok fout)
    {k : ℕ} (hk : IsElement S.mesh k) :
    ∃ r, velem co S k = .ok r ∧ (vsamplesOf co r.2).length = (S.rules 1).length ∧
      ∀ s ∈ vsamplesOf co r.2, ∃ fin fout, fin.length = T ∧ (S.mats 1).run false fin = .ok fout ∧
        s.2 = fout.map fun r => r.take co.length := by
  have := velement_ok hco hS.plain.noIn hS.plain.noOut
    (fun fin => by
      obtain ⟨fout, h⟩ := hrun fin
      exact ⟨fout, by rw [hS.plain.synced]; exact h, hS.plain.rows _ _ h⟩)
    (fun _ => elemCoords e (gatherNodes (Spec.nodes S.mesh k) S.config.coordsInit))
    (fun t => elemDisps e (gatherNodes (Spec.nodes S.mesh k) (S.hist t)))
    (T := T) (by have := hS.times; omega) hS.points
    (fun cw hcw t _ => hJ k hk cw (by rw [hS.rules k hk]; exact hcw)) (fun _ _ => rfl)
  rw [hS.plain.synced] at this
  exact this

theorem seqLoop_ok (hco : CompleteSym e.dim co) {S : FinderSpec e N e.dim T} (hS : UniformSpecimen co S)
    (hJ : Nonsingular S) (hrun : ∀ fin, ∃ fout, (S.mats 1).run false fin = .ok fout) :
    ∃ loss s, forwardSequentialElement .infinitesimal co S = .ok (loss, s) := by
  set ks := (List.range S.mesh.conn.length).map (· + 1) with hks
  have hkE : ∀ k ∈ ks, IsElement S.mesh k := by
    intro k hk
    obtain ⟨i, hi, rfl⟩ := List.mem_map.1 hk
    have := List.mem_range.1 hi
    exact ⟨by omega, by omega⟩
  rcases seqLoop_agree hco hS ks hkE ⟨S.config, List.replicate T fun _ => 0, []⟩ hS.coords.1
    (by simp) with ⟨er, -, h2⟩ | ⟨rs, a, h1, h2, -⟩
  · have : ∃ rs, ks.mapM (velem co S) = .ok rs := by
      clear h2
      clear_value ks
      clear hks
      induction ks with
      | nil => exact ⟨[], rfl⟩
      | cons k ks ih =>
        obtain ⟨r, h, -⟩ := velem_ok hco hS hJ hrun (hkE k (by simp))
        obtain ⟨rs, h'⟩ := ih fun x hx => hkE x (by simp [hx])
        exact ⟨r :: rs, by rw [List.mapM_cons, h, h']; rfl⟩
    obtain ⟨rs, h⟩ := this
    rw [h] at h2
    cases h2
  · simp only [forwardSequentialElement, ← hks, h2, bind, Except.bind, pure, Except.pure]
    exact ⟨_, _, rfl⟩

/-- **C100, termination.** If moreover the elements are not degenerate and the model accepts every
input, both modes return, with the same loss and samples. -/
theorem C100_returns (hco : CompleteSym e.dim co) {S : FinderSpec e N e.dim T} (hS : ElementWise co S)
    (hJ : Nonsingular S) (hrun : ∀ fin, ∃ fout, (S.mats 1).run false fin = .ok fout) :
    ∃ loss s, forwardSequentialElement .infinitesimal co S = .ok (loss, s) ∧
      vforwardSequentialElement .infinitesimal co S = .ok (loss, s) := by
  obtain ⟨loss, s, h⟩ := seqLoop_ok hco hS.toUniformSpecimen hJ hrun
  exact ⟨loss, s, h, by rw [← C100_forward hco hS, h]⟩

end

/-! ## Where the modes differ -/

/-- Model that returns the same stresses whatever the strains; `row` may depend on whether its
parameters are synchronised. -/
def constModel (row : Bool → List ℝ) (f : Option (List (List ℝ) → Py (List (List ℝ)))) : RecMaterial :=
  ⟨0, fun b fin => .ok (fin.map fun _ => row b), none, f⟩

/-- Two triangles that make up the unit square, one integration point each, one time, not deformed. -/
def twoTriangles (mats : ℕ → RecMaterial) (paths : Option (Option (List ℤ))) :
    FinderSpec .tri3 4 (ElementType.tri3).dim 1 where
  mesh := ⟨4, [[1, 2, 3], [4, 3, 2]]⟩
  config := MeshConfig.new fun i d => if (d = 0 ∧ i % 2 = 1) ∨ (d = 1 ∧ 2 ≤ i) then 1 else 0
  hist := fun _ _ _ => 0
  rules := fun _ => [(![1 / 3, 1 / 3], 1 / 2)]
  mats := mats
  cfg := ⟨.pointwise, none⟩
  reaction := fun _ _ _ => 0
  bc := fun _ _ _ => 0
  flags := fun _ _ => 0
  weights := fun _ => 1
  paths := paths

theorem twoTriangles_uniform {mats : ℕ → RecMaterial} (h : ∀ k, mats k = mats 1)
    (hp : PlainModel sym2d (mats 1)) (paths : Option (Option (List ℤ))) :
    UniformSpecimen sym2d (twoTriangles mats paths) where
  valid := by
    refine ⟨by simp [twoTriangles], fun c hc => ?_⟩
    simp only [twoTriangles, List.mem_cons, List.not_mem_nil, or_false] at hc
    rcases hc with rfl | rfl <;> simp [twoTriangles]
  nNode := rfl
  nonempty := by simp [twoTriangles]
  equal := by
    intro c hc
    simp only [twoTriangles, List.mem_cons, List.not_mem_nil, or_false] at hc
    rcases hc with rfl | rfl <;> rfl
  coords := ⟨rfl, rfl⟩
  points := by simp [twoTriangles]
  rules := fun _ _ => rfl
  mats := fun k _ => h k
  plain := hp
  times := by simp
  pointwise := rfl
  flags := fun _ => rfl

theorem tri3_jacobian_det (X : Fin 3 → Fin 2 → ℝ) (c : Fin 2 → ℝ) :
    ((ElementType.tri3).jacobian X c).det =
      (X 1 0 - X 0 0) * (X 2 1 - X 0 1) - (X 1 1 - X 0 1) * (X 2 0 - X 0 0) := by
  change Matrix.det ((Matrix.of (tri3LocalDeriv c)).transpose * Matrix.of X :
    Matrix (Fin 2) (Fin 2) ℝ) = _
  rw [Matrix.det_fin_two]
  simp only [Matrix.mul_apply, Fin.sum_univ_three, Matrix.transpose_apply, Matrix.of_apply,
    tri3LocalDeriv]
  simp
  ring

theorem twoTriangles_nonsingular (mats : ℕ → RecMaterial) (paths : Option (Option (List ℤ))) :
    Nonsingular (twoTriangles mats paths) := by
  intro k hk cw hcw
  obtain ⟨h1, h2⟩ := hk
  have h2 : k ≤ 2 := h2
  obtain rfl | rfl : k = 1 ∨ k = 2 := by omega
  · refine (tri3_jacobian_det _ cw.1).trans_ne ?_
    simp [twoTriangles, Spec.nodes, MeshConfig.new]
  · refine (tri3_jacobian_det _ cw.1).trans_ne ?_
    simp [twoTriangles, Spec.nodes, MeshConfig.new]

/-- The model as the loops use it: never synchronised, never scaled. -/
def plainOf (M : RecMaterial) : RecMaterial := ⟨M.cls, fun _ => M.run false, none, none⟩

/-- What the loops do with element `k` depends on the model only through `plainOf`. -/
theorem seqElement_plain {e : ElementType} {N n T : ℕ} (sf : StrainFormulation) (co : List Comp)
    (S : FinderSpec e N n T) (acc : SeqAcc) (k : ℕ) :
    seqElement sf co S acc k =
      seqElement sf co { S with mats := fun _ => plainOf (S.mats k) } acc k := rfl

theorem plainModel_const {M : RecMaterial} {r : List ℝ} (hr : r.length = 3)
    (h : ∀ fin, M.run false fin = .ok (fin.map fun _ => r)) : PlainModel sym2d (plainOf M) := by
  refine ⟨rfl, rfl, rfl, fun fin fout hf => ?_⟩
  have := (h fin).symm.trans hf
  cases this
  refine ⟨by simp, fun x hx => ?_⟩
  obtain ⟨_, _, rfl⟩ := List.mem_map.1 hx
  simp [sym2d, hr]

theorem twoTriangles_step {mats : ℕ → RecMaterial} {paths : Option (Option (List ℤ))} {k : ℕ}
    {r : List ℝ} (hk : k = 1 ∨ k = 2) (hr : r.length = 3)
    (h : ∀ fin, (mats k).run false fin = .ok (fin.map fun _ => r)) (acc : SeqAcc)
    (hc : acc.config.coords = (twoTriangles mats paths).config.coordsInit)
    (hl : acc.forces.length = 1) :
    ∃ a s, seqElement .infinitesimal sym2d (twoTriangles mats paths) acc k = .ok a ∧
      a.config.coords = (twoTriangles mats paths).config.coordsInit ∧ a.forces.length = 1 ∧
      a.samples = acc.samples ++ (if isSampled paths 2 k then s else []) ∧ s.map (fun x => x.2) = [[r]] := by
  rw [seqElement_plain]
  have hp := plainModel_const hr h
  have hU := twoTriangles_uniform (mats := fun _ => plainOf (mats k)) (fun _ => rfl) hp paths
  have hE : IsElement (twoTriangles (fun _ => plainOf (mats k)) paths).mesh k := by
    rcases hk with rfl | rfl <;> exact ⟨by omega, show _ ≤ 2 by omega⟩
  obtain ⟨q, v1, v2, v3⟩ := velem_ok (e := .tri3) sym2d_complete hU (twoTriangles_nonsingular _ _)
    (fun fin => ⟨_, h fin⟩) hE
  rcases seqElement_agree (e := .tri3) sym2d_complete hU hE acc hc hl with ⟨er, h1, h2⟩ |
    ⟨q', a, h1, h2, h3, h4, -, -, -, h8⟩
  · rw [v1] at h2; cases h2
  · rw [v1] at h1; cases h1
    refine ⟨a, vsamplesOf sym2d q.2, h2, h3, h4, h8, ?_⟩
    have hlen : (vsamplesOf sym2d q.2).length = 1 := v2
    obtain ⟨x, hx⟩ := List.length_eq_one_iff.1 hlen
    obtain ⟨fin, fout, f1, f2, f3⟩ := v3 x (by simp [hx])
    have := (h fin).symm.trans f2
    cases this
    obtain ⟨y, rfl⟩ := List.length_eq_one_iff.1 f1
    rw [hx]
    have ht : r.take (sym2d).length = r := List.take_of_length_le (by simp [sym2d, hr])
    simp [f3, ht]

/-- The samples of the loops on the two triangles. -/
theorem twoTriangles_loop {mats : ℕ → RecMaterial} {r : ℕ → List ℝ} (hr : ∀ k, (r k).length = 3)
    (h : ∀ k fin, (mats k).run false fin = .ok (fin.map fun _ => r k))
    (paths : Option (Option (List ℤ))) :
    ∃ loss s1 s2, forwardSequentialElement .infinitesimal sym2d (twoTriangles mats paths) =
        .ok (loss, paths.map fun _ => (if isSampled paths 2 1 then s1 else []) ++
          (if isSampled paths 2 2 then s2 else [])) ∧
      s1.map (fun x : LocalSample => x.2) = [[r 1]] ∧ s2.map (fun x : LocalSample => x.2) = [[r 2]] := by
  obtain ⟨a, s1, a1, a2, a3, a4, a5⟩ := twoTriangles_step (paths := paths) (k := 1) (Or.inl rfl) (hr 1)
    (h 1) ⟨(twoTriangles mats paths).config, List.replicate 1 fun _ => 0, []⟩ rfl rfl
  obtain ⟨b, s2, b1, b2, b3, b4, b5⟩ := twoTriangles_step (paths := paths) (k := 2) (Or.inr rfl) (hr 2)
    (h 2) a a2 a3
  refine ⟨seqHistLoss (twoTriangles mats paths).cfg
    { internal := meshHist b.forces, external := fun _ _ _ => 0
      reaction := (twoTriangles mats paths).reaction, bc := (twoTriangles mats paths).bc
      weights := (twoTriangles mats paths).weights } (twoTriangles mats paths).flags, s1, s2, ?_, a5, b5⟩
  have hks : (List.range (twoTriangles mats paths).mesh.conn.length).map (· + 1) = [1, 2] := rfl
  simp only [forwardSequentialElement, hks, List.foldlM_cons, List.foldlM_nil, a1, b1, bind, Except.bind,
    pure, Except.pure]
  rw [b4, a4]
  rfl

/-- The model as the vectorised mode uses it when its inputs are not scaled. -/
def vplainOf (M : RecMaterial) : RecMaterial :=
  ⟨M.cls, fun _ x => do let o ← M.run true x; scaleIf M.denormOut o, none, none⟩

theorem vforward_plain {e : ElementType} {N n T : ℕ} (sf : StrainFormulation) (co : List Comp)
    (S : FinderSpec e N n T) (hin : (S.mats 1).normIn = none)
    (hcls : ∀ k < S.mesh.conn.length, (S.mats (k + 1)).cls = (S.mats 1).cls) :
    vforwardSequentialElement sf co S =
      vforwardSequentialElement sf co { S with mats := fun _ => vplainOf (S.mats 1) } := by
  have h1 : vrecurrentStateUpdate co (S.mats 1) = vrecurrentStateUpdate co (vplainOf (S.mats 1)) := by
    funext st
    simp only [vrecurrentStateUpdate, hin, vplainOf, scaleIf, bind, Except.bind]
    cases raiseIf (st = []) PyErr.runtimeError with
    | error er => rfl
    | ok _ =>
      dsimp only
      cases (S.mats 1).run true (st.map (vstoreTensorComps co)) with
      | error er => rfl
      | ok o => rfl
  have h2 : vpointHist sf e n co (S.mats 1) = vpointHist sf e n co (vplainOf (S.mats 1)) := by
    funext X u T cw
    simp only [vpointHist, h1]
  have h3 : velementForcesHist sf e n co (S.rules 1) (S.mats 1) =
      velementForcesHist sf e n co (S.rules 1) (vplainOf (S.mats 1)) := by
    funext X u T
    simp only [velementForcesHist, h2]
  have c1 : raiseIf (∃ k < S.mesh.conn.length, (S.mats (k + 1)).cls ≠ (S.mats 1).cls)
      PyErr.runtimeError = .ok () := raiseIf_ok.2 (by rintro ⟨k, hk, hne⟩; exact hne (hcls k hk))
  have c2 : raiseIf (∃ k < S.mesh.conn.length, (vplainOf (S.mats 1)).cls ≠ (vplainOf (S.mats 1)).cls)
      PyErr.runtimeError = .ok () := raiseIf_ok.2 (by rintro ⟨k, hk, hne⟩; exact hne rfl)
  simp only [vforwardSequentialElement, h3, c1, c2]

/-- The samples of the vectorised mode on the two triangles. -/
theorem twoTriangles_vec {mats : ℕ → RecMaterial} {r : List ℝ} (hr : r.length = 3)
    (hin : (mats 1).normIn = none) (hcls : ∀ k, (mats k).cls = (mats 1).cls)
    (h : ∀ fin, (vplainOf (mats 1)).run false fin = .ok (fin.map fun _ => r)) :
    ∃ loss s, vforwardSequentialElement .infinitesimal sym2d (twoTriangles mats (some none)) =
        .ok (loss, some s) ∧ s.map (fun x : LocalSample => x.2) = [[r], [r]] := by
  rw [vforward_plain _ _ _ hin fun k _ => hcls _]
  have hp : PlainModel sym2d (vplainOf (mats 1)) := plainModel_const (M := vplainOf (mats 1)) hr h
  have hE : ElementWise sym2d (twoTriangles (fun _ => vplainOf (mats 1)) (some none)) :=
    { twoTriangles_uniform (fun _ => rfl) hp (some none) with paths := by simp [twoTriangles] }
  obtain ⟨loss, s1, s2, h1, h2, h3⟩ := twoTriangles_loop (mats := fun _ => vplainOf (mats 1))
    (r := fun _ => r) (fun _ => hr) (fun _ => h) (some none)
  refine ⟨loss, s1 ++ s2, ?_, by simp [h2, h3]⟩
  refine (C100_forward (e := .tri3) sym2d_complete hE).symm.trans (h1.trans ?_)
  simp [isSampled]

/-- **C100, violated.** With a model whose outputs are scaled, the loops store the scaled stresses and
the vectorised mode the stresses. -/
theorem C100_normalised_violated : ∃ M : RecMaterial, M.denormOut ≠ none ∧
    forwardSequentialElement .infinitesimal sym2d (twoTriangles (fun _ => M) (some none)) ≠
      vforwardSequentialElement .infinitesimal sym2d (twoTriangles (fun _ => M) (some none)) := by
  refine ⟨constModel (fun _ => [0, 0, 0]) (some fun x => .ok (x.map fun r => r.map (· + 1))),
    by simp [constModel], fun hc => ?_⟩
  obtain ⟨l, s1, s2, h1, h2, h3⟩ := twoTriangles_loop (r := fun _ => [0, 0, 0])
    (mats := fun _ => constModel (fun _ => [0, 0, 0]) (some fun x => .ok (x.map fun r => r.map (· + 1))))
    (fun _ => rfl) (fun _ _ => rfl) (some none)
  obtain ⟨l', s, h1', h2'⟩ := twoTriangles_vec (r := [1, 1, 1])
    (mats := fun _ => constModel (fun _ => [0, 0, 0]) (some fun x => .ok (x.map fun r => r.map (· + 1))))
    rfl rfl (fun _ => rfl) (fun fin => by
      simp [vplainOf, constModel, scaleIf, bind, Except.bind])
  rw [h1, h1'] at hc
  simp only [isSampled, Option.map_some] at hc
  simp only [Except.ok.injEq, Prod.mk.injEq, Option.some.injEq] at hc
  rw [← hc.2] at h2'
  simp [h2, h3] at h2'

/-- **C100, violated.** With a model that has to be synchronised with its learnable parameters, the loops
use the parameters of the last synchronisation and the vectorised mode the current ones. -/
theorem C100_sync_violated : ∃ M : RecMaterial, M.normIn = none ∧ M.denormOut = none ∧
    forwardSequentialElement .infinitesimal sym2d (twoTriangles (fun _ => M) (some none)) ≠
      vforwardSequentialElement .infinitesimal sym2d (twoTriangles (fun _ => M) (some none)) := by
  refine ⟨constModel (fun b => if b then [1, 1, 1] else [0, 0, 0]) none, rfl, rfl, fun hc => ?_⟩
  obtain ⟨l, s1, s2, h1, h2, h3⟩ := twoTriangles_loop (r := fun _ => [0, 0, 0])
    (mats := fun _ => constModel (fun b => if b then [1, 1, 1] else [0, 0, 0]) none)
    (fun _ => rfl) (fun _ _ => rfl) (some none)
  obtain ⟨l', s, h1', h2'⟩ := twoTriangles_vec (r := [1, 1, 1])
    (mats := fun _ => constModel (fun b => if b then [1, 1, 1] else [0, 0, 0]) none)
    rfl rfl (fun _ => rfl) (fun fin => by
      simp [vplainOf, constModel, scaleIf, bind, Except.bind])
  rw [h1, h1'] at hc
  simp only [isSampled, Option.map_some] at hc
  simp only [Except.ok.injEq, Prod.mk.injEq, Option.some.injEq] at hc
  rw [← hc.2] at h2'
  simp [h2, h3] at h2'

/-- **C100, violated.** With two different plain models of the same class, the loops use the model of each
element and the vectorised mode, without raising, that of element 1 everywhere. -/
theorem C100_materials_violated : ∃ mats : ℕ → RecMaterial, (∀ k, PlainModel sym2d (mats k)) ∧
    (∃ r, vforwardSequentialElement .infinitesimal sym2d (twoTriangles mats (some none)) = .ok r) ∧
    vforwardSequentialElement .infinitesimal sym2d (twoTriangles mats (some none)) =
      forwardSequentialElement .infinitesimal sym2d (twoTriangles (fun _ => mats 1) (some none)) ∧
    forwardSequentialElement .infinitesimal sym2d (twoTriangles mats (some none)) ≠
      vforwardSequentialElement .infinitesimal sym2d (twoTriangles mats (some none)) := by
  set mats : ℕ → RecMaterial := fun k => constModel (fun _ => [(k : ℝ), 0, 0]) none with hm
  have hp : ∀ k, PlainModel sym2d (mats k) := fun k =>
    plainModel_const (M := mats k) (r := [(k : ℝ), 0, 0]) rfl fun _ => rfl
  obtain ⟨l, s1, s2, h1, h2, h3⟩ := twoTriangles_loop (r := fun k => [(k : ℝ), 0, 0]) (mats := mats)
    (fun _ => rfl) (fun _ _ => rfl) (some none)
  obtain ⟨l', s, h1', h2'⟩ := twoTriangles_vec (r := [1, 0, 0]) (mats := mats)
    rfl rfl (fun _ => rfl) (fun fin => by
      simp [hm, vplainOf, constModel, scaleIf, bind, Except.bind])
  refine ⟨mats, hp, ⟨_, h1'⟩, ?_, fun hc => ?_⟩
  · have hE : ElementWise sym2d (twoTriangles (fun _ => mats 1) (some none)) :=
      { twoTriangles_uniform (mats := fun _ => mats 1) (fun _ => rfl) (hp 1) (some none) with paths := by simp [twoTriangles] }
    rw [C100_forward (e := .tri3) sym2d_complete hE, vforward_plain _ _ (twoTriangles mats (some none)) rfl fun k _ => rfl,
      vforward_plain _ _ (twoTriangles (fun _ => mats 1) (some none)) rfl fun k _ => rfl]
    rfl
  · rw [h1, h1'] at hc
    simp only [isSampled, Option.map_some] at hc
    simp only [Except.ok.injEq, Prod.mk.injEq, Option.some.injEq] at hc
    rw [← hc.2] at h2'
    simp [h2, h3] at h2'

/-- The vectorised mode up to the samples: the loss and the states of the elements. -/
def vcore {e : ElementType} {N n T : ℕ} (sf : StrainFormulation) (co : List Comp)
    (S : FinderSpec e N n T) : Py (ℝ × List (List (List (List ℝ)))) := do
  let idx ← buildElementsMeshIndexing S.mesh n
  raiseIf (∃ k < S.mesh.conn.length, (S.mats (k + 1)).cls ≠ (S.mats 1).cls) .runtimeError
  let conf ← getBatchedMeshConfigurationHist S.mesh S.config S.hist (decide (sf ≠ .infinitesimal))
  let r ← conf.mapM fun xy => velementForcesHist sf e n co (S.rules 1) (S.mats 1)
    (fun t => elemCoords e (xy.1 t)) (fun t => elemDisps e (xy.2 t)) T
  let forces : List (ℕ → ℝ) := (List.range T).map fun t =>
    (vassembleInternalForces (r.map fun q => (List.range (e.nNode * n)).map fun p =>
      (q.1.getD t (Tensor.zeros [])).val [p]) idx S.mesh.nNode n).val
  let h : ForceHist N n T :=
    { internal := meshHist forces, external := fun _ _ _ => 0, reaction := S.reaction
      bc := S.bc, weights := S.weights }
  let loss ← vHistLoss S.cfg h
  return (loss, r.map fun q => q.2)

theorem vforward_split {e : ElementType} {N n T : ℕ} (sf : StrainFormulation) (co : List Comp)
    (S : FinderSpec e N n T) : vforwardSequentialElement sf co S =
      vcore sf co S >>= fun x => (vsamplesIf co S.paths x.2).map fun s => (x.1, s) := by
  simp only [vforwardSequentialElement, vcore, bind_assoc, pure_bind]
  rfl

theorem vcore_length {e : ElementType} {N n T : ℕ} {sf : StrainFormulation} {co : List Comp}
    {S : FinderSpec e N n T} {x : ℝ × List (List (List (List ℝ)))} (h : vcore sf co S = .ok x) :
    x.2.length = S.mesh.conn.length := by
  obtain ⟨idx, e1, h⟩ := bind_ok h
  obtain ⟨_, e2, h⟩ := bind_ok h
  obtain ⟨conf, e3, h⟩ := bind_ok h
  obtain ⟨r, e4, h⟩ := bind_ok h
  obtain ⟨loss, e5, h⟩ := bind_ok h
  cases h
  have hc : conf.length = S.mesh.conn.length := by
    simp only [getBatchedMeshConfigurationHist] at e3
    obtain ⟨cc, f1, e3⟩ := bind_ok e3
    obtain ⟨xu, f2, e3⟩ := bind_ok e3
    cases e3
    have : cc = S.mesh.conn := by
      unfold getConnectivitiesTensor at f1
      split at f1
      · cases f1
      · split at f1 <;> cases f1
        rfl
    simp [this]
  rw [List.length_map, ← (mapM_forall₂ e4).length_eq, hc]

/-- **C100, violated.** If the list of elements whose local paths are requested contains a label that is
not in the mesh, the loops ignore it and the vectorised mode raises. -/
theorem C100_paths_violated : ∃ M : RecMaterial, PlainModel sym2d M ∧
    (∃ loss, forwardSequentialElement .infinitesimal sym2d (twoTriangles (fun _ => M) (some (some [3]))) =
      .ok (loss, some [])) ∧
    vforwardSequentialElement .infinitesimal sym2d (twoTriangles (fun _ => M) (some (some [3]))) =
      .error .indexError := by
  have hp : PlainModel sym2d (constModel (fun _ => [0, 0, 0]) none) :=
    plainModel_const (M := constModel (fun _ => [0, 0, 0]) none) (r := [0, 0, 0]) rfl fun _ => rfl
  refine ⟨constModel (fun _ => [0, 0, 0]) none, hp, ?_, ?_⟩
  · obtain ⟨l, s1, s2, h1, h2, h3⟩ := twoTriangles_loop (r := fun _ => [0, 0, 0])
      (mats := fun _ => constModel (fun _ => [0, 0, 0]) none) (fun _ => rfl) (fun _ _ => rfl) (some (some [3]))
    exact ⟨l, h1⟩
  · obtain ⟨l', s, h, -⟩ := twoTriangles_vec (r := [0, 0, 0])
      (mats := fun _ => constModel (fun _ => [0, 0, 0]) none)
      rfl rfl (fun _ => rfl) (fun fin => by simp [vplainOf, constModel, scaleIf, bind, Except.bind])
    rw [vforward_split] at h ⊢
    obtain ⟨⟨loss, st⟩, e1, -⟩ := bind_ok h
    have hc := vcore_length e1
    obtain ⟨x, y, rfl⟩ : ∃ x y, st = [x, y] := by
      match st, (show st.length = 2 from hc) with
      | [x, y], _ => exact ⟨x, y, rfl⟩
    have e2 : vcore .infinitesimal sym2d (twoTriangles (fun _ => constModel (fun _ => [0, 0, 0]) none)
      (some (some [3]))) = .ok (loss, [x, y]) := e1
    rw [e2]
    change (vsamplesIf sym2d (some (some [3])) [x, y]).map (fun s => (loss, s)) = _
    simp [vsamplesIf, velementsLocalSamples, torchIndex, orRaise, Except.map, bind, Except.bind]

/-- The hypotheses of `C100_forward` and `C100_returns` are met by the two triangles. -/
example : ∃ M, ElementWise sym2d (twoTriangles (fun _ => M) (some (some [1, 2]))) ∧
    Nonsingular (twoTriangles (fun _ => M) (some (some [1, 2]))) ∧
    ∀ fin, ∃ fout, M.run false fin = .ok fout :=
  ⟨constModel (fun _ => [3, 0, 0]) none,
    { twoTriangles_uniform (fun _ => rfl) (plainModel_const (M := constModel (fun _ => [3, 0, 0]) none)
        (r := [3, 0, 0]) rfl fun _ => rfl) _ with
      paths := by
        intro l hl
        have : l = [1, 2] := by simpa [twoTriangles, eq_comm] using hl
        subst this
        simp [twoTriangles] },
    twoTriangles_nonsingular _ _, fun _ => ⟨_, rfl⟩⟩

end Hooke
