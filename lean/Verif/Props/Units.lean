import Verif.Lemmas.Units
import Verif.Props.Stability

/-!
# C146: units of length and stress
-/

noncomputable section

namespace Hooke

open Spec

/-! ## Materials -/

/-- **C146.** von Mises plasticity, every strain history: with Young's modulus and hardening law in another
unit of stress, all strains, accumulated plastic strains, flags and failures are the same, and the stresses
are those of the first unit in the other one.  The yield stresses reached must be well above the number
`1e-8` in both units. -/
theorem C146_von_mises {p : PType} {k : ℝ} (hk : 0 < k) (E v : ℝ) (law : HardLaw) (incs : List (T2 p.dim))
    (hw : ∀ pre inc s, pre ++ [inc] <+: incs → vmRun p E v law pre = .good s → WellAbove k (law s.acc).1) :
    vmRun p (k * E) v (unitLaw k law) incs = unitVMVars p k (vmRun p E v law incs) := by
  induction incs using List.reverseRecOn with
  | nil =>
    have h0 : (fun _ : Fin p.len => k * (0 : ℝ)) = fun _ => 0 := by simp
    show VMVars.good (vmInit p) = VMVars.good (unitVM p k (vmInit p))
    simp only [vmInit, unitVM, Pi.zero_apply, mul_zero]
    rfl
  | append_singleton incs inc ih =>
    have ih := ih fun pre i s h => hw pre i s (h.trans (List.prefix_append _ _))
    have hl : vmRun p E v law (incs ++ [inc]) = vmStep p E v law (vmRun p E v law incs) inc := by
      simp only [vmRun, List.foldl_append, List.foldl_cons, List.foldl_nil]
    have hl' : vmRun p (k * E) v (unitLaw k law) (incs ++ [inc]) =
        vmStep p (k * E) v (unitLaw k law) (vmRun p (k * E) v (unitLaw k law) incs) inc := by
      simp only [vmRun, List.foldl_append, List.foldl_cons, List.foldl_nil]
    rw [hl, hl', ih]
    cases hs : vmRun p E v law incs with
    | nan s => rfl
    | good s =>
      exact (vmUpdate_unit hk E v law inc s (hw incs inc s (List.prefix_refl _) hs)).1

/-- **C146.** The same with mixed hardening: the kinematic law and the back stresses are stresses too. -/
theorem C146_mixed {p : PType} {k : ℝ} (hk : 0 < k) (E v : ℝ) (law kin : HardLaw) (incs : List (T2 p.dim))
    (hw : ∀ pre inc s, pre ++ [inc] <+: incs → mixRun p E v law kin pre = .good s →
      WellAbove k (law s.acc).1) :
    mixRun p (k * E) v (unitLaw k law) (unitLaw k kin) incs = unitMixVars p k (mixRun p E v law kin incs) := by
  induction incs using List.reverseRecOn with
  | nil =>
    show MixVars.good (mixInit p) = MixVars.good (unitMix p k (mixInit p))
    simp only [mixInit, vmInit, unitMix, unitVM, Pi.zero_apply, mul_zero]
    rfl
  | append_singleton incs inc ih =>
    have ih := ih fun pre i s h => hw pre i s (h.trans (List.prefix_append _ _))
    have hl : mixRun p E v law kin (incs ++ [inc]) = mixStep p E v law kin (mixRun p E v law kin incs) inc := by
      simp only [mixRun, List.foldl_append, List.foldl_cons, List.foldl_nil]
    have hl' : mixRun p (k * E) v (unitLaw k law) (unitLaw k kin) (incs ++ [inc]) =
        mixStep p (k * E) v (unitLaw k law) (unitLaw k kin)
          (mixRun p (k * E) v (unitLaw k law) (unitLaw k kin) incs) inc := by
      simp only [mixRun, List.foldl_append, List.foldl_cons, List.foldl_nil]
    rw [hl, hl', ih]
    cases hs : mixRun p E v law kin incs with
    | nan s => rfl
    | good s =>
      exact (mixUpdate_unit hk E v law kin inc s (hw incs inc s (List.prefix_refl _) hs)).1

/-- **C146.** The consistent tangents of one step are stresses as well. -/
theorem C146_tangents {p : PType} {k : ℝ} (hk : 0 < k) (E v : ℝ) (law kin : HardLaw) (inc : T2 p.dim)
    (s : VMState p) (hs : WellAbove k (law s.acc).1) (m : MixState p) (hm : WellAbove k (law m.acc).1) :
    (vmUpdate p (k * E) v (unitLaw k law) inc (unitVM p k s)).2 =
        (vmUpdate p E v law inc s).2.map (fun T i j => k * T i j) ∧
      (mixUpdate p (k * E) v (unitLaw k law) (unitLaw k kin) inc (unitMix p k m)).2 =
        (mixUpdate p E v law kin inc m).2.map (fun T i j => k * T i j) :=
  ⟨(vmUpdate_unit hk E v law inc s hs).2, (mixUpdate_unit hk E v law kin inc m hm).2⟩

theorem elasticUpdate_unit {p : PType} {k : ℝ} {d d' : Props} {E v : ℝ} (hE : d .E = some E)
    (hv : d .v = some v) (hE' : d' .E = some (k * E)) (hv' : d' .v = some v) (inc : T2 p.dim)
    (s : ElasticState p) : ∃ new T, elasticStateUpdate p d .isotropic inc s = .ok (new, T) ∧
      elasticStateUpdate p d' .isotropic inc (unitElastic p k s) =
        .ok (unitElastic p k new, fun i j => k * T i j) := by
  have hT : elasticTangentModulus d .isotropic = .ok (kel66 (isoTensor (lamOf E v) (miuOf E v))) := by
    simp only [elasticTangentModulus, requiredModuli, if_true, hE, hv]
  have hT' : elasticTangentModulus d' .isotropic =
      .ok (kel66 (isoTensor (lamOf (k * E) v) (miuOf (k * E) v))) := by
    simp only [elasticTangentModulus, requiredModuli, if_true, hE', hv']
  refine ⟨_, _, by unfold elasticStateUpdate; rw [hT]; rfl, ?_⟩
  unfold elasticStateUpdate
  rw [hT']
  show Except.ok _ = Except.ok _
  simp only [unitElastic, mv6_iso, lamOf_mul, miuOf_mul, hooke6_mul, to2D_mul, get33_mul, Except.ok.injEq,
    Prod.mk.injEq, true_and]
  rw [← to2DM_scale]
  congr 1
  funext i j
  simp only [kel66, isoTensor_mul]
  ring

/-- **C146.** Isotropic elasticity, every strain history. -/
theorem C146_elastic {p : PType} {k : ℝ} {d d' : Props} {E v : ℝ} (hE : d .E = some E) (hv : d .v = some v)
    (hE' : d' .E = some (k * E)) (hv' : d' .v = some v) (incs : List (T2 p.dim)) (s : ElasticState p) :
    ∃ new, elasticRun p d .isotropic incs s = .ok new ∧
      elasticRun p d' .isotropic incs (unitElastic p k s) = .ok (unitElastic p k new) := by
  induction incs generalizing s with
  | nil => exact ⟨s, rfl, rfl⟩
  | cons inc incs ih =>
    obtain ⟨s1, T, h1, h2⟩ := elasticUpdate_unit (p := p) hE hv hE' hv' inc s
    obtain ⟨new, h3, h4⟩ := ih s1
    refine ⟨new, ?_, ?_⟩
    · simp only [elasticRun, List.foldlM_cons, h1, bind, Except.bind, pure, Except.pure]
      exact h3
    · simp only [elasticRun, List.foldlM_cons, h2, bind, Except.bind, pure, Except.pure]
      exact h4

theorem unmf_mul (p : PType) (k : ℝ) (x : Vmf p) (i j : Fin p.dim) :
    unmf p (fun l => k * x l) i j = k * unmf p x i j := by
  cases p with
  | solid =>
    simp only [unmf, unkel6]
    ring
  | plane => fin_cases i <;> fin_cases j <;> simp [unmf, mul_div_assoc]

/-- A material of the library in two units. -/
theorem library_unit {S : Type} {p : PType} {k : ℝ} {step step' : T2 p.dim → S → Option S}
    {stress : S → Vmf p} {unit : S → S} {ok : S → Prop}
    (hstep : ∀ inc s, ok s → step' inc (unit s) = (step inc s).map unit)
    (hstress : ∀ s, stress (unit s) = fun i => k * stress s i) :
    SameMaterial (libraryMaterial p step stress) (libraryMaterial p step' stress) p.dim (kelvinOrder p) k
      (fun s s' => s' = unit s ∧ ok s) fun s s' => s' = unit s where
  update := by
    rintro inc inc' s s' new rest ht ⟨rfl, hok⟩ h
    simp only [libraryMaterial] at h ⊢
    rw [ht, hstep _ _ hok]
    cases hst : step (tens2 p.dim inc) s with
    | none =>
      rw [hst] at h
      cases h
    | some n =>
      rw [hst] at h
      cases h
      exact ⟨unit new, unit s, rfl, rfl⟩
  stress := by
    rintro s s' t t' rfl h h' i j
    rw [vmfTensor_tensor p _ h, vmfTensor_tensor p _ h', hstress, unmf_mul]
  shape := by
    rintro s s' rfl
    rfl

/-- **C146.** The materials of the library, in two units of stress, are the same material for the internal
forces. -/
theorem C146_materials {p : PType} {k : ℝ} (hk : 0 < k) (E v : ℝ) (law kin : HardLaw) {d d' : Props}
    (hE : d .E = some E) (hv : d .v = some v) (hE' : d' .E = some (k * E)) (hv' : d' .v = some v) :
    SameMaterial (libraryMaterial p (vmGood p E v law) VMState.stress)
      (libraryMaterial p (vmGood p (k * E) v (unitLaw k law)) VMState.stress) p.dim (kelvinOrder p) k
      (fun s s' : VMState p => s' = unitVM p k s ∧ WellAbove k (law s.acc).1)
      (fun s s' => s' = unitVM p k s) ∧
    SameMaterial (libraryMaterial p (mixGood p E v law kin) fun s => s.stress)
      (libraryMaterial p (mixGood p (k * E) v (unitLaw k law) (unitLaw k kin)) fun s => s.stress) p.dim
      (kelvinOrder p) k (fun s s' : MixState p => s' = unitMix p k s ∧ WellAbove k (law s.acc).1)
      (fun s s' => s' = unitMix p k s) ∧
    SameMaterial (libraryMaterial p (elasticGood p d) ElasticState.stress)
      (libraryMaterial p (elasticGood p d') ElasticState.stress) p.dim (kelvinOrder p) k
      (fun s s' => s' = unitElastic p k s ∧ True) (fun s s' => s' = unitElastic p k s) := by
  refine ⟨library_unit (ok := fun s : VMState p => WellAbove k (law s.acc).1) (fun inc s hs => ?_) fun s => rfl,
    library_unit (ok := fun s : MixState p => WellAbove k (law s.acc).1) (fun inc s hs => ?_) fun s => rfl,
    library_unit (ok := fun _ => True) (fun inc s _ => ?_) fun s => rfl⟩
  · unfold vmGood
    rw [(vmUpdate_unit hk E v law inc s hs).1]
    cases (vmUpdate p E v law inc s).1 <;> rfl
  · unfold mixGood
    rw [(mixUpdate_unit hk E v law kin inc s hs).1]
    cases (mixUpdate p E v law kin inc s).1 <;> rfl
  · obtain ⟨new, T, h1, h2⟩ := elasticUpdate_unit (p := p) hE hv hE' hv' inc s
    unfold elasticGood
    rw [h1, h2]
    rfl

/-! ## Elements -/

theorem jacobian_unit (e : ElementType) (l : ℝ) (X : Fin e.nNode → Fin e.dim → ℝ) (c : Fin e.dim → ℝ) :
    e.jacobian (fun a i => l * X a i) c = l • e.jacobian X c := by
  ext k i
  simp only [ElementType.jacobian, Matrix.smul_apply, Matrix.mul_apply, Matrix.of_apply, smul_eq_mul,
    Finset.mul_sum]
  refine Finset.sum_congr rfl fun a _ => by ring

theorem jacobian_unit_det (e : ElementType) (l : ℝ) (X : Fin e.nNode → Fin e.dim → ℝ) (c : Fin e.dim → ℝ) :
    (e.jacobian (fun a i => l * X a i) c).det = l ^ e.dim * (e.jacobian X c).det := by
  rw [jacobian_unit, Matrix.det_smul, Fintype.card_fin]

/-- The derivative table in another unit of length. -/
theorem deriv_unit {e : ElementType} {l : ℝ} (hl : l ≠ 0) {X : Fin e.nNode → Fin e.dim → ℝ}
    {c : Fin e.dim → ℝ} {d d' : Tensor} {J J' det det'} (h : e.evalShapefunDeriv X c = .ok (d, J, det))
    (h' : e.evalShapefunDeriv (fun a i => l * X a i) c = .ok (d', J', det')) :
    det' = l ^ e.dim * det ∧ ∀ (a : Fin e.nNode) (j : Fin e.dim), d'.val [a, j] = d.val [a, j] / l := by
  obtain ⟨h0, h1, -, h2⟩ := evalShapefunDeriv_inv h
  obtain ⟨-, h1', -, h2'⟩ := evalShapefunDeriv_inv h'
  refine ⟨by rw [h1, h1', jacobian_unit_det], fun a j => ?_⟩
  have hinv : (e.jacobian (fun a i => l * X a i) c)⁻¹ = l⁻¹ • (e.jacobian X c)⁻¹ := by
    refine Matrix.inv_eq_right_inv ?_
    rw [jacobian_unit, Matrix.smul_mul, Matrix.mul_smul, smul_smul, mul_inv_cancel₀ hl, one_smul]
    exact Matrix.mul_nonsing_inv _ (Ne.isUnit h0)
  rw [h2', h2, hinv, Finset.sum_div]
  refine Finset.sum_congr rfl fun k _ => ?_
  rw [Matrix.smul_apply, smul_eq_mul]
  field_simp

theorem strain_unit {m n : ℕ} {l : ℝ} (hl : l ≠ 0) {d d' u u' : Tensor}
    (hd : ∀ (a : Fin m) (j : Fin n), d'.val [a, j] = d.val [a, j] / l)
    (hu : ∀ (a : Fin m) (j : Fin n), u'.val [a, j] = l * u.val [a, j]) :
    tens2 n (strainTensor m n d' u') = tens2 n (strainTensor m n d u) := by
  have key : ∀ i j : Fin n, dispGrad m d' u' i j = dispGrad m d u i j := by
    intro i j
    simp only [dispGrad, Finset.sum_range]
    refine Finset.sum_congr rfl fun a _ => ?_
    rw [hu a i, hd a j]
    field_simp
  funext i j
  simp only [tens2, strainTensor, List.getD_cons_zero, List.getD_cons_succ, key]

/-- **C146.** Internal forces: coordinates and displacements in a unit of length with factor `l`, the material
in a unit of stress with factor `k`.  The computation returns as well, the new states are those of the first
units, and all forces have the factor of a stress times an area (a length for plane problems). -/
theorem C146_element_forces {σ σ' : Type} {p : ℕ} {e : ElementType}
    {co cn : List Comp} (hp : getProblemTypeParameters p = .ok (e.dim, co, cn))
    {nGauss : ℕ} {rule : GaussRule e.dim} {mat : Material σ} {mat' : Material σ'} {old : GpDict σ}
    {old' : GpDict σ'} {X : Fin e.nNode → Fin e.dim → ℝ} {u u' : Tensor} (hu : u.shape = [e.nNode, e.dim])
    (hu' : u'.shape = [e.nNode, e.dim]) {k l : ℝ} (hl : 0 < l) {before after : σ → σ' → Prop}
    (hmat : SameMaterial mat mat' e.dim co k before after)
    (hul : ∀ (a : Fin e.nNode) (i : Fin e.dim), u'.val [a, i] = l * u.val [a, i])
    (hold : ∀ g, Option.Rel before (old g) (old' g)) {r : IFState σ}
    (h : computeElementInternalForces .infinitesimal p e nGauss rule mat old X u = .ok r) :
    ∃ r', computeElementInternalForces .infinitesimal p e nGauss rule mat' old' (fun a i => l * X a i) u' =
        .ok r' ∧ (∀ g, Option.Rel (Option.Rel after) (r.state g) (r'.state g)) ∧
      ∀ (a : Fin e.nNode) (i : Fin e.dim), r'.forces.val [a * e.dim + i] =
        k * l ^ (e.dim - 1) * r.forces.val [a * e.dim + i] := by
  have hco := (problemType_orders_complete hp).1
  obtain ⟨-, c, w, d, det, s, new, stress, b, hd, ho, hst, hsh, hq⟩ := internalForces_ok hp h
  have hup : ∀ g < nGauss, ∃ s s', old (g + 1) = some s ∧ old' (g + 1) = some s' ∧ before s s' ∧
      ∀ d' J det inc', e.evalShapefunDeriv (fun a i => l * X a i) (c g) = .ok (d', J, det) →
        SameTensor inc' (strainTensor e.nNode e.dim d' u') → ∃ ni new' rest, new g = some ni ∧
          mat'.stateUpdate inc' s' = .ok (new', rest) ∧ after ni new' ∧
          (mat'.stressMf new').shape = [co.length] := by
    intro g hg
    obtain ⟨si, ni, -, hni, hdone⟩ := hd g hg
    have hk := hold (g + 1)
    rw [hdone.oldState] at hk
    obtain ⟨s', hs', ht⟩ : ∃ s', old' (g + 1) = some s' ∧ before si s' := by
      generalize old' (g + 1) = o' at hk ⊢
      cases hk with
      | some hk => exact ⟨_, rfl, hk⟩
    refine ⟨si, s', hdone.oldState, hs', ht, fun d' J' det' inc' hd' hinc' => ?_⟩
    obtain ⟨J, hJ⟩ := hdone.deriv
    obtain ⟨gr, v, inc, rest, hgr, hv, hinc, hup⟩ := hdone.update
    obtain ⟨hJ0, -, hds, -⟩ := evalShapefunDeriv_inv hJ
    obtain ⟨_, sv, _, _, hsv, _⟩ := hdone.force
    have hsame := incStrain_same hco hds hu hgr hv hinc
    obtain ⟨-, hdt⟩ := deriv_unit hl.ne' hJ hd'
    obtain ⟨new', rest', h1, h2⟩ := hmat.update inc inc' si s' ni rest
      (by rw [SameTensor_tens2 hsame rfl, SameTensor_tens2 hinc' rfl, strain_unit hl.ne' hdt hul]) ht hup
    exact ⟨ni, new', rest', hni, h1, h2,
      by rw [hmat.shape _ _ h2]; exact stressMf_shape hdone.stressOk hsv⟩
  obtain ⟨r', hr'⟩ := internalForces_exist (nGauss := nGauss) hp (mat := mat') (old := old') (rule := rule)
    (X := fun a i => l * X a i) hu' (by
      intro g hg
      obtain ⟨si, ni, -, -, hdone⟩ := hd g hg
      obtain ⟨J, hJ⟩ := hdone.deriv
      obtain ⟨hJ0, -⟩ := evalShapefunDeriv_inv hJ
      obtain ⟨s, s', -, hs', -, hrest⟩ := hup g hg
      refine ⟨c g, w g, s', hdone.point,
        by rw [jacobian_unit_det]; exact mul_ne_zero (pow_ne_zero _ hl.ne') hJ0, hs', ?_⟩
      intro d' J' det' inc' h1 h2
      obtain ⟨_, new', rest, -, h3, -, h4⟩ := hrest d' J' det' inc' h1 h2
      exact ⟨new', rest, h3, h4⟩)
  refine ⟨r', hr', ?_⟩
  obtain ⟨-, c', w', d', det', s', new', stress', b', hd', ho', hst', hsh', hq'⟩ := internalForces_ok hp hr'
  have hnew : ∀ g < nGauss, Option.Rel after (new g) (new' g) ∧ ∀ (a : Fin e.nNode) (i : Fin e.dim),
      b' g (a * e.dim + i) = k * l ^ (e.dim - 1) * b g (a * e.dim + i) := by
    intro g hg
    obtain ⟨si, ni, -, hni, hdone⟩ := hd g hg
    obtain ⟨si', ni', -, hni', hdone'⟩ := hd' g hg
    obtain ⟨J, hJ⟩ := hdone.deriv
    obtain ⟨J', hJ'⟩ := hdone'.deriv
    have hpt := hdone.point.symm.trans hdone'.point
    simp only [Option.some.injEq, Prod.mk.injEq] at hpt
    obtain ⟨hc, hw⟩ := hpt
    rw [← hc] at hJ'
    obtain ⟨hdet, hdt⟩ := deriv_unit hl.ne' hJ hJ'
    obtain ⟨hJ0, -, hds, -⟩ := evalShapefunDeriv_inv hJ
    obtain ⟨-, -, hds', -⟩ := evalShapefunDeriv_inv hJ'
    obtain ⟨gr, v, inc, rest, hgr, hv, hinc, hupd⟩ := hdone'.update
    obtain ⟨s1, s2, -, hs2, -, hrest⟩ := hup g hg
    have hs2' := hs2.symm.trans hdone'.oldState
    cases hs2'
    obtain ⟨ni2, new2, rest2, hni2, hu2, htn, -⟩ :=
      hrest _ _ _ inc hJ' (incStrain_same hco hds' hu' hgr hv hinc)
    rw [hni] at hni2
    cases hni2
    have := hu2.symm.trans hupd
    cases this
    refine ⟨by rw [hni, hni']; exact .some htn, fun a i => ?_⟩
    obtain ⟨_, sv, _, _, hsv, _⟩ := hdone.force
    obtain ⟨_, sv', _, _, hsv', _⟩ := hdone'.force
    have hsy := vgetTensorFromMf_isSym hco hdone.stressOk hsv
    have hsy' := vgetTensorFromMf_isSym hco hdone'.stressOk hsv'
    obtain ⟨t1, ht1, hts1⟩ := fromMf_of_v hco hdone.stressOk hsv
    obtain ⟨t2, ht2, hts2⟩ := fromMf_of_v hco hdone'.stressOk hsv'
    have hstress := hmat.stress _ _ _ _ htn ht1 ht2
    rw [SameTensor_tens2 hts1 hsy.1, SameTensor_tens2 hts2 hsy'.1] at hstress
    rw [gp_force hco hdone' hds' hsy' a i, gp_force hco hdone hds hsy a i, hdet, ← hw]
    have hdim : l ^ e.dim = l * l ^ (e.dim - 1) := by
      rw [← pow_succ']
      congr 1
      have : 0 < e.dim := i.pos
      omega
    have hsum : ∑ q : Fin e.dim, tens2 e.dim (stress' g) i q * (d' g).val [a, q] =
        k / l * ∑ q : Fin e.dim, tens2 e.dim (stress g) i q * (d g).val [a, q] := by
      rw [Finset.mul_sum]
      refine Finset.sum_congr rfl fun q _ => ?_
      rw [hstress, hdt]
      field_simp
    rw [hsum, hdim]
    field_simp
  constructor
  · intro g
    rw [hst, hst']
    by_cases hg : 1 ≤ g ∧ g ≤ nGauss
    · rw [if_pos hg, if_pos hg]
      exact .some (hnew (g - 1) (by omega)).1
    · rw [if_neg hg, if_neg hg]
      have := hold g
      generalize old g = o at this ⊢
      generalize old' g = o' at this ⊢
      cases this with
      | some _ => exact .some .none
      | none => exact .none
  · intro a i
    rw [hq', hq, Finset.mul_sum]
    exact Finset.sum_congr rfl fun g hg => (hnew g (Finset.mem_range.1 hg)).2 a i

/-! ## Loss -/

/-- **C146.** Without normalisation the loss, of either type, is a force squared. -/
theorem C146_loss {N n : ℕ} (cfg : LossConfig n) (hs : cfg.scaler = none) (c : ℝ) (Fi Fe R : NodeMat N n ℝ)
    (bc : NodeMat N n ℤ) :
    vLoss cfg (fun a i => c * Fi a i) (fun a i => c * Fe a i) (fun a i => c * R a i) bc =
      (vLoss cfg Fi Fe R bc).map fun x => c ^ 2 * x := by
  have hr : ∀ a i, setResidual (fun a i => c * Fi a i) (fun a i => c * Fe a i) (fun a i => c * R a i) bc a i =
      c * setResidual Fi Fe R bc a i := by
    intro a i
    unfold setResidual
    ring
  unfold vLoss
  simp only [normForces, hs]
  cases cfg.lossType with
  | pointwise =>
    simp only [Except.map, pointwiseLoss, Finset.mul_sum]
    congr 1
    refine Finset.sum_congr rfl fun a _ => Finset.sum_congr rfl fun i _ => ?_
    split <;> ring
  | dirichletSets =>
    dsimp only
    split
    · rfl
    · simp only [Except.map, freeLoss, setsLoss, hr]
      congr 1
      rw [mul_add, Finset.mul_sum, Finset.mul_sum]
      congr 1
      · refine Finset.sum_congr rfl fun a _ => ?_
        rw [Finset.mul_sum]
        exact Finset.sum_congr rfl fun i _ => by ring
      · refine Finset.sum_congr rfl fun s _ => ?_
        rw [← mul_pow]
        congr 1
        rw [Finset.mul_sum]
        refine Finset.sum_congr rfl fun a _ => ?_
        rw [Finset.mul_sum]
        exact Finset.sum_congr rfl fun i _ => by ring

/-- **C146.** With normalisation, if the bounds of the forces are in the same unit, the loss is a plain
number. -/
theorem C146_loss_normalised {N n : ℕ} (type : LossType) (mn mx : Fin n → ℝ) {c : ℝ} (hc : c ≠ 0)
    (Fi Fe R : NodeMat N n ℝ) (bc : NodeMat N n ℤ) :
    vLoss ⟨type, some (fun i => c * mn i, fun i => c * mx i)⟩ (fun a i => c * Fi a i) (fun a i => c * Fe a i)
        (fun a i => c * R a i) bc = vLoss ⟨type, some (mn, mx)⟩ Fi Fe R bc := by
  have hf : ∀ a b x : ℝ, forceScale (c * a) (c * b) (c * x) = forceScale a b x := by
    intro a b x
    unfold forceScale
    rw [← mul_sub, ← mul_sub, div_mul_eq_mul_div, div_mul_eq_mul_div, mul_left_comm, mul_div_mul_left _ _ hc]
  unfold vLoss
  simp only [normForces, hf]

/-! ## Violations -/

theorem unitLaw_linear (k s0 a : ℝ) : unitLaw k (linearHardening s0 a) = linearHardening (k * s0) (k * a) := by
  funext x
  simp only [unitLaw, linearHardening, Prod.mk.injEq, and_true]
  ring

theorem lame_mul (k E v : ℝ) : lame (k * E) v = k * lame E v := lamOf_mul k E v

theorem shear_mul (k E v : ℝ) : shear (k * E) v = k * shear E v := miuOf_mul k E v

theorem vm6_unit {k : ℝ} (hk : 0 < k) (x : V6) : vm6 (fun i => k * x i) = k * vm6 x := by
  rw [vm6_eq, vm6_eq, dev6_mul, unitNorm hk]
  ring

theorem trialElastic_unit {p : PType} {k : ℝ} (hk : 0 < k) (E v : ℝ) (law : HardLaw) (old : VMState p)
    (inc : T2 p.dim) :
    TrialElastic (k * E) v (unitLaw k law) (unitVM p k old) inc ↔ TrialElastic E v law old inc := by
  unfold TrialElastic
  have ht : trial3D (unitVM p k old) inc = trial3D old inc := rfl
  rw [ht, lame_mul, shear_mul, hooke6_mul, vm6_unit hk]
  exact ratio_unit hk _ _

/-- **C146 is violated for units in which the trial stress is tiny.** For every plastic step with linear
hardening there is a unit of stress from which on the stress is not returned: the accumulated plastic strain
grows as in the first unit, but the stress stays at the trial stress, outside the yield surface. -/
theorem C146_tiny_violated {p : PType} {E v s0 a : ℝ} (hA : Admissible E v) (ha : 0 ≤ a) (hs : 2e-8 ≤ s0)
    {inc : T2 p.dim} {old : VMState p} (hacc : 0 ≤ old.acc)
    (hne : ¬ TrialElastic E v (linearHardening s0 a) old inc) {k : ℝ} (hk : 0 < k)
    (htiny : k * norm6 (dev6 (hooke6 (lame E v) (shear E v) (trial3D old inc))) ≤ 1e-8) :
    ∃ new new' T T', vmUpdate p E v (linearHardening s0 a) inc old = (.good new, T) ∧
      vmUpdate p (k * E) v (linearHardening (k * s0) (k * a)) inc (unitVM p k old) = (.good new', T') ∧
      new'.acc = new.acc ∧ old.acc < new.acc ∧ vm6 (stress3D new) = s0 + a * new.acc ∧
      k * (s0 + a * new.acc) < vm6 (stress3D new') := by
  obtain ⟨new, T, h1, -, h3, h4, h5⟩ := C32_linear_exact hA ha hs hacc hne
  have hG := hA.shear_pos
  have hs0 : 0 < s0 := lt_of_lt_of_le (by norm_num) hs
  have hlaw : (linearHardening s0 a old.acc).1 = s0 + a * old.acc := by
    simp only [linearHardening, relu, max_eq_left hacc]
  have hge : 2e-8 ≤ (linearHardening s0 a old.acc).1 := by
    rw [hlaw]
    have := mul_nonneg ha hacc
    linarith
  obtain ⟨-, hq⟩ := trial_dev_large hge hne
  rw [hlaw] at hq hge
  have hq' : s0 + a * old.acc < vm6 (hooke6 (lame E v) (shear E v) (trial3D old inc)) := by
    have : 0 < s0 + a * old.acc := lt_of_lt_of_le (by norm_num) hge
    nlinarith
  have htr : trial3D (unitVM p k old) inc = trial3D old inc := rfl
  have hao : (unitVM p k old).acc = old.acc := rfl
  have hvm : vm6 (hooke6 (lame (k * E) v) (shear (k * E) v) (trial3D (unitVM p k old) inc)) =
      k * vm6 (hooke6 (lame E v) (shear E v) (trial3D old inc)) := by
    rw [htr, lame_mul, shear_mul, hooke6_mul, vm6_unit hk]
  have hn := newton_linear (n := suMaxIter) (G := shear (k * E) v) (acc := old.acc) (s0 := k * s0) (a := k * a)
    (q := k * vm6 (hooke6 (lame E v) (shear E v) (trial3D old inc))) (by decide)
    (by rw [shear_mul]; positivity) (by positivity) (by positivity) hacc (by nlinarith)
  have hsome : vmReturn (k * E) v (linearHardening (k * s0) (k * a)) (trial3D (unitVM p k old) inc)
      (unitVM p k old).acc ≠ none := by
    intro hnone
    have := (vmReturn_none.mp hnone).2
    rw [hvm, hao, hn] at this
    cases this
  have hne' : ¬ TrialElastic (k * E) v (linearHardening (k * s0) (k * a)) (unitVM p k old) inc := by
    rw [← unitLaw_linear, trialElastic_unit hk]
    exact hne
  obtain ⟨new', T', hu⟩ : ∃ new' T',
      vmUpdate p (k * E) v (linearHardening (k * s0) (k * a)) inc (unitVM p k old) = (.good new', T') := by
    cases hu : vmUpdate p (k * E) v (linearHardening (k * s0) (k * a)) inc (unitVM p k old) with
    | mk st T =>
      cases st with
      | good s => exact ⟨s, T, rfl⟩
      | nan s => exact absurd (vmUpdate_nan.mp ⟨s, T, hu⟩) hsome
  have hpl : new'.isPlast = true := by
    have := (C28_success hu).2.2.1
    cases hp : new'.isPlast with
    | true => rfl
    | false => exact absurd (this.mp hp) hne'
  obtain ⟨r, hr', -, g2, g3, g4, -⟩ := vmUpdate_good hu
  obtain ⟨hst, hc⟩ := vmReturn_cases hr'
  rw [← g4, hpl] at hc
  rcases hc with ⟨hf, -⟩ | ⟨-, -, x, hx, hxa, he⟩
  · cases hf
  rw [hvm, hao, hn] at hx
  cases hx
  have hsm : ¬ norm6 (dev6 (hooke6 (lame (k * E) v) (shear (k * E) v) (trial3D (unitVM p k old) inc))) >
      suSmall := by
    rw [htr, lame_mul, shear_mul, hooke6_mul, dev6_mul, unitNorm hk]
    exact not_lt.2 htiny
  have hel : r.eStrain = trial3D old inc := by
    rw [he, vmFlow_zero hsm]
    simp only [mul_zero, sub_zero, htr]
  have hx : (k * vm6 (hooke6 (lame E v) (shear E v) (trial3D old inc)) - (k * s0 + k * a * old.acc)) /
      (3 * shear (k * E) v + k * a) = (vm6 (hooke6 (lame E v) (shear E v) (trial3D old inc)) -
        (s0 + a * old.acc)) / (3 * shear E v + a) := by
    rw [shear_mul, show k * vm6 (hooke6 (lame E v) (shear E v) (trial3D old inc)) - (k * s0 + k * a * old.acc) =
      k * (vm6 (hooke6 (lame E v) (shear E v) (trial3D old inc)) - (s0 + a * old.acc)) by ring,
      show 3 * (k * shear E v) + k * a = k * (3 * shear E v + a) by ring, mul_div_mul_left _ _ hk.ne']
  refine ⟨new, new', T, T', h1, hu, by rw [g3, hxa, hao, hx, h3], h4, h5, ?_⟩
  rw [g2, hst, hel, lame_mul, shear_mul, hooke6_mul, vm6_unit hk, h3]
  refine mul_lt_mul_of_pos_left ?_ hk
  have hD : 0 < 3 * shear E v + a := by linarith
  have hpos : 0 < (vm6 (hooke6 (lame E v) (shear E v) (trial3D old inc)) - (s0 + a * old.acc)) /
      (3 * shear E v + a) := div_pos (by linarith) hD
  have heq : (vm6 (hooke6 (lame E v) (shear E v) (trial3D old inc)) - (s0 + a * old.acc)) /
      (3 * shear E v + a) * (3 * shear E v + a) =
      vm6 (hooke6 (lame E v) (shear E v) (trial3D old inc)) - (s0 + a * old.acc) := div_mul_cancel₀ _ hD.ne'
  nlinarith [mul_pos hpos hG]

/-- **C146 is violated for the batched von Mises model.** A plastic shear: in every other unit of stress the
accumulated plastic strain is the same and the stress is another one, however large the yield stress is. -/
theorem C146_batched_violated {E v s0 a g k : ℝ} (hA : Admissible E v) (ha : 0 ≤ a) (hk : 0 < k)
    (hs : WellAbove k s0) (hg : 0 < g) (hk1 : k ≠ 1)
    (hne : ¬ TrialElastic E v (linearHardening s0 a) (vmInit .solid) (xyShear g)) :
    ∃ s s' T T', vmapUpdate .solid E v (linearHardening s0 a) (xyShear g) (vmInit .solid) = (.good s, T) ∧
      vmapUpdate .solid (k * E) v (linearHardening (k * s0) (k * a)) (xyShear g) (vmInit .solid) =
        (.good s', T') ∧ s'.acc = s.acc ∧ s'.stress ≠ fun i => k * s.stress i := by
  have hG := hA.shear_pos
  have hA' : Admissible (k * E) v := ⟨mul_pos hk hA.young, hA.lower, hA.upper⟩
  have hinit : unitVM .solid k (vmInit .solid) = vmInit .solid := by
    simp only [vmInit, unitVM, Pi.zero_apply, mul_zero]
    rfl
  have hne' : ¬ TrialElastic (k * E) v (linearHardening (k * s0) (k * a)) (vmInit .solid) (xyShear g) := by
    rw [← unitLaw_linear, ← hinit, trialElastic_unit hk]
    exact hne
  obtain ⟨s, T, h1, h2, h3, h4, h5⟩ := xyShear_batched hA ha hs.1 hne
  obtain ⟨s', T', h1', h2', h3', h4', h5'⟩ := xyShear_batched hA' (mul_nonneg hk.le ha) hs.2 hne'
  set y := 2 * shear E v * (√2 * g) with hy
  have hy' : 2 * shear (k * E) v * (√2 * g) = k * y := by rw [hy, shear_mul]; ring
  have hyp : 0 < y := by
    rw [hy]
    have : 0 < √(2 : ℝ) := by positivity
    positivity
  have hacc : s'.acc = s.acc := by
    rw [h2, h2', hy', shear_mul, abs_mul, abs_of_pos hk,
      show √(3 / 2) * (k * |y|) - k * s0 = k * (√(3 / 2) * |y| - s0) by ring,
      show 3 * (k * shear E v) + k * a = k * (3 * shear E v + a) by ring, mul_div_mul_left _ _ hk.ne']
  refine ⟨s, s', T, T', h1, h1', hacc, fun hc => ?_⟩
  have h6 : s'.stress 3 = k * s.stress 3 := congrFun hc 3
  rw [h5, h5', hacc, hy', shear_mul] at h6
  have hsm : (0 : ℝ) < suSmall := by unfold suSmall; norm_num
  have hM : ∀ z : ℝ, norm6 (fun k => (![0, 0, 0, z, 0, 0] : V6) k + suSmall) ^ 2 =
      z ^ 2 + 2 * suSmall * z + 6 * suSmall ^ 2 := by
    intro z
    rw [norm6_add_small (by simp [tr6]), xyShear_norm, sq_abs]
    simp
  have hM0 : ∀ z : ℝ, 0 < norm6 (fun k => (![0, 0, 0, z, 0, 0] : V6) k + suSmall) := by
    intro z
    refine lt_of_le_of_ne (norm6_nonneg _) fun h0 => ?_
    have := hM z
    rw [← h0] at this
    nlinarith [sq_nonneg (z + suSmall), sq_nonneg suSmall, mul_pos hsm hsm]
  have p1 := hM y
  have p2 := hM (k * y)
  have q1 := hM0 y
  have q2 := hM0 (k * y)
  generalize norm6 (fun k => (![0, 0, 0, y, 0, 0] : V6) k + suSmall) = m1 at *
  generalize norm6 (fun i => (![0, 0, 0, k * y, 0, 0] : V6) i + suSmall) = m2 at *
  have h7 : k * (√(3 / 2) / m2) = √(3 / 2) / m1 := by
    have hk : k * y * (s.acc * (2 * shear E v)) * (k * (√(3 / 2) / m2)) =
        k * y * (s.acc * (2 * shear E v)) * (√(3 / 2) / m1) := by linear_combination -h6
    exact mul_left_cancel₀ (by positivity) hk
  have h8 : m2 = k * m1 := by
    have : √(3 / 2 : ℝ) ≠ 0 := by positivity
    field_simp at h7
    linarith
  rw [h8, mul_pow, p1] at p2
  have h9 : suSmall * ((1 - k) * (2 * k * y + 6 * suSmall * (1 + k))) = 0 := by linear_combination -p2
  rcases mul_eq_zero.mp h9 with h | h
  · exact hsm.ne' h
  · rcases mul_eq_zero.mp h with h | h
    · exact hk1 (by linarith)
    · nlinarith [mul_pos hk hyp, mul_pos hsm hk]

/-! ## Concrete cases -/

/-- A material given in MPa and in kPa: every history. -/
example (incs : List (T2 3)) :
    vmRun .solid (1000 * 100) 0.3 (linearHardening (1000 * 5) (1000 * 2)) incs =
      unitVMVars .solid 1000 (vmRun .solid 100 0.3 (linearHardening 5 2) incs) := by
  rw [← unitLaw_linear]
  refine C146_von_mises (by norm_num) _ _ _ _ fun pre inc s _ _ => ?_
  have : (0 : ℝ) ≤ relu s.acc := le_max_right _ _
  constructor
  · simp only [linearHardening]
    norm_num
    linarith
  · simp only [linearHardening]
    norm_num
    linarith

/-- The same with mixed hardening. -/
example (incs : List (T2 3)) :
    mixRun .solid (1000 * 100) 0.3 (linearHardening (1000 * 5) (1000 * 2)) (linearHardening (1000 * 0) (1000 * 3))
      incs = unitMixVars .solid 1000 (mixRun .solid 100 0.3 (linearHardening 5 2) (linearHardening 0 3) incs) := by
  rw [← unitLaw_linear, ← unitLaw_linear]
  refine C146_mixed (by norm_num) _ _ _ _ _ fun pre inc s _ _ => ?_
  have : (0 : ℝ) ≤ relu s.acc := le_max_right _ _
  constructor
  · simp only [linearHardening]
    norm_num
    linarith
  · simp only [linearHardening]
    norm_num
    linarith

/-- A four-node element in metres and pascals, and in millimetres and megapascals. -/
example (u : Tensor) (hu : u.shape = [4, 2]) :
    ∃ rule r r', ElementType.quad4.init 4 = .ok rule ∧
      computeElementInternalForces .infinitesimal 1 .quad4 rule.length rule
        (libraryMaterial .plane (elasticGood .plane fun k => if k = .E then some 100 else some 0.3)
          ElasticState.stress) (fun _ => some (elasticInitState .plane)) ElementType.quad4.nodes u = .ok r ∧
      computeElementInternalForces .infinitesimal 1 .quad4 rule.length rule
        (libraryMaterial .plane (elasticGood .plane fun k => if k = .E then some (1e-6 * 100) else some 0.3)
          ElasticState.stress) (fun _ => some (elasticInitState .plane))
        (fun a i => 1000 * ElementType.quad4.nodes a i)
        ⟨[4, 2], fun idx => 1000 * u.val idx⟩ = .ok r' ∧
      ∀ (a : Fin 4) (i : Fin 2), r'.forces.val [a * 2 + i] = 1e-3 * r.forces.val [a * 2 + i] := by
  obtain ⟨rule, hr, -⟩ := (C14_element_init .quad4 4).1 (by simp [ElementType.admissibleGauss])
  obtain ⟨r, h⟩ := C19_returns (p := 1) (e := .quad4) (co := [[1,1],[2,2],[1,2]])
    (mat := libraryMaterial .plane (elasticGood .plane fun k => if k = .E then some 100 else some 0.3)
      ElasticState.stress) (old := fun _ => some (elasticInitState .plane)) (X := ElementType.quad4.nodes)
    (rule := rule) (by rfl) hu (fun c _ _ => reference_jacobian .quad4 c) (fun _ _ => rfl)
    (fun inc s => ⟨_, _, rfl, rfl⟩)
  obtain ⟨r', h', -, hf⟩ := C146_element_forces (e := .quad4) (p := 1) (by rfl) hu
    (u' := ⟨[4, 2], fun idx => 1000 * u.val idx⟩) rfl (k := 1e-6) (l := 1000) (by norm_num)
    (C146_materials (p := .plane) (k := 1e-6) (by norm_num) 100 0.3 (linearHardening 1 1) (linearHardening 1 1)
      (d := fun k => if k = .E then some 100 else some 0.3)
      (d' := fun k => if k = .E then some (1e-6 * 100) else some 0.3) rfl rfl rfl rfl).2.2
    (fun a i => rfl) (old' := fun _ => some (elasticInitState .plane))
    (fun _ => .some ⟨by
      simp only [unitElastic, elasticInitState, Pi.zero_apply, mul_zero]
      rfl, trivial⟩) h
  refine ⟨rule, r, r', hr, h, h', fun a i => ?_⟩
  refine (hf a i).trans ?_
  have e : (1e-6 : ℝ) * 1000 ^ (ElementType.quad4.dim - 1) = 1e-3 := by
    show (1e-6 : ℝ) * 1000 ^ (2 - 1) = 1e-3
    norm_num
  rw [e]
  rfl

/-- Unbalanced forces. -/
example : vLoss (N := 1) (n := 2) ⟨.pointwise, none⟩ (fun _ i => 10 * (![3, 4] : Fin 2 → ℝ) i) (fun _ _ => 10 * 0)
    (fun _ _ => 10 * 0) 0 = .ok 2500 := by
  refine (C146_loss ⟨.pointwise, none⟩ rfl 10 (fun _ => ![3, 4]) (fun _ _ => 0) (fun _ _ => 0) 0).trans ?_
  simp only [vLoss, pointwiseLoss, normForces, Except.map]
  norm_num

/-- A plastic step and a unit in which it goes wrong. -/
example : ∃ k : ℝ, 0 < k ∧
    k * norm6 (dev6 (hooke6 (lame 1 0) (shear 1 0) (trial3D (vmInit .solid) (uniInc 3)))) ≤ 1e-8 := by
  refine ⟨1e-8 / (1 + norm6 (dev6 (hooke6 (lame 1 0) (shear 1 0) (trial3D (vmInit .solid) (uniInc 3))))),
    ?_, ?_⟩
  · have := norm6_nonneg (dev6 (hooke6 (lame 1 0) (shear 1 0) (trial3D (vmInit .solid) (uniInc 3))))
    positivity
  · have := norm6_nonneg (dev6 (hooke6 (lame 1 0) (shear 1 0) (trial3D (vmInit .solid) (uniInc 3))))
    rw [div_mul_eq_mul_div, div_le_iff₀ (by positivity)]
    nlinarith

end Hooke
