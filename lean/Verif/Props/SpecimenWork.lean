import Verif.Spec.SpecimenWork
import Verif.Props.ElasticElement
import Verif.Props.Dissipation

/-!
# C158: no specimen gives energy
-/

noncomputable section

namespace Hooke

open Spec

/-! ## One element -/

theorem passive_increment {σ : Type} {pt n : ℕ} {e : ElementType} (hn : e.dim = n) {co cn : List Comp}
    (hp : getProblemTypeParameters pt = .ok (n, co, cn)) {rule : GaussRule e.dim} {mat : Material σ}
    {inv : σ → Prop} {energy : σ → ℝ} (hmat : Passive mat n co inv energy)
    {X : Fin e.nNode → Fin e.dim → ℝ}
    (hw : ∀ c w, (c, w) ∈ rule → 0 ≤ w * (e.jacobian X c).det) {u : Tensor} (hu : u.shape = [e.nNode, e.dim])
    {old : GpDict σ} {r : IFState σ} (hold : ∀ g < rule.length, ∀ s, old (g + 1) = some s → inv s)
    (h : computeElementInternalForces .infinitesimal pt e rule.length rule mat old X u = .ok r) :
    (∀ g < rule.length, ∀ s, carriedState r.state (g + 1) = some s → inv s) ∧
    elementEnergy energy e rule X (carriedState r.state) - elementEnergy energy e rule X old ≤
      nodalDot e.nNode e.dim r.forces u := by
  subst hn
  have hco := (problemType_orders_complete hp).1
  obtain ⟨-, wt, det, dd, stress, hg, hvw⟩ := C18_virtual_work hp h
  have hpoint : ∀ g : Fin rule.length, ∃ s new, old (g + 1) = some s ∧
      carriedState r.state (g + 1) = some new ∧ inv new ∧
      wt g * det g = rule[g].2 * (e.jacobian X rule[g].1).det ∧
      energy new - energy s ≤ ∑ i ∈ Finset.range e.dim, ∑ j ∈ Finset.range e.dim,
        (stress g).val [i, j] * (strainTensor e.nNode e.dim (dd g) u).val [i, j] := by
    intro g
    obtain ⟨c, J, new, t, hr, hJ, hdet, hn1, ht, hts⟩ := hg g g.2
    obtain ⟨-, c', w', dd', det', s', new', stress', b, hd, ho, hst, hsh, hq⟩ := internalForces_ok hp h
    obtain ⟨si, ni, -, hni, hdone⟩ := hd g g.2
    have hcw := hdone.point
    rw [hr] at hcw
    simp only [Option.some.injEq, Prod.mk.injEq] at hcw
    obtain ⟨hc, -⟩ := hcw
    obtain ⟨J', hJ'⟩ := hdone.deriv
    rw [← hc, hJ] at hJ'
    simp only [Except.ok.injEq, Prod.mk.injEq] at hJ'
    obtain ⟨gr, vv, inc, rest, hgr, hvv, hinc, hup⟩ := hdone.update
    rw [← hJ'.1] at hgr
    have hds := (evalShapefunDeriv_inv hJ).2.2.1
    have hsame := incStrain_same hco hds hu hgr hvv hinc
    have hnew : ni = new := by
      rw [hst, if_pos (by omega), Nat.add_sub_cancel, hni] at hn1
      simpa using hn1
    rw [hnew] at hup
    obtain ⟨h1, h2⟩ := hmat.update inc si new rest t (SameTensor_isSym2 hsame (strainTensor_isSym _ _ _ _))
      (hold g g.2 si hdone.oldState) hup ht
    have hr' : rule[g] = (c, wt g) := by
      rw [List.getElem?_eq_getElem g.2] at hr
      exact Option.some.inj hr
    refine ⟨si, new, hdone.oldState, by simp only [carriedState, hn1, Option.join_some], h1,
      by rw [hr', hdet], h2.trans_eq ?_⟩
    have hsym : t.shape = [e.dim, e.dim] := by
      obtain ⟨_, sv, _, _, hsv, _⟩ := hdone.force
      obtain ⟨t1, ht1, hts1⟩ := fromMf_of_v hco hdone.stressOk hsv
      rw [hnew] at ht1
      have := ht.symm.trans ht1
      cases this
      rw [hts1.1]
      exact (vgetTensorFromMf_isSym hco hdone.stressOk hsv).1
    rw [Finset.sum_range]
    refine Finset.sum_congr rfl fun i _ => ?_
    rw [Finset.sum_range]
    refine Finset.sum_congr rfl fun j _ => ?_
    rw [SameTensor_tens2 hsame rfl, SameTensor_tens2 hts (hts.1 ▸ hsym)]
    rfl
  refine ⟨fun g hg s hs => ?_, ?_⟩
  · obtain ⟨s0, new, -, h2, h3, -⟩ := hpoint ⟨g, hg⟩
    have := hs.symm.trans h2
    cases this
    exact h3
  · rw [hvw u hu, elementEnergy, elementEnergy, ← Finset.sum_sub_distrib, Finset.sum_range]
    refine Finset.sum_le_sum fun g _ => ?_
    obtain ⟨s0, new, h1, h2, -, h4, h5⟩ := hpoint g
    rw [h1, h2, h4, ← mul_sub]
    exact mul_le_mul_of_nonneg_left h5 (hw rule[g].1 rule[g].2 (List.getElem_mem _))

/-- **C158.** The work done on an element of a passive material along every history is at least the increase
of the energy stored at its Gauss points. -/
theorem C158_element {σ : Type} {pt n : ℕ} {e : ElementType} (hn : e.dim = n) {co cn : List Comp}
    (hp : getProblemTypeParameters pt = .ok (n, co, cn)) {rule : GaussRule e.dim} {mat : Material σ}
    {inv : σ → Prop} {energy : σ → ℝ} (hmat : Passive mat n co inv energy)
    {X : Fin e.nNode → Fin e.dim → ℝ}
    (hw : ∀ c w, (c, w) ∈ rule → 0 ≤ w * (e.jacobian X c).det) {us : List Tensor}
    (hus : ∀ u ∈ us, u.shape = [e.nNode, e.dim]) {old st : GpDict σ} {fs : List Tensor}
    (hold : ∀ g < rule.length, ∀ s, old (g + 1) = some s → inv s)
    (h : elementForcesOverTime .infinitesimal pt e rule.length rule mat X us old = .ok (fs, st)) :
    fs.length = us.length ∧ (∀ g < rule.length, ∀ s, st (g + 1) = some s → inv s) ∧
    elementEnergy energy e rule X st - elementEnergy energy e rule X old ≤ elementWork e.nNode e.dim fs us := by
  induction us generalizing old fs st with
  | nil =>
    simp only [elementForcesOverTime, Except.ok.injEq, Prod.mk.injEq] at h
    obtain ⟨rfl, rfl⟩ := h
    exact ⟨rfl, hold, by simp [elementWork]⟩
  | cons u us ih =>
    unfold elementForcesOverTime at h
    obtain ⟨r, hr, h⟩ := bind_ok h
    obtain ⟨⟨fs', st'⟩, hrest, h⟩ := bind_ok h
    simp only [pure, Except.pure, Except.ok.injEq, Prod.mk.injEq] at h
    obtain ⟨rfl, rfl⟩ := h
    obtain ⟨h1, h2⟩ := passive_increment hn hp hmat hw (hus u List.mem_cons_self) hold hr
    obtain ⟨h3, h4, h5⟩ := ih (fun u' hu' => hus u' (List.mem_cons_of_mem _ hu')) h1 hrest
    refine ⟨by simp [h3], h4, ?_⟩
    have e1 : elementWork e.nNode e.dim (r.forces :: fs') (u :: us) =
        nodalDot e.nNode e.dim r.forces u + elementWork e.nNode e.dim fs' us := by
      simp [elementWork, nodalDot]
    rw [e1]
    linarith

/-- Stored energy is not negative. -/
theorem elementEnergy_nonneg {σ : Type} {e : ElementType} {rule : GaussRule e.dim} {mat : Material σ} {n : ℕ}
    {co : List Comp} {inv : σ → Prop} {energy : σ → ℝ} (hmat : Passive mat n co inv energy)
    {X : Fin e.nNode → Fin e.dim → ℝ} (hw : ∀ c w, (c, w) ∈ rule → 0 ≤ w * (e.jacobian X c).det)
    {st : GpDict σ} (hst : ∀ g < rule.length, ∀ s, st (g + 1) = some s → inv s) :
    0 ≤ elementEnergy energy e rule X st := by
  refine Finset.sum_nonneg fun g _ => mul_nonneg (hw rule[g].1 rule[g].2 (List.getElem_mem _)) ?_
  cases hs : st (g + 1) with
  | none => simp
  | some s => simpa using hmat.nonneg s (hst g g.2 s hs)

/-! ## Materials of the library -/

/-- Work of a stress vector on a strain increment, in three dimensions and in the components of the problem. -/
theorem inner6_increment (p : PType) (x : Vmf p) (s33 : ℝ) {inc : T2 p.dim} (h : IsSymP p inc) :
    inner6 (to3D p x s33) (increment3D p inc) = ∑ i, ∑ j, unmf p x i j * inc i j := by
  have hq : (√2 : ℝ) = 2 * (√2)⁻¹ := by
    have h2 : (√2 : ℝ) ≠ 0 := by positivity
    rw [eq_mul_inv_iff_mul_eq₀ h2]
    exact Real.mul_self_sqrt (by norm_num)
  cases p with
  | plane =>
    have h10 := h 1 0
    simp [inner6, increment3D, to3D, mf, unmf, Fin.sum_univ_six, Fin.sum_univ_two, h10, div_eq_mul_inv]
    linear_combination (x 2 * inc 0 1) * hq
  | solid =>
    have h10 := h 1 0
    have h20 := h 2 0
    have h21 := h 2 1
    simp [inner6, increment3D, to3D, mf, unmf, Fin.sum_univ_six, Fin.sum_univ_three, h10, h20, h21, kel6,
      unkel6, pos6, ci, cj, kf]
    linear_combination (x 3 * inc 0 1 + x 4 * inc 1 2 + x 5 * inc 0 2) * hq

theorem library_passive {S : Type} {p : PType} {step : T2 p.dim → S → Option S} {stress : S → Vmf p}
    {inv : S → Prop} {energy : S → ℝ}
    (hstep : ∀ inc s new, IsSymP p inc → inv s → step inc s = some new → inv new ∧
      energy new - energy s ≤ ∑ i, ∑ j, unmf p (stress new) i j * inc i j)
    (hnn : ∀ s, inv s → 0 ≤ energy s) :
    Passive (libraryMaterial p step stress) p.dim (kelvinOrder p) inv energy where
  update := by
    intro inc s new rest t hi hs h ht
    have hsym : IsSymP p (tens2 p.dim inc) := fun i j => hi.2 i i.2 j j.2
    simp only [libraryMaterial] at h
    cases hst : step (tens2 p.dim inc) s with
    | none =>
      rw [hst] at h
      cases h
    | some n =>
      rw [hst] at h
      cases h
      rw [vmfTensor_tensor p _ ht]
      exact hstep _ _ _ hsym hs hst
  nonneg := hnn

/-- Stored energy of the von Mises model: elastic energy and, up to the yield tolerance, the initial yield
stress times the accumulated plastic strain. -/
def Spec.vmEnergy {p : PType} (law : HardLaw) (s : VMState p) : ℝ :=
  storedEnergy s + (1 - 1e-6) * (law 0).1 * s.acc

/-- Elastic energy of a state of the elastic model. -/
def Spec.elasticEnergy {p : PType} (s : ElasticState p) : ℝ :=
  1 / 2 * ∑ i, ∑ j, unmf p s.stress i j * unmf p s.eStrain i j

/-- **C158.** The von Mises model with a yield stress which does not decrease is passive: the energy that is
never given back contains the initial yield stress times the accumulated plastic strain. -/
theorem C158_von_mises {p : PType} {E v : ℝ} (hA : Admissible E v) {law : HardLaw}
    (hm : NonSoftening law) (hpos : ∀ x, 2e-8 ≤ (law x).1) :
    Passive (libraryMaterial p (vmGood p E v law) VMState.stress) p.dim (kelvinOrder p)
      (fun s => ∃ total, HistoryInvariant E v law total s) (vmEnergy law) := by
  have h0 : (0 : ℝ) < (law 0).1 := lt_of_lt_of_le (by norm_num) (hpos 0)
  refine library_passive ?_ ?_
  · rintro inc s0 s1 hi ⟨total, hinv⟩ hst
    unfold vmGood at hst
    cases hu : vmUpdate p E v law inc s0 with
    | mk st T =>
      rw [hu] at hst
      cases st with
      | nan sn => cases hst
      | good s =>
        cases hst
        have hi1 := history_step hA hm hpos hu hinv
        refine ⟨⟨_, hi1⟩, ?_⟩
        obtain ⟨hd, hd0⟩ := C140_von_mises hA hm hpos hu
        obtain ⟨-, -, -, -, -, -, -, h6, -⟩ := vmUpdate_good hu
        have hb := C140_balance hA (inc := inc) hinv.stress hi1.stress h6
        have hle : s0.acc ≤ s1.acc := by
          obtain ⟨ha, hb⟩ := C31_accumulated hA hm hpos hu
          cases hp : s1.isPlast with
          | true => exact (ha hp).le
          | false => exact (hb hp).ge
        have hlow : (1 - 1e-6) * (law 0).1 * (s1.acc - s0.acc) ≤ plasticWork s0 s1 := by
          have h2 := (abs_le.mp hd).1
          have h3 : (law 0).1 ≤ (law s1.acc).1 := hm 0 s1.acc hi1.acc
          have h4 := mul_le_mul_of_nonneg_right h3 (show 0 ≤ s1.acc - s0.acc by linarith)
          have h5 : (0 : ℝ) ≤ 1 - 1e-6 := by norm_num
          have h7 := mul_le_mul_of_nonneg_left h4 h5
          linarith [show (1e-6 : ℝ) * (law s1.acc).1 * (s1.acc - s0.acc) =
            1e-6 * ((law s1.acc).1 * (s1.acc - s0.acc)) by ring]
        rw [← inner6_increment p s1.stress s1.s33 hi]
        have hb' : inner6 (stress3D s1) (increment3D p inc) =
          inner6 (to3D p s1.stress s1.s33) (increment3D p inc) := rfl
        rw [← hb']
        unfold vmEnergy
        linarith
  · rintro s ⟨total, hinv⟩
    have h1 : 0 ≤ storedEnergy s := by
      unfold storedEnergy
      rw [hinv.stress]
      exact mul_nonneg (by norm_num) (inner6_hooke_nonneg hA _)
    exact add_nonneg h1 (mul_nonneg (mul_nonneg (by norm_num) h0.le) hinv.acc)

/-- **C158.** So is the Drucker-Prager model with linear cohesion hardening and a dilatancy not above the
friction; its stored energy is the elastic energy. -/
theorem C158_drucker_prager {p : PType} {m : DPParams} (hm : Frictional m) (hdil : m.etaf ≤ m.etay)
    {c0 a : ℝ} (hc : 1e-8 ≤ c0) (ha : 0 ≤ a) (hx : 1e-8 ≤ (m.xi - 1e-6) * c0) (hxe : 1e-6 * m.etay ≤ m.xi) :
    Passive (libraryMaterial p (dpGood p m (linearHardening c0 a)) fun s => s.stress) p.dim (kelvinOrder p)
      (fun s => 0 ≤ s.acc ∧
        stress3D s.toVMState = hooke6 (lame m.E m.v) (shear m.E m.v) (elastic3D s.toVMState))
      (fun s => storedEnergy s.toVMState) := by
  have hA := hm.elastic
  have hc0 : 0 < c0 := lt_of_lt_of_le (by norm_num) hc
  refine library_passive ?_ ?_
  · rintro inc s0 s1 hi ⟨hacc, hst⟩ hstep
    unfold dpGood at hstep
    cases hu : dpUpdate p m (linearHardening c0 a) inc s0 with
    | mk st T =>
      rw [hu] at hstep
      cases st with
      | nan sn => cases hstep
      | good s =>
        cases hstep
        have hle := dp_linear_acc hm ha hacc hu
        have hacc1 : 0 ≤ s1.acc := hacc.trans hle
        have hlaw : c0 ≤ (linearHardening c0 a s1.acc).1 := by
          rw [linear_nonneg hacc1]
          have := mul_nonneg ha hacc1
          simp only
          linarith
        have hst1 : stress3D s1.toVMState =
            hooke6 (lame m.E m.v) (shear m.E m.v) (elastic3D s1.toVMState) := by
          cases hp : s1.isPlast with
          | false => exact ((C36_elastic_step hu).2 hp).2.2.2
          | true =>
            cases hap : s1.isApex with
            | false => exact (C36_cone hA hu hp hap).2.2.1
            | true => exact (C36_apex hA hu hap).2.2.2.2.1
        have hx6 : 0 ≤ m.xi - 1e-6 := by
          by_contra hn
          have := mul_nonpos_of_nonpos_of_nonneg (not_le.mp hn).le hc0.le
          linarith [show (0 : ℝ) < 1e-8 by norm_num]
        have hd := C140_drucker_prager hm hdil (hc.trans hlaw)
          (hx.trans (mul_le_mul_of_nonneg_left hlaw hx6)) hxe hu hle
        obtain ⟨r, -, -, -, -, -, -, -, h7, -⟩ := dpUpdate_good hu
        have hb := C140_balance hA (inc := inc) hst hst1 h7
        refine ⟨⟨hacc1, hst1⟩, ?_⟩
        rw [← inner6_increment p s1.stress s1.s33 hi]
        have hb' : inner6 (stress3D s1.toVMState) (increment3D p inc) =
          inner6 (to3D p s1.stress s1.s33) (increment3D p inc) := rfl
        rw [← hb']
        linarith
  · rintro s ⟨-, hst⟩
    unfold storedEnergy
    rw [hst]
    exact mul_nonneg (by norm_num) (inner6_hooke_nonneg hA _)

/-- **C158.** So is the isotropic elastic model. -/
theorem C158_elastic {p : PType} {d : Props} {E v : ℝ} (hE : d .E = some E) (hv : d .v = some v)
    (hE0 : 0 < E) (hv1 : -1 < v) (hv2 : v < 1 / 2) :
    Passive (elasticMaterial p d) p.dim (kelvinOrder p)
      (fun s => ∃ t, IsSymP p t ∧ s = elasticStateOf p (kel66 (isoTensor (lamOf E v) (miuOf E v))) t)
      elasticEnergy := by
  have hen : ∀ t : T2 p.dim, IsSymP p t →
      elasticEnergy (elasticStateOf p (kel66 (isoTensor (lamOf E v) (miuOf E v))) t) =
        1 / 2 * ∑ i, ∑ j, inPlane p (hooke (lame E v) (shear E v) (embed p t)) i j * t i j := by
    intro t ht
    unfold elasticEnergy
    rw [elasticStress p E v ht]
    have : unmf p (elasticStateOf p (kel66 (isoTensor (lamOf E v) (miuOf E v))) t).eStrain = t := unmf_mf p ht
    rw [this]
  have hnn : ∀ t : T2 p.dim, 0 ≤ ∑ i, ∑ j, inPlane p (hooke (lame E v) (shear E v) (embed p t)) i j * t i j := by
    intro t
    by_cases h : t = 0
    · rw [h, hooke_density]
      simp
    · exact (density_pos p hE0 hv1 hv2 t h).le
  refine library_passive ?_ ?_
  · rintro inc s new hi ⟨t, ht, rfl⟩ hst
    rw [elasticGood_step hE hv] at hst
    cases hst
    have hti : IsSymP p (t + inc) := fun i j => by
      simp only [Pi.add_apply]
      rw [ht i j, hi i j]
    refine ⟨⟨t + inc, hti, rfl⟩, ?_⟩
    rw [hen _ hti, hen _ ht, elasticStress p E v hti]
    have := hnn inc
    rw [hooke_density] at this ⊢
    rw [hooke_density, hooke_density]
    simp only [Pi.add_apply, Finset.sum_add_distrib, add_mul, mul_add]
    have hc : ∑ i, ∑ j, inc i j * t i j = ∑ i, ∑ j, t i j * inc i j :=
      Finset.sum_congr rfl fun i _ => Finset.sum_congr rfl fun j _ => mul_comm _ _
    rw [hc]
    linarith
  · rintro s ⟨t, ht, rfl⟩
    rw [hen t ht]
    exact mul_nonneg (by norm_num) (hnn t)

/-! ## Specimens -/

/-- Work of the assembled forces after each increment on the increment of the nodal displacements. -/
def Spec.specimenWork (N n : ℕ) (outs : List Arr) (hist : List (ℕ → ℕ → ℝ)) : ℝ :=
  ((outs.zip hist).map fun ou => meshWork N n ou.1 ou.2).sum

/-- A history of a specimen: element `k` has type `typ k`, Gauss rule `rule k` and material `mat k`; the
increments `hist` of the nodal displacements lead from the states `old k` to `st k` with the forces `fs k`, and
`outs` are the assembled vectors after each increment. -/
structure Spec.SpecimenHistory {σ : ℕ → Type} (pt n : ℕ) (mat : ∀ k, Material (σ k)) (m : MeshTopology)
    (xs : ℕ → ℕ → ℝ) (typ : ℕ → ElementType) (rule : ∀ k, GaussRule (typ k).dim)
    (hist : List (ℕ → ℕ → ℝ)) (old st : ∀ k, GpDict (σ k)) (fs : ℕ → List Tensor) (outs : List Arr) : Prop where
  mesh : ValidMesh m
  nonempty : 0 < m.conn.length
  dim : ∀ k, IsElement m k → (typ k).dim = n
  nodes : ∀ k, IsElement m k → (nodes m k).length = (typ k).nNode
  forces : ∀ k, IsElement m k → elementForcesOverTime .infinitesimal pt (typ k) (rule k).length (rule k) (mat k)
    (fun a i => xs ((Spec.nodes m k).getD a 0) i) (hist.map (elementField m (typ k) k)) (old k) =
      .ok (fs k, st k)
  outs_length : outs.length = hist.length
  assembled : ∀ t (ht : t < outs.length), elementAssembler m ((List.range m.conn.length).map fun k : ℕ =>
    (k + 1, ⟨(typ (k + 1)).nNode * (typ (k + 1)).dim,
      fun q => ((fs (k + 1)).getD t (Tensor.zeros [])).val [q]⟩)) = .ok outs[t]

theorem forces_length {σ : Type} {sf : StrainFormulation} {pt ng : ℕ} {e : ElementType} {rule : GaussRule e.dim}
    {mat : Material σ} {X : Fin e.nNode → Fin e.dim → ℝ} {us : List Tensor} {old st : GpDict σ} {fs : List Tensor}
    (h : elementForcesOverTime sf pt e ng rule mat X us old = .ok (fs, st)) : fs.length = us.length := by
  induction us generalizing old fs st with
  | nil =>
    simp only [elementForcesOverTime, Except.ok.injEq, Prod.mk.injEq] at h
    rw [← h.1]
  | cons u us ih =>
    unfold elementForcesOverTime at h
    obtain ⟨r, hr, h⟩ := bind_ok h
    obtain ⟨⟨fs', st'⟩, hrest, h⟩ := bind_ok h
    simp only [pure, Except.pure, Except.ok.injEq, Prod.mk.injEq] at h
    rw [← h.1, List.length_cons, List.length_cons, ih hrest]

theorem sum_zip_range {α β : Type} (f : α → β → ℝ) (a : List α) (b : List β) (h : a.length = b.length) (da : α)
    (db : β) : ((a.zip b).map fun x => f x.1 x.2).sum = ∑ t ∈ Finset.range b.length, f (a.getD t da) (b.getD t db) := by
  induction a generalizing b with
  | nil =>
    cases b with
    | nil => simp
    | cons => simp at h
  | cons x a ih =>
    cases b with
    | nil => simp at h
    | cons y b =>
      rw [List.zip_cons_cons, List.map_cons, List.sum_cons, ih b (by simpa using h), List.length_cons,
        Finset.sum_range_succ']
      simp [add_comm]

/-- The work done on a specimen is that done on its elements. -/
theorem specimen_work {σ : ℕ → Type} {pt n : ℕ} {mat : ∀ k, Material (σ k)} {m : MeshTopology}
    {xs : ℕ → ℕ → ℝ} {typ : ℕ → ElementType} {rule : ∀ k, GaussRule (typ k).dim}
    {hist : List (ℕ → ℕ → ℝ)} {old st : ∀ k, GpDict (σ k)} {fs : ℕ → List Tensor} {outs : List Arr}
    (h : SpecimenHistory pt n mat m xs typ rule hist old st fs outs) :
    specimenWork m.nNode n outs hist = ((List.range m.conn.length).map fun k : ℕ =>
      elementWork (typ (k + 1)).nNode (typ (k + 1)).dim (fs (k + 1))
        (hist.map (elementField m (typ (k + 1)) (k + 1)))).sum := by
  have hIs : ∀ k ∈ List.range m.conn.length, IsElement m (k + 1) := fun k hk =>
    ⟨by omega, by have := List.mem_range.1 hk; omega⟩
  have e1 : specimenWork m.nNode n outs hist = ∑ t ∈ Finset.range hist.length,
      ((List.range m.conn.length).map fun k : ℕ => nodalDot (typ (k + 1)).nNode (typ (k + 1)).dim
        ((fs (k + 1)).getD t (Tensor.zeros [])) (elementField m (typ (k + 1)) (k + 1)
          (hist.getD t fun _ _ => 0))).sum := by
    rw [specimenWork, sum_zip_range _ outs hist h.outs_length ⟨0, fun _ => 0⟩ fun _ _ => 0]
    refine Finset.sum_congr rfl fun t ht => ?_
    have ht' : t < outs.length := by rw [h.outs_length]; exact Finset.mem_range.1 ht
    rw [List.getD_eq_getElem?_getD (l := outs), List.getElem?_eq_getElem ht', Option.getD_some]
    exact mesh_work (f := fun k => (fs k).getD t (Tensor.zeros [])) h.mesh h.nonempty h.dim h.nodes
      (h.assembled t ht') _
  rw [e1]
  have hK : ∀ K : List ℕ, (∀ k ∈ K, IsElement m (k + 1)) →
      ∑ t ∈ Finset.range hist.length, (K.map fun k : ℕ => nodalDot (typ (k + 1)).nNode (typ (k + 1)).dim
        ((fs (k + 1)).getD t (Tensor.zeros [])) (elementField m (typ (k + 1)) (k + 1)
          (hist.getD t fun _ _ => 0))).sum =
      (K.map fun k : ℕ => elementWork (typ (k + 1)).nNode (typ (k + 1)).dim (fs (k + 1))
        (hist.map (elementField m (typ (k + 1)) (k + 1)))).sum := by
    intro K
    induction K with
    | nil => simp
    | cons k K ih =>
      intro hKs
      simp only [List.map_cons, List.sum_cons, Finset.sum_add_distrib]
      rw [ih fun k' hk' => hKs k' (List.mem_cons_of_mem _ hk')]
      congr 1
      have hl := forces_length (h.forces _ (hKs k List.mem_cons_self))
      rw [elementWork, sum_zip_range (fun f u : Tensor => ∑ a ∈ Finset.range (typ (k + 1)).nNode,
        ∑ q ∈ Finset.range (typ (k + 1)).dim, f.val [a * (typ (k + 1)).dim + q] * u.val [a, q]) _ _ hl
        (Tensor.zeros []) (Tensor.zeros []), List.length_map]
      refine Finset.sum_congr rfl fun t ht => ?_
      have ht := Finset.mem_range.1 ht
      rw [nodalDot, List.getD_eq_getElem?_getD (l := hist), List.getElem?_eq_getElem ht, Option.getD_some,
        List.getD_eq_getElem?_getD (l := hist.map _), List.getElem?_map, List.getElem?_eq_getElem ht,
        Option.map_some, Option.getD_some]
  exact hK _ hIs

/-- **C158.** The work done on a specimen of passive materials, which may differ from element to element, along
every history of nodal displacements is at least the increase of the stored energy; from states without stored
energy it is at least the energy stored at the end, so it is never negative: no cycle of displacements gives
energy. -/
theorem C158_specimen {σ : ℕ → Type} {pt n : ℕ} {co cn : List Comp}
    (hp : getProblemTypeParameters pt = .ok (n, co, cn)) {mat : ∀ k, Material (σ k)} {m : MeshTopology}
    {xs : ℕ → ℕ → ℝ} {typ : ℕ → ElementType} {rule : ∀ k, GaussRule (typ k).dim}
    {hist : List (ℕ → ℕ → ℝ)} {old st : ∀ k, GpDict (σ k)} {fs : ℕ → List Tensor} {outs : List Arr}
    (h : SpecimenHistory pt n mat m xs typ rule hist old st fs outs) {ng : ℕ → ℕ}
    (hr : ∀ k, IsElement m k → (typ k).init (ng k) = .ok (rule k))
    (hJ : ∀ k, IsElement m k → ∀ c w, (c, w) ∈ rule k → 0 < ((typ k).jacobian
      (fun a i => xs ((Spec.nodes m k).getD a 0) i) c).det)
    {inv : ∀ k, σ k → Prop} {energy : ∀ k, σ k → ℝ}
    (hmat : ∀ k, IsElement m k → Passive (mat k) n co (inv k) (energy k))
    (hold : ∀ k, IsElement m k → ∀ g s, old k (g + 1) = some s → inv k s ∧ energy k s = 0) :
    ((List.range m.conn.length).map fun k : ℕ => elementEnergy (energy (k + 1)) (typ (k + 1)) (rule (k + 1))
      (fun a i => xs ((Spec.nodes m (k + 1)).getD a 0) i) (st (k + 1))).sum ≤ specimenWork m.nNode n outs hist ∧
    0 ≤ specimenWork m.nNode n outs hist := by
  have hIs : ∀ k ∈ List.range m.conn.length, IsElement m (k + 1) := fun k hk =>
    ⟨by omega, by have := List.mem_range.1 hk; omega⟩
  have hel : ∀ k, IsElement m k → 0 ≤ elementEnergy (energy k) (typ k) (rule k)
      (fun a i => xs ((Spec.nodes m k).getD a 0) i) (st k) ∧
      elementEnergy (energy k) (typ k) (rule k) (fun a i => xs ((Spec.nodes m k).getD a 0) i) (st k) ≤
        elementWork (typ k).nNode (typ k).dim (fs k) (hist.map (elementField m (typ k) k)) := by
    intro k hk
    have hw : ∀ c w, (c, w) ∈ rule k → 0 ≤ w * ((typ k).jacobian
        (fun a i => xs ((Spec.nodes m k).getD a 0) i) c).det := fun c w hcw =>
      (mul_pos ((init_weights (hr k hk)).2 _ hcw) (hJ k hk c w hcw)).le
    obtain ⟨-, h2, h3⟩ := C158_element (h.dim k hk) hp (hmat k hk) hw (fun u hu => by
      obtain ⟨x, -, rfl⟩ := List.mem_map.1 hu
      rfl) (fun g _ s hs => (hold k hk g s hs).1) (h.forces k hk)
    have hz : elementEnergy (energy k) (typ k) (rule k) (fun a i => xs ((Spec.nodes m k).getD a 0) i) (old k) = 0 := by
      refine Finset.sum_eq_zero fun g _ => ?_
      cases hs : old k (g + 1) with
      | none => simp
      | some s => simp [(hold k hk g s hs).2]
    rw [hz, sub_zero] at h3
    exact ⟨elementEnergy_nonneg (hmat k hk) hw h2, h3⟩
  have h1 : ((List.range m.conn.length).map fun k : ℕ => elementEnergy (energy (k + 1)) (typ (k + 1))
      (rule (k + 1)) (fun a i => xs ((Spec.nodes m (k + 1)).getD a 0) i) (st (k + 1))).sum ≤
      specimenWork m.nNode n outs hist := by
    rw [specimen_work h]
    exact List.sum_le_sum fun k hk => (hel _ (hIs k hk)).2
  refine ⟨h1, le_trans (List.sum_nonneg ?_) h1⟩
  intro x hx
  obtain ⟨k, hk, rfl⟩ := List.mem_map.1 hx
  exact (hel _ (hIs k hk)).1

/-- The initial states of the three models satisfy the conditions and store no energy. -/
theorem C158_initial {p : PType} {E v : ℝ} {law : HardLaw} (hpos : ∀ x, 2e-8 ≤ (law x).1) (m : DPParams) :
    (∃ total, HistoryInvariant E v law total (vmInit p)) ∧ vmEnergy law (vmInit p) = 0 ∧
    (0 ≤ (dpInit p).acc ∧ stress3D (dpInit p).toVMState =
      hooke6 (lame m.E m.v) (shear m.E m.v) (elastic3D (dpInit p).toVMState)) ∧
    storedEnergy (dpInit p).toVMState = 0 ∧
    (∃ t, IsSymP p t ∧ elasticInitState p = elasticStateOf p (kel66 (isoTensor (lamOf E v) (miuOf E v))) t) ∧
    elasticEnergy (elasticInitState p) = 0 := by
  have hz : ∀ p : PType, to3D p (0 : Vmf p) 0 = 0 := by
    intro p; cases p
    · funext k; fin_cases k <;> simp [to3D]
    · rfl
  have e1 : elastic3D (vmInit p) = 0 := hz p
  have e2 : elastic3D (dpInit p).toVMState = 0 := hz p
  have e3 : stress3D (dpInit p).toVMState = 0 := hz p
  refine ⟨⟨0, history_init p hpos⟩, ?_, ⟨le_rfl, ?_⟩, ?_, ⟨0, fun _ _ => rfl, elastic_init _⟩, ?_⟩
  · unfold vmEnergy storedEnergy
    rw [e1, show (vmInit p).acc = 0 from rfl]
    simp [inner6]
  · rw [e2, e3]
    funext k
    simp [hooke6, tr6]
  · unfold storedEnergy
    rw [e2]
    simp [inner6]
  · unfold elasticEnergy
    have : unmf p (elasticInitState p).eStrain = 0 := by
      cases p
      · funext i j; fin_cases i <;> fin_cases j <;> simp [unmf, elasticInitState]
      · funext i j; simp [unmf, unkel6, elasticInitState]
    rw [this]
    simp

/-! ## Histories that never fail -/

theorem history_exist {σ : Type} {pt n : ℕ} {e : ElementType} (hn : e.dim = n) {co cn : List Comp}
    (hp : getProblemTypeParameters pt = .ok (n, co, cn)) {rule : GaussRule e.dim} {mat : Material σ}
    {X : Fin e.nNode → Fin e.dim → ℝ} (hJ : ∀ c w, (c, w) ∈ rule → (e.jacobian X c).det ≠ 0)
    {P : σ → Prop} (hmat : ∀ inc s, P s → ∃ new rest, mat.stateUpdate inc s = .ok (new, rest) ∧ P new)
    (hsh : ∀ s, (mat.stressMf s).shape = [co.length])
    {us : List Tensor} (hus : ∀ u ∈ us, u.shape = [e.nNode, e.dim]) {old : GpDict σ}
    (hold : ∀ g < rule.length, ∃ s, old (g + 1) = some s ∧ P s) :
    ∃ fs st, elementForcesOverTime .infinitesimal pt e rule.length rule mat X us old = .ok (fs, st) := by
  subst hn
  induction us generalizing old with
  | nil => exact ⟨[], old, rfl⟩
  | cons u us ih =>
    have hpt : ∀ g < rule.length, ∃ c w s, rule[g]? = some (c, w) ∧ (e.jacobian X c).det ≠ 0 ∧
        old (g + 1) = some s ∧ ∀ d J det inc, e.evalShapefunDeriv X c = .ok (d, J, det) →
          SameTensor inc (strainTensor e.nNode e.dim d u) →
          ∃ new rest, mat.stateUpdate inc s = .ok (new, rest) ∧ (mat.stressMf new).shape = [co.length] := by
      intro g hg
      obtain ⟨s, hs, hPs⟩ := hold g hg
      refine ⟨rule[g].1, rule[g].2, s, List.getElem?_eq_getElem hg, hJ _ _ (List.getElem_mem hg), hs, ?_⟩
      intro _ _ _ inc _ _
      obtain ⟨new, rest, h1, -⟩ := hmat inc s hPs
      exact ⟨new, rest, h1, hsh new⟩
    obtain ⟨r, hr⟩ := internalForces_exist hp (hus u List.mem_cons_self) hpt
    have hst : ∀ g < rule.length, ∃ s, carriedState r.state (g + 1) = some s ∧ P s := by
      intro g hg
      obtain ⟨-, c, w, dd, det, s, new, stress, b, hd, ho, hst, -, -⟩ := internalForces_ok hp hr
      obtain ⟨si, ni, -, hni, hdone⟩ := hd g hg
      obtain ⟨s0, hs0, hP0⟩ := hold g hg
      obtain ⟨gr, vv, inc, rest, -, -, -, hup⟩ := hdone.update
      have hsi := hs0.symm.trans hdone.oldState
      cases hsi
      obtain ⟨new', rest', h1, h2⟩ := hmat inc _ hP0
      have := hup.symm.trans h1
      cases this
      refine ⟨ni, ?_, h2⟩
      simp [carriedState, hst, show g + 1 ≤ rule.length from hg, hni]
    obtain ⟨fs, st, hrest⟩ := ih (fun u' hu' => hus u' (List.mem_cons_of_mem _ hu')) hst
    refine ⟨r.forces :: fs, st, ?_⟩
    unfold elementForcesOverTime
    simp only [hr, hrest, bind, Except.bind, pure, Except.pure]

/-- **C158.** Histories of elements of the von Mises model with linear hardening and of the Drucker-Prager
model with linear cohesion hardening never fail, for all displacement increments, unless a Gauss point has a
singular Jacobian. -/
theorem C158_returns {p : PType} {e : ElementType} (hn : e.dim = p.dim) {rule : GaussRule e.dim}
    {X : Fin e.nNode → Fin e.dim → ℝ} (hJ : ∀ c w, (c, w) ∈ rule → (e.jacobian X c).det ≠ 0)
    {us : List Tensor} (hus : ∀ u ∈ us, u.shape = [e.nNode, e.dim]) {s0 a : ℝ} (ha : 0 ≤ a) :
    (∀ E v, Admissible E v → 2e-8 ≤ s0 → ∃ fs st, elementForcesOverTime .infinitesimal (typeNumber p) e
      rule.length rule (libraryMaterial p (vmGood p E v (linearHardening s0 a)) VMState.stress) X us
      (fun _ => some (vmInit p)) = .ok (fs, st)) ∧
    ∀ m, Frictional m → ∃ fs st, elementForcesOverTime .infinitesimal (typeNumber p) e rule.length rule
      (libraryMaterial p (dpGood p m (linearHardening s0 a)) fun s => s.stress) X us
      (fun _ => some (dpInit p)) = .ok (fs, st) := by
  obtain ⟨cn, hp⟩ := typeNumber_ok p
  refine ⟨fun E v hA hs => ?_, fun m hm => ?_⟩
  · refine history_exist hn hp hJ (P := fun s => 0 ≤ s.acc) (fun inc s hs' => ?_)
      (fun s => by cases p <;> rfl) hus fun g _ => ⟨_, rfl, le_rfl⟩
    have : ∃ new T, vmUpdate p E v (linearHardening s0 a) (tens2 p.dim inc) s = (.good new, T) ∧ 0 ≤ new.acc := by
      by_cases hel : TrialElastic E v (linearHardening s0 a) s (tens2 p.dim inc)
      · obtain ⟨new, hu, -, -, hacc, -⟩ := C29_elastic_step hel
        exact ⟨new, _, hu, by rw [hacc]; exact hs'⟩
      · obtain ⟨new, T, hu, -, -, hlt, -⟩ := C32_linear_exact hA ha hs hs' hel
        exact ⟨new, T, hu, hs'.trans hlt.le⟩
    obtain ⟨new, T, hu, hacc⟩ := this
    refine ⟨new, s, ?_, hacc⟩
    show (orRaise (vmGood p E v (linearHardening s0 a) (tens2 p.dim inc) s) .valueError).map
      (fun new => (new, s)) = _
    rw [vmGood, hu]
    rfl
  · refine history_exist hn hp hJ (P := fun s => 0 ≤ s.acc) (fun inc s hs' => ?_)
      (fun s => by cases p <;> rfl) hus fun g _ => ⟨_, rfl, le_rfl⟩
    obtain ⟨new, T, hu, hacc, -⟩ := C36_linear hm (c0 := s0) ha (inc := tens2 p.dim inc) hs'
    refine ⟨new, s, ?_, hacc⟩
    show (orRaise (dpGood p m (linearHardening s0 a) (tens2 p.dim inc) s) .valueError).map
      (fun new => (new, s)) = _
    rw [dpGood, hu]
    rfl

/-- The hypotheses are met: a plane mesh of four-node quadrilaterals of a von Mises material with linear
hardening, without a singular Jacobian, and any two increments. -/
example {m : MeshTopology} (hm : ValidMesh m) (h0 : 0 < m.conn.length)
    (hq : ∀ k, IsElement m k → (nodes m k).length = 4) (xs : ℕ → ℕ → ℝ) (rule : GaussRule 2)
    (hJ : ∀ k c w, (c, w) ∈ rule → (ElementType.quad4.jacobian
      (fun a i => xs ((Spec.nodes m k).getD a 0) i) c).det ≠ 0) (du du' : ℕ → ℕ → ℝ) :
    ∃ (st : ∀ _ : ℕ, GpDict (VMState .plane)) (fs : ℕ → List Tensor) (outs : List Arr),
      SpecimenHistory 1 2 (fun _ => libraryMaterial .plane (vmGood .plane 1 0 (linearHardening 1 1))
        VMState.stress) m xs (fun _ => .quad4) (fun _ => rule) [du, du'] (fun _ _ => some (vmInit .plane))
        st fs outs := by
  have hf : ∀ k, ∃ fs st, elementForcesOverTime .infinitesimal 1 .quad4 rule.length rule
      (libraryMaterial .plane (vmGood .plane 1 0 (linearHardening 1 1)) VMState.stress)
      (fun a i => xs ((Spec.nodes m k).getD a 0) i) ([du, du'].map (elementField m .quad4 k))
      (fun _ => some (vmInit .plane)) = .ok (fs, st) := fun k =>
    (C158_returns (p := .plane) (e := .quad4) rfl (hJ k) (fun u hu => by
      obtain ⟨x, -, rfl⟩ := List.mem_map.1 hu
      rfl) zero_le_one).1 1 0 admissible_one (by norm_num)
  choose fs st hf using hf
  have hel : ∀ t : ℕ, ∃ out, elementAssembler m ((List.range m.conn.length).map fun k : ℕ =>
    (k + 1, (⟨ElementType.quad4.nNode * ElementType.quad4.dim,
      fun q => ((fs (k + 1)).getD t (Tensor.zeros [])).val [q]⟩ : Arr))) = .ok out := by
    intro t
    obtain ⟨out, ho, -⟩ := C20_assembly hm (nd := 2) (elems := (List.range m.conn.length).map fun k : ℕ =>
      (k + 1, (⟨ElementType.quad4.nNode * ElementType.quad4.dim,
        fun q => ((fs (k + 1)).getD t (Tensor.zeros [])).val [q]⟩ : Arr))) (by
      refine ⟨List.ne_nil_of_length_pos (by simpa using h0), ?_⟩
      intro ka hka
      obtain ⟨k, hk, rfl⟩ := List.mem_map.1 hka
      have hk' : IsElement m (k + 1) := ⟨by omega, by have := List.mem_range.1 hk; omega⟩
      refine ⟨hk', ?_⟩
      rw [hq _ hk']
      rfl)
    exact ⟨out, ho⟩
  choose out hout using hel
  refine ⟨st, fs, [out 0, out 1], hm, h0, fun _ _ => rfl, hq, fun k _ => hf k, rfl, ?_⟩
  intro t ht
  have : t = 0 ∨ t = 1 := by simp at ht; omega
  rcases this with rfl | rfl
  · exact hout 0
  · exact hout 1

end Hooke
