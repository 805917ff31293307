import Verif.Model.ElementHistory
import Verif.Spec.ElasticElement
import Verif.Props.FrameForces

/-!
# C157: an element of the isotropic elastic material is linearly elastic
-/

noncomputable section

namespace Hooke

open Spec

/-! ## Strains -/

theorem strainAt_add (e : ElementType) (X : Fin e.nNode → Fin e.dim → ℝ) (c : Fin e.dim → ℝ) (n : ℕ)
    {u w s : Tensor} (h : ∀ a i, s.val [a, i] = u.val [a, i] + w.val [a, i]) :
    strainAt e X c n s = strainAt e X c n u + strainAt e X c n w := by
  have hg : ∀ i j, dispGrad e.nNode (derivTable e X c) s i j =
      dispGrad e.nNode (derivTable e X c) u i j + dispGrad e.nNode (derivTable e X c) w i j := by
    intro i j
    simp only [dispGrad, h, add_mul, Finset.sum_add_distrib]
  funext i j
  simp only [strainAt, hg, Pi.add_apply]
  ring

theorem strainAt_comb (e : ElementType) (X : Fin e.nNode → Fin e.dim → ℝ) (c : Fin e.dim → ℝ) (n : ℕ)
    {u w s : Tensor} {a b : ℝ} (hn : e.dim = n)
    (h : ∀ k < e.nNode, ∀ i < n, s.val [k, i] = a * u.val [k, i] + b * w.val [k, i]) :
    strainAt e X c n s = fun i j => a * strainAt e X c n u i j + b * strainAt e X c n w i j := by
  have hg : ∀ i < n, ∀ j, dispGrad e.nNode (derivTable e X c) s i j =
      a * dispGrad e.nNode (derivTable e X c) u i j + b * dispGrad e.nNode (derivTable e X c) w i j := by
    intro i hi j
    simp only [dispGrad, Finset.mul_sum]
    rw [← Finset.sum_add_distrib]
    refine Finset.sum_congr rfl fun k hk => ?_
    rw [h k (Finset.mem_range.1 hk) i hi]
    ring
  funext i j
  simp only [strainAt, hg i i.2, hg j j.2]
  ring

theorem strainAt_sym (e : ElementType) (X : Fin e.nNode → Fin e.dim → ℝ) (c : Fin e.dim → ℝ) (p : PType)
    (u : Tensor) : IsSymP p (strainAt e X c p.dim u) := fun i j => by
  simp only [strainAt]; ring

theorem strainAt_table {e : ElementType} {X : Fin e.nNode → Fin e.dim → ℝ} {c : Fin e.dim → ℝ}
    {d : Tensor} {J det} (h : e.evalShapefunDeriv X c = .ok (d, J, det)) {n : ℕ} (hn : e.dim = n) (u : Tensor) :
    tens2 n (strainTensor e.nNode n d u) = strainAt e X c n u := by
  subst hn
  obtain ⟨-, -, -, hv⟩ := evalShapefunDeriv_inv h
  have hg : ∀ i, ∀ j : Fin e.dim, dispGrad e.nNode d u i j =
      dispGrad e.nNode (derivTable e X c) u i j := by
    intro i j
    simp only [dispGrad]
    refine Finset.sum_congr rfl fun a ha => ?_
    have ha := Finset.mem_range.1 ha
    have e1 := hv ⟨a, ha⟩ j
    have e2 : (derivTable e X c).val [a, j] = ∑ k, (e.jacobian X c)⁻¹ j k * e.localDeriv c ⟨a, ha⟩ k := by
      simp [derivTable, Tensor.ofFin2, ha]
    rw [e2, ← e1]
  funext i j
  simp only [tens2, strainTensor, strainAt, List.getD_cons_zero, List.getD_cons_succ, hg]

/-! ## One increment -/

theorem typeNumber_ok (p : PType) : ∃ cn, getProblemTypeParameters (typeNumber p) =
    .ok (p.dim, kelvinOrder p, cn) := by
  cases p
  · exact ⟨_, rfl⟩
  · exact ⟨_, rfl⟩

/-- The isotropic elastic model of the library in the interface of the internal forces. -/
abbrev elasticMaterial (p : PType) (d : Props) : Material (ElasticState p) :=
  libraryMaterial p (elasticGood p d) ElasticState.stress

theorem elasticGood_step {p : PType} {d : Props} {E v : ℝ} (hE : d .E = some E) (hv : d .v = some v)
    (t inc : T2 p.dim) :
    elasticGood p d inc (elasticStateOf p (kel66 (isoTensor (lamOf E v) (miuOf E v))) t) =
      some (elasticStateOf p (kel66 (isoTensor (lamOf E v) (miuOf E v))) (t + inc)) := by
  have hT : elasticTangentModulus d .isotropic = .ok (kel66 (isoTensor (lamOf E v) (miuOf E v))) := by
    simp only [elasticTangentModulus, requiredModuli, if_true, hE, hv]
  unfold elasticGood
  rw [elastic_step hT]

theorem elasticStress (p : PType) (E v : ℝ) {t : T2 p.dim} (ht : IsSymP p t) :
    unmf p (elasticStateOf p (kel66 (isoTensor (lamOf E v) (miuOf E v))) t).stress =
      inPlane p (hooke (lame E v) (shear E v) (embed p t)) := by
  have hs : IsSymP p (inPlane p (hooke (lame E v) (shear E v) (embed p t))) := by
    cases p with
    | plane =>
      intro i j
      have := ht 0 1
      fin_cases i <;> fin_cases j <;> simp [inPlane, hooke, embed, this]
    | solid =>
      intro i j
      have := ht i j
      simp only [inPlane, hooke, embed, this, eq_comm]
  rw [← unmf_mf p hs]
  congr 1
  simp only [elasticStateOf, mv6_iso, hooke6_kel6, to2D_kel6]
  rfl

/-- Before an increment all points have the state of the displacements `U`; afterwards that of `U + u`, and
the forces are those of `U + u`. -/
theorem elastic_increment {p : PType} {e : ElementType} (hn : e.dim = p.dim) {d : Props} {E v : ℝ}
    (hE : d .E = some E) (hv : d .v = some v) {rule : GaussRule e.dim}
    {X : Fin e.nNode → Fin e.dim → ℝ} {U u S : Tensor} (hu : u.shape = [e.nNode, e.dim])
    (hS : ∀ a i, S.val [a, i] = U.val [a, i] + u.val [a, i])
    {old : GpDict (ElasticState p)} {r : IFState (ElasticState p)}
    (hold : ∀ g : Fin rule.length, old (g + 1) = some (elasticStateOf p
      (kel66 (isoTensor (lamOf E v) (miuOf E v))) (strainAt e X rule[g].1 p.dim U)))
    (h : computeElementInternalForces .infinitesimal (typeNumber p) e rule.length rule
      (elasticMaterial p d) old X u = .ok r) :
    (∀ g : Fin rule.length, carriedState r.state (g + 1) = some (elasticStateOf p
      (kel66 (isoTensor (lamOf E v) (miuOf E v))) (strainAt e X rule[g].1 p.dim S))) ∧
    ∀ w : Tensor, w.shape = [e.nNode, e.dim] →
      nodalDot e.nNode e.dim r.forces w = elasticWork p E v e rule X S w := by
  obtain ⟨cn, hp⟩ := typeNumber_ok p
  rw [← hn] at hp
  have hco := (problemType_orders_complete hp).1
  have hstate : ∀ g : Fin rule.length, r.state (g + 1) = some (some (elasticStateOf p
      (kel66 (isoTensor (lamOf E v) (miuOf E v))) (strainAt e X rule[g].1 p.dim S))) := by
    intro g
    obtain ⟨-, c, w, dd, det, s, new, stress, b, hd, ho, hst, hsh, hq⟩ := internalForces_ok hp h
    obtain ⟨si, ni, -, hni, hdone⟩ := hd g g.2
    obtain ⟨J, hJ⟩ := hdone.deriv
    have hc : rule[g].1 = c g := by
      have h1 := hdone.point
      rw [List.getElem?_eq_getElem g.2] at h1
      have h2 := Option.some.inj h1
      show (rule[(g : ℕ)]'g.2).1 = c g
      rw [h2]
    obtain ⟨gr, vv, inc, rest, hgr, hvv, hinc, hup⟩ := hdone.update
    have hds := (evalShapefunDeriv_inv hJ).2.2.1
    have hsame := incStrain_same hco hds hu hgr hvv hinc
    have hi : tens2 p.dim inc = strainAt e X (c g) p.dim u := by
      rw [← strainAt_table hJ hn u, ← hn]
      exact SameTensor_tens2 hsame rfl
    have hsi : si = elasticStateOf p (kel66 (isoTensor (lamOf E v) (miuOf E v)))
        (strainAt e X (c g) p.dim U) := by
      have h1 := hdone.oldState
      rw [hold g, hc] at h1
      exact (Option.some.inj h1).symm
    have hup' : (orRaise (elasticGood p d (tens2 p.dim inc) si) .valueError).map
      (fun new => (new, si)) = .ok (ni, rest) := hup
    rw [hi, hsi, elasticGood_step hE hv] at hup'
    have hni' : ni = elasticStateOf p (kel66 (isoTensor (lamOf E v) (miuOf E v)))
        (strainAt e X (c g) p.dim U + strainAt e X (c g) p.dim u) := by
      simp only [orRaise, Except.map, Except.ok.injEq, Prod.mk.injEq] at hup'
      exact hup'.1.symm
    rw [hst, if_pos (by omega), Nat.add_sub_cancel, hni, hni', hc, strainAt_add e X (c g) p.dim hS]
  refine ⟨fun g => by simp only [carriedState, hstate g, Option.join_some], fun w hw => ?_⟩
  obtain ⟨-, wt, det, dd, stress, hg, hvw⟩ := C18_virtual_work hp h
  rw [hvw w hw, elasticWork, Finset.sum_range]
  refine Finset.sum_congr rfl fun g _ => ?_
  obtain ⟨c, J, new, t, hr, hJ, hdet, hn1, ht, hts⟩ := hg g g.2
  rw [List.getElem?_eq_getElem g.2] at hr
  have hr := Option.some.inj hr
  have hr' : rule[g] = (c, wt g) := hr
  have hsg := hstate g
  rw [hn1] at hsg
  simp only [Option.some.injEq] at hsg
  rw [hr'] at hsg ⊢
  rw [hn] at ht
  have e1 := vmfTensor_tensor p _ ht
  rw [hsg, elasticStress p E v (strainAt_sym e X c p S)] at e1
  have hsh : t.shape = [p.dim, p.dim] := by
    have hco' := hco
    rw [hn] at hco'
    obtain ⟨t', h1, h2, -⟩ := getTensorFromMf_sym' hco' (m := vmfTensor p new.stress) (by cases p <;> rfl)
    have h3 := ht.symm.trans h1
    cases h3
    exact h2
  have e2 : tens2 p.dim (stress g) = tens2 p.dim t := (SameTensor_tens2 hts (hts.1 ▸ hsh)).symm
  rw [hdet]
  congr 1
  change ∑ i ∈ Finset.range e.dim, ∑ j ∈ Finset.range e.dim, (stress g).val [i, j] *
    (strainTensor e.nNode p.dim (dd g) w).val [i, j] = _
  rw [show Finset.range e.dim = Finset.range p.dim by rw [hn], Finset.sum_range]
  refine Finset.sum_congr rfl fun i _ => ?_
  rw [Finset.sum_range]
  refine Finset.sum_congr rfl fun j _ => ?_
  have e3 : (stress g).val [i, j] = tens2 p.dim (stress g) i j := rfl
  have e4 : (strainTensor e.nNode p.dim (dd g) w).val [i, j] = strainAt e X c p.dim w i j := by
    rw [← strainAt_table hJ hn w]
    rfl
  rw [e3, e2, e1, e4]

/-! ## Histories -/

theorem totalDisp_cons (m n : ℕ) (us : List Tensor) (u : Tensor) (a i : ℕ) :
    (totalDisp m n (u :: us)).val [a, i] = u.val [a, i] + (totalDisp m n us).val [a, i] := by
  simp [totalDisp]

theorem elastic_history {p : PType} {e : ElementType} (hn : e.dim = p.dim) {d : Props} {E v : ℝ}
    (hE : d .E = some E) (hv : d .v = some v) {rule : GaussRule e.dim}
    {X : Fin e.nNode → Fin e.dim → ℝ} {us : List Tensor} (hus : ∀ u ∈ us, u.shape = [e.nNode, e.dim])
    {U : Tensor} {old st : GpDict (ElasticState p)} {fs : List Tensor}
    (hold : ∀ g : Fin rule.length, old (g + 1) = some (elasticStateOf p
      (kel66 (isoTensor (lamOf E v) (miuOf E v))) (strainAt e X rule[g].1 p.dim U)))
    (h : elementForcesOverTime .infinitesimal (typeNumber p) e rule.length rule (elasticMaterial p d) X us old =
      .ok (fs, st)) :
    fs.length = us.length ∧ ∀ k (hk : k < fs.length) (S w : Tensor),
      (∀ a i, S.val [a, i] = U.val [a, i] + (totalDisp e.nNode e.dim (us.take (k + 1))).val [a, i]) →
      w.shape = [e.nNode, e.dim] →
      nodalDot e.nNode e.dim fs[k] w = elasticWork p E v e rule X S w := by
  induction us generalizing U old fs st with
  | nil =>
    simp only [elementForcesOverTime, Except.ok.injEq, Prod.mk.injEq] at h
    obtain ⟨rfl, rfl⟩ := h
    exact ⟨rfl, fun k hk => absurd hk (by simp)⟩
  | cons u us ih =>
    unfold elementForcesOverTime at h
    obtain ⟨r, hr, h⟩ := bind_ok h
    obtain ⟨⟨fs', st'⟩, hrest, h⟩ := bind_ok h
    simp only [pure, Except.pure, Except.ok.injEq, Prod.mk.injEq] at h
    obtain ⟨rfl, rfl⟩ := h
    have hu := hus u List.mem_cons_self
    obtain ⟨h1, h2⟩ := elastic_increment hn hE hv hu
      (S := ⟨[e.nNode, e.dim], fun idx => U.val idx + u.val idx⟩) (fun a i => rfl) hold hr
    obtain ⟨h3, h4⟩ := ih (fun u' hu' => hus u' (List.mem_cons_of_mem _ hu')) h1 hrest
    refine ⟨by simp [h3], fun k hk S w hS hw => ?_⟩
    cases k with
    | zero =>
      have hS' : ∀ a i, S.val [a, i] = U.val [a, i] + u.val [a, i] := by
        intro a i
        rw [hS]
        simp [totalDisp]
      exact (elastic_increment hn hE hv hu hS' hold hr).2 w hw
    | succ k =>
      have hk' : k < fs'.length := by simpa using hk
      refine h4 k hk' S w (fun a i => ?_) hw
      rw [hS a i, List.take_succ_cons, totalDisp_cons]
      exact (add_assoc _ _ _).symm

/-- **C157.** After every increment of every history of displacement increments, starting from the initial
states, the internal forces of an element of the isotropic elastic material do on every nodal field `w` the
work that Hooke's law of the total displacements does: they depend on the sum of the increments only, neither
on the path nor on the number of increments. -/
theorem C157_history {p : PType} {e : ElementType} (hn : e.dim = p.dim) {d : Props} {E v : ℝ}
    (hE : d .E = some E) (hv : d .v = some v) {rule : GaussRule e.dim}
    {X : Fin e.nNode → Fin e.dim → ℝ} {us : List Tensor} (hus : ∀ u ∈ us, u.shape = [e.nNode, e.dim])
    {fs : List Tensor} {st : GpDict (ElasticState p)}
    (h : elementForcesOverTime .infinitesimal (typeNumber p) e rule.length rule (elasticMaterial p d) X us
      (fun _ => some (elasticInitState p)) = .ok (fs, st)) :
    fs.length = us.length ∧ ∀ k (hk : k < fs.length) (w : Tensor), w.shape = [e.nNode, e.dim] →
      nodalDot e.nNode e.dim fs[k] w =
        elasticWork p E v e rule X (totalDisp e.nNode e.dim (us.take (k + 1))) w := by
  have hz : ∀ c, strainAt e X c p.dim (Tensor.zeros [e.nNode, e.dim]) = 0 := by
    intro c
    funext i j
    simp [strainAt, dispGrad, Tensor.zeros]
  obtain ⟨h1, h2⟩ := elastic_history hn hE hv hus (U := Tensor.zeros [e.nNode, e.dim])
    (fun g => by rw [hz, elastic_init]) h
  exact ⟨h1, fun k hk w hw => h2 k hk _ w (fun a i => by simp [Tensor.zeros]) hw⟩

/-- **C157.** Such a history never fails when no Gauss point has a singular Jacobian. -/
theorem C157_returns {p : PType} {e : ElementType} (hn : e.dim = p.dim) {d : Props} {E v : ℝ}
    (hE : d .E = some E) (hv : d .v = some v) {rule : GaussRule e.dim}
    {X : Fin e.nNode → Fin e.dim → ℝ} (hJ : ∀ c w, (c, w) ∈ rule → (e.jacobian X c).det ≠ 0)
    {us : List Tensor} (hus : ∀ u ∈ us, u.shape = [e.nNode, e.dim]) :
    ∃ fs st, elementForcesOverTime .infinitesimal (typeNumber p) e rule.length rule (elasticMaterial p d) X us
      (fun _ => some (elasticInitState p)) = .ok (fs, st) := by
  suffices key : ∀ old : GpDict (ElasticState p), (∀ g < rule.length, (old (g + 1)).isSome) →
      ∃ fs st, elementForcesOverTime .infinitesimal (typeNumber p) e rule.length rule (elasticMaterial p d) X us
        old = .ok (fs, st) from key _ fun _ _ => rfl
  obtain ⟨cn, hp⟩ := typeNumber_ok p
  rw [← hn] at hp
  have hT : elasticTangentModulus d .isotropic = .ok (kel66 (isoTensor (lamOf E v) (miuOf E v))) := by
    simp only [elasticTangentModulus, requiredModuli, if_true, hE, hv]
  have hmat : ∀ inc s, ∃ new rest, (elasticMaterial p d).stateUpdate inc s = .ok (new, rest) ∧
      ((elasticMaterial p d).stressMf new).shape = [(kelvinOrder p).length] := by
    intro inc s
    have : ∃ new, elasticGood p d (tens2 p.dim inc) s = some new := by
      unfold elasticGood elasticStateUpdate
      rw [hT]
      exact ⟨_, rfl⟩
    obtain ⟨new, hnew⟩ := this
    refine ⟨new, s, ?_, by cases p <;> rfl⟩
    show (orRaise (elasticGood p d (tens2 p.dim inc) s) .valueError).map (fun new => (new, s)) = _
    rw [hnew]
    rfl
  induction us with
  | nil => exact fun old _ => ⟨[], old, rfl⟩
  | cons u us ih =>
    intro old hold
    obtain ⟨r, hr⟩ := C19_returns hp (hus u List.mem_cons_self) hJ hold hmat
    have hst : ∀ g < rule.length, (carriedState r.state (g + 1)).isSome := by
      intro g hg
      obtain ⟨-, c, w, dd, det, s, new, stress, b, hd, ho, hst, hsh, hq⟩ := internalForces_ok hp hr
      obtain ⟨si, ni, -, hni, -⟩ := hd g hg
      simp [carriedState, hst, show g + 1 ≤ rule.length from hg, hni]
    obtain ⟨fs, st, hrest⟩ := ih (fun u' hu' => hus u' (List.mem_cons_of_mem _ hu')) _ hst
    refine ⟨r.forces :: fs, st, ?_⟩
    unfold elementForcesOverTime
    simp only [hr, hrest, bind, Except.bind, pure, Except.pure]

/-! ## Consequences -/

theorem hooke_density (p : PType) (lam G : ℝ) (a b : T2 p.dim) :
    ∑ i, ∑ j, inPlane p (hooke lam G (embed p a)) i j * b i j =
      lam * (∑ i, a i i) * (∑ i, b i i) + 2 * G * ∑ i, ∑ j, a i j * b i j := by
  cases p with
  | plane =>
    simp [inPlane, hooke, embed, trace, Fin.sum_univ_succ]
    ring
  | solid =>
    simp [inPlane, hooke, embed, trace, Fin.sum_univ_succ]
    ring

theorem elasticWork_symm (p : PType) (E v : ℝ) (e : ElementType) (rule : GaussRule e.dim)
    (X : Fin e.nNode → Fin e.dim → ℝ) (u w : Tensor) :
    elasticWork p E v e rule X u w = elasticWork p E v e rule X w u := by
  unfold elasticWork
  refine Finset.sum_congr rfl fun g _ => ?_
  rw [hooke_density, hooke_density]
  congr 1
  have : ∑ i, ∑ j, strainAt e X rule[g].1 p.dim u i j * strainAt e X rule[g].1 p.dim w i j =
      ∑ i, ∑ j, strainAt e X rule[g].1 p.dim w i j * strainAt e X rule[g].1 p.dim u i j :=
    Finset.sum_congr rfl fun i _ => Finset.sum_congr rfl fun j _ => mul_comm _ _
  rw [this]
  ring

theorem elasticWork_comb {p : PType} (E v : ℝ) {e : ElementType} (hn : e.dim = p.dim) (rule : GaussRule e.dim)
    (X : Fin e.nNode → Fin e.dim → ℝ) {u₁ u₂ u : Tensor} {a b : ℝ}
    (h : ∀ k < e.nNode, ∀ i < e.dim, u.val [k, i] = a * u₁.val [k, i] + b * u₂.val [k, i]) (w : Tensor) :
    elasticWork p E v e rule X u w =
      a * elasticWork p E v e rule X u₁ w + b * elasticWork p E v e rule X u₂ w := by
  unfold elasticWork
  rw [Finset.mul_sum, Finset.mul_sum, ← Finset.sum_add_distrib]
  refine Finset.sum_congr rfl fun g _ => ?_
  rw [hooke_density, hooke_density, hooke_density,
    strainAt_comb e X rule[g].1 p.dim hn (fun k hk i hi => h k hk i (hn ▸ hi))]
  simp only [Finset.sum_add_distrib, add_mul, mul_assoc, ← Finset.mul_sum]
  ring

/-- The nodal field that is one at one component of one node. -/
def unitField (m n a q : ℕ) : Tensor := ⟨[m, n], fun idx => if idx = [a, q] then 1 else 0⟩

theorem nodalDot_unit {m n : ℕ} (f : Tensor) {a q : ℕ} (ha : a < m) (hq : q < n) :
    nodalDot m n f (unitField m n a q) = f.val [a * n + q] := by
  unfold nodalDot
  rw [Finset.sum_eq_single a, Finset.sum_eq_single q]
  · simp [unitField]
  · intro b _ hb
    simp [unitField, hb]
  · intro h
    exact absurd (Finset.mem_range.2 hq) h
  · intro b _ hb
    refine Finset.sum_eq_zero fun c _ => ?_
    simp [unitField, hb]
  · intro h
    exact absurd (Finset.mem_range.2 ha) h

/-- The last forces of a history of an elastic element that starts from the initial states. -/
structure Spec.ElasticHistory (p : PType) (d : Props) (e : ElementType) (rule : GaussRule e.dim)
    (X : Fin e.nNode → Fin e.dim → ℝ) (us : List Tensor) (f : Tensor) : Prop where
  shapes : ∀ u ∈ us, u.shape = [e.nNode, e.dim]
  last : ∃ fs st, elementForcesOverTime .infinitesimal (typeNumber p) e rule.length rule (elasticMaterial p d) X
    us (fun _ => some (elasticInitState p)) = .ok (fs, st) ∧ fs.getLast? = some f

theorem last_forces {p : PType} {e : ElementType} (hn : e.dim = p.dim) {d : Props} {E v : ℝ}
    (hE : d .E = some E) (hv : d .v = some v) {rule : GaussRule e.dim}
    {X : Fin e.nNode → Fin e.dim → ℝ} {us : List Tensor} {f : Tensor}
    (h : ElasticHistory p d e rule X us f) (w : Tensor) (hw : w.shape = [e.nNode, e.dim]) :
    nodalDot e.nNode e.dim f w = elasticWork p E v e rule X (totalDisp e.nNode e.dim us) w := by
  obtain ⟨fs, st, h1, h2⟩ := h.last
  obtain ⟨h3, h4⟩ := C157_history hn hE hv h.shapes h1
  rw [List.getLast?_eq_getElem?] at h2
  obtain ⟨hl, hf⟩ := List.getElem?_eq_some_iff.1 h2
  have := h4 (fs.length - 1) hl w hw
  rw [hf, List.take_of_length_le (by omega)] at this
  exact this

/-- **C157.** Reciprocity: for two histories of one element, the work of the forces of the first on the total
displacements of the second is that of the forces of the second on the total displacements of the first. -/
theorem C157_reciprocal {p : PType} {e : ElementType} (hn : e.dim = p.dim) {d : Props} {E v : ℝ}
    (hE : d .E = some E) (hv : d .v = some v) {rule : GaussRule e.dim}
    {X : Fin e.nNode → Fin e.dim → ℝ} {us₁ us₂ : List Tensor} {f₁ f₂ : Tensor}
    (h₁ : ElasticHistory p d e rule X us₁ f₁) (h₂ : ElasticHistory p d e rule X us₂ f₂) :
    nodalDot e.nNode e.dim f₁ (totalDisp e.nNode e.dim us₂) =
      nodalDot e.nNode e.dim f₂ (totalDisp e.nNode e.dim us₁) := by
  rw [last_forces hn hE hv h₁ _ rfl, last_forces hn hE hv h₂ _ rfl, elasticWork_symm]

/-- **C157.** Superposition: when the total displacements of a history are a combination of those of two
others, its forces are that combination of their forces.  In particular, histories that end at the same
displacements have the same forces, and one that returns to the start ends without forces. -/
theorem C157_superposition {p : PType} {e : ElementType} (hn : e.dim = p.dim) {d : Props} {E v : ℝ}
    (hE : d .E = some E) (hv : d .v = some v) {rule : GaussRule e.dim}
    {X : Fin e.nNode → Fin e.dim → ℝ} {us₁ us₂ us : List Tensor} {f₁ f₂ f : Tensor}
    (h₁ : ElasticHistory p d e rule X us₁ f₁) (h₂ : ElasticHistory p d e rule X us₂ f₂)
    (h : ElasticHistory p d e rule X us f) {a b : ℝ}
    (hab : ∀ k < e.nNode, ∀ i < e.dim, (totalDisp e.nNode e.dim us).val [k, i] =
      a * (totalDisp e.nNode e.dim us₁).val [k, i] + b * (totalDisp e.nNode e.dim us₂).val [k, i]) :
    ∀ k < e.nNode, ∀ i < e.dim,
      f.val [k * e.dim + i] = a * f₁.val [k * e.dim + i] + b * f₂.val [k * e.dim + i] := by
  intro k hk i hi
  rw [← nodalDot_unit f hk hi, ← nodalDot_unit f₁ hk hi, ← nodalDot_unit f₂ hk hi,
    last_forces hn hE hv h _ rfl, last_forces hn hE hv h₁ _ rfl, last_forces hn hE hv h₂ _ rfl,
    elasticWork_comb E v hn rule X hab]

theorem init_weights {e : ElementType} {n : ℕ} {rule : GaussRule e.dim} (h : e.init n = .ok rule) :
    rule.length = n ∧ ∀ g ∈ rule, 0 < g.2 := by
  unfold ElementType.init at h
  split at h
  · cases h
  · cases e
    case tri3 | tri6 =>
      have := C14_points .triangular n rule h
      exact ⟨this.1, fun g hg => (this.2.1 g hg).1⟩
    case quad4 | quad8 =>
      have := C14_points .quadrilateral n rule h
      exact ⟨this.1, fun g hg => (this.2.1 g hg).1⟩
    case tetra4 | tetra10 =>
      have := C14_points .tetrahedral n rule h
      exact ⟨this.1, fun g hg => (this.2.1 g hg).1⟩
    case hexa8 | hexa20 =>
      have := C14_points .hexahedral n rule h
      exact ⟨this.1, fun g hg => (this.2.1 g hg).1⟩

theorem trace_sq_le (a : T2 3) : (∑ i, a i i) * (∑ i, a i i) ≤ 3 * ∑ i, ∑ j, a i j * a i j := by
  simp only [Fin.sum_univ_three]
  nlinarith [sq_nonneg (a 0 0 - a 1 1), sq_nonneg (a 0 0 - a 2 2), sq_nonneg (a 1 1 - a 2 2),
    mul_self_nonneg (a 0 1), mul_self_nonneg (a 1 0), mul_self_nonneg (a 0 2), mul_self_nonneg (a 2 0),
    mul_self_nonneg (a 1 2), mul_self_nonneg (a 2 1)]

/-- A strain stores energy. -/
theorem density_pos (p : PType) {E v : ℝ} (hE : 0 < E) (hv1 : -1 < v) (hv2 : v < 1 / 2) (a : T2 p.dim)
    (ha : a ≠ 0) :
    0 < ∑ i, ∑ j, inPlane p (hooke (lame E v) (shear E v) (embed p a)) i j * a i j := by
  rw [hooke_density]
  have hG : 0 < shear E v := by unfold shear; exact div_pos hE (by linarith)
  have hK : 0 < 3 * lame E v + 2 * shear E v := by
    have : 3 * lame E v + 2 * shear E v = E / (1 - 2 * v) := by
      have h1 : (1 : ℝ) + v ≠ 0 := by linarith
      have h2 : (1 : ℝ) - 2 * v ≠ 0 := by linarith
      unfold lame shear
      obtain ⟨k, hk⟩ : ∃ k, k = 1 - 2 * v := ⟨_, rfl⟩
      rw [← hk] at h2 ⊢
      field_simp
      rw [hk]
      ring
    rw [this]
    exact div_pos hE (by linarith)
  have hn : 0 < ∑ i, ∑ j, a i j * a i j := by
    by_contra hcon
    apply ha
    have hz : ∑ i, ∑ j, a i j * a i j = 0 :=
      le_antisymm (not_lt.1 hcon) (Finset.sum_nonneg fun i _ => Finset.sum_nonneg fun j _ => mul_self_nonneg _)
    funext i j
    have h1 := (Finset.sum_eq_zero_iff_of_nonneg
      (fun i _ => Finset.sum_nonneg fun j _ => mul_self_nonneg (a i j))).1 hz i (Finset.mem_univ i)
    have h2 := (Finset.sum_eq_zero_iff_of_nonneg (fun j _ => mul_self_nonneg (a i j))).1 h1 j (Finset.mem_univ j)
    simpa using h2
  have htr : (∑ i, a i i) * (∑ i, a i i) ≤ 3 * ∑ i, ∑ j, a i j * a i j := by
    cases p with
    | plane =>
      simp only [Fin.sum_univ_succ, Fin.sum_univ_zero]
      nlinarith [sq_nonneg (a 0 0 - a 1 1), mul_self_nonneg (a 0 0), mul_self_nonneg (a 1 1),
        mul_self_nonneg (a 0 1), mul_self_nonneg (a 1 0)]
    | solid => exact trace_sq_le a
  have ht := mul_self_nonneg (∑ i, a i i)
  rw [mul_assoc]
  rcases le_or_gt 0 (lame E v) with hl | hl
  · have := mul_nonneg hl ht
    have := mul_pos hG hn
    linarith
  · have h1 := mul_le_mul_of_nonpos_left htr hl.le
    have h2 := mul_pos hK hn
    nlinarith

/-- **C157.** Stored energy: with `E > 0` and `-1 < v < 1/2`, in an element with one of its Gauss rules and
positive Jacobian determinants, the forces do a non-negative work on the total displacements, which is zero
only if there is no strain at any Gauss point; then the forces are zero. -/
theorem C157_energy {p : PType} {e : ElementType} (hn : e.dim = p.dim) {d : Props} {E v : ℝ}
    (hE : d .E = some E) (hv : d .v = some v) (hE0 : 0 < E) (hv1 : -1 < v) (hv2 : v < 1 / 2)
    {n : ℕ} {rule : GaussRule e.dim} (hr : e.init n = .ok rule) {X : Fin e.nNode → Fin e.dim → ℝ}
    (hJ : ∀ c w, (c, w) ∈ rule → 0 < (e.jacobian X c).det) {us : List Tensor} {f : Tensor}
    (h : ElasticHistory p d e rule X us f) :
    0 ≤ nodalDot e.nNode e.dim f (totalDisp e.nNode e.dim us) ∧
    (nodalDot e.nNode e.dim f (totalDisp e.nNode e.dim us) = 0 ↔
      ∀ c w, (c, w) ∈ rule → strainAt e X c p.dim (totalDisp e.nNode e.dim us) = 0) ∧
    (nodalDot e.nNode e.dim f (totalDisp e.nNode e.dim us) = 0 →
      ∀ k < e.nNode, ∀ i < e.dim, f.val [k * e.dim + i] = 0) := by
  have hw := (init_weights hr).2
  set u := totalDisp e.nNode e.dim us with hu
  have hval := last_forces hn hE hv h u rfl
  rw [← hu] at hval
  have hmem : ∀ g : Fin rule.length, rule[g] ∈ rule := fun g => List.getElem_mem _
  have hcoef : ∀ g : Fin rule.length, 0 < rule[g].2 * (e.jacobian X rule[g].1).det := fun g =>
    mul_pos (hw _ (hmem g)) (hJ rule[g].1 rule[g].2 (hmem g))
  have hdens : ∀ a : T2 p.dim,
      0 ≤ ∑ i, ∑ j, inPlane p (hooke (lame E v) (shear E v) (embed p a)) i j * a i j := by
    intro a
    by_cases ha : a = 0
    · rw [ha, hooke_density]
      simp
    · exact (density_pos p hE0 hv1 hv2 a ha).le
  have hterm : ∀ g ∈ (Finset.univ : Finset (Fin rule.length)),
      0 ≤ rule[g].2 * (e.jacobian X rule[g].1).det *
        ∑ i, ∑ j, inPlane p (hooke (lame E v) (shear E v) (embed p (strainAt e X rule[g].1 p.dim u))) i j *
          strainAt e X rule[g].1 p.dim u i j := fun g _ => mul_nonneg (hcoef g).le (hdens _)
  have hiff : nodalDot e.nNode e.dim f u = 0 ↔ ∀ c w, (c, w) ∈ rule → strainAt e X c p.dim u = 0 := by
    rw [hval, elasticWork, Finset.sum_eq_zero_iff_of_nonneg hterm]
    constructor
    · intro h0 c w hcw
      obtain ⟨g, hg, hgc⟩ := List.getElem_of_mem hcw
      have h1 := h0 ⟨g, hg⟩ (Finset.mem_univ _)
      have hgc' : rule[(⟨g, hg⟩ : Fin rule.length)] = (c, w) := hgc
      have h2 := hcoef ⟨g, hg⟩
      rw [hgc'] at h1 h2
      by_contra hne
      exact absurd h1 (mul_pos h2 (density_pos p hE0 hv1 hv2 _ hne)).ne'
    · intro h0 g _
      rw [h0 rule[g].1 rule[g].2 (hmem g), hooke_density]
      simp
  refine ⟨by rw [hval]; exact Finset.sum_nonneg hterm, hiff, fun h0 k hk i hi => ?_⟩
  rw [← nodalDot_unit f hk hi, last_forces hn hE hv h _ rfl, ← hu, elasticWork]
  refine Finset.sum_eq_zero fun g _ => ?_
  rw [hiff.1 h0 rule[g].1 rule[g].2 (hmem g), hooke_density]
  simp

/-- The hypotheses are met: a four-node quadrilateral with four Gauss points, any `E` and `v`, two increments. -/
example (E v : ℝ) (u₁ u₂ : Tensor) (h₁ : u₁.shape = [4, 2]) (h₂ : u₂.shape = [4, 2]) :
    ∃ (d : Props) (rule : GaussRule 2) (f : Tensor), d .E = some E ∧ d .v = some v ∧
      ElementType.quad4.init 4 = .ok rule ∧
      (∀ c w, (c, w) ∈ rule → (ElementType.quad4.jacobian ElementType.quad4.nodes c).det ≠ 0) ∧
      ElasticHistory .plane d .quad4 rule ElementType.quad4.nodes [u₁, u₂] f := by
  obtain ⟨rule, hr, -⟩ := (C14_element_init .quad4 4).1 (by simp [ElementType.admissibleGauss])
  let d : Props := fun k => match k with
    | .E => some E
    | .v => some v
    | _ => none
  have hJ : ∀ c w, (c, w) ∈ rule → (ElementType.quad4.jacobian ElementType.quad4.nodes c).det ≠ 0 :=
    fun c _ _ => reference_jacobian .quad4 c
  have hus : ∀ u ∈ [u₁, u₂], u.shape = [ElementType.quad4.nNode, ElementType.quad4.dim] := by
    intro u hu
    simp only [List.mem_cons, List.not_mem_nil, or_false] at hu
    rcases hu with rfl | rfl
    · exact h₁
    · exact h₂
  obtain ⟨fs, st, h⟩ := C157_returns (p := .plane) (e := .quad4) (d := d) (E := E) (v := v) rfl rfl rfl hJ hus
  have hl := (C157_history (p := .plane) (e := .quad4) (d := d) (E := E) (v := v) rfl rfl rfl hus h).1
  refine ⟨d, rule, fs.getLast (by intro h0; simp [h0] at hl), rfl, rfl, hr, hJ, hus, fs, st, h, ?_⟩
  exact List.getLast?_eq_some_getLast _

/-! ## Specimens -/

/-- The increment `du` of the nodal displacements of a mesh, as displacements of the nodes of element `k`;
`du l i` is component `i` at the node with label `l`. -/
def Spec.elementField (m : MeshTopology) (e : ElementType) (k : ℕ) (du : ℕ → ℕ → ℝ) : Tensor :=
  ⟨[e.nNode, e.dim], fun idx => du ((nodes m k).getD (idx.getD 0 0) 0) (idx.getD 1 0)⟩

/-- Total displacements of the nodes. -/
def Spec.totalNodal (hist : List (ℕ → ℕ → ℝ)) : ℕ → ℕ → ℝ := fun l i => (hist.map fun du => du l i).sum

/-- Work of a mesh vector on nodal displacements. -/
def Spec.meshWork (N n : ℕ) (out : Arr) (U : ℕ → ℕ → ℝ) : ℝ :=
  ∑ l ∈ Finset.range N, ∑ i ∈ Finset.range n, out.val (l * n + i) * U (l + 1) i

/-- Element `k` of the mesh has type `typ k`, Gauss rule `rule k` and the elastic properties `d k`; after the
increments `hist` of the nodal displacements, from the initial states, its forces are `f k`, and `out` is the
assembled vector. -/
structure Spec.ElasticSpecimen (p : PType) (m : MeshTopology) (xs : ℕ → ℕ → ℝ) (typ : ℕ → ElementType)
    (rule : ∀ k, GaussRule (typ k).dim) (d : ℕ → Props) (hist : List (ℕ → ℕ → ℝ)) (f : ℕ → Tensor)
    (out : Arr) : Prop where
  mesh : ValidMesh m
  nonempty : 0 < m.conn.length
  dim : ∀ k, IsElement m k → (typ k).dim = p.dim
  nodes : ∀ k, IsElement m k → (nodes m k).length = (typ k).nNode
  forces : ∀ k, IsElement m k → ElasticHistory p (d k) (typ k) (rule k)
    (fun a i => xs ((Spec.nodes m k).getD a 0) i) (hist.map (elementField m (typ k) k)) (f k)
  assembled : elementAssembler m ((List.range m.conn.length).map fun k : ℕ =>
    (k + 1, ⟨(typ (k + 1)).nNode * (typ (k + 1)).dim, fun q => (f (k + 1)).val [q]⟩)) = .ok out

theorem elementField_total (m : MeshTopology) (e : ElementType) (k : ℕ) (hist : List (ℕ → ℕ → ℝ)) :
    totalDisp e.nNode e.dim (hist.map (elementField m e k)) = elementField m e k (totalNodal hist) := by
  simp only [totalDisp, elementField, totalNodal, List.map_map]
  rfl

theorem contribution_work {m : MeshTopology} (hm : ValidMesh m) {k : ℕ} (hk : IsElement m k) (n : ℕ) (A : Arr)
    (U : ℕ → ℕ → ℝ) :
    ∑ l ∈ Finset.range m.nNode, ∑ i ∈ Finset.range n, contribution m n (l + 1) i (k, A) * U (l + 1) i =
      ∑ a ∈ Finset.range (nodes m k).length, ∑ i ∈ Finset.range n,
        A.val (a * n + i) * U ((nodes m k).getD a 0) i := by
  have hc : ∀ l i, contribution m n (l + 1) i (k, A) * U (l + 1) i =
      ∑ a ∈ Finset.range (nodes m k).length, if (nodes m k).getD a 0 = l + 1 then
        A.val (a * n + i) * U ((nodes m k).getD a 0) i else 0 := by
    intro l i
    simp only [contribution, Finset.sum_mul]
    refine Finset.sum_congr rfl fun a _ => ?_
    split_ifs with h
    · rw [h]
    · simp
  simp only [hc]
  have hswap : ∀ l ∈ Finset.range m.nNode, (∑ i ∈ Finset.range n,
      ∑ a ∈ Finset.range (nodes m k).length, if (nodes m k).getD a 0 = l + 1 then
        A.val (a * n + i) * U ((nodes m k).getD a 0) i else 0) =
      ∑ a ∈ Finset.range (nodes m k).length, ∑ i ∈ Finset.range n, if (nodes m k).getD a 0 = l + 1 then
        A.val (a * n + i) * U ((nodes m k).getD a 0) i else 0 := fun l _ => Finset.sum_comm
  rw [Finset.sum_congr rfl hswap, Finset.sum_comm]
  refine Finset.sum_congr rfl fun a ha => ?_
  have ha := Finset.mem_range.1 ha
  have hlab : 1 ≤ (nodes m k).getD a 0 ∧ (nodes m k).getD a 0 ≤ m.nNode := by
    have hlt : k - 1 < m.conn.length := by have := hk.1; have := hk.2; omega
    have hmem : nodes m k ∈ m.conn := by
      unfold nodes
      rw [List.getD_eq_getElem?_getD, List.getElem?_eq_getElem hlt, Option.getD_some]
      exact List.getElem_mem hlt
    have := (hm.2 _ hmem).2 ((nodes m k).getD a 0) (by
      rw [List.getD_eq_getElem?_getD, List.getElem?_eq_getElem ha, Option.getD_some]
      exact List.getElem_mem ha)
    exact this
  rw [Finset.sum_eq_single ((nodes m k).getD a 0 - 1)]
  · refine Finset.sum_congr rfl fun i _ => ?_
    rw [if_pos (by omega)]
  · intro l _ hl
    refine Finset.sum_eq_zero fun i _ => ?_
    rw [if_neg (by omega)]
  · intro h
    exact absurd (Finset.mem_range.2 (by omega)) h

/-- The work of the assembled vector is the sum of the works of the element forces. -/
theorem mesh_work {n : ℕ} {m : MeshTopology} {typ : ℕ → ElementType} {f : ℕ → Tensor} {out : Arr}
    (hmesh : ValidMesh m) (hne : 0 < m.conn.length) (hdim : ∀ k, IsElement m k → (typ k).dim = n)
    (hnodes : ∀ k, IsElement m k → (nodes m k).length = (typ k).nNode)
    (hass : elementAssembler m ((List.range m.conn.length).map fun k : ℕ =>
      (k + 1, ⟨(typ (k + 1)).nNode * (typ (k + 1)).dim, fun q => (f (k + 1)).val [q]⟩)) = .ok out)
    (U : ℕ → ℕ → ℝ) :
    meshWork m.nNode n out U = ((List.range m.conn.length).map fun k : ℕ =>
      nodalDot (typ (k + 1)).nNode (typ (k + 1)).dim (f (k + 1))
        (elementField m (typ (k + 1)) (k + 1) U)).sum := by
  have hIs : ∀ k ∈ List.range m.conn.length, IsElement m (k + 1) := fun k hk =>
    ⟨by omega, by have := List.mem_range.1 hk; omega⟩
  have hel : ElementArrays m n ((List.range m.conn.length).map fun k : ℕ =>
    (k + 1, (⟨(typ (k + 1)).nNode * (typ (k + 1)).dim, fun q => (f (k + 1)).val [q]⟩ : Arr))) := by
    refine ⟨?_, ?_⟩
    · refine List.ne_nil_of_length_pos ?_
      rw [List.length_map, List.length_range]
      exact hne
    · intro ka hka
      obtain ⟨k, hk, rfl⟩ := List.mem_map.1 hka
      refine ⟨hIs k hk, ?_⟩
      show (typ (k + 1)).nNode * (typ (k + 1)).dim = _
      rw [hdim _ (hIs k hk), hnodes _ (hIs k hk)]
  obtain ⟨out', ho1, -, ho3⟩ := C20_assembly hmesh hel
  have ho := hass.symm.trans ho1
  cases ho
  unfold meshWork
  have e1 : ∀ l ∈ Finset.range m.nNode, ∀ i ∈ Finset.range n, out.val (l * n + i) * U (l + 1) i =
      (((List.range m.conn.length).map fun k : ℕ => contribution m n (l + 1) i (k + 1,
        (⟨(typ (k + 1)).nNode * (typ (k + 1)).dim, fun q => (f (k + 1)).val [q]⟩ : Arr)) * U (l + 1) i)).sum := by
    intro l hl i hi
    have := ho3 (l + 1) i (by omega) (Finset.mem_range.1 hl) (Finset.mem_range.1 hi)
    rw [Nat.add_sub_cancel] at this
    rw [this, List.map_map, ← List.sum_map_mul_right]
    rfl
  rw [Finset.sum_congr rfl fun l hl => Finset.sum_congr rfl fun i hi => e1 l hl i hi]
  have hK : ∀ K : List ℕ, (∀ k ∈ K, IsElement m (k + 1)) →
      ∑ l ∈ Finset.range m.nNode, ∑ i ∈ Finset.range n, ((K.map fun k : ℕ =>
        contribution m n (l + 1) i (k + 1,
          (⟨(typ (k + 1)).nNode * (typ (k + 1)).dim, fun q => (f (k + 1)).val [q]⟩ : Arr)) * U (l + 1) i)).sum =
      (K.map fun k : ℕ => nodalDot (typ (k + 1)).nNode (typ (k + 1)).dim (f (k + 1))
        (elementField m (typ (k + 1)) (k + 1) U)).sum := by
    intro K
    induction K with
    | nil => simp
    | cons k K ih =>
      intro hKs
      simp only [List.map_cons, List.sum_cons, Finset.sum_add_distrib]
      rw [ih fun k' hk' => hKs k' (List.mem_cons_of_mem _ hk')]
      congr 1
      have hk := hKs k List.mem_cons_self
      rw [contribution_work hmesh hk, hnodes _ hk, nodalDot, hdim _ hk]
      rfl
  exact hK _ hIs

theorem assembled_work {p : PType} {m : MeshTopology} {xs : ℕ → ℕ → ℝ} {typ : ℕ → ElementType}
    {rule : ∀ k, GaussRule (typ k).dim} {d : ℕ → Props} {hist : List (ℕ → ℕ → ℝ)} {f : ℕ → Tensor} {out : Arr}
    (h : ElasticSpecimen p m xs typ rule d hist f out) (U : ℕ → ℕ → ℝ) :
    meshWork m.nNode p.dim out U = ((List.range m.conn.length).map fun k : ℕ =>
      nodalDot (typ (k + 1)).nNode (typ (k + 1)).dim (f (k + 1))
        (elementField m (typ (k + 1)) (k + 1) U)).sum :=
  mesh_work h.mesh h.nonempty h.dim h.nodes h.assembled U

/-- **C157.** Reciprocity of a specimen: its elements may be of different types and have different elastic
properties. -/
theorem C157_specimen_reciprocal {p : PType} {m : MeshTopology} {xs : ℕ → ℕ → ℝ} {typ : ℕ → ElementType}
    {rule : ∀ k, GaussRule (typ k).dim} {d : ℕ → Props} {E v : ℕ → ℝ}
    (hE : ∀ k, IsElement m k → d k .E = some (E k)) (hv : ∀ k, IsElement m k → d k .v = some (v k))
    {hist₁ hist₂ : List (ℕ → ℕ → ℝ)} {f₁ f₂ : ℕ → Tensor} {out₁ out₂ : Arr}
    (h₁ : ElasticSpecimen p m xs typ rule d hist₁ f₁ out₁) (h₂ : ElasticSpecimen p m xs typ rule d hist₂ f₂ out₂) :
    meshWork m.nNode p.dim out₁ (totalNodal hist₂) = meshWork m.nNode p.dim out₂ (totalNodal hist₁) := by
  rw [assembled_work h₁, assembled_work h₂]
  congr 1
  refine List.map_congr_left fun k hk => ?_
  have hk' : IsElement m (k + 1) := ⟨by omega, by have := List.mem_range.1 hk; omega⟩
  rw [← elementField_total, ← elementField_total]
  exact C157_reciprocal (h₁.dim _ hk') (hE _ hk') (hv _ hk') (h₁.forces _ hk') (h₂.forces _ hk')

/-- **C157.** Stored energy of a specimen: with `E > 0` and `-1 < v < 1/2` and positive Jacobian determinants
everywhere, the assembled forces do a non-negative work on the total displacements; if it is zero, no Gauss
point of any element is strained. -/
theorem C157_specimen_energy {p : PType} {m : MeshTopology} {xs : ℕ → ℕ → ℝ} {typ : ℕ → ElementType}
    {rule : ∀ k, GaussRule (typ k).dim} {d : ℕ → Props} {E v : ℕ → ℝ}
    (hE : ∀ k, IsElement m k → d k .E = some (E k)) (hv : ∀ k, IsElement m k → d k .v = some (v k))
    (hEv : ∀ k, IsElement m k → 0 < E k ∧ -1 < v k ∧ v k < 1 / 2) {ng : ℕ → ℕ}
    (hr : ∀ k, IsElement m k → (typ k).init (ng k) = .ok (rule k))
    (hJ : ∀ k, IsElement m k → ∀ c w, (c, w) ∈ rule k → 0 < ((typ k).jacobian
      (fun a i => xs ((Spec.nodes m k).getD a 0) i) c).det)
    {hist : List (ℕ → ℕ → ℝ)} {f : ℕ → Tensor} {out : Arr}
    (h : ElasticSpecimen p m xs typ rule d hist f out) :
    0 ≤ meshWork m.nNode p.dim out (totalNodal hist) ∧
    (meshWork m.nNode p.dim out (totalNodal hist) = 0 → ∀ k, IsElement m k → ∀ c w, (c, w) ∈ rule k →
      strainAt (typ k) (fun a i => xs ((Spec.nodes m k).getD a 0) i) c p.dim
        (elementField m (typ k) k (totalNodal hist)) = 0) := by
  have hIs : ∀ k ∈ List.range m.conn.length, IsElement m (k + 1) := fun k hk =>
    ⟨by omega, by have := List.mem_range.1 hk; omega⟩
  have hel := fun k (hk : IsElement m k) => C157_energy (h.dim k hk) (hE k hk) (hv k hk) (hEv k hk).1
    (hEv k hk).2.1 (hEv k hk).2.2 (hr k hk) (hJ k hk) (h.forces k hk)
  simp only [elementField_total] at hel
  have hnn : ∀ x ∈ (List.range m.conn.length).map fun k : ℕ =>
      nodalDot (typ (k + 1)).nNode (typ (k + 1)).dim (f (k + 1))
        (elementField m (typ (k + 1)) (k + 1) (totalNodal hist)), 0 ≤ x := by
    intro x hx
    obtain ⟨k, hk, rfl⟩ := List.mem_map.1 hx
    exact (hel (k + 1) (hIs k hk)).1
  rw [assembled_work h]
  refine ⟨List.sum_nonneg hnn, fun h0 k hk c w hcw => ?_⟩
  have hk1 : k - 1 ∈ List.range m.conn.length := List.mem_range.2 (by have := hk.1; have := hk.2; omega)
  have hz : nodalDot (typ k).nNode (typ k).dim (f k) (elementField m (typ k) k (totalNodal hist)) = 0 := by
    have hle := List.single_le_sum hnn _ (List.mem_map.2 ⟨k - 1, hk1, rfl⟩)
    rw [h0, Nat.sub_add_cancel hk.1] at hle
    exact le_antisymm hle (hel k hk).1
  exact (hel k hk).2.1.1 hz c w hcw

/-- The hypotheses are met: any plane mesh of four-node quadrilaterals without a singular Jacobian, any
elastic properties and any increments. -/
example {m : MeshTopology} (hm : ValidMesh m) (h0 : 0 < m.conn.length)
    (hq : ∀ k, IsElement m k → (nodes m k).length = 4) (xs : ℕ → ℕ → ℝ) (rule : GaussRule 2)
    (hJ : ∀ k c w, (c, w) ∈ rule → (ElementType.quad4.jacobian
      (fun a i => xs ((Spec.nodes m k).getD a 0) i) c).det ≠ 0) (E v : ℝ) (du : ℕ → ℕ → ℝ) :
    ∃ (d : ℕ → Props) (f : ℕ → Tensor) (out : Arr), (∀ k, d k .E = some E ∧ d k .v = some v) ∧
      ElasticSpecimen .plane m xs (fun _ => .quad4) (fun _ => rule) d [du] f out := by
  let d : Props := fun k => match k with
    | .E => some E
    | .v => some v
    | _ => none
  have hf : ∀ k, ∃ f, ElasticHistory .plane d .quad4 rule (fun a i => xs ((Spec.nodes m k).getD a 0) i)
      ([du].map (elementField m .quad4 k)) f := by
    intro k
    have hus : ∀ u ∈ [du].map (elementField m .quad4 k),
        u.shape = [ElementType.quad4.nNode, ElementType.quad4.dim] := by
      intro u hu
      obtain ⟨x, -, rfl⟩ := List.mem_map.1 hu
      rfl
    obtain ⟨fs, st, h⟩ := C157_returns (p := .plane) (e := .quad4) (d := d) (E := E) (v := v) rfl rfl rfl
      (hJ k) hus
    have hl := (C157_history (p := .plane) (e := .quad4) (d := d) (E := E) (v := v) rfl rfl rfl hus h).1
    exact ⟨fs.getLast (by intro h0; simp [h0] at hl), hus, fs, st, h, List.getLast?_eq_some_getLast _⟩
  choose f hf using hf
  have hel : ElementArrays m 2 ((List.range m.conn.length).map fun k : ℕ =>
    (k + 1, (⟨ElementType.quad4.nNode * ElementType.quad4.dim, fun q => (f (k + 1)).val [q]⟩ : Arr))) := by
    refine ⟨List.ne_nil_of_length_pos (by simpa using h0), ?_⟩
    intro ka hka
    obtain ⟨k, hk, rfl⟩ := List.mem_map.1 hka
    have hk' : IsElement m (k + 1) := ⟨by omega, by have := List.mem_range.1 hk; omega⟩
    refine ⟨hk', ?_⟩
    rw [hq _ hk']
    rfl
  obtain ⟨out, ho, -⟩ := C20_assembly hm hel
  exact ⟨fun _ => d, f, out, fun k => ⟨rfl, rfl⟩, hm, h0, fun _ _ => rfl, hq, fun k _ => hf k, ho⟩

end Hooke
