import Verif.Lemmas.Objectivity
import Verif.Props.MixedReturn
import Verif.Props.ConsistentTangentDP
import Verif.Props.VonMisesVMAP
import Verif.Props.ConsistentTangentVMAP
import Verif.Model.DruckerPragerVMAP

/-!
# C139: the response does not depend on the choice of the axes
-/

noncomputable section

namespace Hooke

open Spec

/-- A 6x6 matrix and its rotated form. -/
def RotTan (Q : T2 3) (T T' : M6) : Prop := ∀ x, mv6 T' (rotKel Q x) = rotKel Q (mv6 T x)

theorem rotTan_iso {Q : T2 3} (h : IsOrthogonal Q) (lam G : ℝ) :
    RotTan Q (kel66 (isoTensor lam G)) (kel66 (isoTensor lam G)) := fun x => by
  rw [mv6_iso, mv6_iso, rotKel_hooke h]

theorem rotTan_plastic {Q : T2 3} (h : IsOrthogonal Q) (lam G a b c : ℝ) (f : V6) :
    RotTan Q
      (kel66 fun i j k l => isoTensor lam G i j k l - a * (getIdOperators 3).fodevprojsym i j k l +
        b * dyad22_1 (fun i j => c * unkel6 f i j) (fun i j => c * unkel6 f i j) i j k l)
      (kel66 fun i j k l => isoTensor lam G i j k l - a * (getIdOperators 3).fodevprojsym i j k l +
        b * dyad22_1 (fun i j => c * unkel6 (rotKel Q f) i j) (fun i j => c * unkel6 (rotKel Q f) i j)
          i j k l) := by
  intro x
  have e : mv6 (kel66 fun i j k l => isoTensor lam G i j k l -
      a * (getIdOperators 3).fodevprojsym i j k l +
        b * dyad22_1 (fun i j => c * unkel6 f i j) (fun i j => c * unkel6 f i j) i j k l) x =
      hooke6 lam G x + (-a) • dev6 x + (b * (c ^ 2 * ∑ j, f j * x j)) • f := by
    funext k
    rw [mv6_kel66_lin, mv6_iso, mv6_devprojsym, mv6_dyad]
    simp only [Pi.add_apply, Pi.smul_apply, smul_eq_mul]
    ring
  rw [e]
  funext k
  rw [mv6_kel66_lin, mv6_iso, mv6_devprojsym, mv6_dyad, rotKel_inner h, rotKel_add, rotKel_add,
    rotKel_smul, rotKel_smul, rotKel_hooke h, rotKel_dev h]
  simp only [Pi.add_apply, Pi.smul_apply, smul_eq_mul]
  ring

theorem rotKel_return (Q : T2 3) (a b : ℝ) (x y : V6) :
    rotKel Q (fun k => x k - a * (b * y k)) = fun k => rotKel Q x k - a * (b * rotKel Q y k) := by
  have := rotKel_combine Q 1 (-(a * b)) x y
  have e : (fun k => x k - a * (b * y k)) = fun k => 1 * x k + -(a * b) * y k := by
    funext k
    ring
  rw [e, this]
  funext k
  ring

theorem rotKel_grow (Q : T2 3) (a b : ℝ) (x y : V6) :
    rotKel Q (fun k => x k + a * (b * y k)) = fun k => rotKel Q x k + a * (b * rotKel Q y k) := by
  have := rotKel_return Q (-a) b x y
  simpa only [neg_mul, sub_neg_eq_add] using this

/-- A rotated return mapping. -/
def RotVMReturn (Q : T2 3) (r r' : VMReturn) : Prop :=
  r'.eStrain = rotKel Q r.eStrain ∧ r'.stress = rotKel Q r.stress ∧ r'.acc = r.acc ∧
    r'.isPlast = r.isPlast ∧ RotTan Q r.tangent r'.tangent

theorem vmReturn_rot {Q : T2 3} (h : IsOrthogonal Q) (E v : ℝ) (law : HardLaw) (e : V6) (acc : ℝ) :
    Option.Rel (RotVMReturn Q) (vmReturn E v law e acc) (vmReturn E v law (rotKel Q e) acc) := by
  unfold vmReturn
  simp only [mv6_iso, mv6_devprojsym, rotKel_hooke h, rotKel_dev h, rotKel_norm h]
  split
  · exact .some ⟨rfl, rfl, rfl, rfl, rotTan_iso h _ _⟩
  · split
    · exact .none
    · rename_i inc _
      refine .some ⟨?_, ?_, rfl, rfl, ?_⟩
      · exact (rotKel_return Q _ _ _ _).symm
      · dsimp only
        rw [← rotKel_hooke h, rotKel_return]
      · have ht := fun a b c d => rotTan_plastic h (lamOf E v) (miuOf E v) a b c
          (fun k => d * dev6 (hooke6 (lamOf E v) (miuOf E v) e) k)
        simp only [rotKel_mul] at ht
        exact ht _ _ _ _

theorem rotTangent_of {p : PType} {Q : T2 p.dim} {T T' : M6} (h : RotTan (rot3 p Q) T T') :
    RotTangent p Q (to2DM p T) (to2DM p T') := fun x => by
  have e : ∀ (T : M6) (x : Vmf p), (fun i => ∑ j, to2DM p T i j * x j) = to2D p (mv6 T (to3D p x 0)) :=
    fun T x => funext fun i => to2DM_mul p T x i
  rw [e, e, to3D_rot, h, to2D_rot]

theorem trial_rot (p : PType) (Q : T2 p.dim) {inc : T2 p.dim} (hs : IsSymP p inc) (e : Vmf p) (c : ℝ) :
    to3D p (rotMf p Q e) c + to3D p (mf p (rotate Q inc)) 0 =
      rotKel (rot3 p Q) (to3D p e c + to3D p (mf p inc) 0) := by
  rw [← rotMf_mf p Q hs, to3D_rot, to3D_rot, rotKel_add]

/-- One step of the von Mises model. -/
theorem vmUpdate_rot {p : PType} {Q : T2 p.dim} (h : IsOrthogonal Q) (E v : ℝ) (law : HardLaw)
    {inc : T2 p.dim} (hs : IsSymP p inc) (old : VMState p) :
    (vmUpdate p E v law (rotate Q inc) (rotVM p Q old)).1 = rotVMVars p Q (vmUpdate p E v law inc old).1 ∧
      Option.Rel (RotTangent p Q) (vmUpdate p E v law inc old).2
        (vmUpdate p E v law (rotate Q inc) (rotVM p Q old)).2 := by
  have hr := vmReturn_rot (rot3_orthogonal h) E v law
    (to3D p old.eStrain old.e33 + to3D p (mf p inc) 0) old.acc
  unfold vmUpdate
  simp only [rotVM, trial_rot p Q hs]
  generalize vmReturn E v law (rotKel (rot3 p Q) (to3D p old.eStrain old.e33 + to3D p (mf p inc) 0))
    old.acc = o' at hr ⊢
  generalize vmReturn E v law (to3D p old.eStrain old.e33 + to3D p (mf p inc) 0) old.acc = o at hr ⊢
  cases hr with
  | none =>
    refine ⟨?_, .none⟩
    simp only [rotVMVars, Option.map_some, to2D_rot, rotMf_add, rotMf_sub]
  | some hr =>
    obtain ⟨h1, h2, h3, h4, h5⟩ := hr
    refine ⟨?_, .some (rotTangent_of h5)⟩
    simp only [rotVMVars, rotVM, h1, h2, h3, h4, to2D_rot, get33_rot, rotMf_add, rotMf_sub]

/-- A rotated return mapping with mixed hardening. -/
def RotMixReturn (Q : T2 3) (r r' : MixReturn) : Prop :=
  r'.eStrain = rotKel Q r.eStrain ∧ r'.stress = rotKel Q r.stress ∧ r'.acc = r.acc ∧
    r'.back = rotKel Q r.back ∧ r'.isPlast = r.isPlast ∧ RotTan Q r.tangent r'.tangent

theorem mixReturn_rot {Q : T2 3} (h : IsOrthogonal Q) (E v : ℝ) (law kin : HardLaw) (e : V6) (acc : ℝ)
    (back : V6) :
    Option.Rel (RotMixReturn Q) (mixReturn E v law kin e acc back)
      (mixReturn E v law kin (rotKel Q e) acc (rotKel Q back)) := by
  unfold mixReturn
  simp only [mv6_iso, mv6_devprojsym, rotKel_hooke h, rotKel_dev h]
  have hrel : ∀ d : V6, (fun k => rotKel Q d k - rotKel Q back k) = rotKel Q fun k => d k - back k :=
    fun d => (rotKel_sub Q d back).symm
  have hn : ∀ d : V6, norm6 (fun k => rotKel Q d k - rotKel Q back k) = norm6 fun k => d k - back k :=
    fun d => by rw [hrel, rotKel_norm h]
  have hk : ∀ (d : V6) k, rotKel Q d k - rotKel Q back k = rotKel Q (fun k => d k - back k) k :=
    fun d k => congrFun (hrel d) k
  simp only [hn]
  split
  · exact .some ⟨rfl, rfl, rfl, rfl, rfl, rotTan_iso h _ _⟩
  · split
    · exact .none
    · rename_i inc _
      simp only [hk]
      refine .some ⟨?_, ?_, rfl, ?_, rfl, ?_⟩
      · exact (rotKel_return Q _ _ _ _).symm
      · dsimp only
        rw [← rotKel_hooke h, rotKel_return]
      · dsimp only
        rw [rotKel_grow]
      · have ht := fun a b c d => rotTan_plastic h (lamOf E v) (miuOf E v) a b c
          (fun k => d * (dev6 (hooke6 (lamOf E v) (miuOf E v) e) k - back k))
        simp only [rotKel_mul Q _ (fun k => dev6 (hooke6 (lamOf E v) (miuOf E v) e) k - back k)] at ht
        exact ht _ _ _ _

/-- One step of the model with mixed hardening. -/
theorem mixUpdate_rot {p : PType} {Q : T2 p.dim} (h : IsOrthogonal Q) (E v : ℝ) (law kin : HardLaw)
    {inc : T2 p.dim} (hs : IsSymP p inc) (old : MixState p) :
    (mixUpdate p E v law kin (rotate Q inc) (rotMix p Q old)).1 =
        rotMixVars p Q (mixUpdate p E v law kin inc old).1 ∧
      Option.Rel (RotTangent p Q) (mixUpdate p E v law kin inc old).2
        (mixUpdate p E v law kin (rotate Q inc) (rotMix p Q old)).2 := by
  have hr := mixReturn_rot (rot3_orthogonal h) E v law kin
    (to3D p old.eStrain old.e33 + to3D p (mf p inc) 0) old.acc (to3D p old.back old.b33)
  unfold mixUpdate
  simp only [rotMix, rotVM, trial_rot p Q hs, to3D_rot p Q old.back]
  generalize mixReturn E v law kin
    (rotKel (rot3 p Q) (to3D p old.eStrain old.e33 + to3D p (mf p inc) 0)) old.acc
    (rotKel (rot3 p Q) (to3D p old.back old.b33)) = o' at hr ⊢
  generalize mixReturn E v law kin (to3D p old.eStrain old.e33 + to3D p (mf p inc) 0) old.acc
    (to3D p old.back old.b33) = o at hr ⊢
  cases hr with
  | none =>
    refine ⟨?_, .none⟩
    simp only [rotMixVars, Option.map_some, to2D_rot, rotMf_add, rotMf_sub]
  | some hr =>
    obtain ⟨h1, h2, h3, h4, h5, h6⟩ := hr
    refine ⟨?_, .some (rotTangent_of h6)⟩
    simp only [rotMixVars, rotMix, rotVM, h1, h2, h3, h4, h5, to2D_rot, get33_rot, rotMf_add, rotMf_sub]

/-- A rotated return mapping of the Drucker-Prager model. -/
def RotDPReturn (Q : T2 3) (r r' : DPReturn) : Prop :=
  r'.eStrain = rotKel Q r.eStrain ∧ r'.stress = rotKel Q r.stress ∧ r'.acc = r.acc ∧
    r'.isPlast = r.isPlast ∧ r'.isApex = r.isApex ∧ RotTan Q r.tangent r'.tangent

theorem rotTan_cone {Q : T2 3} (h : IsOrthogonal Q) (m : DPParams) (e : V6) (inc H : ℝ) :
    RotTan Q (kel66 (dpConeTangent m e inc H)) (kel66 (dpConeTangent m (rotKel Q e) inc H)) := by
  intro x
  have hN : dpNormDiv (rotKel Q e) = dpNormDiv e := by
    unfold dpNormDiv
    rw [rotKel_norm h]
  have lin : ∀ (a b c : ℝ) (u v w : V6), rotKel Q (fun k => a * u k + b * v k + c * w k) =
      fun k => a * rotKel Q u k + b * rotKel Q v k + c * rotKel Q w k := by
    intro a b c u v w
    have e1 : (fun k => a * u k + b * v k + c * w k) = a • u + b • v + c • w := rfl
    rw [e1, rotKel_add, rotKel_add, rotKel_smul, rotKel_smul, rotKel_smul]
    rfl
  have e1 : ∀ (A B C D F : ℝ) (u v w : V6) (i t : ℝ),
      rotKel Q (fun k => A * u k + B * (dpNormDiv e * v k * (dpNormDiv e * i)) -
        C * (D * (dpNormDiv e * v k * t) + F * (w k * (dpNormDiv e * i))) + A * 0) = fun k => A * rotKel Q u k +
          B * (dpNormDiv e * rotKel Q v k * (dpNormDiv e * i)) -
        C * (D * (dpNormDiv e * rotKel Q v k * t) + F * (rotKel Q w k * (dpNormDiv e * i))) + A * 0 := by
    intro A B C D F u v w i t
    have := lin A (B * dpNormDiv e * (dpNormDiv e * i) - C * D * dpNormDiv e * t)
      (-(C * F * (dpNormDiv e * i))) u v w
    refine Eq.trans (congrArg _ ?_) (this.trans ?_) <;> funext k <;> ring
  have hL : mv6 (kel66 (dpConeTangent m e inc H)) x = fun k => _ :=
    funext fun k => mv6_coneTangent m e x inc H k
  have hR : mv6 (kel66 (dpConeTangent m (rotKel Q e) inc H)) (rotKel Q x) = fun k => _ :=
    funext fun k => mv6_coneTangent m (rotKel Q e) (rotKel Q x) inc H k
  rw [hL, hR]
  simp only [hN, rotKel_dev h, rotKel_tr h, rotKel_inner h]
  generalize 2 * shear m.E m.v * (1 - dpNormDiv e * (inc / √2)) = A
  generalize 2 * shear m.E m.v * (dpNormDiv e * (inc / √2) -
    shear m.E m.v * (1 / (shear m.E m.v + bulk m.E m.v * m.etay * m.etaf + H * m.xi ^ 2))) = B
  generalize √2 * shear m.E m.v *
    (1 / (shear m.E m.v + bulk m.E m.v * m.etay * m.etaf + H * m.xi ^ 2)) * bulk m.E m.v = C
  generalize bulk m.E m.v * (1 - bulk m.E m.v * m.etay * m.etaf *
    (1 / (shear m.E m.v + bulk m.E m.v * m.etay * m.etaf + H * m.xi ^ 2))) = F
  generalize ∑ j, dev6 e j * x j = i
  have := lin A (B * dpNormDiv e * (dpNormDiv e * i) - C * m.etay * dpNormDiv e * tr6 x)
      (F * tr6 x - C * m.etaf * (dpNormDiv e * i)) (dev6 x) (dev6 e) one6
  rw [rotKel_one h] at this
  refine Eq.trans ?_ ((Eq.trans (congrArg _ ?_) this).symm) <;> funext k <;> ring

theorem mv6_apex (m : DPParams) (H : ℝ) (x : V6) : mv6 (kel66 (dpApexTangent m H)) x =
    (m.K * (1 - m.K / (m.K + m.xi / m.etaf * (m.xi / m.etay) * H)) * tr6 x) • one6 := by
  funext k
  have hlin : ∀ (c : ℝ) (A : T4 3), mv6 (kel66 fun i j k l => c * A i j k l) x k = c * mv6 (kel66 A) x k := by
    intro c A
    simp only [mv6, kel66, Finset.mul_sum]
    exact Finset.sum_congr rfl fun j _ => by ring
  have hso : ∀ k, kel6 (getIdOperators 3).soid k = one6 k := fun k => congrFun soid6_eq k
  refine (hlin _ _).trans ?_
  rw [mv6_dyad_kel, hso, ← sum_one6]
  simp only [hso, Pi.smul_apply, smul_eq_mul]
  ring

theorem rotTan_apex {Q : T2 3} (h : IsOrthogonal Q) (m : DPParams) (H : ℝ) :
    RotTan Q (kel66 (dpApexTangent m H)) (kel66 (dpApexTangent m H)) := fun x => by
  rw [mv6_apex, mv6_apex, rotKel_tr h, rotKel_smul, rotKel_one h]

theorem rel_ite {α β : Type*} {r : α → β → Prop} {c : Prop} [Decidable c] {a b : Option α} {a' b' : Option β}
    (h1 : c → Option.Rel r a a') (h2 : ¬ c → Option.Rel r b b') :
    Option.Rel r (if c then a else b) (if c then a' else b') := by
  by_cases h : c
  · rw [if_pos h, if_pos h]
    exact h1 h
  · rw [if_neg h, if_neg h]
    exact h2 h

theorem rotKel_elastic {Q : T2 3} (h : IsOrthogonal Q) (a b c : ℝ) (y : V6) :
    rotKel Q (fun k => a * one6 k + b * (c * y k)) = fun k => a * one6 k + b * (c * rotKel Q y k) := by
  have := rotKel_combine Q a (b * c) one6 y
  rw [rotKel_one h] at this
  simpa only [mul_assoc] using this

theorem dpReturn_rot {Q : T2 3} (h : IsOrthogonal Q) (m : DPParams) (law : HardLaw) (e : V6) (acc : ℝ) :
    Option.Rel (RotDPReturn Q) (dpReturn m law e acc) (dpReturn m law (rotKel Q e) acc) := by
  have htr : ∀ x : V6, ∑ i, unkel6 (rotKel Q x) i i = ∑ i, unkel6 x i i := fun x => by
    have h1 : ∀ y : V6, ∑ i, unkel6 y i i = tr6 y := fun y => by
      rw [← kel6_unkel6 y, tr6_kel6, kel6_unkel6]
      rfl
    rw [h1, h1, rotKel_tr h]
  unfold dpReturn
  simp only [mv6_iso, mv6_devprojsym, rotKel_hooke h, rotKel_dev h, rotKel_norm h, htr]
  refine rel_ite (fun _ => .some ⟨rfl, rfl, rfl, rfl, rfl, rotTan_iso h _ _⟩) fun _ => ?_
  generalize dpLoop _ _ _ _ _ = o
  cases o with
  | none => exact .none
  | some inc =>
    generalize hooke6 (lamOf m.E m.v) (miuOf m.E m.v) e = t
    unfold dpPlastic dpElastic
    simp only [soid6_eq]
    refine rel_ite (fun _ => .some ⟨?_, ?_, rfl, rfl, rfl, rotTan_cone h _ _ _ _⟩) fun _ =>
      rel_ite (fun _ => .none) fun _ => ?_
    · exact (rotKel_elastic h _ _ _ (dev6 t)).symm
    · have := fun a b => rotKel_combine Q a b one6 (dev6 t)
      simp only [rotKel_one h] at this
      exact (this _ _).symm
    · generalize dpLoop _ _ _ _ _ = o
      cases o with
      | none => exact .none
      | some vol =>
        refine .some ⟨?_, ?_, rfl, rfl, rfl, rotTan_apex h _ _⟩
        · have := fun a b => rotKel_combine Q a b one6 0
          simp only [rotKel_one h, rotKel_zero] at this
          exact (this _ _).symm
        · have := fun a => rotKel_mul Q a one6
          simp only [rotKel_one h] at this
          exact (this _).symm

/-- One step of the Drucker-Prager model. -/
theorem dpUpdate_rot {p : PType} {Q : T2 p.dim} (h : IsOrthogonal Q) (m : DPParams) (law : HardLaw)
    {inc : T2 p.dim} (hs : IsSymP p inc) (old : DPState p) :
    (dpUpdate p m law (rotate Q inc) (rotDP p Q old)).1 = rotDPVars p Q (dpUpdate p m law inc old).1 ∧
      Option.Rel (RotTangent p Q) (dpUpdate p m law inc old).2
        (dpUpdate p m law (rotate Q inc) (rotDP p Q old)).2 := by
  have hr := dpReturn_rot (rot3_orthogonal h) m law
    (to3D p old.eStrain old.e33 + to3D p (mf p inc) 0) old.acc
  unfold dpUpdate
  simp only [rotDP, rotVM, trial_rot p Q hs]
  generalize dpReturn m law (rotKel (rot3 p Q) (to3D p old.eStrain old.e33 + to3D p (mf p inc) 0))
    old.acc = o' at hr ⊢
  generalize dpReturn m law (to3D p old.eStrain old.e33 + to3D p (mf p inc) 0) old.acc = o at hr ⊢
  cases hr with
  | none =>
    refine ⟨?_, .none⟩
    simp only [rotDPVars, Option.map_some, to2D_rot, rotMf_add, rotMf_sub]
  | some hr =>
    obtain ⟨h1, h2, h3, h4, h5, h6⟩ := hr
    refine ⟨?_, .some (rotTangent_of h6)⟩
    simp only [rotDPVars, rotDP, rotVM, h1, h2, h3, h4, h5, to2D_rot, get33_rot, rotMf_add, rotMf_sub]

/-- State variables of a rotated return mapping, without the tangent. -/
def RotDPState (Q : T2 3) (r r' : DPReturn) : Prop :=
  r'.eStrain = rotKel Q r.eStrain ∧ r'.stress = rotKel Q r.stress ∧ r'.acc = r.acc ∧
    r'.isPlast = r.isPlast ∧ r'.isApex = r.isApex

/-- Rotated step outputs. -/
def RotDPOut (Q : T2 3) (r r' : DPStepOutput) : Prop :=
  r'.eStrain = rotKel Q r.eStrain ∧ r'.stress = rotKel Q r.stress ∧ r'.acc = r.acc ∧
    r'.isPlast = r.isPlast ∧ r'.isApex = r.isApex

theorem dpVmapReturn_rot {Q : T2 3} (h : IsOrthogonal Q) (m : DPParams) (law : HardLaw) (e : V6) (acc : ℝ) :
    Option.Rel (RotDPState Q) (dpVmapReturn m law e acc) (dpVmapReturn m law (rotKel Q e) acc) := by
  have htr : ∀ x : V6, ∑ i, unkel6 (rotKel Q x) i i = ∑ i, unkel6 x i i := fun x => by
    have h1 : ∀ y : V6, ∑ i, unkel6 y i i = tr6 y := fun y => by
      rw [← kel6_unkel6 y, tr6_kel6, kel6_unkel6]
      rfl
    rw [h1, h1, rotKel_tr h]
  unfold dpVmapReturn
  simp only [mv6_iso, mv6_devprojsym, rotKel_hooke h, rotKel_dev h, rotKel_norm h, htr]
  generalize hooke6 (lamOf m.E m.v) (miuOf m.E m.v) e = t
  have key : ∀ b : Bool, Option.Rel (RotDPOut Q)
      (if b = true then some (dpVmapElasticStep e t acc)
        else dpVmapPlasticStep m law b (dev6 t) (1 / 2 * norm6 (dev6 t) ^ 2) (1 / 3 * ∑ x, unkel6 t x x) acc
          suTol suSmall dpVmapMaxIter)
      (if b = true then some (dpVmapElasticStep (rotKel Q e) (rotKel Q t) acc)
        else dpVmapPlasticStep m law b (rotKel Q (dev6 t)) (1 / 2 * norm6 (dev6 t) ^ 2)
          (1 / 3 * ∑ x, unkel6 t x x) acc suTol suSmall dpVmapMaxIter) := by
    intro b
    refine rel_ite (fun _ => .some ⟨rfl, rfl, rfl, rfl, rfl⟩) fun _ => ?_
    unfold dpVmapPlasticStep dpElastic
    generalize dpMaskedLoop _ _ _ _ = o
    obtain ⟨x, c⟩ := o
    dsimp only
    generalize (if c = true then x else none) = o
    cases o with
    | none => exact .none
    | some inc =>
      dsimp only
      simp only [soid6_eq]
      refine rel_ite (fun _ => ?_) fun _ => .some ⟨?_, ?_, rfl, rfl, rfl⟩
      · unfold dpVmapApexStep dpElastic
        refine rel_ite (fun _ => .none) fun _ => ?_
        generalize dpMaskedLoop _ _ _ _ = o
        obtain ⟨x, c⟩ := o
        dsimp only
        generalize (if c = true then x else none) = o
        simp only [soid6_eq]
        cases o with
        | none => exact .none
        | some vol =>
          refine .some ⟨?_, ?_, rfl, rfl, rfl⟩
          · have := fun a b => rotKel_combine Q a b one6 0
            simp only [rotKel_one h, rotKel_zero] at this
            exact (this _ _).symm
          · have := fun a => rotKel_mul Q a one6
            simp only [rotKel_one h] at this
            exact (this _).symm
      · exact (rotKel_elastic h _ _ _ (dev6 t)).symm
      · have := fun a b => rotKel_combine Q a b one6 (dev6 t)
        simp only [rotKel_one h] at this
        exact (this _ _).symm
  generalize decide (if (law acc).1 = 0 then
    √(1 / 2 * norm6 (dev6 t) ^ 2) + m.etay * (1 / 3 * ∑ x, unkel6 t x x) - m.xi * (law acc).1 < 0
    else (√(1 / 2 * norm6 (dev6 t) ^ 2) + m.etay * (1 / 3 * ∑ x, unkel6 t x x) - m.xi * (law acc).1) /
      |(law acc).1| ≤ suTol) = b
  have hk := key b
  generalize (if b = true then some (dpVmapElasticStep e t acc)
        else dpVmapPlasticStep m law b (dev6 t) (1 / 2 * norm6 (dev6 t) ^ 2) (1 / 3 * ∑ x, unkel6 t x x) acc
          suTol suSmall dpVmapMaxIter) = o at hk ⊢
  generalize (if b = true then some (dpVmapElasticStep (rotKel Q e) (rotKel Q t) acc)
        else dpVmapPlasticStep m law b (rotKel Q (dev6 t)) (1 / 2 * norm6 (dev6 t) ^ 2)
          (1 / 3 * ∑ x, unkel6 t x x) acc suTol suSmall dpVmapMaxIter) = o' at hk ⊢
  cases hk with
  | none => exact .none
  | some hk =>
    obtain ⟨h1, h2, h3, h4, h5⟩ := hk
    exact .some ⟨h1, h2, h3, h4, h5⟩

/-- One step of the batched Drucker-Prager model. -/
theorem dpVmapUpdate_rot {p : PType} {Q : T2 p.dim} (h : IsOrthogonal Q) (m : DPParams) (law : HardLaw)
    {inc : T2 p.dim} (hs : IsSymP p inc) (old : DPState p) :
    (dpVmapUpdate p m law (rotate Q inc) (rotDP p Q old)).1 =
      rotDPVars p Q (dpVmapUpdate p m law inc old).1 := by
  have hr := dpVmapReturn_rot (rot3_orthogonal h) m law
    (to3D p old.eStrain old.e33 + to3D p (mf p inc) 0) old.acc
  unfold dpVmapUpdate
  simp only [rotDP, rotVM, trial_rot p Q hs]
  generalize dpVmapReturn m law (rotKel (rot3 p Q) (to3D p old.eStrain old.e33 + to3D p (mf p inc) 0))
    old.acc = o' at hr ⊢
  generalize dpVmapReturn m law (to3D p old.eStrain old.e33 + to3D p (mf p inc) 0) old.acc = o at hr ⊢
  cases hr with
  | none => simp only [rotDPVars, Option.map_some, to2D_rot, rotMf_add, rotMf_sub]
  | some hr =>
    obtain ⟨h1, h2, h3, h4, h5⟩ := hr
    simp only [rotDPVars, rotDP, rotVM, h1, h2, h3, h4, h5, to2D_rot, get33_rot, rotMf_add, rotMf_sub]

theorem foldl_rot {α β : Type*} {f : α → β → α} {r : α → α} {q : β → β} {P : β → Prop}
    (h : ∀ a b, P b → f (r a) (q b) = r (f a b)) (l : List β) (hP : ∀ b ∈ l, P b) (a : α) :
    (l.map q).foldl f (r a) = r (l.foldl f a) := by
  induction l generalizing a with
  | nil => rfl
  | cons b l ih =>
    rw [List.map_cons, List.foldl_cons, List.foldl_cons, h a b (hP b List.mem_cons_self),
      ih fun c hc => hP c (List.mem_cons_of_mem _ hc)]

theorem rotVM_init (p : PType) (Q : T2 p.dim) : rotVM p Q (vmInit p) = vmInit p := by
  simp only [rotVM, vmInit, rotMf_zero]

/-- **C139 (von Mises).** Rotating every strain increment of a history rotates the whole response. -/
theorem C139_von_mises {p : PType} {Q : T2 p.dim} (h : IsOrthogonal Q) (E v : ℝ) (law : HardLaw)
    (incs : List (T2 p.dim)) (hs : ∀ inc ∈ incs, IsSymP p inc) :
    vmRun p E v law (incs.map (rotate Q)) = rotVMVars p Q (vmRun p E v law incs) := by
  have h0 : VMVars.good (vmInit p) = rotVMVars p Q (.good (vmInit p)) := by rw [rotVMVars, rotVM_init]
  unfold vmRun
  conv_lhs => rw [h0]
  refine foldl_rot (P := IsSymP p) (fun st inc hi => ?_) incs hs _
  cases st with
  | good s => exact (vmUpdate_rot h E v law hi s).1
  | nan s => rfl

/-- **C139 (mixed hardening).** -/
theorem C139_mixed {p : PType} {Q : T2 p.dim} (h : IsOrthogonal Q) (E v : ℝ) (law kin : HardLaw)
    (incs : List (T2 p.dim)) (hs : ∀ inc ∈ incs, IsSymP p inc) :
    mixRun p E v law kin (incs.map (rotate Q)) = rotMixVars p Q (mixRun p E v law kin incs) := by
  have h0 : MixVars.good (mixInit p) = rotMixVars p Q (.good (mixInit p)) := by
    simp only [rotMixVars, rotMix, mixInit, rotVM_init, rotMf_zero]
  unfold mixRun
  conv_lhs => rw [h0]
  refine foldl_rot (P := IsSymP p) (fun st inc hi => ?_) incs hs _
  cases st with
  | good s => exact (mixUpdate_rot h E v law kin hi s).1
  | nan s => rfl

/-- **C139 (Drucker-Prager).** -/
theorem C139_drucker_prager {p : PType} {Q : T2 p.dim} (h : IsOrthogonal Q) (m : DPParams) (law : HardLaw)
    (incs : List (T2 p.dim)) (hs : ∀ inc ∈ incs, IsSymP p inc) :
    dpRun p m law (incs.map (rotate Q)) = rotDPVars p Q (dpRun p m law incs) ∧
      dpVmapRun p m law (incs.map (rotate Q)) = rotDPVars p Q (dpVmapRun p m law incs) := by
  have h0 : DPVars.good (dpInit p) = rotDPVars p Q (.good (dpInit p)) := by
    simp only [rotDPVars, rotDP, dpInit, rotVM_init]
  constructor
  · unfold dpRun
    conv_lhs => rw [h0]
    refine foldl_rot (P := IsSymP p) (fun st inc hi => ?_) incs hs _
    cases st with
    | good s => exact (dpUpdate_rot h m law hi s).1
    | nan s => rfl
  · unfold dpVmapRun
    conv_lhs => rw [h0]
    refine foldl_rot (P := IsSymP p) (fun st inc hi => ?_) incs hs _
    cases st with
    | good s => exact dpVmapUpdate_rot h m law hi s
    | nan s => rfl

/-- **C139 (tangents).** The tangent of the rotated step, applied to a rotated strain, is the rotated result
of the tangent of the step; a failed step stays a failed step. -/
theorem C139_tangents {p : PType} {Q : T2 p.dim} (h : IsOrthogonal Q) {inc : T2 p.dim} (hs : IsSymP p inc) :
    (∀ E v law old, Option.Rel (RotTangent p Q) (vmUpdate p E v law inc old).2
      (vmUpdate p E v law (rotate Q inc) (rotVM p Q old)).2) ∧
    (∀ E v law kin old, Option.Rel (RotTangent p Q) (mixUpdate p E v law kin inc old).2
      (mixUpdate p E v law kin (rotate Q inc) (rotMix p Q old)).2) ∧
    ∀ m law old, Option.Rel (RotTangent p Q) (dpUpdate p m law inc old).2
      (dpUpdate p m law (rotate Q inc) (rotDP p Q old)).2 :=
  ⟨fun E v law old => (vmUpdate_rot h E v law hs old).2,
    fun E v law kin old => (mixUpdate_rot h E v law kin hs old).2,
    fun m law old => (dpUpdate_rot h m law hs old).2⟩

/-- **C139 (elastic).** Isotropic elasticity, with its tangent. -/
theorem C139_elastic {p : PType} {Q : T2 p.dim} (h : IsOrthogonal Q) {d : Props} {E v : ℝ}
    (hE : d .E = some E) (hv : d .v = some v) (incs : List (T2 p.dim))
    (hs : ∀ inc ∈ incs, IsSymP p inc) :
    ∃ s, elasticRun p d .isotropic incs (elasticInitState p) = .ok s ∧
      elasticRun p d .isotropic (incs.map (rotate Q)) (elasticInitState p) = .ok (rotElastic p Q s) := by
  have step : ∀ inc, IsSymP p inc → ∀ old, ∃ s T, elasticStateUpdate p d .isotropic inc old = .ok (s, T) ∧
      elasticStateUpdate p d .isotropic (rotate Q inc) (rotElastic p Q old) = .ok (rotElastic p Q s, T) := by
    intro inc hi old
    have hT : elasticTangentModulus d .isotropic = .ok (kel66 (isoTensor (lamOf E v) (miuOf E v))) := by
      simp only [elasticTangentModulus, requiredModuli, if_true, hE, hv]
    unfold elasticStateUpdate
    rw [hT]
    refine ⟨_, _, rfl, ?_⟩
    simp only [rotElastic, trial_rot p Q hi]
    show Except.ok _ = Except.ok _
    simp only [mv6_iso, rotKel_hooke (rot3_orthogonal h), to2D_rot, get33_rot]
  have run : ∀ (l : List (T2 p.dim)), (∀ inc ∈ l, IsSymP p inc) → ∀ old, ∃ s,
      elasticRun p d .isotropic l old = .ok s ∧
      elasticRun p d .isotropic (l.map (rotate Q)) (rotElastic p Q old) = .ok (rotElastic p Q s) := by
    intro l
    induction l with
    | nil => exact fun _ old => ⟨old, rfl, rfl⟩
    | cons inc l ih =>
      intro hl old
      obtain ⟨s, T, h1, h2⟩ := step inc (hl inc List.mem_cons_self) old
      obtain ⟨s', h3, h4⟩ := ih (fun c hc => hl c (List.mem_cons_of_mem _ hc)) s
      refine ⟨s', ?_, ?_⟩
      · unfold elasticRun at h3 ⊢
        rw [List.foldlM_cons, h1]
        exact h3
      · unfold elasticRun at h4 ⊢
        rw [List.map_cons, List.foldlM_cons, h2]
        exact h4
  obtain ⟨s, h1, h2⟩ := run incs hs (elasticInitState p)
  have h0 : rotElastic p Q (elasticInitState p) = elasticInitState p := by
    simp only [rotElastic, elasticInitState, rotMf_zero]
  rw [h0] at h2
  exact ⟨s, h1, h2⟩

/-- The mirror image with the first axis reversed. -/
def mirrorX : T2 3 := ![![-1, 0, 0], ![0, 1, 0], ![0, 0, 1]]

/-- Simple shear. -/
def xyShear (g : ℝ) : T2 3 := ![![0, g, 0], ![g, 0, 0], ![0, 0, 0]]

theorem mirrorX_orthogonal : IsOrthogonal mirrorX := by
  intro i j
  fin_cases i <;> fin_cases j <;> simp [mirrorX, Fin.sum_univ_three]

theorem rotate_shear (g : ℝ) : rotate mirrorX (xyShear g) = xyShear (-g) := by
  funext i j
  fin_cases i <;> fin_cases j <;> simp [rotate, mirrorX, xyShear, Fin.sum_univ_three]

theorem xyShear_trial (g : ℝ) : trial3D (vmInit .solid) (xyShear g) = ![0, 0, 0, √2 * g, 0, 0] := by
  funext k
  fin_cases k <;>
    simp [trial3D, elastic3D, increment3D, vmInit, to3D, mf, kel6, xyShear, ci, cj, kf, mul_comm]

theorem xyShear_stress (lam G g : ℝ) :
    hooke6 lam G ![0, 0, 0, √2 * g, 0, 0] = ![0, 0, 0, 2 * G * (√2 * g), 0, 0] := by
  funext k
  fin_cases k <;> simp [hooke6, tr6, one6]

theorem xyShear_dev (x : ℝ) : dev6 ![0, 0, 0, x, 0, 0] = ![0, 0, 0, x, 0, 0] := by
  funext k
  fin_cases k <;> simp [dev6, tr6, one6]

theorem xyShear_norm (x : ℝ) : norm6 ![0, 0, 0, x, 0, 0] = |x| := by
  rw [norm6, Fin.sum_univ_six]
  simp [Real.sqrt_sq_eq_abs]

theorem xyShear_vm (lam G g : ℝ) : vm6 (hooke6 lam G (trial3D (vmInit .solid) (xyShear g))) =
    √(3 / 2) * |2 * G * (√2 * g)| := by
  rw [xyShear_trial, xyShear_stress, vm6_eq, xyShear_dev, xyShear_norm]

theorem xyShear_batched {E v s0 a g : ℝ} (hA : Admissible E v) (ha : 0 ≤ a) (hs : 2e-8 ≤ s0)
    (hne : ¬ TrialElastic E v (linearHardening s0 a) (vmInit .solid) (xyShear g)) :
    ∃ s T, vmapUpdate .solid E v (linearHardening s0 a) (xyShear g) (vmInit .solid) = (.good s, T) ∧
      s.acc = (√(3 / 2) * |2 * shear E v * (√2 * g)| - s0) / (3 * shear E v + a) ∧ 0 < s.acc ∧ g ≠ 0 ∧
      s.stress 3 = 2 * shear E v * (√2 * g) * (1 - s.acc * (2 * shear E v) *
        (√(3 / 2) / norm6 fun k => (![0, 0, 0, 2 * shear E v * (√2 * g), 0, 0] : V6) k + suSmall)) := by
  have hs0 : 0 < s0 := lt_of_lt_of_le (by norm_num) hs
  have hacc : (0 : ℝ) ≤ (vmInit .solid).acc := le_rfl
  obtain ⟨s, T, h1, h2, h3⟩ := C33_linear hA ha hs hacc hne
  have hlaw : (linearHardening s0 a (vmInit .solid).acc).1 = s0 := by
    simp [linearHardening, relu, vmInit]
  have hG := hA.shear_pos
  have hq : s0 < √(3 / 2) * |2 * shear E v * (√2 * g)| := by
    rw [← xyShear_vm (lame E v)]
    by_contra hc
    refine hne ⟨by rw [hlaw]; exact hs0.ne', ?_⟩
    rw [hlaw]
    exact le_trans (div_nonpos_of_nonpos_of_nonneg (by linarith) hs0.le) (by norm_num)
  rw [xyShear_vm] at h3
  have hacc0 : (vmInit .solid).acc = 0 := rfl
  rw [hacc0, mul_zero, add_zero, zero_add] at h3
  have hpos : 0 < s.acc := by
    rw [h3]
    exact div_pos (by linarith) (by positivity)
  have hg : g ≠ 0 := by
    rintro rfl
    simp at hq
    linarith
  refine ⟨s, T, h1, h3, hpos, hg, ?_⟩
  obtain ⟨r, hr, e1, e2, e3, e4, -⟩ := vmapUpdate_good h1
  obtain ⟨f1, f2⟩ := vmapReturn_cases hr
  rcases f2 with ⟨f2, -⟩ | ⟨-, -, x, f3, f4, f5⟩
  · rw [← e4, h2] at f2
    cases f2
  have hx : x = s.acc := by
    rw [e3, f4, hacc0, zero_add]
  have hbig : norm6 (dev6 (hooke6 (lame E v) (shear E v) (trial3D (vmInit .solid) (xyShear g)))) > suSmall := by
    have hq2 := hq
    rw [← xyShear_vm (lame E v), vm6_eq] at hq2
    have h15 : √(3 / 2 : ℝ) ≤ 2 := by
      rw [Real.sqrt_le_left (by norm_num)]
      norm_num
    have hn := norm6_nonneg (dev6 (hooke6 (lame E v) (shear E v) (trial3D (vmInit .solid) (xyShear g))))
    have : suSmall = 1e-8 := rfl
    rw [this]
    nlinarith
  have hst : s.stress 3 = r.stress 3 := congrFun e2 3
  have hfl : vmapFlow suSmall (dev6 (hooke6 (lame E v) (shear E v) (trial3D (vmInit .solid) (xyShear g)))) =
      fun k => √(3 / 2) / norm6 (fun k => (![0, 0, 0, 2 * shear E v * (√2 * g), 0, 0] : V6) k + suSmall) *
        (![0, 0, 0, 2 * shear E v * (√2 * g), 0, 0] : V6) k := by
    funext k
    rw [vmapFlow_scale hbig, xyShear_trial, xyShear_stress, xyShear_dev]
  rw [hst, f1, f5, hfl, hx, xyShear_trial]
  generalize √(3 / 2) / norm6 (fun k => (![0, 0, 0, 2 * shear E v * (√2 * g), 0, 0] : V6) k + suSmall) = c
  simp [hooke6, tr6, one6]
  ring

/-- **C139 is violated for the batched von Mises model.** A simple shear and its mirror image, both plastic: the
multipliers agree, but the stress of the mirror image is not the mirror image of the stress, because the
number added to every component under the norm of the flow direction does not rotate. -/
theorem C139_batched_violated {E v s0 a g : ℝ} (hA : Admissible E v) (ha : 0 ≤ a) (hs : 2e-8 ≤ s0)
    (hne : ¬ TrialElastic E v (linearHardening s0 a) (vmInit .solid) (xyShear g)) :
    ∃ s s' T T', vmapUpdate .solid E v (linearHardening s0 a) (xyShear g) (vmInit .solid) = (.good s, T) ∧
      vmapUpdate .solid E v (linearHardening s0 a) (rotate mirrorX (xyShear g)) (vmInit .solid) =
        (.good s', T') ∧ s'.acc = s.acc ∧ s'.stress ≠ rotMf .solid mirrorX s.stress := by
  have hG := hA.shear_pos
  rw [rotate_shear]
  have hne' : ¬ TrialElastic E v (linearHardening s0 a) (vmInit .solid) (xyShear (-g)) := by
    have : |2 * shear E v * (√2 * -g)| = |2 * shear E v * (√2 * g)| := by
      rw [mul_neg, mul_neg, abs_neg]
    unfold TrialElastic at hne ⊢
    rwa [xyShear_vm, this, ← xyShear_vm (lame E v)]
  obtain ⟨s, T, h1, h2, h3, h4, h5⟩ := xyShear_batched hA ha hs hne
  obtain ⟨s', T', h1', h2', h3', h4', h5'⟩ := xyShear_batched hA ha hs hne'
  have hacc : s'.acc = s.acc := by
    rw [h2, h2', mul_neg, mul_neg, abs_neg]
  refine ⟨s, s', T, T', h1, h1', hacc, fun hc => ?_⟩
  have h6 : s'.stress 3 = -s.stress 3 := by
    rw [hc]
    simp [rotMf, mf, kel6, rotate, unmf, unkel6, mirrorX, ci, cj, kf, pos6, Fin.sum_univ_three]
  rw [h5, h5', hacc] at h6
  set y := 2 * shear E v * (√2 * g) with hy
  have hy' : 2 * shear E v * (√2 * -g) = -y := by rw [hy]; ring
  have hy0 : y ≠ 0 := by
    rw [hy]
    exact mul_ne_zero (mul_ne_zero two_ne_zero hG.ne') (mul_ne_zero sqrt2_ne h4)
  rw [hy'] at h6
  have hsm : (0 : ℝ) < suSmall := by unfold suSmall; norm_num
  have hM : ∀ z : ℝ, norm6 (fun k => (![0, 0, 0, z, 0, 0] : V6) k + suSmall) ^ 2 =
      z ^ 2 + 2 * suSmall * z + 6 * suSmall ^ 2 := by
    intro z
    rw [norm6_add_small (by simp [tr6]), xyShear_norm, sq_abs]
    simp
  have hM0 : ∀ z : ℝ, 0 < norm6 (fun k => (![0, 0, 0, z, 0, 0] : V6) k + suSmall) := by
    intro z
    refine lt_of_le_of_ne (norm6_nonneg _) fun h0 => ?_
    have := hM z
    rw [← h0] at this
    nlinarith [sq_nonneg (z + suSmall), sq_nonneg suSmall, mul_pos hsm hsm]
  have p1 := hM y
  have p2 := hM (-y)
  have q1 := hM0 y
  have q2 := hM0 (-y)
  generalize norm6 (fun k => (![0, 0, 0, y, 0, 0] : V6) k + suSmall) = m1 at *
  generalize norm6 (fun k => (![0, 0, 0, -y, 0, 0] : V6) k + suSmall) = m2 at *
  have h7 : √(3 / 2) / m2 = √(3 / 2) / m1 := by
    have hk : y * (s.acc * (2 * shear E v)) * (√(3 / 2) / m2) =
        y * (s.acc * (2 * shear E v)) * (√(3 / 2) / m1) := by linarith
    exact mul_left_cancel₀ (mul_ne_zero hy0 (by positivity)) hk
  have h8 : m1 = m2 := by
    have : √(3 / 2 : ℝ) ≠ 0 := by positivity
    field_simp at h7
    exact h7
  rw [h8] at p1
  have : suSmall * y = 0 := by nlinarith
  rcases mul_eq_zero.mp this with h | h
  · exact hsm.ne' h
  · exact hy0 h

/-! ## The statements apply to concrete histories -/

/-- A plastic shear, as in the violation. -/
example : ¬ TrialElastic 1 0 (linearHardening 1 1) (vmInit .solid) (xyShear 3) := by
  rintro ⟨-, h⟩
  have hG : shear 1 0 = 1 / 2 := by norm_num [shear]
  have hlaw : (linearHardening 1 1 (vmInit .solid).acc).1 = 1 := by
    simp [linearHardening, relu, vmInit]
  have e : √(3 / 2 : ℝ) * |2 * (1 / 2) * (√2 * 3)| = 3 * √3 := by
    rw [abs_of_nonneg (by positivity)]
    have : √(3 / 2 : ℝ) * √2 = √3 := by
      rw [← Real.sqrt_mul (by norm_num)]
      norm_num
    linear_combination 3 * this
  rw [xyShear_vm, hlaw, hG, e] at h
  have h3 : (1 : ℝ) ≤ √3 := Real.one_le_sqrt.mpr (by norm_num)
  norm_num at h
  linarith

/-- A rotation in the plane. -/
def turn : T2 2 := ![![3 / 5, -(4 / 5)], ![4 / 5, 3 / 5]]

theorem turn_orthogonal : IsOrthogonal turn := by
  intro i j
  fin_cases i <;> fin_cases j <;> norm_num [turn, Fin.sum_univ_two]

/-- A uniaxial strain, turned, has all the components of plane strain. -/
example : rotate turn ![![1, 0], ![0, 0]] = ![![9 / 25, 12 / 25], ![12 / 25, 16 / 25]] := by
  funext i j
  fin_cases i <;> fin_cases j <;> norm_num [rotate, turn, Fin.sum_univ_two]

example : vmRun .plane 1 0 (linearHardening 1 1) [![![9 / 25, 12 / 25], ![12 / 25, 16 / 25]]] =
    rotVMVars .plane turn (vmRun .plane 1 0 (linearHardening 1 1) [![![1, 0], ![0, 0]]]) := by
  have hs : IsSymP .plane ![![1, 0], ![0, 0]] := by
    intro i j
    fin_cases i <;> fin_cases j <;> rfl
  have := C139_von_mises (p := .plane) turn_orthogonal 1 0 (linearHardening 1 1) [![![1, 0], ![0, 0]]]
    (by simpa using hs)
  rw [← this]
  congr 1
  simp only [List.map_cons, List.map_nil, List.cons.injEq, and_true]
  funext i j
  fin_cases i <;> fin_cases j <;> norm_num [rotate, turn, PType.dim, Fin.sum_univ_two]

end Hooke
