import Verif.Spec.PlaneStrain
import Verif.Props.LouObjectivity
import Verif.Props.VonMisesMixedVMAP

/-!
# C151: plane strain is the three-dimensional model with in-plane strains
-/

noncomputable section

namespace Hooke

open Spec

/-- No out-of-plane shear components. -/
def InPlane (w : V6) : Prop := w 4 = 0 ∧ w 5 = 0

theorem spatial_iff {w : Vmf .solid} {x : Vmf .plane} {c : ℝ} :
    unmf .solid w = spatial (unmf .plane x) c ↔ w = to3D .plane x c := by
  have e : kel6 (spatial (unmf .plane x) c) = to3D .plane x c := by
    funext k
    fin_cases k <;> simp [kel6, ci, cj, kf, spatial, unmf, to3D]
  constructor
  · intro h
    rw [← e, ← h]
    exact (kel6_unkel6 w).symm
  · rintro rfl
    funext i j
    fin_cases i <;> fin_cases j <;> simp [unmf, unkel6, pos6, kf, spatial, to3D, div_eq_mul_inv]

theorem inPlane_to3D (x : Vmf .plane) (c : ℝ) : InPlane (to3D .plane x c) := ⟨rfl, rfl⟩

theorem to3D_of_inPlane {w : V6} (h : InPlane w) : to3D .plane (to2D .plane w) (get33 .plane w) = w := by
  funext k
  fin_cases k
  · rfl
  · rfl
  · rfl
  · rfl
  · exact h.1.symm
  · exact h.2.symm

theorem mf_spatial (S : T2 2) : mf .solid (spatial S 0) = to3D .plane (mf .plane S) 0 := by
  funext k
  fin_cases k <;> simp [mf, kel6, ci, cj, kf, spatial, to3D]

theorem trial_inPlane (x y : Vmf .plane) (c : ℝ) : InPlane (to3D .plane x c + to3D .plane y 0) :=
  ⟨by simp [to3D], by simp [to3D]⟩

/-- The mirror image in the plane. -/
def mirrorZ : T2 3 := ![![1, 0, 0], ![0, 1, 0], ![0, 0, -1]]

theorem mirrorZ_orthogonal : IsOrthogonal mirrorZ := by
  intro i j
  fin_cases i <;> fin_cases j <;> simp [mirrorZ, Fin.sum_univ_three]

theorem mirrorZ_kel (w : V6) : rotKel mirrorZ w = ![w 0, w 1, w 2, w 3, -w 4, -w 5] := by
  funext k
  fin_cases k <;>
    simp [rotKel, Spec.rotate, kel6, unkel6, ci, cj, kf, pos6, mirrorZ, Fin.sum_univ_three]

theorem inPlane_iff (w : V6) : InPlane w ↔ rotKel mirrorZ w = w := by
  rw [mirrorZ_kel]
  constructor
  · intro h
    funext k
    fin_cases k <;> simp [h.1, h.2]
  · intro h
    have h4 := congrFun h 4
    have h5 := congrFun h 5
    simp at h4 h5
    exact ⟨by linarith, by linarith⟩

theorem hooke6_inPlane {lam G : ℝ} {w : V6} (h : InPlane w) : InPlane (hooke6 lam G w) :=
  ⟨by simp [hooke6, one6, h.1], by simp [hooke6, one6, h.2]⟩

theorem dev6_inPlane {w : V6} (h : InPlane w) : InPlane (dev6 w) :=
  ⟨by simp [dev6, one6, h.1], by simp [dev6, one6, h.2]⟩

theorem vmReturn_inPlane {E v : ℝ} {law : HardLaw} {e : V6} {acc : ℝ} (he : InPlane e) {r : VMReturn}
    (h : vmReturn E v law e acc = some r) : InPlane r.eStrain ∧ InPlane r.stress := by
  have hr := vmReturn_rot mirrorZ_orthogonal E v law e acc
  rw [(inPlane_iff e).1 he, h] at hr
  cases hr with
  | some hr => exact ⟨(inPlane_iff _).2 hr.1.symm, (inPlane_iff _).2 hr.2.1.symm⟩

theorem mixReturn_inPlane {E v : ℝ} {law kin : HardLaw} {e b : V6} {acc : ℝ} (he : InPlane e) (hb : InPlane b)
    {r : MixReturn} (h : mixReturn E v law kin e acc b = some r) :
    InPlane r.eStrain ∧ InPlane r.stress ∧ InPlane r.back := by
  have hr := mixReturn_rot mirrorZ_orthogonal E v law kin e acc b
  rw [(inPlane_iff e).1 he, (inPlane_iff b).1 hb, h] at hr
  cases hr with
  | some hr => exact ⟨(inPlane_iff _).2 hr.1.symm, (inPlane_iff _).2 hr.2.1.symm, (inPlane_iff _).2 hr.2.2.2.1.symm⟩

theorem dpReturn_inPlane {m : DPParams} {law : HardLaw} {e : V6} {acc : ℝ} (he : InPlane e) {r : DPReturn}
    (h : dpReturn m law e acc = some r) : InPlane r.eStrain ∧ InPlane r.stress := by
  have hr := dpReturn_rot mirrorZ_orthogonal m law e acc
  rw [(inPlane_iff e).1 he, h] at hr
  cases hr with
  | some hr => exact ⟨(inPlane_iff _).2 hr.1.symm, (inPlane_iff _).2 hr.2.1.symm⟩

theorem dpVmapReturn_inPlane {m : DPParams} {law : HardLaw} {e : V6} {acc : ℝ} (he : InPlane e) {r : DPReturn}
    (h : dpVmapReturn m law e acc = some r) : InPlane r.eStrain ∧ InPlane r.stress := by
  have hr := dpVmapReturn_rot mirrorZ_orthogonal m law e acc
  rw [(inPlane_iff e).1 he, h] at hr
  cases hr with
  | some hr => exact ⟨(inPlane_iff _).2 hr.1.symm, (inPlane_iff _).2 hr.2.1.symm⟩

theorem louReturn_inPlane {m : LouParams} {e : V6} {acc : ℝ} (he : InPlane e) {r : LouReturn}
    (h : louReturn m e acc = .ok (some r)) : InPlane r.eStrain ∧ InPlane r.stress := by
  have hr := louReturn_rot mirrorZ_orthogonal m e acc
  rw [(inPlane_iff e).1 he, h] at hr
  simp only [Except.map, Option.map_some, Except.ok.injEq, Option.some.injEq] at hr
  exact ⟨(inPlane_iff _).2 (congrArg LouReturn.eStrain hr).symm, (inPlane_iff _).2 (congrArg LouReturn.stress hr).symm⟩

theorem louVmapReturn_inPlane {m : LouParams} {o : LouOptions} {e : V6} {acc : ℝ} (he : InPlane e)
    {r : LouReturn} (h : louVmapReturn m o e acc = .ok (some r)) : InPlane r.eStrain ∧ InPlane r.stress := by
  have hr := louVmapReturn_rot mirrorZ_orthogonal m o e acc
  rw [(inPlane_iff e).1 he, h] at hr
  simp only [Except.map, Option.map_some, Except.ok.injEq, Option.some.injEq] at hr
  exact ⟨(inPlane_iff _).2 (congrArg LouReturn.eStrain hr).symm, (inPlane_iff _).2 (congrArg LouReturn.stress hr).symm⟩

theorem vmapFlow_inPlane {c : ℝ} {d : V6} (h : InPlane d) : InPlane (vmapFlow c d) :=
  ⟨by simp [vmapFlow, h.1], by simp [vmapFlow, h.2]⟩

theorem vmapReturn_inPlane {E v : ℝ} {law : HardLaw} {e : V6} {acc : ℝ} (he : InPlane e) {r : VMReturn}
    (h : vmapReturn E v law e acc = some r) : InPlane r.eStrain ∧ InPlane r.stress := by
  obtain ⟨h1, h2⟩ := vmapReturn_cases h
  have hE : InPlane r.eStrain := by
    rcases h2 with ⟨-, h2, -⟩ | ⟨-, -, x, -, -, h2⟩
    · rw [h2]; exact he
    · have hf := vmapFlow_inPlane (c := suSmall) (dev6_inPlane (hooke6_inPlane (lam := lame E v) (G := shear E v) he))
      rw [h2]
      exact ⟨by simp [he.1, hf.1], by simp [he.2, hf.2]⟩
  exact ⟨hE, by rw [h1]; exact hooke6_inPlane hE⟩

theorem mixVmapReturn_inPlane {E v : ℝ} {law kin : HardLaw} {e b : V6} {acc : ℝ} (he : InPlane e)
    (hb : InPlane b) {r : MixReturn} (h : mixVmapReturn E v law kin e acc b = some r) :
    InPlane r.eStrain ∧ InPlane r.stress ∧ InPlane r.back := by
  obtain ⟨h1, h2⟩ := mixVmapReturn_cases h
  have hd := dev6_inPlane (hooke6_inPlane (lam := lame E v) (G := shear E v) he)
  have hf : InPlane (vmapFlow suSmall fun k => dev6 (hooke6 (lame E v) (shear E v) e) k - b k) :=
    vmapFlow_inPlane ⟨by simp [hd.1, hb.1], by simp [hd.2, hb.2]⟩
  have hE : InPlane r.eStrain ∧ InPlane r.back := by
    rcases h2 with ⟨-, h2, -, h3, -⟩ | ⟨-, -, x, -, -, h2, h3, -⟩
    · rw [h2, h3]; exact ⟨he, hb⟩
    · rw [h2, h3]
      exact ⟨⟨by simp [he.1, hf.1], by simp [he.2, hf.2]⟩, ⟨by simp [hb.1, hf.1], by simp [hb.2, hf.2]⟩⟩
  exact ⟨hE.1, by rw [h1]; exact hooke6_inPlane hE.1, hE.2⟩

/-! ### One step -/

theorem trial_spatial {s : VMState .plane} {t : VMState .solid} (h : SpatialVM s t) (inc : T2 2) :
    to3D .solid t.eStrain t.e33 + to3D .solid (mf .solid (spatial inc 0)) 0 =
      to3D .plane s.eStrain s.e33 + to3D .plane (mf .plane inc) 0 := by
  rw [mf_spatial]
  show t.eStrain + _ = _
  rw [spatial_iff.1 h.elastic]
  rfl

theorem strain_spatial {s : VMState .plane} {t : VMState .solid} (h : SpatialVM s t) (inc : T2 2) :
    unmf .solid (to2D .solid (to3D .plane s.eStrain s.e33 + to3D .plane (mf .plane inc) 0) +
        (t.strain - t.eStrain)) =
      spatial (unmf .plane (to2D .plane (to3D .plane s.eStrain s.e33 + to3D .plane (mf .plane inc) 0) +
        (s.strain - s.eStrain))) 0 := by
  rw [spatial_iff, spatial_iff.1 h.elastic, spatial_iff.1 h.strain]
  funext k
  fin_cases k <;> simp [to3D, to2D]

theorem good_spatial {s : VMState .plane} {t : VMState .solid} (h : SpatialVM s t) (inc : T2 2) {e σ : V6}
    (he : InPlane e) (hσ : InPlane σ) (acc : ℝ) (pl : Bool) :
    SpatialVM
      { eStrain := to2D .plane e
        strain := to2D .plane (to3D .plane s.eStrain s.e33 + to3D .plane (mf .plane inc) 0) + (s.strain - s.eStrain)
        stress := to2D .plane σ, acc := acc, isPlast := pl, isSuFail := false
        e33 := get33 .plane e, s33 := get33 .plane σ }
      { eStrain := to2D .solid e
        strain := to2D .solid (to3D .plane s.eStrain s.e33 + to3D .plane (mf .plane inc) 0) + (t.strain - t.eStrain)
        stress := to2D .solid σ, acc := acc, isPlast := pl, isSuFail := false
        e33 := get33 .solid e, s33 := get33 .solid σ } where
  stress := spatial_iff.2 (to3D_of_inPlane hσ).symm
  elastic := spatial_iff.2 (to3D_of_inPlane he).symm
  strain := strain_spatial h inc
  acc := rfl
  isPlast := rfl
  isSuFail := rfl

theorem tangent_spatial (M : M6) : SpatialTangent (to2DM .plane M) (to2DM .solid M) := by
  intro S i j
  have e : (fun a => ∑ b, to2DM .plane M a b * mf .plane S b) = to2D .plane (mv6 M (to3D .plane (mf .plane S) 0)) :=
    funext fun a => to2DM_mul .plane M _ a
  have e' : (fun a => ∑ b, to2DM .solid M a b * mf .solid (spatial S 0) b) =
      mv6 M (to3D .plane (mf .plane S) 0) := by
    rw [mf_spatial]
    rfl
  rw [e, e']
  generalize mv6 M (to3D .plane (mf .plane S) 0) = w
  fin_cases i <;> fin_cases j <;> simp [unmf, unkel6, pos6, kf, to2D, div_eq_mul_inv]

theorem vmUpdate_spatial (E v : ℝ) (law : HardLaw) (inc : T2 2) {s : VMState .plane} {t : VMState .solid}
    (h : SpatialVM s t) :
    SpatialVMVars (vmUpdate .plane E v law inc s).1 (vmUpdate .solid E v law (spatial inc 0) t).1 ∧
      Option.Rel SpatialTangent (vmUpdate .plane E v law inc s).2
        (vmUpdate .solid E v law (spatial inc 0) t).2 := by
  unfold vmUpdate
  simp only [trial_spatial h, h.acc]
  cases hr : vmReturn E v law (to3D .plane s.eStrain s.e33 + to3D .plane (mf .plane inc) 0) s.acc with
  | none => exact ⟨.some (strain_spatial h inc), .none⟩
  | some r =>
    obtain ⟨he, hσ⟩ := vmReturn_inPlane (trial_inPlane _ _ _) hr
    exact ⟨good_spatial h inc he hσ r.acc r.isPlast, .some (tangent_spatial _)⟩

theorem vmapUpdate_spatial (E v : ℝ) (law : HardLaw) (inc : T2 2) {s : VMState .plane} {t : VMState .solid}
    (h : SpatialVM s t) :
    SpatialVMVars (vmapUpdate .plane E v law inc s).1 (vmapUpdate .solid E v law (spatial inc 0) t).1 ∧
      Option.Rel SpatialTangent (vmapUpdate .plane E v law inc s).2
        (vmapUpdate .solid E v law (spatial inc 0) t).2 := by
  unfold vmapUpdate
  simp only [trial_spatial h, h.acc]
  cases hr : vmapReturn E v law (to3D .plane s.eStrain s.e33 + to3D .plane (mf .plane inc) 0) s.acc with
  | none => exact ⟨.some (strain_spatial h inc), .none⟩
  | some r =>
    obtain ⟨he, hσ⟩ := vmapReturn_inPlane (trial_inPlane _ _ _) hr
    exact ⟨good_spatial h inc he hσ r.acc r.isPlast, .some (tangent_spatial _)⟩

theorem mixUpdate_spatial (E v : ℝ) (law kin : HardLaw) (inc : T2 2) {s : MixState .plane} {t : MixState .solid}
    (h : SpatialMix s t) :
    SpatialMixVars (mixUpdate .plane E v law kin inc s).1 (mixUpdate .solid E v law kin (spatial inc 0) t).1 ∧
      Option.Rel SpatialTangent (mixUpdate .plane E v law kin inc s).2
        (mixUpdate .solid E v law kin (spatial inc 0) t).2 := by
  have hb : to3D .solid t.back t.b33 = to3D .plane s.back s.b33 := spatial_iff.1 h.back
  unfold mixUpdate
  simp only [trial_spatial h.vm, h.vm.acc, hb]
  cases hr : mixReturn E v law kin (to3D .plane s.eStrain s.e33 + to3D .plane (mf .plane inc) 0) s.acc
      (to3D .plane s.back s.b33) with
  | none => exact ⟨.some (strain_spatial h.vm inc), .none⟩
  | some r =>
    obtain ⟨he, hσ, hk⟩ := mixReturn_inPlane (trial_inPlane _ _ _) (inPlane_to3D _ _) hr
    exact ⟨⟨good_spatial h.vm inc he hσ r.acc r.isPlast, spatial_iff.2 (to3D_of_inPlane hk).symm⟩,
      .some (tangent_spatial _)⟩

theorem mixVmapUpdate_spatial (E v : ℝ) (law kin : HardLaw) (inc : T2 2) {s : MixState .plane}
    {t : MixState .solid} (h : SpatialMix s t) :
    SpatialMixVars (mixVmapUpdate .plane E v law kin inc s).1
        (mixVmapUpdate .solid E v law kin (spatial inc 0) t).1 ∧
      Option.Rel SpatialTangent (mixVmapUpdate .plane E v law kin inc s).2
        (mixVmapUpdate .solid E v law kin (spatial inc 0) t).2 := by
  have hb : to3D .solid t.back t.b33 = to3D .plane s.back s.b33 := spatial_iff.1 h.back
  unfold mixVmapUpdate
  simp only [trial_spatial h.vm, h.vm.acc, hb]
  cases hr : mixVmapReturn E v law kin (to3D .plane s.eStrain s.e33 + to3D .plane (mf .plane inc) 0) s.acc
      (to3D .plane s.back s.b33) with
  | none => exact ⟨.some (strain_spatial h.vm inc), .none⟩
  | some r =>
    obtain ⟨he, hσ, hk⟩ := mixVmapReturn_inPlane (trial_inPlane _ _ _) (inPlane_to3D _ _) hr
    exact ⟨⟨good_spatial h.vm inc he hσ r.acc r.isPlast, spatial_iff.2 (to3D_of_inPlane hk).symm⟩,
      .some (tangent_spatial _)⟩

theorem dpUpdate_spatial (m : DPParams) (law : HardLaw) (inc : T2 2) {s : DPState .plane} {t : DPState .solid}
    (h : SpatialDP s t) :
    SpatialDPVars (dpUpdate .plane m law inc s).1 (dpUpdate .solid m law (spatial inc 0) t).1 ∧
      Option.Rel SpatialTangent (dpUpdate .plane m law inc s).2 (dpUpdate .solid m law (spatial inc 0) t).2 := by
  unfold dpUpdate
  simp only [trial_spatial h.vm, h.vm.acc]
  cases hr : dpReturn m law (to3D .plane s.eStrain s.e33 + to3D .plane (mf .plane inc) 0) s.acc with
  | none => exact ⟨.some (strain_spatial h.vm inc), .none⟩
  | some r =>
    obtain ⟨he, hσ⟩ := dpReturn_inPlane (trial_inPlane _ _ _) hr
    exact ⟨⟨good_spatial h.vm inc he hσ r.acc r.isPlast, rfl⟩, .some (tangent_spatial _)⟩

theorem dpVmapUpdate_spatial (m : DPParams) (law : HardLaw) (inc : T2 2) {s : DPState .plane}
    {t : DPState .solid} (h : SpatialDP s t) :
    SpatialDPVars (dpVmapUpdate .plane m law inc s).1 (dpVmapUpdate .solid m law (spatial inc 0) t).1 ∧
      Option.Rel SpatialTangent (dpVmapUpdate .plane m law inc s).2
        (dpVmapUpdate .solid m law (spatial inc 0) t).2 := by
  unfold dpVmapUpdate
  simp only [trial_spatial h.vm, h.vm.acc]
  cases hr : dpVmapReturn m law (to3D .plane s.eStrain s.e33 + to3D .plane (mf .plane inc) 0) s.acc with
  | none => exact ⟨.some (strain_spatial h.vm inc), .none⟩
  | some r =>
    obtain ⟨he, hσ⟩ := dpVmapReturn_inPlane (trial_inPlane _ _ _) hr
    exact ⟨⟨good_spatial h.vm inc he hσ r.acc r.isPlast, rfl⟩, .some (tangent_spatial _)⟩

theorem louState_spatial (inc : T2 2) {s : VMState .plane} {t : VMState .solid} (h : SpatialVM s t)
    (o : Option LouReturn) (ho : ∀ r, o = some r → InPlane r.eStrain ∧ InPlane r.stress) :
    SpatialVMVars
      (louState .plane (to3D .plane s.eStrain s.e33 + to3D .plane (mf .plane inc) 0) (s.strain - s.eStrain) o)
      (louState .solid (to3D .plane s.eStrain s.e33 + to3D .plane (mf .plane inc) 0) (t.strain - t.eStrain) o) := by
  cases o with
  | none => exact .some (strain_spatial h inc)
  | some r => exact good_spatial h inc (ho r rfl).1 (ho r rfl).2 r.acc r.isPlast

theorem louUpdate_spatial (m : LouParams) (inc : T2 2) {s : VMState .plane} {t : VMState .solid}
    (h : SpatialVM s t) :
    SpatialResult SpatialVMVars (louUpdate .plane m inc s) (louUpdate .solid m (spatial inc 0) t) := by
  unfold louUpdate
  simp only [trial_spatial h, h.acc]
  cases hr : louReturn m (to3D .plane s.eStrain s.e33 + to3D .plane (mf .plane inc) 0) s.acc with
  | error e => rfl
  | ok o => exact louState_spatial inc h o fun r ho => louReturn_inPlane (trial_inPlane _ _ _) (ho ▸ hr)

/-! ### Theorems -/

/-- Two folds whose steps keep a relation. -/
theorem foldl_spatial {α β γ δ : Type*} {f : α → γ → α} {g : β → δ → β} {r : α → β → Prop} {q : γ → δ}
    (hs : ∀ a b x, r a b → r (f a x) (g b (q x))) (l : List γ) :
    ∀ a b, r a b → r (l.foldl f a) ((l.map q).foldl g b) := by
  induction l with
  | nil => exact fun a b h => h
  | cons x l ih => exact fun a b h => ih _ _ (hs a b x h)

theorem init_spatial : SpatialVM (vmInit .plane) (vmInit .solid) := by
  have h0 : (0 : Vmf .solid) = to3D .plane 0 0 := by
    funext k
    fin_cases k <;> simp [to3D]
  exact ⟨spatial_iff.2 h0, spatial_iff.2 h0, spatial_iff.2 h0, rfl, rfl, rfl⟩

/-- **C151 (von Mises).** A plane strain history is the history of the three-dimensional model whose strain
increments have the same in-plane part and no other components: the states agree with the out-of-plane stress
and elastic strain, there are no out-of-plane shear stresses, and the same step fails to converge. -/
theorem C151_von_mises (E v : ℝ) (law : HardLaw) (incs : List (T2 2)) :
    SpatialVMVars (vmRun .plane E v law incs) (vmRun .solid E v law (incs.map (spatial · 0))) :=
  foldl_spatial (fun a b x h => by
    match a, b, h with
    | .good s, .good t, h => exact (vmUpdate_spatial E v law x h).1
    | .nan _, .nan _, _ => exact .none) incs _ _ init_spatial

/-- **C151 (mixed hardening).** The same with a back stress, for the standard and for the batched model. -/
theorem C151_mixed (E v : ℝ) (law kin : HardLaw) (incs : List (T2 2)) :
    SpatialMixVars (mixRun .plane E v law kin incs) (mixRun .solid E v law kin (incs.map (spatial · 0))) ∧
      SpatialMixVars (mixVmapRun .plane E v law kin incs)
        (mixVmapRun .solid E v law kin (incs.map (spatial · 0))) := by
  have h0 : SpatialMix (mixInit .plane) (mixInit .solid) :=
    ⟨init_spatial, init_spatial.stress⟩
  constructor
  · exact foldl_spatial (fun a b x h => by
      match a, b, h with
      | .good s, .good t, h => exact (mixUpdate_spatial E v law kin x h).1
      | .nan _, .nan _, _ => exact .none) incs _ _ h0
  · exact foldl_spatial (fun a b x h => by
      match a, b, h with
      | .good s, .good t, h => exact (mixVmapUpdate_spatial E v law kin x h).1
      | .nan _, .nan _, _ => exact .none) incs _ _ h0

/-- **C151 (Drucker-Prager).** The same for the Drucker-Prager model, standard and batched; the same steps
return to the apex. -/
theorem C151_drucker_prager (m : DPParams) (law : HardLaw) (incs : List (T2 2)) :
    SpatialDPVars (dpRun .plane m law incs) (dpRun .solid m law (incs.map (spatial · 0))) ∧
      SpatialDPVars (dpVmapRun .plane m law incs) (dpVmapRun .solid m law (incs.map (spatial · 0))) := by
  have h0 : SpatialDP (dpInit .plane) (dpInit .solid) := ⟨init_spatial, rfl⟩
  constructor
  · exact foldl_spatial (fun a b x h => by
      match a, b, h with
      | .good s, .good t, h => exact (dpUpdate_spatial m law x h).1
      | .nan _, .nan _, _ => exact .none) incs _ _ h0
  · exact foldl_spatial (fun a b x h => by
      match a, b, h with
      | .good s, .good t, h => exact (dpVmapUpdate_spatial m law x h).1
      | .nan _, .nan _, _ => exact .none) incs _ _ h0

/-- **C151 (Lou-Zhang-Yoon).** The same for the Lou-Zhang-Yoon model; the same histories raise an exception. -/
theorem C151_lou (m : LouParams) (incs : List (T2 2)) :
    SpatialResult SpatialVMVars (louRun .plane m incs) (louRun .solid m (incs.map (spatial · 0))) := by
  have step : ∀ (l : List (T2 2)) (a : VMVars .plane) (b : VMVars .solid), SpatialVMVars a b →
      SpatialResult SpatialVMVars (l.foldlM (louStep .plane m) a)
        ((l.map (spatial · 0)).foldlM (louStep .solid m) b) := by
    intro l
    induction l with
    | nil => exact fun a b h => h
    | cons x l ih =>
      intro a b h
      have h1 : SpatialResult SpatialVMVars (louStep .plane m a x) (louStep .solid m b (spatial x 0)) := by
        match a, b, h with
        | .good s, .good t, h => exact louUpdate_spatial m x h
        | .nan _, .nan _, _ => exact Option.Rel.none
      simp only [List.map_cons, List.foldlM_cons]
      revert h1
      generalize louStep .plane m a x = o
      generalize louStep .solid m b (spatial x 0) = o'
      intro h1
      match o, o', h1 with
      | .ok a', .ok b', h1 => exact ih a' b' h1
      | .error e, .error e', h1 => exact h1
  exact step incs _ _ init_spatial

/-- **C151 (batched models).** A step of the batched von Mises and Lou-Zhang-Yoon models, from any state. -/
theorem C151_batched (inc : T2 2) {s : VMState .plane} {t : VMState .solid} (h : SpatialVM s t) :
    (∀ E v law, SpatialVMVars (vmapUpdate .plane E v law inc s).1
      (vmapUpdate .solid E v law (spatial inc 0) t).1) ∧
    ∀ m o, SpatialResult SpatialVMVars (louVmapUpdate .plane m o inc s)
      (louVmapUpdate .solid m o (spatial inc 0) t) := by
  refine ⟨fun E v law => (vmapUpdate_spatial E v law inc h).1, fun m o => ?_⟩
  unfold louVmapUpdate
  simp only [trial_spatial h, h.acc]
  cases hr : louVmapReturn m o (to3D .plane s.eStrain s.e33 + to3D .plane (mf .plane inc) 0) s.acc with
  | error e => rfl
  | ok o => exact louState_spatial inc h o fun r ho => louVmapReturn_inPlane (trial_inPlane _ _ _) (ho ▸ hr)

/-- **C151 (tangents).** The consistent tangents of plane strain, of all models which return one, are the
in-plane part of the tangents of the three-dimensional models, from any state. -/
theorem C151_tangents (inc : T2 2) :
    (∀ E v law (s : VMState .plane) (t : VMState .solid), SpatialVM s t →
      Option.Rel SpatialTangent (vmUpdate .plane E v law inc s).2 (vmUpdate .solid E v law (spatial inc 0) t).2 ∧
      Option.Rel SpatialTangent (vmapUpdate .plane E v law inc s).2
        (vmapUpdate .solid E v law (spatial inc 0) t).2) ∧
    (∀ E v law kin (s : MixState .plane) (t : MixState .solid), SpatialMix s t →
      Option.Rel SpatialTangent (mixUpdate .plane E v law kin inc s).2
        (mixUpdate .solid E v law kin (spatial inc 0) t).2 ∧
      Option.Rel SpatialTangent (mixVmapUpdate .plane E v law kin inc s).2
        (mixVmapUpdate .solid E v law kin (spatial inc 0) t).2) ∧
    ∀ m law (s : DPState .plane) (t : DPState .solid), SpatialDP s t →
      Option.Rel SpatialTangent (dpUpdate .plane m law inc s).2 (dpUpdate .solid m law (spatial inc 0) t).2 ∧
      Option.Rel SpatialTangent (dpVmapUpdate .plane m law inc s).2
        (dpVmapUpdate .solid m law (spatial inc 0) t).2 :=
  ⟨fun E v law _ _ h => ⟨(vmUpdate_spatial E v law inc h).2, (vmapUpdate_spatial E v law inc h).2⟩,
    fun E v law kin _ _ h => ⟨(mixUpdate_spatial E v law kin inc h).2, (mixVmapUpdate_spatial E v law kin inc h).2⟩,
    fun m law _ _ h => ⟨(dpUpdate_spatial m law inc h).2, (dpVmapUpdate_spatial m law inc h).2⟩⟩

/-- **C151 (elasticity).** The same for linear elasticity of every symmetry class, from any state: the strains,
the in-plane stresses and the normal out-of-plane stress agree, and the same materials are rejected. -/
theorem C151_elastic (d : Props) (y : ElSym) (incs : List (T2 2)) {s : ElasticState .plane}
    {t : ElasticState .solid} (h : SpatialElastic s t) :
    SpatialResult SpatialElastic (elasticRun .plane d y incs s)
      (elasticRun .solid d y (incs.map (spatial · 0)) t) := by
  induction incs generalizing s t with
  | nil => exact h
  | cons inc incs ih =>
    have htr : to3D .solid t.eStrain t.e33 + to3D .solid (mf .solid (spatial inc 0)) 0 =
        to3D .plane s.eStrain s.e33 + to3D .plane (mf .plane inc) 0 := by
      rw [mf_spatial]
      show t.eStrain + _ = _
      rw [spatial_iff.1 h.elastic, h.normalStrain]
      rfl
    have step : SpatialResult SpatialElastic ((elasticStateUpdate .plane d y inc s).map Prod.fst)
        ((elasticStateUpdate .solid d y (spatial inc 0) t).map Prod.fst) := by
      unfold elasticStateUpdate
      simp only [htr]
      cases elasticTangentModulus d y with
      | error e => rfl
      | ok D =>
        have he : InPlane (to3D .plane s.eStrain s.e33 + to3D .plane (mf .plane inc) 0) := trial_inPlane _ _ _
        have h0 : get33 .plane (to3D .plane s.eStrain s.e33 + to3D .plane (mf .plane inc) 0) = 0 := by
          simp [get33, to3D, h.normalStrain]
        have h1 := (to3D_of_inPlane he).symm
        rw [h0] at h1
        refine ⟨fun i j => ?_, ?_, spatial_iff.2 h1, h0, spatial_iff.2 h1⟩
        · show unmf .solid (mv6 D _) _ _ = unmf .plane (to2D .plane (mv6 D _)) i j
          generalize mv6 D _ = w
          fin_cases i <;> fin_cases j <;> simp [unmf, unkel6, pos6, kf, to2D, div_eq_mul_inv]
        · show unmf .solid (mv6 D _) 2 2 = get33 .plane (mv6 D _)
          generalize mv6 D _ = w
          simp [unmf, unkel6, pos6, kf, get33]
    simp only [elasticRun, List.map_cons, List.foldlM_cons]
    revert step
    generalize elasticStateUpdate .plane d y inc s = o
    generalize elasticStateUpdate .solid d y (spatial inc 0) t = o'
    intro step
    match o, o', step with
    | .ok a, .ok b, step => exact ih step
    | .error e, .error e', step => exact step

/-- A plastic step in plane strain, obtained from the step in space. -/
example : ∃ s, louRun .plane (vonMisesLimit 1 0 1 1) [![![3, 0], ![0, 0]]] = .ok (.good s) ∧
    s.isPlast = true ∧ s.acc = 4 / 5 := by
  obtain ⟨new, h1, h2, h3, -⟩ := vmLimit_uni.2
  have hu : spatial ![![3, 0], ![0, 0]] 0 = uniInc 3 := by
    funext i j
    fin_cases i <;> fin_cases j <;> simp [spatial, uniInc]
  have h : louRun .solid (vonMisesLimit 1 0 1 1) [uniInc 3] = .ok (.good new) := by
    simp only [louRun, List.foldlM_cons, List.foldlM_nil]
    exact (congrArg (· >>= pure) h1).trans rfl
  have hp := C151_lou (vonMisesLimit 1 0 1 1) [![![3, 0], ![0, 0]]]
  rw [List.map_singleton, hu, h] at hp
  revert hp
  generalize louRun .plane (vonMisesLimit 1 0 1 1) [![![3, 0], ![0, 0]]] = o
  intro hp
  match o, hp with
  | .ok (.good s), hp => exact ⟨s, rfl, hp.isPlast ▸ h2, hp.acc ▸ h3⟩

/-- The hypothesis of the theorems about any state holds initially. -/
example : SpatialVM (vmInit .plane) (vmInit .solid) := init_spatial

example : SpatialElastic (elasticInitState .plane) (elasticInitState .solid) :=
  ⟨fun i j => by fin_cases i <;> fin_cases j <;> simp [unmf, unkel6, elasticInitState],
    by simp [unmf, unkel6, elasticInitState], init_spatial.stress, rfl, init_spatial.stress⟩

end Hooke
