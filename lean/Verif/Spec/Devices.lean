import Verif.Model.Devices

/-! # Specification: devices of models -/

namespace Hooke.Spec

/-- A device that can be asked for: `cpu` always, `cuda` when it is available. -/
inductive Requests (cuda : Bool) : String → Device → Prop
  | cpu : Requests cuda "cpu" .cpu
  | cuda (h : cuda = true) : Requests cuda "cuda" .cuda

/-- An object is on a device: both of its attributes say so. -/
def OnDevice (d : Device) (a : DevAttrs) : Prop := a "_device_type" = some d ∧ a "_device" = some d

/-- All scalers of a model are on a device. -/
def ScalersOn (d : Device) (s : DevScalers) : Prop :=
  ∀ l, s = some l → ∀ k a, (k, some a) ∈ l → OnDevice d a

/-- A GRU model and its scalers are on a device. -/
def GruOn (d : Device) (g : GruDev) : Prop := OnDevice d g.own ∧ ScalersOn d g.scalers

/-- A recurrent constitutive model, its constitutive model and its scalers are on a device. -/
def RcmOn (d : Device) (m : RcmDev) : Prop :=
  OnDevice d m.own ∧ (∀ a, m.constitutive = some a → OnDevice d a) ∧ ScalersOn d m.scalers

/-- A hybridized model, if it has a device, is on a device. -/
def HybPartOn (d : Device) : HybPartDev → Prop
  | .gru g => GruOn d g
  | .rcm m => RcmOn d m
  | .layer a => OnDevice d a
  | .other => True

/-- A hybrid model and all its hybridized models are on a device. -/
def HybOn (d : Device) (m : HybDev) : Prop :=
  OnDevice d m.own ∧ ∀ l, m.parts = some l → ∀ k x, (k, x) ∈ l → HybPartOn d x

end Hooke.Spec
