import Verif.Model.Py

/-!
# Model: devices of models

`set_device` and `get_device` of the elements (simulators/fetorch/element/type/interface.py:224-254),
of the constitutive models (simulators/fetorch/material/models/interface.py:157-187), of the data
scalers (utilities/data_scalers.py:107-125, 476-494; `set_device` only), of the GRU models
(model_architectures/rnn_base_model/model/gru_model.py:283-322), of the recurrent constitutive models
(model_architectures/rc_base_model/model/recurrent_model.py:444-486), of the layers of hybrid models
(model_architectures/hybrid_base_model/model/hybridized_layers.py:143-173, 304-334 and
transfer_learning.py:138-177, 494-524), of the hybrid models
(model_architectures/hybrid_base_model/model/hybrid_model.py:454-494) and of the material model
finder (material_model_finder/model/material_discovery.py:799-829).

A call is a function from the object to the object after the call and the exception raised by it,
if any.  The tensors held by an object are not modelled.
-/

namespace Hooke

/-- Types of devices. -/
inductive Device
  | cpu
  | cuda
  deriving DecidableEq

/-- The attributes of an object that hold its device (`torch.device(device_type)` is represented by
the type). -/
abbrev DevAttrs := String → Option Device

/-- Assignment of an attribute. -/
def DevAttrs.set (a : DevAttrs) (k : String) (d : Device) : DevAttrs := fun x => if x = k then some d else a x

/-- The two checks of `set_device`, e.g. interface.py:234-238, 241-242; `cuda` is
`torch.cuda.is_available()`. -/
def deviceArg (cuda : Bool) (deviceType : String) : Py Device :=
  if deviceType = "cpu" then .ok .cpu
  else if deviceType = "cuda" then (if cuda then .ok .cuda else .error .runtimeError)
  else .error .runtimeError

/-- The two assignments of `set_device`, e.g. interface.py:239-240. -/
def storeDevice (a : DevAttrs) (d : Device) : DevAttrs := (a.set "_device_type" d).set "_device" d

/-- `set_device` of an object without parts: elements (interface.py:224-242), constitutive models
(interface.py:157-175), data scalers (data_scalers.py:107-125, 476-494) and layers of hybrid models
(hybridized_layers.py:143-161, 304-322, transfer_learning.py:494-512). -/
def setSimple (cuda : Bool) (deviceType : String) (a : DevAttrs) : DevAttrs × Option PyErr :=
  match deviceArg cuda deviceType with
  | .error e => (a, some e)
  | .ok d => (storeDevice a d, none)

/-- `get_device`, e.g. interface.py:254: the attributes read are `device_type` and `device`. -/
def getDevice (a : DevAttrs) : Py (Device × Device) :=
  match a "device_type" with
  | none => .error .attributeError
  | some t =>
    match a "device" with
    | none => .error .attributeError
    | some d => .ok (t, d)

/-- Data scalers of a model; `none` for a model without scalers. -/
abbrev DevScalers := Option (List (String × Option DevAttrs))

/-- The calls of `set_device` of a list of parts, in order; an exception ends the calls. -/
def setEach {α : Type} (set : α → α × Option PyErr) : List (String × α) → List (String × α) × Option PyErr
  | [] => ([], none)
  | (k, x) :: xs =>
    match set x with
    | (x', some e) => ((k, x') :: xs, some e)
    | (x', none) =>
      let r := setEach set xs
      ((k, x') :: r.1, r.2)

/-- A scaler that may be `None` (gru_model.py:307-308). -/
def setMaybe {α : Type} (set : α → α × Option PyErr) : Option α → Option α × Option PyErr
  | none => (none, none)
  | some x => let r := set x; (some r.1, r.2)

/-- The loop over the data scalers, gru_model.py:302-308, recurrent_model.py:466-472,
transfer_learning.py:157-163, which passes on `self._device_type`. -/
def setScalers (cuda : Bool) (deviceType : String) : DevScalers → DevScalers × Option PyErr
  | none => (none, none)
  | some l => let r := setEach (setMaybe (setSimple cuda deviceType)) l; (some r.1, r.2)

/-- A GRU model, or the transfer-learning layer of a hybrid model (transfer_learning.py). -/
structure GruDev where
  own : DevAttrs
  scalers : DevScalers

/-- `set_device` of a GRU model, gru_model.py:293-310 and transfer_learning.py:148-165. -/
def setGru (cuda : Bool) (deviceType : String) (g : GruDev) : GruDev × Option PyErr :=
  match deviceArg cuda deviceType with
  | .error e => (g, some e)
  | .ok d =>
    let r := setScalers cuda deviceType g.scalers
    (⟨storeDevice g.own d, r.1⟩, r.2)

/-- A recurrent constitutive model; its constitutive model is missing while it is being created
(recurrent_model.py:463). -/
structure RcmDev where
  own : DevAttrs
  constitutive : Option DevAttrs
  scalers : DevScalers

/-- `set_device` of a recurrent constitutive model, recurrent_model.py:454-474. -/
def setRcm (cuda : Bool) (deviceType : String) (m : RcmDev) : RcmDev × Option PyErr :=
  match deviceArg cuda deviceType with
  | .error e => (m, some e)
  | .ok d =>
    match setMaybe (setSimple cuda deviceType) m.constitutive with
    | (c, some e) => (⟨storeDevice m.own d, c, m.scalers⟩, some e)
    | (c, none) =>
      let r := setScalers cuda deviceType m.scalers
      (⟨storeDevice m.own d, c, r.1⟩, r.2)

/-- Hybridized models; `other` has no method `set_device` (hybrid_model.py:479). -/
inductive HybPartDev
  | gru (g : GruDev)
  | rcm (m : RcmDev)
  | layer (a : DevAttrs)
  | other

/-- `hyb_model.set_device` if there is such a method, hybrid_model.py:477-480. -/
def setHybPart (cuda : Bool) (deviceType : String) : HybPartDev → HybPartDev × Option PyErr
  | .gru g => let r := setGru cuda deviceType g; (.gru r.1, r.2)
  | .rcm m => let r := setRcm cuda deviceType m; (.rcm r.1, r.2)
  | .layer a => let r := setSimple cuda deviceType a; (.layer r.1, r.2)
  | .other => (.other, none)

/-- A hybrid model with its hybridized models by name; missing while it is being created
(hybrid_model.py:473).  `get_hybridized_model` of a stored name returns the model. -/
structure HybDev where
  own : DevAttrs
  parts : Option (List (String × HybPartDev))

/-- `set_device` of a hybrid model, hybrid_model.py:464-482. -/
def setHyb (cuda : Bool) (deviceType : String) (m : HybDev) : HybDev × Option PyErr :=
  match deviceArg cuda deviceType with
  | .error e => (m, some e)
  | .ok d =>
    match m.parts with
    | none => (⟨storeDevice m.own d, none⟩, none)
    | some l =>
      let r := setEach (setHybPart cuda deviceType) l
      (⟨storeDevice m.own d, some r.1⟩, r.2)

/-- Material models of a finder. -/
inductive FinderPartDev
  | rcm (m : RcmDev)
  | gru (g : GruDev)
  | hyb (m : HybDev)

/-- A material model finder with its material models. -/
structure FinderDev where
  own : DevAttrs
  models : List (String × FinderPartDev)

/-- `set_device` of a material model finder, material_discovery.py:809-817. -/
def setFinder (cuda : Bool) (deviceType : String) (m : FinderDev) : FinderDev × Option PyErr :=
  match deviceArg cuda deviceType with
  | .error e => (m, some e)
  | .ok d => ({ m with own := storeDevice m.own d }, none)

end Hooke
