import Verif.Model.PyUtil
import Mathlib.Data.Real.Basic

/-!
# Hybrid models (`src/hookeai/model_architectures/hybrid_base_model/model/`)

`hybrid_model.py` and `hybridization.py`.  A features tensor is the list of the feature vectors of all
its (time step, sample) positions; the two leading dimensions are not kept apart.  Hybridized models
are arbitrary functions which leave their input tensor alone.
-/

namespace Hooke

/-- A features tensor: one feature vector for each position. -/
abbrev FeatTensor := List (List ℝ)

/-- What a hybridized model returns (hybrid_model.py:711-741). -/
inductive ModelOut
  | tensor (t : FeatTensor)
  | tuple (ts : List FeatTensor)
  | other

/-- A fitted data scaler. -/
structure HybScaler where
  transform : FeatTensor → Py FeatTensor
  inverse : FeatTensor → Py FeatTensor

/-- An item of `hyb_models_dict` (hybrid_model.py:117-121). `inNorm` and `outNorm` are the attributes
`is_model_in_normalized` and `is_model_out_normalized`, which may be missing; `hasTransform` says
whether the class of the model has a method `data_scaler_transform`; `scalers` is the attribute
`_data_scalers` (`none`: missing or `None`). -/
structure HybEntry where
  name : List Char
  indices : ℤ × ℤ
  residual : Bool
  inNorm : Option Bool
  outNorm : Option Bool
  hasTransform : Bool
  scalers : Option (Option HybScaler × Option HybScaler)
  call : FeatTensor → Py ModelOut

/-- The two stable sorts (hybrid_model.py:351-361): by second index, then by first index. -/
def sortEntries (l : List HybEntry) : List HybEntry :=
  (l.mergeSort fun a b => decide (a.indices.2 ≤ b.indices.2)).mergeSort
    fun a b => decide (a.indices.1 ≤ b.indices.1)

/-- Channels built so far: the completed ones and the current one (hybrid_model.py:363-368). The
channels are keyed by '0', '1', ..., and read in this order (hybrid_model.py:605). -/
structure ChanState where
  done : List (List HybEntry)
  cur : List HybEntry

/-- Body of the loop over the sorted models (hybrid_model.py:370-404). -/
def addToChannel (s : ChanState) (e : HybEntry) : Py ChanState :=
  match s.cur.getLast? with
  | none => .ok ⟨s.done, [e]⟩
  | some p =>
    if e.indices.1 = p.indices.1 then
      if e.indices.2 = p.indices.2 then .error .runtimeError
      else .ok ⟨s.done, s.cur ++ [e]⟩
    else .ok ⟨s.done ++ [s.cur], [e]⟩

/-- `get_hybridization_channels` (hybrid_model.py:300-407): the models of the channels. -/
def hybChannels (l : List HybEntry) : Py (List (List HybEntry)) :=
  ((sortEntries l).foldlM addToChannel ⟨[], []⟩).map fun s => s.done ++ [s.cur]

/-- `check_model_in_normalized`, `check_model_out_normalized` (hybrid_model.py:659-709). -/
def isNormalized (o : Option Bool) : Bool := o.getD false

/-- Body of the loop of `check_hyb_models_data_scalers` (hybrid_model.py:806-857). -/
def checkScalers (e : HybEntry) : Py Unit :=
  if !isNormalized e.inNorm && !isNormalized e.outNorm then .ok ()
  else
    match e.scalers with
    | none => .error .runtimeError
    | some (i, o) =>
      if isNormalized e.inNorm && i.isNone then .error .runtimeError
      else if isNormalized e.outNorm && o.isNone then .error .runtimeError
      else .ok ()

/-- `features_out_extractor` (hybrid_model.py:711-741). -/
def extractOut : ModelOut → Py FeatTensor
  | .tuple [] => .error .indexError
  | .tuple (t :: _) => .ok t
  | .tensor t => .ok t
  | .other => .error .runtimeError

/-- Same sizes. -/
def sameSize (s t : FeatTensor) : Bool := s.map List.length == t.map List.length

/-- Check of the transformed tensor (transfer_learning.py:357-364). -/
def checkSize (t u : FeatTensor) : Py FeatTensor :=
  if sameSize t u then .ok u else .error .runtimeError

/-- `hyb_model.data_scaler_transform(...)` (transfer_learning.py:311-377), the only such method; a model
whose class has none raises an `AttributeError`. `f` is the method of the scaler for the mode. -/
def subTransform (e : HybEntry) (pick : Option HybScaler × Option HybScaler → Option HybScaler)
    (f : HybScaler → FeatTensor → Py FeatTensor) (t : FeatTensor) : Py FeatTensor :=
  if !e.hasTransform then .error .attributeError
  else
    match e.scalers with
    | none => .error .runtimeError
    | some p =>
      match pick p with
      | none => .error .runtimeError
      | some s => f s t >>= checkSize t

/-- `torch.cat((s, t), dim=-1)`: the leading dimensions must agree. -/
def catFeatures (s t : FeatTensor) : Py FeatTensor :=
  if s.length = t.length then .ok (List.zipWith (· ++ ·) s t) else .error .runtimeError

/-- Input residual connection (hybrid_model.py:621-625). -/
def withResidual (e : HybEntry) (x cur : FeatTensor) : Py FeatTensor :=
  if e.residual then catFeatures cur x else .ok cur

/-- Normalization of the input of a hybridized model (hybrid_model.py:628-633). -/
def normalizeIn (e : HybEntry) (t : FeatTensor) : Py FeatTensor :=
  if isNormalized e.inNorm then subTransform e Prod.fst HybScaler.transform t else .ok t

/-- Denormalization of the output of a hybridized model (hybrid_model.py:641-643). -/
def denormalizeOut (e : HybEntry) (t : FeatTensor) : Py FeatTensor :=
  if isNormalized e.outNorm then subTransform e Prod.snd HybScaler.inverse t else .ok t

/-- Evaluation of a hybridized model in a channel (hybrid_model.py:616-643): `x` are the input features
of the hybrid model and `cur` those of the channel. -/
def runHyb (x cur : FeatTensor) (e : HybEntry) : Py FeatTensor := do
  let a ← withResidual e x cur
  let b ← normalizeIn e a
  let o ← e.call b
  let c ← extractOut o
  denormalizeOut e c

/-- A channel (hybrid_model.py:612-646). -/
def runChannel (x : FeatTensor) (ch : List HybEntry) : Py FeatTensor := ch.foldlM (runHyb x) x

/-- Hybridization types (hybridization.py:57-62). -/
inductive HybType
  | identity | additive | unknown
  deriving DecidableEq

/-- Sum of two tensors; sizes must agree (broadcasting is not modelled). -/
def addFeatures (s t : FeatTensor) : Py FeatTensor :=
  if sameSize s t then .ok (List.zipWith (List.zipWith (· + ·)) s t) else .error .runtimeError

/-- `HMIdentity.forward` and `HMAdditive.forward` (hybridization.py:123, 162); `sum` begins with the
number zero. -/
def hybridize : HybType → List FeatTensor → Py FeatTensor
  | .identity, l => orRaise l.head? .indexError
  | .additive, [] => .error .typeError
  | .additive, t :: ts => ts.foldlM addFeatures t
  | .unknown, _ => .error .runtimeError

/-- A hybrid model: its channels, hybridization type and output normalization. -/
structure HybridModel where
  channels : List (List HybEntry)
  type : HybType
  outNorm : Bool
  scalerOut : Option HybScaler

/-- `HybridModel.__init__` (hybrid_model.py:117-222) as far as the hybridized models are concerned; the
data scalers of the hybrid model itself are not yet fitted. -/
def hybridInit (l : List HybEntry) (ty : HybType) (outNorm : Bool) : Py HybridModel := do
  let chs ← hybChannels l
  let _ ← (sortEntries l).mapM checkScalers
  raiseIf (ty = .unknown) .runtimeError
  pure ⟨chs, ty, outNorm, none⟩

/-- Normalization of the output of the hybrid model (hybrid_model.py:652-655, model_data_scaling.py:218-273).
-/
def hybridNormalize (h : HybridModel) (t : FeatTensor) : Py FeatTensor :=
  if h.outNorm then
    match h.scalerOut with
    | none => .error .runtimeError
    | some s => s.transform t >>= checkSize t
  else .ok t

/-- `HybridModel.forward` (hybrid_model.py:580-657). -/
def hybridForward (h : HybridModel) (x : FeatTensor) : Py FeatTensor := do
  let outs ← h.channels.mapM (runChannel x)
  let t ← hybridize h.type outs
  hybridNormalize h t

/-- Prediction with a hybrid model (hybrid_base_model/predict/prediction.py:198-228): `scalerIn` is the
data scaler of the input features if the hybrid model expects normalized input features. -/
def hybridPredict (h : HybridModel) (scalerIn : Option HybScaler) (x : FeatTensor) :
    Py FeatTensor := do
  let y ← (match scalerIn with
    | none => .ok x
    | some s => s.transform x >>= checkSize x : Py FeatTensor)
  let t ← hybridForward h y
  if h.outNorm then
    match h.scalerOut with
    | none => .error .runtimeError
    | some s => s.inverse t >>= checkSize t
  else .ok t

end Hooke
