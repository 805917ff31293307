import Verif.Spec.Devices

/-! # C153: devices of models -/

namespace Hooke

open Spec

theorem deviceArg_iff {cuda : Bool} {s : String} {d : Device} :
    deviceArg cuda s = .ok d ↔ Requests cuda s d := by
  unfold deviceArg
  constructor
  · intro h
    split_ifs at h with h1 h2 h3
    · subst h1; cases h; exact .cpu
    · subst h2; cases h; exact .cuda h3
  · intro h
    cases h with
    | cpu => rfl
    | cuda h => simp [h]

theorem deviceArg_error {cuda : Bool} {s : String} (h : ∀ d, ¬ Requests cuda s d) :
    deviceArg cuda s = .error .runtimeError := by
  cases hd : deviceArg cuda s with
  | ok d => exact absurd (deviceArg_iff.mp hd) (h d)
  | error e =>
    unfold deviceArg at hd
    split_ifs at hd <;> cases hd <;> rfl

theorem storeDevice_on (a : DevAttrs) (d : Device) : OnDevice d (storeDevice a d) := by
  constructor <;> simp [storeDevice, DevAttrs.set]

theorem setSimple_ok {cuda : Bool} {s : String} {d : Device} (h : Requests cuda s d) (a : DevAttrs) :
    (setSimple cuda s a).2 = none ∧ OnDevice d (setSimple cuda s a).1 := by
  unfold setSimple
  rw [deviceArg_iff.mpr h]
  exact ⟨rfl, storeDevice_on a d⟩

theorem setEach_ok {α : Type} {set : α → α × Option PyErr} {P : α → Prop}
    (hset : ∀ x, (set x).2 = none ∧ P (set x).1) (l : List (String × α)) :
    (setEach set l).2 = none ∧ (setEach set l).1.map Prod.fst = l.map Prod.fst ∧
      ∀ k x, (k, x) ∈ (setEach set l).1 → P x := by
  induction l with
  | nil => simp [setEach]
  | cons kx xs ih =>
    obtain ⟨k, x⟩ := kx
    obtain ⟨h1, h2⟩ := hset x
    obtain ⟨i1, i2, i3⟩ := ih
    unfold setEach
    cases hs : set x with
    | mk x' e =>
      rw [hs] at h1 h2
      simp only at h1 h2
      subst h1
      refine ⟨i1, by simp [i2], fun k' y hy => ?_⟩
      rcases List.mem_cons.mp hy with hy | hy
      · cases hy; exact h2
      · exact i3 k' y hy

theorem setMaybe_ok {α : Type} {set : α → α × Option PyErr} {P : α → Prop}
    (hset : ∀ x, (set x).2 = none ∧ P (set x).1) (o : Option α) :
    (setMaybe set o).2 = none ∧ ((setMaybe set o).1.isSome = o.isSome) ∧
      ∀ x, (setMaybe set o).1 = some x → P x := by
  cases o with
  | none => simp [setMaybe]
  | some x =>
    refine ⟨(hset x).1, rfl, fun y hy => ?_⟩
    simp only [setMaybe, Option.some.injEq] at hy
    rw [← hy]
    exact (hset x).2

theorem setScalers_ok {cuda : Bool} {s : String} {d : Device} (h : Requests cuda s d)
    (sc : DevScalers) : (setScalers cuda s sc).2 = none ∧ ScalersOn d (setScalers cuda s sc).1 := by
  cases sc with
  | none => exact ⟨rfl, fun l hl => by cases hl⟩
  | some l =>
    have := setEach_ok (P := fun o => ∀ a, o = some a → OnDevice d a) (fun o => by
      have := setMaybe_ok (setSimple_ok h) o
      exact ⟨this.1, this.2.2⟩) l
    refine ⟨this.1, fun l' hl k a ha => ?_⟩
    cases hl
    exact this.2.2 k (some a) ha a rfl

/-- **C153.** Setting the device of an element, a constitutive model, a data scaler or a layer puts
it on the device asked for. -/
theorem C153_simple {cuda : Bool} {s : String} {d : Device} (h : Requests cuda s d) (a : DevAttrs) :
    (setSimple cuda s a).2 = none ∧ OnDevice d (setSimple cuda s a).1 := setSimple_ok h a

/-- **C153.** Setting the device of a GRU model puts it and its data scalers on that device. -/
theorem C153_gru {cuda : Bool} {s : String} {d : Device} (h : Requests cuda s d) (g : GruDev) :
    (setGru cuda s g).2 = none ∧ GruOn d (setGru cuda s g).1 := by
  unfold setGru
  rw [deviceArg_iff.mpr h]
  have := setScalers_ok h g.scalers
  exact ⟨this.1, storeDevice_on _ d, this.2⟩

/-- **C153.** Setting the device of a recurrent constitutive model puts it, its constitutive model
and its data scalers on that device. -/
theorem C153_rcm {cuda : Bool} {s : String} {d : Device} (h : Requests cuda s d) (m : RcmDev) :
    (setRcm cuda s m).2 = none ∧ RcmOn d (setRcm cuda s m).1 := by
  unfold setRcm
  rw [deviceArg_iff.mpr h]
  have hc := setMaybe_ok (setSimple_ok h) m.constitutive
  have hs := setScalers_ok h m.scalers
  cases hm : setMaybe (setSimple cuda s) m.constitutive with
  | mk c e =>
    rw [hm] at hc
    obtain ⟨h1, -, h3⟩ := hc
    simp only at h1 h3
    subst h1
    exact ⟨hs.1, storeDevice_on _ d, h3, hs.2⟩

theorem setHybPart_ok {cuda : Bool} {s : String} {d : Device} (h : Requests cuda s d)
    (x : HybPartDev) : (setHybPart cuda s x).2 = none ∧ HybPartOn d (setHybPart cuda s x).1 := by
  cases x with
  | gru g => exact C153_gru h g
  | rcm m => exact C153_rcm h m
  | layer a => exact setSimple_ok h a
  | other => exact ⟨rfl, trivial⟩

/-- **C153.** Setting the device of a hybrid model puts it and all its hybridized models, with their
constitutive models and data scalers, on that device, and keeps their names and order. -/
theorem C153_hybrid {cuda : Bool} {s : String} {d : Device} (h : Requests cuda s d) (m : HybDev) :
    (setHyb cuda s m).2 = none ∧ HybOn d (setHyb cuda s m).1 ∧
      (setHyb cuda s m).1.parts.map (List.map Prod.fst) = m.parts.map (List.map Prod.fst) := by
  unfold setHyb
  rw [deviceArg_iff.mpr h]
  cases hp : m.parts with
  | none => exact ⟨rfl, ⟨storeDevice_on _ d, fun l hl => by cases hl⟩, rfl⟩
  | some l =>
    have := setEach_ok (setHybPart_ok h) l
    refine ⟨this.1, ⟨storeDevice_on _ d, fun l' hl => ?_⟩, ?_⟩
    · cases hl; exact this.2.2
    · simp only [Option.map_some, this.2.1]

/-- **C153.** Any other argument, and `cuda` when it is not available, is rejected by every object
with an exception, and nothing is changed: neither the object nor one of its parts. -/
theorem C153_rejected {cuda : Bool} {s : String} (h : ∀ d, ¬ Requests cuda s d) (a : DevAttrs)
    (g : GruDev) (m : RcmDev) (y : HybDev) (f : FinderDev) :
    setSimple cuda s a = (a, some .runtimeError) ∧ setGru cuda s g = (g, some .runtimeError) ∧
    setRcm cuda s m = (m, some .runtimeError) ∧ setHyb cuda s y = (y, some .runtimeError) ∧
    setFinder cuda s f = (f, some .runtimeError) := by
  simp only [setSimple, setGru, setRcm, setHyb, setFinder, deviceArg_error h, and_self]

/-- **C153.** A material model finder is itself put on the device. -/
theorem C153_finder {cuda : Bool} {s : String} {d : Device} (h : Requests cuda s d) (f : FinderDev) :
    (setFinder cuda s f).2 = none ∧ OnDevice d (setFinder cuda s f).1.own := by
  unfold setFinder
  rw [deviceArg_iff.mpr h]
  exact ⟨rfl, storeDevice_on _ d⟩

/-- **C153 is violated for the material models of a finder.** Whatever device is asked for, the
material models of the finder stay on the devices they are on. -/
theorem C153_finder_models_violated (cuda : Bool) (s : String) (f : FinderDev) :
    (setFinder cuda s f).1.models = f.models := by
  unfold setFinder
  split <;> rfl

/-- The attributes after a history of calls of `set_device`. -/
def deviceHistory (a : DevAttrs) (calls : List (Bool × String)) : DevAttrs :=
  calls.foldl (fun a c => (setSimple c.1 c.2 a).1) a

theorem setSimple_other {cuda : Bool} {s k : String} {a : DevAttrs} (h1 : k ≠ "_device_type")
    (h2 : k ≠ "_device") : (setSimple cuda s a).1 k = a k := by
  unfold setSimple
  split
  · rfl
  · simp [storeDevice, DevAttrs.set, h1, h2]

/-- **C153 is violated for reading the device.** No history of calls of `set_device` makes
`get_device` return a device: it reads attributes that are never assigned and raises an exception,
for an object just created (without attributes) and ever after. -/
theorem C153_get_device_violated (calls : List (Bool × String)) :
    getDevice (deviceHistory (fun _ => none) calls) = .error .attributeError := by
  have h : ∀ (a : DevAttrs), a "device_type" = none → deviceHistory a calls "device_type" = none := by
    induction calls with
    | nil => exact fun a ha => ha
    | cons c cs ih =>
      intro a ha
      refine ih _ ?_
      exact (setSimple_other (k := "device_type") (by decide) (by decide)).trans ha
  unfold getDevice
  rw [h _ rfl]

/-- A hybrid model of a recurrent constitutive model with one scaler and one missing scaler and of
an object without a device, moved to a GPU. -/
example : ∃ m : HybDev, Requests true "cuda" .cuda ∧ m.parts =
    some [("a", .rcm ⟨fun _ => none, some fun _ => none, some [("x", some fun _ => none), ("y", none)]⟩),
      ("b", .other)] ∧ HybOn .cuda (setHyb true "cuda" m).1 ∧ ¬ HybOn .cuda m :=
  ⟨⟨fun _ => none, some [("a", .rcm ⟨fun _ => none, some fun _ => none,
    some [("x", some fun _ => none), ("y", none)]⟩), ("b", .other)]⟩, .cuda rfl, rfl,
    (C153_hybrid (.cuda rfl) _).2.1, fun h => by have := h.1.1; simp at this⟩

/-- A GPU that is not available, and an unknown device, are not requests. -/
example : (∀ d, ¬ Requests false "cuda" d) ∧ ∀ d, ¬ Requests true "tpu" d := by
  constructor
  · intro d h
    have := deviceArg_iff.mpr h
    simp [deviceArg] at this
  · intro d h
    have := deviceArg_iff.mpr h
    simp [deviceArg] at this

end Hooke
