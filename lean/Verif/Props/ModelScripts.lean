import Verif.Model.ModelScripts
import Verif.Spec.ModelScripts
import Verif.Props.DatasetFeatures
import Verif.Props.StressFeatures

/-!
# C144: training and prediction scripts build the same features, of the declared widths
-/

namespace Hooke

open Spec

/-! ## Steps of a script -/

theorem popAll_nodup {labels : List String} {d d' : Feats} (hd : d.keys.Nodup)
    (h : popAll labels d = (.ok (), d')) : d'.keys.Nodup := by
  induction labels generalizing d with
  | nil => simp only [popAll, Prod.mk.injEq, true_and] at h; exact h ▸ hd
  | cons l ls ih =>
    rw [popAll] at h
    split at h
    · exact ih (KDict.nodup_del hd l) h
    · simp at h

theorem featureBody_ok {value : Feats → Py FTensor} {new : String} {labels : List String} {remove : Bool}
    {d : Feats} {t : FTensor} (hd : d.keys.Nodup) (hval : value d = .ok t)
    (hin : ∀ l ∈ labels, l ∈ d.keys) (hl : labels.Nodup) (hnew : new ∉ labels) :
    ∃ d', featureBody value new labels remove d = (.ok (), d') ∧ d'.keys.Nodup ∧ d'.get? new = some t ∧
      (∀ l, l ≠ new → (remove = true → l ∉ labels) → d'.get? l = d.get? l) ∧
      (remove = true → ∀ l ∈ labels, d'.get? l = none) := by
  have hd' := KDict.nodup_put hd new t
  cases remove with
  | false =>
    refine ⟨d.put new t, by simp [featureBody, hval], hd', KDict.get?_put_self _ _ _,
      fun l h _ => KDict.get?_put_ne _ _ h, fun h => by simp at h⟩
  | true =>
    obtain ⟨d', h1, h2, h3⟩ := popAll_ok (d := d.put new t) hd' hl (by
      intro l h
      have hne : l ≠ new := fun e => hnew (e ▸ h)
      rw [KDict.mem_keys_iff, KDict.get?_put_ne _ _ hne, ← KDict.mem_keys_iff]
      exact hin l h)
    refine ⟨d', by simp [featureBody, hval, h1], popAll_nodup hd' h1, ?_, ?_, fun _ => h2⟩
    · rw [h3 _ hnew]; exact KDict.get?_put_self _ _ _
    · intro l hne hnl
      rw [h3 _ (hnl rfl)]; exact KDict.get?_put_ne _ _ hne

theorem bodyLoop_ok {ds : FDataset} {st : FStore} (hk : ds.kind ≠ .filesSubset) (hnd : ds.slots.Nodup)
    {value : Feats → Py FTensor} {new : String} {labels : List String} {remove : Bool} {t : ℕ → FTensor}
    (hkeys : ∀ r ∈ ds.slots, (st r).keys.Nodup) (hval : ∀ r ∈ ds.slots, value (st r) = .ok (t r))
    (hin : ∀ r ∈ ds.slots, ∀ l ∈ labels, l ∈ (st r).keys) (hl : labels.Nodup) (hnew : new ∉ labels) :
    ∃ st', sampleLoop ds.kind (featureBody value new labels remove) ds.slots st = (.ok (), st') ∧
      (∀ r ∈ ds.slots, (st' r).keys.Nodup ∧ (st' r).get? new = some (t r) ∧
        (∀ l, l ≠ new → (remove = true → l ∉ labels) → (st' r).get? l = (st r).get? l) ∧
        (remove = true → ∀ l ∈ labels, (st' r).get? l = none)) ∧
      ∀ r ∉ ds.slots, st' r = st r := by
  have key : ∀ r, ∃ d', r ∈ ds.slots → featureBody value new labels remove (st r) = (.ok (), d') ∧
      d'.keys.Nodup ∧ d'.get? new = some (t r) ∧
      (∀ l, l ≠ new → (remove = true → l ∉ labels) → d'.get? l = (st r).get? l) ∧
      (remove = true → ∀ l ∈ labels, d'.get? l = none) := by
    intro r
    by_cases hr : r ∈ ds.slots
    · obtain ⟨d', h⟩ := featureBody_ok (remove := remove) (hkeys r hr) (hval r hr) (hin r hr) hl hnew
      exact ⟨d', fun _ => h⟩
    · exact ⟨[], fun h => absurd h hr⟩
  choose g hg using key
  refine ⟨_, sampleLoop_ok hk hnd fun r hr => (hg r hr).1, fun r hr => ?_, fun r hr => by simp [hr]⟩
  simp only [hr, if_true]
  exact (hg r hr).2

/-! ## Features of a path -/

/-- The quantities of the specification and the two invariants. -/
noncomputable def anyQuantity (o : List (Fin 3 × Fin 3)) (label : String) (x : PathPoint) : List ℝ :=
  if label = "i1_strain" then [x.strain.trace]
  else if label = "i2_strain" then [secondInvariant x.strain]
  else quantity o label x

/-- The tensor of a quantity along a path. -/
noncomputable def pathTensor (o : List (Fin 3 × Fin 3)) (P : List PathPoint) (label : String) : FTensor :=
  ⟨quantityWidth o label, P.map (anyQuantity o label)⟩

/-- Quantities put together at a point. -/
noncomputable def joined (o : List (Fin 3 × Fin 3)) (labels : List String) (x : PathPoint) : FeatBuild → List ℝ
  | .cat => (labels.map fun l => anyQuantity o l x).flatten
  | .sum w => (List.range o.length).map fun j =>
      (labels.map fun l => weightOf w l * (anyQuantity o l x).getD j 0).sum

/-- Number of quantities put together. -/
def joinedWidth (o : List (Fin 3 × Fin 3)) (labels : List String) : FeatBuild → ℕ
  | .cat => (labels.map (quantityWidth o)).sum
  | .sum _ => o.length

/-- The new feature of one sample. -/
noncomputable def joinValue (labels : List String) : FeatBuild → Feats → Py FTensor
  | .cat => concatValue labels
  | .sum w => sumValue w labels

theorem putTogether_eq {ds : FDataset} {st : FStore} {new : String} {labels : List String} {remove : Bool}
    {b : FeatBuild} {r : ℕ} {rs : List ℕ} (hs : ds.slots = r :: rs) (h : ∀ l ∈ labels, l ∈ (st r).keys) :
    putTogether ds new labels remove st b =
      sampleLoop ds.kind (featureBody (joinValue labels b) new labels (remove && decide (ds.kind ≠ .files)))
        ds.slots st := by
  cases b with
  | cat => simp only [putTogether, concatFeatures, probe_ok hs h, joinValue]
  | sum w => simp only [putTogether, sumFeatures, probe_ok hs h, joinValue]

theorem FTensor.ext_rows {t : FTensor} {n : ℕ} {rows : List (List ℝ)} (hn : t.rows.length = rows.length)
    (hc : t.cols = n) (h : ∀ i, i < rows.length → t.row i = rows.getD i []) : t = ⟨n, rows⟩ := by
  obtain ⟨c, l⟩ := t
  simp only at hn hc
  simp only [FTensor.mk.injEq, hc, true_and]
  refine List.ext_getElem hn fun i h1 h2 => ?_
  have := h i h2
  simpa [FTensor.row, List.getD_eq_getElem?_getD, h1, h2] using this

theorem quantity_length (o : List (Fin 3 × Fin 3)) {label : String} (x : PathPoint)
    (h : label = "strain_path" ∨ label = "stress_path" ∨ label = "e_strain_mf") :
    (anyQuantity o label x).length = o.length := by
  rcases h with rfl | rfl | rfl <;> simp [anyQuantity, quantity, compsOf]

theorem joinValue_ok {o : List (Fin 3 × Fin 3)} {P : List PathPoint} {labels : List String} {d : Feats}
    (b : FeatBuild) (hl : labels ≠ []) (h : ∀ l ∈ labels, d.get? l = some (pathTensor o P l))
    (hb : ∀ w, b = .sum w → ∀ l ∈ labels, l = "strain_path" ∨ l = "stress_path" ∨ l = "e_strain_mf") :
    joinValue labels b d = .ok ⟨joinedWidth o labels b, P.map fun x => joined o labels x b⟩ := by
  cases b with
  | cat =>
    obtain ⟨t, h1, h2, h3, h4⟩ := concatValue_ok (n := P.length) hl fun l h' =>
      ⟨h l h', by simp [pathTensor]⟩
    rw [joinValue, h1]
    congr 1
    refine FTensor.ext_rows (by simpa using h2) ?_ fun i hi => ?_
    · rw [h3]; simp [joinedWidth, pathTensor, Function.comp_def]
    · have hi' : i < P.length := by simpa using hi
      rw [h4 i hi']
      simp [FTensor.row, pathTensor, joined, hi', Function.comp_def]
  | sum w =>
    obtain ⟨t, h1, h2, h3, h4, h5⟩ := sumValue_ok (weights := w) (n := P.length) (m := o.length) hl fun l h' =>
      ⟨h l h', by
        intro row hrow
        obtain ⟨x, -, rfl⟩ := List.mem_map.mp hrow
        rw [quantity_length o x (hb w rfl l h')]
        simp [pathTensor, quantityWidth, hb w rfl l h'], by simp [pathTensor],
        by simp [pathTensor, quantityWidth, hb w rfl l h']⟩
    rw [joinValue, h1]
    congr 1
    refine FTensor.ext_rows (by simpa using h2) h3 fun i hi => ?_
    have hi' : i < P.length := by simpa using hi
    refine List.ext_getElem (by simp [h4 i hi', hi', joined]) fun j hj1 hj2 => ?_
    have hj : j < o.length := by rw [h4 i hi'] at hj1; exact hj1
    have := h5 i hi' j hj
    rw [FTensor.entry, List.getD_eq_getElem?_getD, List.getElem?_eq_getElem hj1, Option.getD_some] at this
    rw [this]
    simp [FTensor.entry, FTensor.row, pathTensor, joined, hi', Function.comp_def]

theorem putTogether_ok {ds : FDataset} {st : FStore} (hk : ds.kind ≠ .filesSubset) (hnd : ds.slots.Nodup)
    (hs : ds.slots ≠ []) {new : String} {labels : List String} {remove : Bool} {b : FeatBuild}
    {o : List (Fin 3 × Fin 3)} {P : ℕ → List PathPoint} (hne : labels ≠ [])
    (hkeys : ∀ r ∈ ds.slots, (st r).keys.Nodup)
    (h : ∀ r ∈ ds.slots, ∀ l ∈ labels, (st r).get? l = some (pathTensor o (P r) l))
    (hb : ∀ w, b = .sum w → ∀ l ∈ labels, l = "strain_path" ∨ l = "stress_path" ∨ l = "e_strain_mf")
    (hl : labels.Nodup) (hnew : new ∉ labels) :
    ∃ st', putTogether ds new labels remove st b = (.ok (), st') ∧
      (∀ r ∈ ds.slots, (st' r).keys.Nodup ∧
        (st' r).get? new = some ⟨joinedWidth o labels b, (P r).map fun x => joined o labels x b⟩ ∧
        (∀ l, l ≠ new → (remove = true → ds.kind = .files ∨ l ∉ labels) → (st' r).get? l = (st r).get? l) ∧
        (remove = true → ds.kind ≠ .files → ∀ l ∈ labels, (st' r).get? l = none)) ∧
      ∀ r ∉ ds.slots, st' r = st r := by
  have hin : ∀ r ∈ ds.slots, ∀ l ∈ labels, l ∈ (st r).keys := fun r hr l hl' =>
    KDict.mem_keys_iff.mpr (by rw [h r hr l hl']; simp)
  obtain ⟨r0, rs, hr0⟩ := List.exists_cons_of_ne_nil hs
  rw [putTogether_eq hr0 (hin r0 (by simp [hr0]))]
  obtain ⟨st', h1, h2, h3⟩ := bodyLoop_ok (remove := remove && decide (ds.kind ≠ .files)) hk hnd hkeys
    (fun r hr => joinValue_ok b hne (h r hr) hb) hin hl hnew
  refine ⟨st', h1, fun r hr => ?_, h3⟩
  obtain ⟨a1, a2, a3, a4⟩ := h2 r hr
  refine ⟨a1, a2, fun l hl1 hl2 => a3 l hl1 fun h' => ?_, fun e1 e2 => a4 (by simp [e1, e2])⟩
  simp only [Bool.and_eq_true, decide_eq_true_eq] at h'
  exact (hl2 h'.1).resolve_left h'.2

/-! ## Strain invariants -/

theorem strainValue_ok {o : List (Fin 3 × Fin 3)} (ho : orderDim (digits o) = 3) {P : List PathPoint}
    {d : Feats} (h : d.get? "strain_path" = some (pathTensor o P "strain_path"))
    (hP : ∀ x ∈ P, Determines o x.strain) {label : String} (hl : label = "i1_strain" ∨ label = "i2_strain") :
    strainValue label (digits o) d = .ok (pathTensor o P label) := by
  have hrows : (P.map (anyQuantity o "strain_path")).mapM
      (fun c => strainFeature c label (orderDim (digits o)) (digits o)) = .ok (P.map (anyQuantity o label)) := by
    rw [List.mapM_map]
    apply mapM_of_forall
    intro x hx
    have e : anyQuantity o "strain_path" x = compsOf o x.strain := by simp [anyQuantity, quantity]
    simp only [Function.comp_apply]
    rw [e, ho]
    have := C57_strain o x.strain (hP x hx)
    rcases hl with rfl | rfl
    · simpa [anyQuantity] using this.1
    · simpa [anyQuantity] using this.2
  have hw : quantityWidth o label = 1 := by rcases hl with rfl | rfl <;> simp [quantityWidth]
  simp only [strainValue, h, orRaise, bind, Except.bind, pathTensor] at *
  rw [hrows, hw]

theorem addStrain_ok {ds : FDataset} {st : FStore} (hk : ds.kind ≠ .filesSubset) (hnd : ds.slots.Nodup)
    (hs : ds.slots ≠ []) {o : List (Fin 3 × Fin 3)} (ho : orderDim (digits o) = 3) {P : ℕ → List PathPoint}
    (hkeys : ∀ r ∈ ds.slots, (st r).keys.Nodup)
    (h : ∀ r ∈ ds.slots, (st r).get? "strain_path" = some (pathTensor o (P r) "strain_path"))
    (hP : ∀ r ∈ ds.slots, ∀ x ∈ P r, Determines o x.strain) {label : String}
    (hl : label = "i1_strain" ∨ label = "i2_strain") :
    ∃ st', addStrainToStore ds (some (digits o)) label st = (.ok (), st') ∧
      (∀ r ∈ ds.slots, (st' r).keys.Nodup ∧ (st' r).get? label = some (pathTensor o (P r) label) ∧
        ∀ l, l ≠ label → (st' r).get? l = (st r).get? l) ∧ ∀ r ∉ ds.slots, st' r = st r := by
  obtain ⟨r0, rs, hr0⟩ := List.exists_cons_of_ne_nil hs
  have hhas : firstHas ds st "strain_path" = .ok true := by
    have : (st r0).has "strain_path" = true :=
      KDict.has_iff.mpr (KDict.mem_keys_iff.mpr (by rw [h r0 (by simp [hr0])]; simp))
    simp [firstHas, hr0, this]
  have hn : ¬(label ≠ "i1_strain" ∧ label ≠ "i2_strain") := by
    rcases hl with rfl | rfl <;> simp
  obtain ⟨st', h1, h2, h3⟩ := bodyLoop_ok (st := st) (remove := false) (labels := []) (new := label) hk hnd hkeys
    (fun r hr => strainValue_ok ho (h r hr) (hP r hr) hl) (by simp) List.nodup_nil (by simp)
  refine ⟨st', by simp only [addStrainToStore, hhas]; rw [if_neg hn]; exact h1, fun r hr => ?_, h3⟩
  obtain ⟨a1, a2, a3, -⟩ := h2 r hr
  exact ⟨a1, a2, fun l hl => a3 l hl (by simp)⟩

theorem addStrainAll_ok {ds : FDataset} {st : FStore} (hk : ds.kind ≠ .filesSubset) (hnd : ds.slots.Nodup)
    (hs : ds.slots ≠ []) {o : List (Fin 3 × Fin 3)} (ho : orderDim (digits o) = 3) {P : ℕ → List PathPoint}
    (hP : ∀ r ∈ ds.slots, ∀ x ∈ P r, Determines o x.strain) {labels : List String}
    (hl : ∀ l ∈ labels, l = "i1_strain" ∨ l = "i2_strain")
    (hkeys : ∀ r ∈ ds.slots, (st r).keys.Nodup)
    (h : ∀ r ∈ ds.slots, (st r).get? "strain_path" = some (pathTensor o (P r) "strain_path")) :
    ∃ st', addStrainAll ds (some (digits o)) labels st = (.ok (), st') ∧
      (∀ r ∈ ds.slots, (st' r).keys.Nodup ∧
        (∀ l ∈ labels, (st' r).get? l = some (pathTensor o (P r) l)) ∧
        ∀ l ∉ labels, (st' r).get? l = (st r).get? l) ∧ ∀ r ∉ ds.slots, st' r = st r := by
  induction labels generalizing st with
  | nil => exact ⟨st, rfl, fun r hr => ⟨hkeys r hr, by simp, fun _ _ => rfl⟩, fun _ _ => rfl⟩
  | cons l ls ih =>
    obtain ⟨s1, a1, a2, a3⟩ := addStrain_ok hk hnd hs ho hkeys h hP (hl l List.mem_cons_self)
    have hne : "strain_path" ≠ l := by rcases hl l List.mem_cons_self with rfl | rfl <;> decide
    obtain ⟨s2, b1, b2, b3⟩ := ih (st := s1) (fun l' h' => hl l' (List.mem_cons_of_mem _ h'))
      (fun r hr => (a2 r hr).1) fun r hr => by rw [(a2 r hr).2.2 _ hne]; exact h r hr
    refine ⟨s2, by simp only [addStrainAll, a1, thenDo]; exact b1, fun r hr => ?_,
      fun r hr => by rw [b3 r hr, a3 r hr]⟩
    obtain ⟨c1, c2, c3⟩ := b2 r hr
    obtain ⟨d1, d2, d3⟩ := a2 r hr
    refine ⟨c1, fun l' h' => ?_, fun l' h' => ?_⟩
    · by_cases hm : l' ∈ ls
      · exact c2 l' hm
      · have : l' = l := (List.mem_cons.mp h').resolve_right hm
        rw [c3 l' hm, this]; exact d2
    · rw [List.mem_cons, not_or] at h'
      rw [c3 l' h'.2, d3 l' h'.1]

/-! ## A whole script -/

/-- What an option needs for the script to work. -/
structure OptionOk (opt : FeatOption) (removeIn : Bool) : Prop where
  strain : ∀ l ∈ opt.strain, l = "i1_strain" ∨ l = "i2_strain"
  inNe : opt.inLabels ≠ []
  outNe : opt.outLabels ≠ []
  inNodup : opt.inLabels.Nodup
  outNodup : opt.outLabels.Nodup
  inNew : "features_in" ∉ opt.inLabels ∧ "features_in" ∉ opt.outLabels
  outNew : "features_out" ∉ opt.inLabels ∧ "features_out" ∉ opt.outLabels
  inSum : ∀ w, opt.inBuild = .sum w → ∀ l ∈ opt.inLabels, l = "strain_path" ∨ l = "stress_path" ∨ l = "e_strain_mf"
  outSum : ∀ w, opt.outBuild = .sum w →
    ∀ l ∈ opt.outLabels, l = "strain_path" ∨ l = "stress_path" ∨ l = "e_strain_mf"
  apart : removeIn = true → ∀ l ∈ opt.outLabels, l ∉ opt.inLabels

/-- Whether a feature other than the new ones is kept. -/
def Kept (ds : FDataset) (opt : FeatOption) (removeIn removeOut : Bool) (l : String) : Prop :=
  l ≠ "features_in" ∧ l ≠ "features_out" ∧ l ≠ "hidden_features_in" ∧ l ∉ opt.strain ∧
    (removeIn = true → ds.kind = .files ∨ l ∉ opt.inLabels) ∧
    (removeOut = true → ds.kind = .files ∨ l ∉ opt.outLabels)

theorem scriptFeatures_ok {ds : FDataset} {st : FStore} (hk : ds.kind ≠ .filesSubset) (hnd : ds.slots.Nodup)
    (hs : ds.slots ≠ []) {o : List (Fin 3 × Fin 3)} (ho : orderDim (digits o) = 3) {P : ℕ → List PathPoint}
    (hP : ∀ r ∈ ds.slots, ∀ x ∈ P r, Determines o x.strain) (hkeys : ∀ r ∈ ds.slots, (st r).keys.Nodup)
    {opt : FeatOption} {removeIn removeOut : Bool} (hopt : OptionOk opt removeIn) (hidden : Option FTensor)
    (hstrain : ∀ r ∈ ds.slots, (st r).get? "strain_path" = some (pathTensor o (P r) "strain_path"))
    (h : ∀ r ∈ ds.slots, ∀ l, l ∈ opt.inLabels ∨ l ∈ opt.outLabels → l ∉ opt.strain →
      (st r).get? l = some (pathTensor o (P r) l)) :
    ∃ st', scriptFeatures ds (some (digits o)) opt removeIn removeOut hidden st = (.ok (), st') ∧
      (∀ r ∈ ds.slots,
        (st' r).get? "features_in" =
          some ⟨joinedWidth o opt.inLabels opt.inBuild, (P r).map fun x => joined o opt.inLabels x opt.inBuild⟩ ∧
        (st' r).get? "features_out" =
          some ⟨joinedWidth o opt.outLabels opt.outBuild,
            (P r).map fun x => joined o opt.outLabels x opt.outBuild⟩ ∧
        (∀ t, hidden = some t → (st' r).get? "hidden_features_in" = some t) ∧
        ∀ l, Kept ds opt removeIn removeOut l → (st' r).get? l = (st r).get? l) ∧
      ∀ r ∉ ds.slots, st' r = st r := by
  obtain ⟨s1, a1, a2, a3⟩ := addStrainAll_ok hk hnd hs ho hP hopt.strain hkeys hstrain
  have hall : ∀ r ∈ ds.slots, ∀ l, l ∈ opt.inLabels ∨ l ∈ opt.outLabels →
      (s1 r).get? l = some (pathTensor o (P r) l) := by
    intro r hr l hl
    by_cases hm : l ∈ opt.strain
    · exact (a2 r hr).2.1 l hm
    · rw [(a2 r hr).2.2 l hm]; exact h r hr l hl hm
  obtain ⟨s2, b1, b2, b3⟩ := putTogether_ok (remove := removeIn) hk hnd hs hopt.inNe (fun r hr => (a2 r hr).1)
    (fun r hr l hl => hall r hr l (.inl hl)) hopt.inSum hopt.inNodup hopt.inNew.1
  obtain ⟨s3, c1, c2, c3⟩ := putTogether_ok (st := s2) (o := o) (P := P) (remove := removeOut) hk hnd hs
    hopt.outNe (fun r hr => (b2 r hr).1)
    (fun r hr l hl => by
      rw [(b2 r hr).2.2.1 l (fun e => hopt.inNew.2 (e ▸ hl)) fun e => .inr (hopt.apart e l hl)]
      exact hall r hr l (.inr hl)) hopt.outSum hopt.outNodup hopt.outNew.2
  have hin : ∀ r ∈ ds.slots, (s3 r).get? "features_in" = (s2 r).get? "features_in" := fun r hr =>
    (c2 r hr).2.2.1 _ (by decide) fun _ => .inr hopt.inNew.2
  have hkept : ∀ r ∈ ds.slots, ∀ l, Kept ds opt removeIn removeOut l → (s3 r).get? l = (st r).get? l := by
    rintro r hr l ⟨e1, e2, -, e4, e5, e6⟩
    rw [(c2 r hr).2.2.1 l e2 e6, (b2 r hr).2.2.1 l e1 e5, (a2 r hr).2.2 l e4]
  have hout : ∀ r ∉ ds.slots, s3 r = st r := fun r hr => by rw [c3 r hr, b3 r hr, a3 r hr]
  cases hidden with
  | none =>
    refine ⟨s3, by simp only [scriptFeatures, a1, b1, c1, thenDo], fun r hr => ?_, hout⟩
    exact ⟨by rw [hin r hr]; exact (b2 r hr).2.1, (c2 r hr).2.1, by simp, hkept r hr⟩
  | some t =>
    obtain ⟨s4, d1, d2, d3⟩ := C45_feature_init ds s3 "hidden_features_in" t hk hnd
    refine ⟨s4, by simp only [scriptFeatures, a1, b1, c1, thenDo, d1], fun r hr => ?_,
      fun r hr => by rw [d3 r hr, hout r hr]⟩
    refine ⟨?_, ?_, ?_, ?_⟩
    · rw [(d2 r hr).2 _ (by decide), hin r hr]; exact (b2 r hr).2.1
    · rw [(d2 r hr).2 _ (by decide)]; exact (c2 r hr).2.1
    · intro t' ht'
      rw [← Option.some.inj ht']; exact (d2 r hr).1
    · intro l hl
      rw [(d2 r hr).2 _ hl.2.2.1]; exact hkept r hr l hl

/-! ## The options -/

/-- What makes an option right for its name. -/
structure OptionRight (o : List (Fin 3 × Fin 3)) (name : String) (opt : FeatOption) (removeIn : Bool) : Prop
    extends OptionOk opt removeIn where
  needed : ∀ l, l ∈ opt.inLabels ∨ l ∈ opt.outLabels → l ∉ opt.strain →
    l ∈ neededFeatures name ∧ l ≠ "i1_strain" ∧ l ≠ "i2_strain"
  input : ∀ x, joined o opt.inLabels x opt.inBuild = modelInput o name x
  output : ∀ x, joined o opt.outLabels x opt.outBuild = modelOutput o name x
  inWidth : joinedWidth o opt.inLabels opt.inBuild = opt.nIn
  outWidth : joinedWidth o opt.outLabels opt.outBuild = opt.nOut

theorem range_getD_real {l : List ℝ} {n : ℕ} (h : l.length = n) :
    ((List.range n).map fun j => l.getD j 0) = l := by
  subst h
  refine List.ext_getElem (by simp) fun i h1 h2 => ?_
  simp [h2]

theorem weighted_difference (o : List (Fin 3 × Fin 3)) (A B : Matrix (Fin 3) (Fin 3) ℝ) :
    ((List.range o.length).map fun j => (compsOf o A).getD j 0 + -(compsOf o B).getD j 0) = compsOf o (A - B) := by
  refine List.ext_getElem (by simp [compsOf]) fun i h1 h2 => ?_
  have hi : i < o.length := by simpa using h1
  simp [compsOf, hi, sub_eq_add_neg]

theorem needed_strain (name : String) : "strain_path" ∈ neededFeatures name := by
  unfold neededFeatures
  split_ifs <;> simp

theorem right_strain_to_stress {o : List (Fin 3 × Fin 3)} (ho : o.length = 6) (b : Bool) :
    OptionRight o "strain_to_stress"
      ⟨[], ["strain_path"], .cat, ["stress_path"], .cat, 6, 6⟩ b where
  strain := by simp
  inNe := by simp
  outNe := by simp
  inNodup := by simp
  outNodup := by simp
  inNew := by simp
  outNew := by simp
  inSum := by simp
  outSum := by simp
  apart := by simp
  needed := by simp [neededFeatures]
  input := fun x => by
    simp [joined, modelInput, anyQuantity, quantity]
  output := fun x => by
    simp [joined, modelOutput, anyQuantity, quantity]
  inWidth := by simp [joinedWidth, quantityWidth, ho]
  outWidth := by simp [joinedWidth, quantityWidth, ho]

theorem right_strain_i1_i2_to_stress {o : List (Fin 3 × Fin 3)} (ho : o.length = 6) (b : Bool) :
    OptionRight o "strain_i1_i2_to_stress"
      ⟨["i1_strain", "i2_strain"], ["strain_path", "i1_strain", "i2_strain"], .cat,
      ["stress_path"], .cat, 8, 6⟩ b where
  strain := by simp
  inNe := by simp
  outNe := by simp
  inNodup := by simp
  outNodup := by simp
  inNew := by simp
  outNew := by simp
  inSum := by simp
  outSum := by simp
  apart := by simp
  needed := by
    simp only [List.mem_cons, List.not_mem_nil, or_false, not_or, neededFeatures]
    rintro l h ⟨h1, h2⟩
    refine ⟨?_, h1, h2⟩
    rcases h with (rfl | rfl | rfl) | h <;> simp_all
  input := fun x => by
    simp [joined, modelInput, anyQuantity, quantity]
  output := fun x => by
    simp [joined, modelOutput, anyQuantity, quantity]
  inWidth := by simp [joinedWidth, quantityWidth, ho]
  outWidth := by simp [joinedWidth, quantityWidth, ho]

theorem right_strain_to_p_strain {o : List (Fin 3 × Fin 3)} (ho : o.length = 6) :
    OptionRight o "strain_to_p_strain"
      ⟨[], ["strain_path"], .sum [("strain_path", 1)],
      ["strain_path", "e_strain_mf"], .sum [("strain_path", 1), ("e_strain_mf", -1)], 6, 6⟩ false where
  strain := by simp
  inNe := by simp
  outNe := by simp
  inNodup := by simp
  outNodup := by simp
  inNew := by simp
  outNew := by simp
  inSum := by simp
  outSum := by simp
  apart := by simp
  needed := by simp [neededFeatures]
  input := fun x => by
    simp only [joined, modelInput, anyQuantity, quantity, weightOf]
    simpa [compsOf, KDict.get?] using range_getD_real (l := compsOf o x.strain) (n := o.length) (by simp [compsOf])
  output := fun x => by
    simp only [joined, modelOutput, anyQuantity, quantity, weightOf]
    simpa [KDict.get?] using weighted_difference o x.strain x.elastic
  inWidth := by simp [joinedWidth, ho]
  outWidth := by simp [joinedWidth, ho]

theorem right_strain_i1_i2_to_p_strain {o : List (Fin 3 × Fin 3)} (ho : o.length = 6) :
    OptionRight o "strain_i1_i2_to_p_strain"
      ⟨["i1_strain", "i2_strain"], ["strain_path", "i1_strain", "i2_strain"], .cat,
      ["strain_path", "e_strain_mf"], .sum [("strain_path", 1), ("e_strain_mf", -1)], 8, 6⟩ false where
  strain := by simp
  inNe := by simp
  outNe := by simp
  inNodup := by simp
  outNodup := by simp
  inNew := by simp
  outNew := by simp
  inSum := by simp
  outSum := by simp
  apart := by simp
  needed := by
    simp only [List.mem_cons, List.not_mem_nil, or_false, not_or, neededFeatures]
    rintro l h ⟨h1, h2⟩
    refine ⟨?_, h1, h2⟩
    rcases h with (rfl | rfl | rfl) | h <;> simp_all
  input := fun x => by
    simp [joined, modelInput, anyQuantity, quantity]
  output := fun x => by
    simp only [joined, modelOutput, anyQuantity, quantity, weightOf]
    simpa [KDict.get?] using weighted_difference o x.strain x.elastic
  inWidth := by simp [joinedWidth, quantityWidth, ho]
  outWidth := by simp [joinedWidth, ho]

theorem right_stress_acc_p_strain {o : List (Fin 3 × Fin 3)} (ho : o.length = 6) (b : Bool) :
    OptionRight o "stress_acc_p_strain"
      ⟨[], ["strain_path"], .cat, ["stress_path", "acc_p_strain"], .cat, 6, 7⟩ b where
  strain := by simp
  inNe := by simp
  outNe := by simp
  inNodup := by simp
  outNodup := by simp
  inNew := by simp
  outNew := by simp
  inSum := by simp
  outSum := by simp
  apart := by simp
  needed := by simp [neededFeatures]
  input := fun x => by
    simp [joined, modelInput, anyQuantity, quantity]
  output := fun x => by
    simp [joined, modelOutput, anyQuantity, quantity]
  inWidth := by simp [joinedWidth, quantityWidth, ho]
  outWidth := by simp [joinedWidth, quantityWidth, ho]

theorem right_strain_to_stress_acc_p_strain {o : List (Fin 3 × Fin 3)} (ho : o.length = 6) (b : Bool) :
    OptionRight o "strain_to_stress_acc_p_strain"
      ⟨[], ["strain_path"], .cat, ["stress_path", "acc_p_strain"], .cat, 6, 7⟩ b where
  strain := by simp
  inNe := by simp
  outNe := by simp
  inNodup := by simp
  outNodup := by simp
  inNew := by simp
  outNew := by simp
  inSum := by simp
  outSum := by simp
  apart := by simp
  needed := by simp [neededFeatures]
  input := fun x => by
    simp [joined, modelInput, anyQuantity, quantity]
  output := fun x => by
    simp [joined, modelOutput, anyQuantity, quantity]
  inWidth := by simp [joinedWidth, quantityWidth, ho]
  outWidth := by simp [joinedWidth, quantityWidth, ho]

theorem right_strain_vf_to_stress {o : List (Fin 3 × Fin 3)} (ho : o.length = 6) (b : Bool) :
    OptionRight o "strain_vf_to_stress"
      ⟨[], ["strain_path", "vf_path"], .cat, ["stress_path"], .cat, 7, 6⟩ b where
  strain := by simp
  inNe := by simp
  outNe := by simp
  inNodup := by simp
  outNodup := by simp
  inNew := by simp
  outNew := by simp
  inSum := by simp
  outSum := by simp
  apart := by simp
  needed := by
    simp only [List.mem_cons, List.not_mem_nil, or_false, not_false_eq_true, forall_const]
    rintro l ((rfl | rfl) | rfl) <;> simp [neededFeatures]
  input := fun x => by
    simp [joined, modelInput, anyQuantity, quantity]
  output := fun x => by
    simp [joined, modelOutput, anyQuantity, quantity]
  inWidth := by simp [joinedWidth, quantityWidth, ho]
  outWidth := by simp [joinedWidth, quantityWidth, ho]

theorem right_strain_temperature_composition_to_stress {o : List (Fin 3 × Fin 3)} (ho : o.length = 6) (b : Bool) :
    OptionRight o "strain_temperature_composition_to_stress"
      ⟨[], ["strain_path", "temperature_hist", "composition_hist"], .cat,
      ["stress_path"], .cat, 8, 6⟩ b where
  strain := by simp
  inNe := by simp
  outNe := by simp
  inNodup := by simp
  outNodup := by simp
  inNew := by simp
  outNew := by simp
  inSum := by simp
  outSum := by simp
  apart := by simp
  needed := by
    simp only [List.mem_cons, List.not_mem_nil, or_false, not_false_eq_true, forall_const]
    rintro l ((rfl | rfl | rfl) | rfl) <;> simp [neededFeatures]
  input := fun x => by
    simp [joined, modelInput, anyQuantity, quantity]
  output := fun x => by
    simp [joined, modelOutput, anyQuantity, quantity]
  inWidth := by simp [joinedWidth, quantityWidth, ho]
  outWidth := by simp [joinedWidth, quantityWidth, ho]

/-! ## The property -/

theorem holds_pathTensor {o : List (Fin 3 × Fin 3)} {P : List PathPoint} {l : String} {d : Feats}
    (h : HoldsPath o P l d) (h1 : l ≠ "i1_strain") (h2 : l ≠ "i2_strain") :
    d.get? l = some (pathTensor o P l) := by
  have : anyQuantity o l = quantity o l := by
    funext x
    rw [anyQuantity, if_neg h1, if_neg h2]
  rw [h, pathTensor, this]

theorem script_right {o : List (Fin 3 × Fin 3)} (ho : o.length = 6) {P : ℕ → List PathPoint} {name : String}
    {ds : FDataset} {st : FStore} (h : ReadyDataset o P name ds st) {opt : FeatOption} {removeIn : Bool}
    (hopt : OptionRight o name opt removeIn) (removeOut : Bool) (hidden : Option FTensor) :
    ∃ st', scriptFeatures ds (some (digits o)) opt removeIn removeOut hidden st = (.ok (), st') ∧
      (∀ r ∈ ds.slots,
        (st' r).get? "features_in" = some ⟨opt.nIn, (P r).map (modelInput o name)⟩ ∧
        (st' r).get? "features_out" = some ⟨opt.nOut, (P r).map (modelOutput o name)⟩ ∧
        (∀ t, hidden = some t → (st' r).get? "hidden_features_in" = some t) ∧
        ∀ l, Kept ds opt removeIn removeOut l → (st' r).get? l = (st r).get? l) ∧
      ∀ r ∉ ds.slots, st' r = st r := by
  obtain ⟨st', h1, h2, h3⟩ := scriptFeatures_ok (removeOut := removeOut) h.kind h.nodup h.nonempty
    (by simp [orderDim, digits, ho]) h.determines h.keys hopt.toOptionOk hidden
    (fun r hr => holds_pathTensor (h.holds r hr _ (needed_strain name)) (by decide) (by decide))
    (fun r hr l hl hs => by
      obtain ⟨a, b, c⟩ := hopt.needed l hl hs
      exact holds_pathTensor (h.holds r hr l a) b c)
  refine ⟨st', h1, fun r hr => ?_, h3⟩
  obtain ⟨a, b, c, d⟩ := h2 r hr
  have e1 : (fun x => joined o opt.inLabels x opt.inBuild) = modelInput o name := funext hopt.input
  have e2 : (fun x => joined o opt.outLabels x opt.outBuild) = modelOutput o name := funext hopt.output
  rw [e1, hopt.inWidth] at a
  rw [e2, hopt.outWidth] at b
  exact ⟨a, b, c, d⟩

theorem rnn_right {o : List (Fin 3 × Fin 3)} (ho : o.length = 6) {name : String} (hn : name ∈ rnnNames) :
    ∃ opt, rnnOption name = .ok opt ∧ rnnPredictOption name = .ok opt ∧ OptionRight o name opt false ∧
      ∀ l ∈ opt.strain, l = "i1_strain" ∨ l = "i2_strain" := by
  simp only [rnnNames, List.mem_cons, List.not_mem_nil, or_false] at hn
  rcases hn with rfl | rfl | rfl | rfl | rfl | rfl | rfl
  · exact ⟨_, rfl, rfl, right_strain_to_stress ho false, by simp⟩
  · exact ⟨_, rfl, rfl, right_strain_i1_i2_to_stress ho false, by simp⟩
  · exact ⟨_, rfl, rfl, right_strain_to_p_strain ho, by simp⟩
  · exact ⟨_, rfl, rfl, right_strain_i1_i2_to_p_strain ho, by simp⟩
  · exact ⟨_, rfl, rfl, right_stress_acc_p_strain ho false, by simp⟩
  · exact ⟨_, rfl, rfl, right_strain_vf_to_stress ho false, by simp⟩
  · exact ⟨_, rfl, rfl, right_strain_temperature_composition_to_stress ho false, by simp⟩

/-- **C144** (GRU models). For every option of the scripts, every data set with the features that the option
needs, every symmetric component order and every path: training script and prediction script make the same
data set of it; its input and output features are the ones that the option names, at every time, with as many
columns as the model is given; the initial hidden state is zero; all other features are unchanged. -/
theorem C144_rnn {o : List (Fin 3 × Fin 3)} (ho : o.length = 6) {P : ℕ → List PathPoint} {name : String}
    (hn : name ∈ rnnNames) {ds : FDataset} {st : FStore} (h : ReadyDataset o P name ds st) (layers size : ℕ) :
    ∃ opt st', rnnOption name = .ok opt ∧
      rnnTrainFeatures ds (some (digits o)) name layers size st = (.ok (), st') ∧
      rnnPredictFeatures ds (some (digits o)) name layers size st = (.ok (), st') ∧
      (∀ r ∈ ds.slots,
        (st' r).get? "features_in" = some ⟨opt.nIn, (P r).map (modelInput o name)⟩ ∧
        (st' r).get? "features_out" = some ⟨opt.nOut, (P r).map (modelOutput o name)⟩ ∧
        (st' r).get? "hidden_features_in" = some ⟨size, List.replicate layers (List.replicate size 0)⟩ ∧
        ∀ l, l ∉ ["features_in", "features_out", "hidden_features_in", "i1_strain", "i2_strain"] →
          (st' r).get? l = (st r).get? l) ∧
      ∀ r ∉ ds.slots, st' r = st r := by
  obtain ⟨opt, h1, h2, h3, h4⟩ := rnn_right ho hn
  obtain ⟨st', a, b, c⟩ := script_right ho h h3 false (some (zeroHidden layers size))
  refine ⟨opt, st', h1, by rw [rnnTrainFeatures, h1]; exact a, by rw [rnnPredictFeatures, h2]; exact a,
    fun r hr => ?_, c⟩
  obtain ⟨b1, b2, b3, b4⟩ := b r hr
  refine ⟨b1, b2, b3 _ rfl, fun l hl => b4 l ?_⟩
  simp only [List.mem_cons, List.not_mem_nil, or_false, not_or] at hl
  obtain ⟨l1, l2, l3, l4, l5⟩ := hl
  refine ⟨l1, l2, l3, fun hm => ?_, by simp, by simp⟩
  rcases h4 l hm with e | e
  · exact l4 e
  · exact l5 e

/-- **C144** (component order not stored). The options with invariants need the component order of the strain:
without it, the scripts raise RuntimeError and leave the data set as it was. -/
theorem C144_order_missing {o : List (Fin 3 × Fin 3)} {P : ℕ → List PathPoint} {name : String}
    (hn : name = "strain_i1_i2_to_stress" ∨ name = "strain_i1_i2_to_p_strain") {ds : FDataset} {st : FStore}
    (h : ReadyDataset o P name ds st) (layers size : ℕ) :
    rnnTrainFeatures ds none name layers size st = (.error .runtimeError, st) ∧
      rnnPredictFeatures ds none name layers size st = (.error .runtimeError, st) ∧
      (name = "strain_i1_i2_to_stress" →
        (∀ v, hybridTrainFeatures ds none name v st = (.error .runtimeError, st)) ∧
        hybridPredictFeatures ds none name st = (.error .runtimeError, st)) := by
  obtain ⟨r0, rs, hr0⟩ := List.exists_cons_of_ne_nil h.nonempty
  have hhas : firstHas ds st "strain_path" = .ok true := by
    have : (st r0).has "strain_path" = true :=
      KDict.has_iff.mpr (KDict.mem_keys_iff.mpr (by
        rw [h.holds r0 (by simp [hr0]) _ (needed_strain name)]; simp))
    simp [firstHas, hr0, this]
  have key : ∀ (opt : FeatOption) (a b : Bool) (c : Option FTensor),
      opt.strain = ["i1_strain", "i2_strain"] →
      scriptFeatures ds none opt a b c st = (.error .runtimeError, st) := by
    intro opt a b c hs
    simp only [scriptFeatures, hs, addStrainAll, addStrainToStore, hhas, thenDo]
  rcases hn with rfl | rfl
  · refine ⟨?_, ?_, fun hc => ⟨fun v => ?_, ?_⟩⟩
    · obtain ⟨q, e, hs⟩ : ∃ q, rnnOption "strain_i1_i2_to_stress" = .ok q ∧ q.strain = ["i1_strain", "i2_strain"] :=
        ⟨_, rfl, rfl⟩
      simp only [rnnTrainFeatures, e]
      exact key _ _ _ _ hs
    · obtain ⟨q, e, hs⟩ : ∃ q, rnnPredictOption "strain_i1_i2_to_stress" = .ok q ∧ q.strain = ["i1_strain", "i2_strain"] :=
        ⟨_, rfl, rfl⟩
      simp only [rnnPredictFeatures, e]
      exact key _ _ _ _ hs
    · obtain ⟨q, e, hs⟩ : ∃ q, hybridOption "strain_i1_i2_to_stress" = .ok q ∧ q.strain = ["i1_strain", "i2_strain"] :=
        ⟨_, rfl, rfl⟩
      simp only [hybridTrainFeatures, e]
      exact key _ _ _ _ hs
    · obtain ⟨q, e, hs⟩ : ∃ q, hybridPredictOption "strain_i1_i2_to_stress" = .ok q ∧ q.strain = ["i1_strain", "i2_strain"] :=
        ⟨_, rfl, rfl⟩
      simp only [hybridPredictFeatures, e]
      exact key _ _ _ _ hs
  · refine ⟨?_, ?_, fun hc => absurd hc (by decide)⟩
    · obtain ⟨q, e, hs⟩ : ∃ q, rnnOption "strain_i1_i2_to_p_strain" = .ok q ∧ q.strain = ["i1_strain", "i2_strain"] :=
        ⟨_, rfl, rfl⟩
      simp only [rnnTrainFeatures, e]
      exact key _ _ _ _ hs
    · obtain ⟨q, e, hs⟩ : ∃ q, rnnPredictOption "strain_i1_i2_to_p_strain" = .ok q ∧ q.strain = ["i1_strain", "i2_strain"] :=
        ⟨_, rfl, rfl⟩
      simp only [rnnPredictFeatures, e]
      exact key _ _ _ _ hs

/-- **C144** (recurrent constitutive models). The same; the features that were put together are dropped from
data sets in memory. -/
theorem C144_rc {o : List (Fin 3 × Fin 3)} (ho : o.length = 6) {P : ℕ → List PathPoint} {name : String}
    (hn : name ∈ rcNames) {ds : FDataset} {st : FStore} (h : ReadyDataset o P name ds st)
    (order : Option (List (ℕ × ℕ))) (mIn mOut : ℕ) :
    ∃ opt st', rcOption name = .ok opt ∧ rcTrainFeatures ds order name st = (.ok (), st') ∧
      rcPredictFeatures ds order name mIn mOut st = (.ok (), st') ∧
      (∀ r ∈ ds.slots,
        (st' r).get? "features_in" = some ⟨opt.nIn, (P r).map (modelInput o name)⟩ ∧
        (st' r).get? "features_out" = some ⟨opt.nOut, (P r).map (modelOutput o name)⟩ ∧
        ∀ l, l ∉ ["features_in", "features_out", "hidden_features_in", "strain_path", "stress_path",
          "acc_p_strain"] → (st' r).get? l = (st r).get? l) ∧
      ∀ r ∉ ds.slots, st' r = st r := by
  have key : ∀ (opt : FeatOption), OptionRight o name opt true → opt.strain = [] →
      (∀ l, l ∈ opt.inLabels ∨ l ∈ opt.outLabels → l ∈ ["strain_path", "stress_path", "acc_p_strain"]) →
      ∃ st', scriptFeatures ds order opt true true none st = (.ok (), st') ∧
      (∀ r ∈ ds.slots,
        (st' r).get? "features_in" = some ⟨opt.nIn, (P r).map (modelInput o name)⟩ ∧
        (st' r).get? "features_out" = some ⟨opt.nOut, (P r).map (modelOutput o name)⟩ ∧
        ∀ l, l ∉ ["features_in", "features_out", "hidden_features_in", "strain_path", "stress_path",
          "acc_p_strain"] → (st' r).get? l = (st r).get? l) ∧
      ∀ r ∉ ds.slots, st' r = st r := by
    intro opt hopt hs hl
    obtain ⟨st', a, b, c⟩ := script_right ho h hopt true none
    refine ⟨st', by simpa only [scriptFeatures, hs, addStrainAll] using a, fun r hr => ?_, c⟩
    obtain ⟨b1, b2, -, b4⟩ := b r hr
    refine ⟨b1, b2, fun l hl' => b4 l ?_⟩
    have h1 : l ∉ opt.inLabels := fun hm => hl' (by
      have := hl l (.inl hm)
      simp only [List.mem_cons, List.not_mem_nil, or_false] at this ⊢; tauto)
    have h2 : l ∉ opt.outLabels := fun hm => hl' (by
      have := hl l (.inr hm)
      simp only [List.mem_cons, List.not_mem_nil, or_false] at this ⊢; tauto)
    simp only [List.mem_cons, List.not_mem_nil, or_false, not_or] at hl'
    exact ⟨hl'.1, hl'.2.1, hl'.2.2.1, by simp [hs], fun _ => .inr h1, fun _ => .inr h2⟩
  simp only [rcNames, List.mem_cons, List.not_mem_nil, or_false] at hn
  rcases hn with rfl | rfl
  · obtain ⟨st', a, b, c⟩ := key _ (right_strain_to_stress ho true) rfl (by simp)
    exact ⟨_, st', rfl, a, a, b, c⟩
  · obtain ⟨st', a, b, c⟩ := key _ (right_strain_to_stress_acc_p_strain ho true) rfl (by simp)
    exact ⟨_, st', rfl, a, a, b, c⟩

/-- **C144** (hybrid models). Training, validation and testing data sets get the same input and output
features. -/
theorem C144_hybrid {o : List (Fin 3 × Fin 3)} (ho : o.length = 6) {P : ℕ → List PathPoint} {name : String}
    (hn : name ∈ hybridNames) {ds : FDataset} {st : FStore} (h : ReadyDataset o P name ds st)
    (validation : Bool) :
    ∃ opt st' st'', hybridOption name = .ok opt ∧
      hybridTrainFeatures ds (some (digits o)) name validation st = (.ok (), st') ∧
      hybridPredictFeatures ds (some (digits o)) name st = (.ok (), st'') ∧
      (validation = false → st' = st'') ∧
      (∀ r ∈ ds.slots, ∀ s ∈ [st', st''],
        (s r).get? "features_in" = some ⟨opt.nIn, (P r).map (modelInput o name)⟩ ∧
        (s r).get? "features_out" = some ⟨opt.nOut, (P r).map (modelOutput o name)⟩) ∧
      ∀ r ∉ ds.slots, st' r = st r ∧ st'' r = st r := by
  have key : ∃ opt, hybridOption name = .ok opt ∧ hybridPredictOption name = .ok opt ∧
      OptionRight o name opt false := by
    simp only [hybridNames, List.mem_cons, List.not_mem_nil, or_false] at hn
    rcases hn with rfl | rfl
    · exact ⟨_, rfl, rfl, right_strain_to_stress ho false⟩
    · exact ⟨_, rfl, rfl, right_strain_i1_i2_to_stress ho false⟩
  obtain ⟨opt, h1, h2, h3⟩ := key
  obtain ⟨st', a, b, c⟩ := script_right ho h h3 validation none
  obtain ⟨st'', a', b', c'⟩ := script_right ho h h3 false none
  refine ⟨opt, st', st'', h1, by rw [hybridTrainFeatures, h1]; exact a,
    by rw [hybridPredictFeatures, h2]; exact a', fun hv => ?_, fun r hr s hs => ?_, fun r hr => ⟨c r hr, c' r hr⟩⟩
  · subst hv
    have := a.symm.trans a'
    exact (Prod.mk.inj this).2
  · simp only [List.mem_cons, List.not_mem_nil, or_false] at hs
    rcases hs with rfl | rfl
    · exact ⟨(b r hr).1, (b r hr).2.1⟩
    · exact ⟨(b' r hr).1, (b' r hr).2.1⟩

/-- **C144** (options). Training and prediction scripts know the same options and name the same features for
them; for any other name they raise `RuntimeError`. -/
theorem C144_options (name : String) :
    rnnPredictOption name = rnnOption name ∧ hybridPredictOption name = hybridOption name ∧
    (∀ opt, rcOption name = .ok opt → rcPredictOption name opt.nIn opt.nOut = .ok opt) ∧
    (name ∉ rnnNames → rnnOption name = .error .runtimeError) ∧
    (name ∉ hybridNames → hybridOption name = .error .runtimeError) ∧
    (name ∉ rcNames → rcOption name = .error .runtimeError ∧
      ∀ a b, rcPredictOption name a b = .error .runtimeError) := by
  refine ⟨rfl, rfl, fun opt h => ?_, fun h => ?_, fun h => ?_, fun h => ?_⟩
  · unfold rcOption at h
    unfold rcPredictOption
    split_ifs at h ⊢ <;> simp_all <;> subst h <;> rfl
  · simp only [rnnNames, List.mem_cons, List.not_mem_nil, or_false, not_or] at h
    simp [rnnOption, h]
  · simp only [hybridNames, List.mem_cons, List.not_mem_nil, or_false, not_or] at h
    simp [hybridOption, h]
  · simp only [rcNames, List.mem_cons, List.not_mem_nil, or_false, not_or] at h
    simp [rcOption, rcPredictOption, h]

/-- **C144** (learning rate). The rate starts at the first rate of the script, never increases, and is the last
rate after the last epoch. -/
theorem C144_learning_rate {a b : ℝ} {n : ℕ} (hb : 0 < b) (hab : b ≤ a) (hn : 0 < n) :
    a * decayGamma a b n ^ n = b ∧ (∀ k, a * decayGamma a b n ^ (k + 1) ≤ a * decayGamma a b n ^ k) ∧
    ∀ k ≤ n, b ≤ a * decayGamma a b n ^ k ∧ a * decayGamma a b n ^ k ≤ a := by
  have ha : 0 < a := lt_of_lt_of_le hb hab
  have hq : 0 < b / a := div_pos hb ha
  have hq1 : b / a ≤ 1 := (div_le_one ha).mpr hab
  have hg0 : 0 < decayGamma a b n := Real.rpow_pos_of_pos hq _
  have hg1 : decayGamma a b n ≤ 1 := Real.rpow_le_one hq.le hq1 (by positivity)
  have hpow : decayGamma a b n ^ n = b / a := by
    rw [decayGamma, ← Real.rpow_natCast, ← Real.rpow_mul hq.le]
    have : (1 : ℝ) / n * n = 1 := by
      have : (n : ℝ) ≠ 0 := by exact_mod_cast hn.ne'
      field_simp
    rw [this, Real.rpow_one]
  have hend : a * decayGamma a b n ^ n = b := by rw [hpow]; field_simp
  refine ⟨hend, fun k => ?_, fun k hk => ⟨?_, ?_⟩⟩
  · rw [pow_succ]
    have := mul_le_of_le_one_right (pow_nonneg hg0.le k) hg1
    nlinarith
  · calc b = a * decayGamma a b n ^ n := hend.symm
      _ ≤ a * decayGamma a b n ^ k := by
        have := pow_le_pow_of_le_one hg0.le hg1 hk
        nlinarith
  · have := pow_le_one₀ (n := k) hg0.le hg1
    nlinarith

/-- **C144** (case study). If the data sets are found, the model directory holds what the training makes of an
empty directory, whatever it held before, and the data sets are unchanged; if the case study or its training data
set is missing, `RuntimeError` is raised and nothing changes. -/
theorem C144_case {D M : Type} (required : Bool) (blank : M) (fit : D → Option D → M → Py Unit × M) :
    trainingMain required blank fit none = (.error .runtimeError, none) ∧
    (∀ c : CaseDir D M, (∀ a, searchDir isDatasetFile c.train ≠ .ok a) →
      trainingMain required blank fit (some c) = (.error .runtimeError, some c)) ∧
    (∀ (c : CaseDir D M) (a b : D), searchDir isDatasetFile c.train = .ok a →
      searchDir isDatasetFile c.valid = .ok b →
      trainingMain required blank fit (some c) =
        ((fit a (some b) blank).1, some ⟨c.train, c.valid, some (fit a (some b) blank).2⟩)) ∧
    ∀ (c : CaseDir D M) (a : D), searchDir isDatasetFile c.train = .ok a → c.valid = none →
      required = false →
      trainingMain required blank fit (some c) =
        ((fit a none blank).1, some ⟨c.train, none, some (fit a none blank).2⟩) := by
  have herr : ∀ (d : Option (KDict Text D)) (e : PyErr), searchDir isDatasetFile d = .error e →
      e = .runtimeError := by
    intro d e h
    rcases d with _ | d
    · simp only [searchDir, orRaise, bind, Except.bind, Except.error.injEq] at h; exact h.symm
    rcases hf : findFile [isDatasetFile] d.keys with _ | f
    · simp only [searchDir, orRaise, bind, Except.bind, hf, Except.error.injEq] at h; exact h.symm
    rcases hg : d.get? f with _ | x
    · simp only [searchDir, orRaise, bind, Except.bind, hf, hg, Except.error.injEq] at h; exact h.symm
    · simp [searchDir, orRaise, bind, Except.bind, hf, hg] at h
  refine ⟨rfl, fun c h => ?_, fun c a b h1 h2 => ?_, fun c a h1 h2 h3 => ?_⟩
  · rcases hs : searchDir isDatasetFile c.train with e | a
    · simp [trainingMain, hs, herr _ _ hs]
    · exact absurd hs (h a)
  · have hv : c.valid ≠ none := by
      rintro e
      rw [e] at h2
      simp [searchDir, orRaise, bind, Except.bind] at h2
    simp [trainingMain, h1, validationSet, hv, h2, Except.map]
  · simp [trainingMain, h1, validationSet, h2, h3]

/-- **C144 is violated for the earlier model of a case study without validation data.** The script empties the
model directory before it looks for the validation data set: if that is missing, it raises `RuntimeError` and the
earlier model is lost. -/
theorem C144_earlier_model_lost_violated {D M : Type} (blank : M) (fit : D → Option D → M → Py Unit × M)
    (c : CaseDir D M) (a : D) (h1 : searchDir isDatasetFile c.train = .ok a) (h2 : c.valid = none ∨ c.valid = some []) :
    trainingMain true blank fit (some c) = (.error .runtimeError, some { c with model := some blank }) := by
  have : searchDir isDatasetFile c.valid = .error .runtimeError := by
    rcases h2 with e | e <;> rw [e] <;> rfl
  simp [trainingMain, h1, validationSet, this, Except.map]

/-! ## Hypotheses that are met -/

/-- A path with one point: uniaxial strain 2, elastic strain 1/2, stress 3. -/
noncomputable def onePoint : PathPoint where
  strain := !![2, 0, 0; 0, 0, 0; 0, 0, 0]
  stress := !![3, 0, 0; 0, 1, 0; 0, 0, 1]
  elastic := !![1 / 2, 0, 0; 0, 0, 0; 0, 0, 0]
  accPlastic := 1
  voidFraction := 0
  temperature := 20
  composition := 0

/-- The symmetric components in the order of the data sets. -/
def symmetricPairs : List (Fin 3 × Fin 3) := [(0, 0), (1, 1), (2, 2), (0, 1), (1, 2), (0, 2)]

/-- A data set in memory with one sample. -/
noncomputable def onePointStore : FStore := fun _ =>
  ["strain_path", "stress_path", "e_strain_mf", "acc_p_strain", "vf_path", "temperature_hist",
    "composition_hist"].map fun l =>
      (l, ⟨quantityWidth symmetricPairs l, [onePoint].map (quantity symmetricPairs l)⟩)

/-- Every option meets the hypotheses with this data set. -/
example (name : String) :
    ReadyDataset symmetricPairs (fun _ => [onePoint]) name ⟨.inMemory, [0]⟩ onePointStore where
  kind := by decide
  nodup := by simp
  nonempty := by simp
  keys := by
    intro r _
    have : (onePointStore r).keys = ["strain_path", "stress_path", "e_strain_mf", "acc_p_strain", "vf_path",
      "temperature_hist", "composition_hist"] := rfl
    rw [this]; decide
  holds := by
    intro r _ l hl
    unfold neededFeatures at hl
    unfold HoldsPath onePointStore
    split_ifs at hl <;> simp only [List.mem_cons, List.not_mem_nil, or_false] at hl <;>
      (first
        | (rcases hl with h | h | h | h <;> subst h <;> rfl)
        | (rcases hl with h | h | h <;> subst h <;> rfl)
        | (rcases hl with h | h <;> subst h <;> rfl))
  determines := by
    intro r _ x hx
    simp only [List.mem_cons, List.not_mem_nil, or_false] at hx
    subst hx
    intro i j
    fin_cases i <;> fin_cases j <;> simp [symmetricPairs, onePoint]

/-- The plastic strain of the point is 3/2. -/
example : modelOutput symmetricPairs "strain_to_p_strain" onePoint = [3 / 2, 0, 0, 0, 0, 0] := by
  simp [modelOutput, compsOf, symmetricPairs, onePoint]
  norm_num

end Hooke
