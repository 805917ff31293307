import Verif.Lemmas.Hybrid
import Mathlib.Data.List.GetD
import Mathlib.Algebra.BigOperators.Group.List.Basic

/-!
# C80, C81: hybrid models
-/

namespace Hooke

open Spec

/-! ## C80: channels -/

theorem hybChannels_cases (l : List HybEntry) :
    (¬ l.Pairwise (fun a b => a.indices ≠ b.indices) ∧ hybChannels l = .error .runtimeError) ∨
    (∃ chs, hybChannels l = .ok chs ∧ IsChannels l chs) := by
  have hperm := sortEntries_perm l
  have hsort := sortEntries_sorted l
  have hdist : l.Pairwise (fun a b => a.indices ≠ b.indices) ↔
      (sortEntries l).Pairwise (fun a b => a.indices ≠ b.indices) :=
    (hperm.pairwise_iff fun h => Ne.symm h).symm
  rw [hdist]
  unfold hybChannels
  generalize hs : sortEntries l = sl at hperm hsort
  cases sl with
  | nil =>
    right
    have hl : l = [] := List.nil_perm.mp hperm
    subst hl
    refine ⟨[[]], rfl, ⟨by simp, by simp, by simp, by simp, by simp⟩⟩
  | cons e es =>
    have h0 : (e :: es).foldlM addToChannel ⟨[], []⟩ = es.foldlM addToChannel ⟨[], [e]⟩ := by
      simp [List.foldlM_cons, addToChannel, bind, Except.bind]
    rw [h0]
    have hinv : ChanInv ⟨[], [e]⟩ := ⟨by simp, by simp, by simp, by simp, by simp⟩
    rcases chanLoop (l := es) hinv (by simpa using hsort) with ⟨h1, h2⟩ | ⟨s', h1, h2, h3⟩
    · left
      exact ⟨by simpa using h1, by rw [h2]; rfl⟩
    · right
      refine ⟨s'.done ++ [s'.cur], by rw [h1]; rfl, ?_⟩
      have hfl : (s'.done ++ [s'.cur]).flatten = e :: es := by simpa using h3
      refine ⟨by rw [hfl]; exact hperm, fun _ ch hch => ?_, h2.same, fun ch hch => ?_, h2.incr⟩
      · rcases List.mem_append.mp hch with hch | hch
        · exact h2.doneNe ch hch
        · obtain rfl := List.mem_singleton.mp hch
          exact h2.ne
      · have hsub : ch.Sublist (s'.done ++ [s'.cur]).flatten := List.sublist_flatten_of_mem hch
        have hlex : ch.Pairwise LexLt := by
          refine List.Pairwise.sublist hsub ?_
          simpa using h2.lex
        refine hlex.imp_of_mem fun {a b} ha hb hab => ?_
        have := h2.same ch hch a ha b hb
        unfold LexLt at hab
        omega

/-- **C80** (channels). For every dictionary of hybridized models with distinct hybridization indices
the channels hold each model exactly once: models with the same first index form a channel, ordered by
the second index, and the channels are ordered by the first index. -/
theorem C80_channels (l : List HybEntry) (hl : l.Pairwise fun a b => a.indices ≠ b.indices) :
    ∃ chs, hybChannels l = .ok chs ∧ IsChannels l chs := by
  rcases hybChannels_cases l with ⟨h, -⟩ | h
  · exact absurd hl h
  · exact h

/-- **C80** (duplicates). Two models with the same indices are rejected. -/
theorem C80_duplicate (l : List HybEntry) (hl : ¬ l.Pairwise fun a b => a.indices ≠ b.indices) :
    hybChannels l = .error .runtimeError := by
  rcases hybChannels_cases l with ⟨-, h⟩ | ⟨chs, h1, h2⟩
  · exact h
  · exfalso
    refine hl ((h2.all.pairwise_iff fun h => Ne.symm h).mp ?_)
    rw [List.pairwise_flatten]
    refine ⟨fun ch hch => (h2.order ch hch).imp fun {a b} h e => ?_, h2.increasing.imp fun {c d} h a ha b hb e => ?_⟩
    · rw [e] at h; exact lt_irrefl _ h
    · have := h a ha b hb
      rw [e] at this; exact lt_irrefl _ this

theorem isChannels_lex {l : List HybEntry} {chs : List (List HybEntry)} (h : IsChannels l chs) :
    chs.flatten.Pairwise LexLt := by
  rw [List.pairwise_flatten]
  refine ⟨fun ch hch => (h.order ch hch).imp_of_mem fun {a b} ha hb hab => ?_,
    h.increasing.imp fun {c d} h a ha b hb => .inl (h a ha b hb)⟩
  exact .inr ⟨h.same ch hch a ha b hb, hab⟩

/-- Channels are determined by their concatenation. -/
theorem channels_eq_of_flatten {chs chs' : List (List HybEntry)}
    (hne : ∀ ch ∈ chs, ch ≠ []) (hne' : ∀ ch ∈ chs', ch ≠ [])
    (hs : ∀ ch ∈ chs, ∀ a ∈ ch, ∀ b ∈ ch, a.indices.1 = b.indices.1)
    (hs' : ∀ ch ∈ chs', ∀ a ∈ ch, ∀ b ∈ ch, a.indices.1 = b.indices.1)
    (hi : chs.Pairwise fun c d => ∀ a ∈ c, ∀ b ∈ d, a.indices.1 < b.indices.1)
    (hi' : chs'.Pairwise fun c d => ∀ a ∈ c, ∀ b ∈ d, a.indices.1 < b.indices.1)
    (hf : chs.flatten = chs'.flatten) : chs = chs' := by
  have first : ∀ (c : List HybEntry) (cs : List (List HybEntry)) (a : HybEntry),
      a ∈ c → (∀ ch ∈ c :: cs, ∀ a ∈ ch, ∀ b ∈ ch, a.indices.1 = b.indices.1) →
      ((c :: cs).Pairwise fun c d => ∀ a ∈ c, ∀ b ∈ d, a.indices.1 < b.indices.1) →
      c = (c :: cs).flatten.filter fun e => e.indices.1 = a.indices.1 := by
    intro c cs a ha h1 h2
    have e1 : c.filter (fun e => e.indices.1 = a.indices.1) = c := by
      rw [List.filter_eq_self]
      intro b hb
      simp [h1 c List.mem_cons_self b hb a ha]
    have e2 : cs.flatten.filter (fun e => e.indices.1 = a.indices.1) = [] := by
      rw [List.filter_eq_nil_iff]
      intro b hb
      obtain ⟨d, hd, hb⟩ := List.mem_flatten.mp hb
      have := (List.pairwise_cons.mp h2).1 d hd a ha b hb
      simp; omega
    rw [List.flatten_cons, List.filter_append, e1, e2, List.append_nil]
  induction chs generalizing chs' with
  | nil =>
    cases chs' with
    | nil => rfl
    | cons c' cs' =>
      have : c' = [] := by
        have := hf.symm
        simp at this
        exact this.1
      exact absurd this (hne' c' List.mem_cons_self)
  | cons c cs ih =>
    cases chs' with
    | nil =>
      have : c = [] := by
        simp at hf
        exact hf.1
      exact absurd this (hne c List.mem_cons_self)
    | cons c' cs' =>
      obtain ⟨a, as, rfl⟩ := List.exists_cons_of_ne_nil (hne c List.mem_cons_self)
      obtain ⟨a', as', rfl⟩ := List.exists_cons_of_ne_nil (hne' c' List.mem_cons_self)
      have ha : a = a' := by
        simp only [List.flatten_cons, List.cons_append, List.cons.injEq] at hf
        exact hf.1
      subst ha
      have e1 := first (a :: as) cs a List.mem_cons_self hs hi
      have e2 := first (a :: as') cs' a List.mem_cons_self hs' hi'
      rw [hf, ← e2] at e1
      rw [e1] at hf ⊢
      simp only [List.flatten_cons, List.append_cancel_left_eq] at hf
      rw [ih (fun ch h => hne ch (List.mem_cons_of_mem _ h))
        (fun ch h => hne' ch (List.mem_cons_of_mem _ h))
        (fun ch h => hs ch (List.mem_cons_of_mem _ h))
        (fun ch h => hs' ch (List.mem_cons_of_mem _ h)) (List.pairwise_cons.mp hi).2
        (List.pairwise_cons.mp hi').2 hf]

/-- **C80** (order). The channels do not depend on the order of the dictionary. -/
theorem C80_order (l l' : List HybEntry) (hp : l.Perm l') : hybChannels l = hybChannels l' := by
  by_cases hl : l.Pairwise fun a b => a.indices ≠ b.indices
  · have hl' : l'.Pairwise fun a b => a.indices ≠ b.indices :=
      (hp.pairwise_iff fun h => Ne.symm h).mp hl
    obtain ⟨chs, h1, h2⟩ := C80_channels l hl
    obtain ⟨chs', h1', h2'⟩ := C80_channels l' hl'
    rw [h1, h1']
    by_cases hne : l = []
    · subst hne
      obtain rfl := List.nil_perm.mp hp
      rw [h1] at h1'; exact h1'
    · have hne' : l' ≠ [] := by
        rintro rfl; exact hne (List.perm_nil.mp hp)
      congr 1
      refine channels_eq_of_flatten (h2.nonempty hne) (h2'.nonempty hne') h2.same h2'.same
        h2.increasing h2'.increasing ?_
      have hpf : chs.flatten.Perm chs'.flatten := h2.all.trans (hp.trans h2'.all.symm)
      refine hpf.eq_of_pairwise (le := LexLt) (fun a b _ _ h h' => ?_) (isChannels_lex h2) (isChannels_lex h2')
      unfold LexLt at h h'
      omega
  · rw [C80_duplicate l hl, C80_duplicate l' fun h => hl ((hp.pairwise_iff fun h => Ne.symm h).mpr h)]

/-- A model which returns its input. -/
def exampleEntry (i j : ℤ) : HybEntry :=
  ⟨[], (i, j), false, none, none, false, none, fun t => .ok (.tensor t)⟩

/-- Three models in two channels. -/
example : ∃ chs, hybChannels [exampleEntry 1 0, exampleEntry 0 5, exampleEntry 0 2] = .ok chs ∧
    IsChannels [exampleEntry 1 0, exampleEntry 0 5, exampleEntry 0 2] chs :=
  C80_channels _ (by simp [exampleEntry])

/-! ## C81: forward propagation -/

theorem sameSize_iff {s t : FeatTensor} : sameSize s t = true ↔ s.map List.length = t.map List.length := by
  simp [sameSize]

theorem scaled_subTransform {e : HybEntry} {asks : Option Bool}
    {pick : Option HybScaler × Option HybScaler → Option HybScaler}
    {f : HybScaler → FeatTensor → Py FeatTensor} {a b : FeatTensor}
    (h : Scaled asks e.hasTransform (e.scalers.bind pick) f a b) :
    (if isNormalized asks then subTransform e pick f a else .ok a) = .ok b := by
  rcases h with ⟨h1, h2, h3, sc, h4, h5⟩ | ⟨h1, rfl⟩
  · subst h1
    have h3' : sameSize a b = true := sameSize_iff.mpr h3
    obtain ⟨p, h6, h7⟩ := Option.bind_eq_some_iff.mp h4
    simp [isNormalized, subTransform, h2, h6, h7, h5, checkSize, h3', bind, Except.bind]
  · rcases asks with _ | _ | _ <;> simp_all [isNormalized]

theorem computes_model {e : HybEntry} {f : FeatTensor → FeatTensor} (h : Computes e f) :
    ∀ t, ∃ u o v, normalizeIn e t = .ok u ∧ e.call u = .ok o ∧ extractOut o = .ok v ∧
      denormalizeOut e v = .ok (f t) := by
  intro t
  obtain ⟨u, v, h1, h2, h3⟩ := h t
  rcases h2 with h2 | ⟨rest, h2⟩
  · exact ⟨u, _, v, scaled_subTransform h1, h2, rfl, scaled_subTransform h3⟩
  · exact ⟨u, _, v, scaled_subTransform h1, h2, rfl, scaled_subTransform h3⟩

theorem computes_checkScalers {e : HybEntry} {f : FeatTensor → FeatTensor} (h : Computes e f) :
    checkScalers e = .ok () := by
  obtain ⟨u, o, v, h1, -, -, h4⟩ := computes_model h []
  unfold checkScalers
  rcases hi : isNormalized e.inNorm with _ | _ <;> rcases ho : isNormalized e.outNorm with _ | _
  · simp
  all_goals
    simp only [normalizeIn, denormalizeOut, hi, ho, subTransform] at h1 h4
    rcases hs : e.scalers with _ | ⟨i, o⟩
    · cases ht : e.hasTransform <;> simp [hs, ht] at h1 h4
    · cases ht : e.hasTransform <;> cases i <;> cases o <;> simp [hs, ht] at h1 h4 ⊢

theorem runHyb_computes {e : HybEntry} {f : FeatTensor → FeatTensor} (h : Computes e f)
    (x t : FeatTensor) (hlen : t.length = x.length) :
    runHyb x t e = .ok (f (if e.residual then List.zipWith (· ++ ·) t x else t)) := by
  unfold runHyb withResidual catFeatures
  obtain ⟨u, o, v, h1, h2, h3, h4⟩ := computes_model h (if e.residual then List.zipWith (· ++ ·) t x else t)
  cases hr : e.residual
  · simp only [hr, Bool.false_eq_true, if_false] at h1 h4 ⊢
    simp [h1, h2, h3, h4, bind, Except.bind]
  · simp only [hr, if_true] at h1 h4 ⊢
    simp [hlen, h1, h2, h3, h4, bind, Except.bind]

theorem runChannel_compose {f : HybEntry → FeatTensor → FeatTensor} (x : FeatTensor)
    (ch : List HybEntry) (hc : ∀ e ∈ ch, Computes e (f e))
    (hlen : ∀ e ∈ ch, ∀ t, (f e t).length = t.length) (t : FeatTensor) (ht : t.length = x.length) :
    ch.foldlM (runHyb x) t = .ok (compose f x ch t) ∧ (compose f x ch t).length = x.length := by
  induction ch generalizing t with
  | nil => exact ⟨rfl, ht⟩
  | cons e es ih =>
    have h1 := runHyb_computes (hc e List.mem_cons_self) x t ht
    have h2 : (f e (if e.residual then List.zipWith (· ++ ·) t x else t)).length = x.length := by
      rw [hlen e List.mem_cons_self]
      split_ifs <;> simp [ht]
    have := ih (fun e' h' => hc e' (List.mem_cons_of_mem _ h'))
      (fun e' h' => hlen e' (List.mem_cons_of_mem _ h')) _ h2
    simpa [List.foldlM_cons, h1, bind, Except.bind, compose] using this

theorem mapM_ok_map {α β : Type} {g : α → Py β} {f : α → β} (l : List α) (h : ∀ a ∈ l, g a = .ok (f a)) :
    l.mapM g = .ok (l.map f) := by
  induction l with
  | nil => rfl
  | cons a as ih =>
    have := ih fun b hb => h b (List.mem_cons_of_mem _ hb)
    simp [List.mapM_cons, h a List.mem_cons_self, this, bind, Except.bind, pure, Except.pure]

/-- The outputs of the channels. -/
theorem forward_outs {f : HybEntry → FeatTensor → FeatTensor} {l : List HybEntry}
    (hl : l.Pairwise fun a b => a.indices ≠ b.indices) (hc : ∀ e ∈ l, Computes e (f e))
    (hlen : ∀ e ∈ l, ∀ t, (f e t).length = t.length) (ty : HybType) (hty : ty ≠ .unknown)
    (outNorm : Bool) :
    ∃ h, hybridInit l ty outNorm = .ok h ∧ (hybChannels l = .ok h.channels ∧ IsChannels l h.channels) ∧
      h.type = ty ∧ h.outNorm = outNorm ∧
      ∀ x, h.channels.mapM (runChannel x) = .ok (h.channels.map fun ch => compose f x ch x) := by
  obtain ⟨chs, h1, h2⟩ := C80_channels l hl
  have h3 : (sortEntries l).mapM checkScalers = .ok ((sortEntries l).map fun _ => ()) :=
    mapM_ok_map _ fun e he => computes_checkScalers (hc e ((sortEntries_perm l).mem_iff.mp he))
  refine ⟨⟨chs, ty, outNorm, none⟩, ?_, ⟨h1, h2⟩, rfl, rfl, fun x => ?_⟩
  · simp [hybridInit, h1, h3, raiseIf, hty, bind, Except.bind, pure, Except.pure]
  · refine mapM_ok_map _ fun ch hch => ?_
    have hm : ∀ e ∈ ch, e ∈ l := fun e he =>
      h2.all.mem_iff.mp (List.mem_flatten.mpr ⟨ch, hch, he⟩)
    exact (runChannel_compose x ch (fun e he => hc e (hm e he)) (fun e he => hlen e (hm e he)) x rfl).1

/-- **C81** (identity hybridization). If every hybridized model computes a function in physical units,
the hybrid model is built and returns the composition of the functions of the first channel: the models
with the least first index, in order of the second one. -/
theorem C81_identity (f : HybEntry → FeatTensor → FeatTensor) (l : List HybEntry)
    (hl : l.Pairwise fun a b => a.indices ≠ b.indices) (hc : ∀ e ∈ l, Computes e (f e))
    (hlen : ∀ e ∈ l, ∀ t, (f e t).length = t.length) :
    ∃ h ch rest, hybridInit l .identity false = .ok h ∧ IsChannels l (ch :: rest) ∧
      ∀ x, hybridForward h x = .ok (compose f x ch x) := by
  obtain ⟨h, h1, ⟨h0, h2⟩, h3, h4, h5⟩ := forward_outs hl hc hlen .identity (by simp) false
  have hne : h.channels ≠ [] := by
    intro he
    unfold hybChannels at h0
    rcases hfold : (sortEntries l).foldlM addToChannel ⟨[], []⟩ with e | s
    · rw [hfold] at h0; simp [Except.map] at h0
    · rw [hfold] at h0
      simp only [Except.map, Except.ok.injEq] at h0
      rw [he] at h0; simp at h0
  obtain ⟨ch, rest, hcr⟩ := List.exists_cons_of_ne_nil hne
  refine ⟨h, ch, rest, h1, hcr ▸ h2, fun x => ?_⟩
  have h6 := h5 x
  rw [hcr] at h6
  simp only [hybridForward, hcr, h6, h3]
  simp [hybridize, orRaise, hybridNormalize, h4, bind, Except.bind]

theorem addFeatures_val {s t : FeatTensor} (h : sameSize s t = true) :
    ∃ u, addFeatures s t = .ok u ∧ sameSize s u = true ∧
      ∀ i j, (u.getD i []).getD j 0 = (s.getD i []).getD j 0 + (t.getD i []).getD j 0 := by
  refine ⟨List.zipWith (List.zipWith (· + ·)) s t, by simp [addFeatures, h], ?_⟩
  rw [sameSize_iff] at h
  constructor
  · rw [sameSize_iff]
    induction s generalizing t with
    | nil => cases t <;> simp_all
    | cons a as ih =>
      cases t with
      | nil => simp at h
      | cons b bs =>
        simp only [List.map_cons, List.cons.injEq] at h
        simp only [List.zipWith_cons_cons, List.map_cons, List.length_zipWith, List.cons.injEq]
        exact ⟨by omega, ih h.2⟩
  · intro i j
    have hlen : s.length = t.length := by simpa using congrArg List.length h
    by_cases hi : i < s.length
    · have hi' : i < t.length := hlen ▸ hi
      have hrow : (s[i]).length = (t[i]).length := by
        have := congrArg (fun l => l[i]?) h
        simpa [hi, hi'] using this
      have e0 : (List.zipWith (List.zipWith (· + ·)) s t).getD i [] = List.zipWith (· + ·) s[i] t[i] := by
        rw [List.getD_eq_getElem _ _ (by simp [hi, hi']), List.getElem_zipWith]
      have e1 : s.getD i [] = s[i] := List.getD_eq_getElem _ _ hi
      have e2 : t.getD i [] = t[i] := List.getD_eq_getElem _ _ hi'
      rw [e0, e1, e2]
      by_cases hj : j < (s[i]).length
      · have hj' : j < (t[i]).length := hrow ▸ hj
        rw [List.getD_eq_getElem _ _ (by simp only [List.length_zipWith]; omega),
          List.getD_eq_getElem _ _ hj,
          List.getD_eq_getElem _ _ hj', List.getElem_zipWith]
      · have hj' : ¬ j < (t[i]).length := hrow ▸ hj
        rw [List.getD_eq_default _ _ (by simp; omega), List.getD_eq_default _ _ (by omega),
          List.getD_eq_default _ _ (by omega), add_zero]
    · rw [List.getD_eq_default s _ (by omega), List.getD_eq_default t _ (by omega),
        List.getD_eq_default (List.zipWith _ _ _) _ (by simp; omega)]
      simp

theorem additive_val (ts : List FeatTensor) (t : FeatTensor) (h : ∀ u ∈ ts, sameSize t u = true) :
    ∃ u, ts.foldlM addFeatures t = .ok u ∧ sameSize t u = true ∧
      ∀ i j, (u.getD i []).getD j 0 = ((t :: ts).map fun c => (c.getD i []).getD j 0).sum := by
  induction ts generalizing t with
  | nil => exact ⟨t, rfl, by simp [sameSize], by simp⟩
  | cons b bs ih =>
    obtain ⟨u, h1, h2, h3⟩ := addFeatures_val (h b List.mem_cons_self)
    have h2' := sameSize_iff.mp h2
    obtain ⟨w, g1, g2, g3⟩ := ih u fun v hv => by
      rw [sameSize_iff, ← h2']
      exact sameSize_iff.mp (h v (List.mem_cons_of_mem _ hv))
    refine ⟨w, by simp [List.foldlM_cons, h1, bind, Except.bind, g1], ?_, fun i j => ?_⟩
    · rw [sameSize_iff, h2']; exact sameSize_iff.mp g2
    · rw [g3]
      simp only [List.map_cons, List.sum_cons, h3, add_assoc]

/-- **C81** (additive hybridization). If every hybridized model computes a function in physical units and
the channels have outputs of the same size, each output feature is the sum over the channels. -/
theorem C81_additive (f : HybEntry → FeatTensor → FeatTensor) (l : List HybEntry) (hne : l ≠ [])
    (hl : l.Pairwise fun a b => a.indices ≠ b.indices) (hc : ∀ e ∈ l, Computes e (f e))
    (hlen : ∀ e ∈ l, ∀ t, (f e t).length = t.length) :
    ∃ h chs, hybridInit l .additive false = .ok h ∧ IsChannels l chs ∧
      ∀ x, (∀ c ∈ chs, ∀ d ∈ chs, SameFeatShape (compose f x c x) (compose f x d x)) →
        ∃ t, hybridForward h x = .ok t ∧ (∀ c ∈ chs, SameFeatShape (compose f x c x) t) ∧
          ∀ i j, (t.getD i []).getD j 0
            = (chs.map fun ch => ((compose f x ch x).getD i []).getD j 0).sum := by
  obtain ⟨h, h1, ⟨h0, h2⟩, h3, h4, h5⟩ := forward_outs hl hc hlen .additive (by simp) false
  refine ⟨h, h.channels, h1, h2, fun x hs => ?_⟩
  obtain ⟨ch, rest, hcr⟩ : ∃ ch rest, h.channels = ch :: rest := by
    refine List.exists_cons_of_ne_nil fun he => hne ?_
    have := h2.all
    rw [he] at this
    exact List.nil_perm.mp this
  obtain ⟨u, g1, g2, g3⟩ := additive_val (rest.map fun ch => compose f x ch x) (compose f x ch x) (by
    intro u hu
    obtain ⟨d, hd, rfl⟩ := List.mem_map.mp hu
    exact sameSize_iff.mpr (hs ch (by simp [hcr]) d (by simp [hcr, hd])))
  refine ⟨u, ?_, fun c hcm => ?_, fun i j => ?_⟩
  · have h6 := h5 x
    rw [hcr] at h6
    simp only [hybridForward, hcr, h6, h3]
    simp [hybridize, g1, hybridNormalize, h4, bind, Except.bind]
  · have e1 := hs c hcm ch (by simp [hcr])
    rw [SameFeatShape, e1]; exact sameSize_iff.mp g2
  · rw [g3, hcr]
    simp [Function.comp_def]

/-- **C81** (normalized output). With a data scaler that can be inverted, the output of a hybrid model
with normalized output is the normalized output of the same model without normalization, and prediction
gives back the latter. -/
theorem C81_normalized (h : HybridModel) (s : HybScaler) (x t u : FeatTensor)
    (hn : h.outNorm = true) (hs : h.scalerOut = some s)
    (hf : hybridForward { h with outNorm := false } x = .ok t) (ht : s.transform t = .ok u)
    (hi : s.inverse u = .ok t) (hsz : SameFeatShape t u) :
    hybridForward h x = .ok u ∧ hybridPredict h none x = .ok t := by
  have hsize : sameSize t u = true := sameSize_iff.mpr hsz
  have h1 : hybridForward h x = .ok u := by
    unfold hybridForward at hf ⊢
    obtain ⟨outs, g1, hf⟩ := bind_ok hf
    obtain ⟨t', g2, hf⟩ := bind_ok hf
    simp only [hybridNormalize, Bool.false_eq_true, if_false, Except.ok.injEq] at hf
    subst hf
    simp only [g1, g2, bind, Except.bind, hybridNormalize, hn, hs, if_true, ht, checkSize, hsize]
  refine ⟨h1, ?_⟩
  have : sameSize u t = true := by rw [sameSize_iff, hsz]
  simp [hybridPredict, h1, hn, hs, hi, checkSize, this, bind, Except.bind]

/-- A scaler which doubles its input. -/
noncomputable def exampleScaler : HybScaler :=
  ⟨fun t => .ok (t.map (·.map (2 * ·))), fun t => .ok (t.map (·.map (· / 2)))⟩

/-- A model with normalized input which computes the tripled features in physical units. -/
noncomputable def exampleNormalized : HybEntry :=
  ⟨[], (0, 0), false, some true, some false, true, some (some exampleScaler, none),
    fun t => .ok (.tuple [t.map (·.map (3 * ·))])⟩

theorem exampleNormalized_computes :
    Computes exampleNormalized (fun t => t.map (·.map fun r => 3 * (2 * r))) := by
  intro t
  refine ⟨t.map (·.map (2 * ·)), t.map (·.map fun r => 3 * (2 * r)), .inl ⟨rfl, rfl, ?_, _, rfl, rfl⟩,
    .inr ⟨[], ?_⟩, .inr ⟨by simp [exampleNormalized], rfl⟩⟩
  · rw [SameFeatShape, List.map_map]; simp [Function.comp_def]
  · simp [exampleNormalized, List.map_map, Function.comp_def]

example : ∃ h ch rest, hybridInit [exampleNormalized] .identity false = .ok h ∧
    IsChannels [exampleNormalized] (ch :: rest) ∧
    ∀ x, hybridForward h x = .ok (compose (fun _ t => t.map (·.map fun r => 3 * (2 * r))) x ch x) :=
  C81_identity (fun _ t => t.map (·.map fun r => 3 * (2 * r))) [exampleNormalized] (by simp)
    (by simpa using exampleNormalized_computes) (by simp)

/-- **C81** is violated for models without a method `data_scaler_transform`, i.e. all models but the
polynomial regressor, for instance the recurrent networks: if such a model expects normalized input
features, the hybrid model is built but every evaluation raises an `AttributeError`. -/
theorem C81_no_method_violated (e : HybEntry) (a b : HybScaler) (hm : e.hasTransform = false)
    (hin : e.inNorm = some true) (hres : e.residual = false) (hs : e.scalers = some (some a, some b)) :
    ∃ h, hybridInit [e] .identity false = .ok h ∧
      ∀ x, hybridForward h x = .error .attributeError := by
  have h1 : hybChannels [e] = .ok [[e]] := by
    simp [hybChannels, sortEntries, List.foldlM_cons, addToChannel, bind, Except.bind, pure,
      Except.pure, Except.map]
  have h2 : (sortEntries [e]).mapM checkScalers = .ok [()] := by
    have : sortEntries [e] = [e] := by simp [sortEntries]
    rw [this]
    have : checkScalers e = .ok () := by simp [checkScalers, hs]
    simp [List.mapM_cons, this, bind, Except.bind, pure, Except.pure]
  refine ⟨⟨[[e]], .identity, false, none⟩, ?_, fun x => ?_⟩
  · simp [hybridInit, h1, h2, raiseIf, bind, Except.bind, pure, Except.pure]
  · have : runChannel x [e] = .error .attributeError := by
      simp [runChannel, List.foldlM_cons, runHyb, withResidual, hres, normalizeIn, hin, isNormalized,
        subTransform, hm, bind, Except.bind]
    simp [hybridForward, List.mapM_cons, this, bind, Except.bind]

/-- **C81** is violated for hybrid models with normalized input features: the features are normalized
by the prediction (and by the training) but handed to the hybridized models as they are, which expect
physical units, so the prediction is the function of the normalized features. -/
theorem C81_in_normalized_violated (e : HybEntry) (f : FeatTensor → FeatTensor) (hc : Computes e f)
    (hlen : ∀ t, (f t).length = t.length) (hres : e.residual = false) (s : HybScaler)
    (x y : FeatTensor) (hy : s.transform x = .ok y) (hsz : SameFeatShape x y) :
    ∃ h, hybridInit [e] .identity false = .ok h ∧ hybridPredict h none x = .ok (f x) ∧
      hybridPredict h (some s) x = .ok (f y) := by
  have hsize : sameSize x y = true := sameSize_iff.mpr hsz
  obtain ⟨h, h1, ⟨h0, h2⟩, h3, h4, h5⟩ := forward_outs (f := fun _ => f) (l := [e]) (by simp)
    (by simpa using hc) (by simpa using hlen) .identity (by simp) false
  have hch : h.channels = [[e]] := by
    have g1 : hybChannels [e] = .ok [[e]] := by
      simp [hybChannels, sortEntries, List.foldlM_cons, addToChannel, bind, Except.bind, pure,
        Except.pure, Except.map]
    rw [g1] at h0
    exact (Except.ok.inj h0).symm
  have key : ∀ z, hybridForward h z = .ok (f z) := by
    intro z
    have := h5 z
    rw [hch] at this
    simp only [hybridForward, hch, this, h3]
    simp [hybridize, orRaise, hybridNormalize, h4, bind, Except.bind, compose, hres]
  refine ⟨h, h1, ?_, ?_⟩
  · simp [hybridPredict, key, h4, bind, Except.bind]
  · simp [hybridPredict, key, h4, hy, checkSize, hsize, bind, Except.bind]

end Hooke
