import Verif.Props.CompositeParameters

/-!
# C118: cases and violations
-/

namespace Hooke

open Spec

/-- A model with one physical parameter, set up by `_set_model_parameters`. -/
theorem trained_one (name : String) (x lo hi : ℝ) (h : lo ≤ hi) :
    setModelParameters false [⟨name, x, lo, hi⟩]
      = .ok ⟨false, [(name, x)], [(name, (lo, hi))], []⟩ ∧
    Trained ⟨false, [(name, x)], [(name, (lo, hi))], []⟩ := by
  have hset : setModelParameters false [⟨name, x, lo, hi⟩]
      = .ok ⟨false, [(name, x)], [(name, (lo, hi))], []⟩ := by
    refine (setModelParameters_ok_iff false [⟨name, x, lo, hi⟩] (by simp) _).2 ⟨?_, rfl⟩
    intro p hp
    rw [List.mem_singleton] at hp
    subst hp
    exact ⟨h, by simp⟩
  exact ⟨hset, false, [⟨name, x, lo, hi⟩], by simp, .init _ hset⟩

/-- **C118 is violated for labels that coincide.** In a hybrid model with the hybridized models `m`
and `m_yield_c`, the parameter `yield_c_s0` of the first and the parameter `s0` of the second have the
same label.  Only the second value is collected, whatever the values, so the first parameter is
missing from the parameter history and from the best parameters. -/
theorem C118_collision_violated (x y lo hi : ℝ) (h : lo ≤ hi) :
    ∃ s1 s2, setModelParameters false [⟨"yield_c_s0", x, lo, hi⟩] = .ok s1 ∧
      setModelParameters false [⟨"s0", y, lo, hi⟩] = .ok s2 ∧
      finderDetached [("1", .hybrid ⟨["m", "m_yield_c"], [.explicit s1, .explicit s2]⟩)]
        = .ok [("model_1_m_yield_c_s0", y)] ∧
      hybridDetached ⟨["m", "m_yield_c"], [.explicit s1, .explicit s2]⟩ false
        = .ok [("m_yield_c_s0", y)] := by
  refine ⟨_, _, (trained_one "yield_c_s0" x lo hi h).1, (trained_one "s0" y lo hi h).1, ?_, ?_⟩
  · have e1 : "model_" ++ "1" ++ "_" ++ "m" ++ "_" ++ "yield_c_s0" = "model_1_m_yield_c_s0" := by
      decide +kernel
    have e2 : "model_" ++ "1" ++ "_" ++ "m_yield_c" ++ "_" ++ "s0" = "model_1_m_yield_c_s0" := by
      decide +kernel
    simp only [finderDetached, matDetached, List.foldlM_cons, List.foldlM_nil, List.zip_cons_cons,
      List.zip_nil_right, subDetached, getDetached, if_true, bind, Except.bind, pure, Except.pure,
      putLabelled, List.foldl_cons, List.foldl_nil, KDict.put, e1, e2]
  · have e1 : "m" ++ "_" ++ "yield_c_s0" = "m_yield_c_s0" := by decide +kernel
    have e2 : "m_yield_c" ++ "_" ++ "s0" = "m_yield_c_s0" := by decide +kernel
    have hnn : (["m", "m_yield_c"] : List String).Nodup := by decide
    have i1 : hybridizedModel ⟨["m", "m_yield_c"],
        [.explicit ⟨false, [("yield_c_s0", x)], [("yield_c_s0", (lo, hi))], []⟩,
         .explicit ⟨false, [("s0", y)], [("s0", (lo, hi))], []⟩]⟩ "m"
        = .ok (.explicit ⟨false, [("yield_c_s0", x)], [("yield_c_s0", (lo, hi))], []⟩) :=
      hybridizedModel_zip _ hnn rfl _ _ (by simp)
    have i2 : hybridizedModel ⟨["m", "m_yield_c"],
        [.explicit ⟨false, [("yield_c_s0", x)], [("yield_c_s0", (lo, hi))], []⟩,
         .explicit ⟨false, [("s0", y)], [("s0", (lo, hi))], []⟩]⟩ "m_yield_c"
        = .ok (.explicit ⟨false, [("s0", y)], [("s0", (lo, hi))], []⟩) :=
      hybridizedModel_zip _ hnn rfl _ _ (by simp)
    simp only [hybridDetached, List.foldlM_cons, List.foldlM_nil, i1, i2, subDetached, getDetached,
      if_true, bind, Except.bind, pure, Except.pure, putLabelled, List.foldl_cons, List.foldl_nil,
      KDict.put, e1, e2]

/-- **C118 is violated for the constraints of hybrid models.** The training of a hybrid model enforces
the bounds of the parameters after each step but not their constraints: with the convexity test
passing exactly in the unit disc, a hybridized Lou-Zhang-Yoon model keeps the inadmissible parameters
`(2, 0)`, which the material model finder would move. -/
theorem C118_hybrid_constraints_violated (fuel : ℕ) (hf : 24 ≤ fuel) :
    ∃ (convex : ℝ → ℝ → Bool) (s s' : LearnState), convex 2 0 = false ∧
      setModelParameters false [⟨"yield_c_s0", 2, 0, 3⟩, ⟨"yield_d_s0", 0, -1, 1⟩] = .ok s ∧
      hybridTrainClamp ⟨["lou"], [.explicit s]⟩ = .ok ⟨["lou"], [.explicit s]⟩ ∧
      getDetached s false = .ok [("yield_c_s0", 2), ("yield_d_s0", 0)] ∧
      enforceConstraints convex fuel 0 0 s = some (.ok s') ∧ s' ≠ s := by
  classical
  let convex : ℝ → ℝ → Bool := fun c d => decide (c ^ 2 + d ^ 2 ≤ 1)
  have hnc : convex 2 0 = false := by simp [convex]
  have hn : (([⟨"yield_c_s0", 2, 0, 3⟩, ⟨"yield_d_s0", 0, -1, 1⟩] : List Learnable).map
    Learnable.name).Nodup := by decide
  have hset := (setModelParameters_ok_iff false [⟨"yield_c_s0", 2, 0, 3⟩, ⟨"yield_d_s0", 0, -1, 1⟩] hn
    (initState false _)).2
    ⟨by intro p hp; simp at hp; rcases hp with rfl | rfl <;> norm_num, rfl⟩
  have hr : LearnReach false [⟨"yield_c_s0", 2, 0, 3⟩, ⟨"yield_d_s0", 0, -1, 1⟩] _ := .init _ hset
  have hdet : getDetached (initState false [⟨"yield_c_s0", 2, 0, 3⟩, ⟨"yield_d_s0", 0, -1, 1⟩]) false
      = .ok [("yield_c_s0", 2), ("yield_d_s0", 0)] := rfl
  obtain ⟨s', phys, phys', c, d, c', d', is, h1, -, h3, h4, h5, h6, h7, -, h9, -⟩ :=
    C73_constraints convex false _ hn ⟨"yield_c_s0", 2, 0, 3⟩ ⟨"yield_d_s0", 0, -1, 1⟩ (by simp)
      (by simp) rfl rfl fuel hf 0 0 _ hr
  rw [hdet, Except.ok.injEq] at h3
  subst h3
  have hc : (2 : ℝ) = c := by simpa [KDict.get?] using h5
  have hd : (0 : ℝ) = d := by simpa [KDict.get?] using h6
  subst hc hd
  refine ⟨convex, _, s', hnc, hset, ?_, hdet, h1, ?_⟩
  · have hb : enforceBounds (initState false [⟨"yield_c_s0", 2, 0, 3⟩, ⟨"yield_d_s0", 0, -1, 1⟩])
        = .ok (initState false [⟨"yield_c_s0", 2, 0, 3⟩, ⟨"yield_d_s0", 0, -1, 1⟩]) := by
      have c1 : clampR 0 3 2 = 2 := by norm_num [clampR]
      have c2 : clampR (-1) 1 0 = 0 := by norm_num [clampR]
      simp only [enforceBounds, initState, List.map_cons, List.map_nil, storedForm,
        Bool.false_eq_true, if_false, List.mapM_cons, List.mapM_nil, activeBounds, KDict.get?,
        if_true, orRaise, bind, Except.bind, pure, Except.pure, c1]
      rw [if_neg (by decide)]
      simp only [c2]
    simp only [hybridTrainClamp, List.mapM_cons, List.mapM_nil, subEnforce, hb, bind, Except.bind,
      pure, Except.pure]
  · rintro rfl
    rw [hdet, Except.ok.injEq] at h4
    subst h4
    have hc' : (2 : ℝ) = c' := by simpa [KDict.get?] using h7
    obtain ⟨r, hr0, hr5, hmap, hlo, -⟩ := (C73_mapping convex 2 0 fuel hf).2 hnc (by norm_num)
    rw [h9] at hmap
    simp only [Option.some.injEq, Except.ok.injEq, Prod.mk.injEq] at hmap
    have hsq : √((2 : ℝ) ^ 2 + 0 ^ 2) = 2 := by
      rw [show ((2 : ℝ) ^ 2 + 0 ^ 2) = 2 ^ 2 by norm_num]
      exact Real.sqrt_sq (by norm_num)
    rw [hsq] at hmap hlo
    have hr2 : r = 2 := by have := hmap.2.1; rw [← hc'] at this; linarith
    subst hr2
    rcases hlo with h | h
    · norm_num at h
    · simp [convex] at h
      norm_num at h

/-- The hypotheses of C118 for a specimen with a hybrid model of a network and an elastic model and a
second model with a hardening parameter outside its bounds. -/
example : ∃ ms : MatModels, (∀ p ∈ explicitModels ms, Trained p.2) ∧ Named ms ∧
    (labelsOf (explicitModels ms)).Nodup ∧ labelsOf (explicitModels ms) = ["model_1_elastic_E", "model_2_s0"] ∧
    (∃ ms', finderEnforce ms = .ok ms' ∧ finderDetached ms' = .ok
      [("model_1_elastic_E", 100), ("model_2_s0", 5)]) := by
  have hE := (trained_one "E" 100 50 200 (by norm_num)).2
  have hS : Trained ⟨false, [("s0", 9)], [("s0", (1, 5))], []⟩ :=
    (trained_one "s0" 9 1 5 (by norm_num)).2
  let ms : MatModels :=
    [("1", .hybrid ⟨["net", "elastic"],
      [.opaque, .explicit ⟨false, [("E", 100)], [("E", (50, 200))], []⟩]⟩),
     ("2", .single (.explicit ⟨false, [("s0", 9)], [("s0", (1, 5))], []⟩))]
  have hex : explicitModels ms
      = [("model_" ++ "1" ++ "_" ++ "elastic" ++ "_", ⟨false, [("E", 100)], [("E", (50, 200))], []⟩),
         ("model_" ++ "2" ++ "_", ⟨false, [("s0", 9)], [("s0", (1, 5))], []⟩)] := rfl
  have e1 : "model_" ++ "1" ++ "_" ++ "elastic" ++ "_" ++ "E" = "model_1_elastic_E" := by decide +kernel
  have e2 : "model_" ++ "2" ++ "_" ++ "s0" = "model_2_s0" := by decide +kernel
  have ht : ∀ p ∈ explicitModels ms, Trained p.2 := by
    rw [hex]
    intro p hp
    rw [List.mem_cons, List.mem_singleton] at hp
    rcases hp with rfl | rfl
    · exact hE
    · exact hS
  have hl : labelsOf (explicitModels ms) = ["model_1_elastic_E", "model_2_s0"] := by
    rw [hex]
    simp only [labelsOf, List.flatMap_cons, List.flatMap_nil, KDict.keys, List.map_cons, List.map_nil,
      e1, e2, List.append_nil, List.cons_append, List.nil_append]
  refine ⟨ms, ht, ?_, by rw [hl]; decide, hl,
    [("1", .hybrid ⟨["net", "elastic"],
      [.opaque, .explicit ⟨false, [("E", 100)], [("E", (50, 200))], []⟩]⟩),
     ("2", .single (.explicit ⟨false, [("s0", 5)], [("s0", (1, 5))], []⟩))], ?_, ?_⟩
  · intro k hy hm
    simp only [ms, List.mem_cons, Prod.mk.injEq, MatModel.hybrid.injEq, reduceCtorEq, and_false,
      List.not_mem_nil, or_false] at hm
    obtain ⟨-, rfl⟩ := hm
    rfl
  · have c1 : clampR 50 200 100 = 100 := by norm_num [clampR]
    have c2 : clampR 1 5 9 = 5 := by norm_num [clampR]
    simp only [ms, finderEnforce, matEnforce, subEnforce, enforceBounds, activeBounds, List.mapM_cons,
      List.mapM_nil, bind, Except.bind, pure, Except.pure, Bool.false_eq_true, if_false, KDict.get?,
      if_true, orRaise, c1, c2]
  · simp only [finderDetached, matDetached, List.foldlM_cons, List.foldlM_nil, List.zip_cons_cons,
      List.zip_nil_right, subDetached, getDetached, if_true, bind, Except.bind, pure, Except.pure,
      putLabelled, List.foldl_cons, List.foldl_nil, KDict.put, e1, e2]
    rw [if_neg (by decide)]

/-- The hypotheses of `C118_distinct` for the same keys. -/
example : (["1", "2"] : List String).Nodup ∧ ∀ k ∈ (["1", "2"] : List String), '_' ∉ k.toList := by
  constructor
  · decide
  · decide

end Hooke
