import Verif.Props.Bounds

set_option autoImplicit false
set_option linter.unusedSectionVars false

/-!
C64: stop criteria of the training loop; C65: treatment of features while training diverges; C66: what one update does.
-/
namespace CB

open Spec

section
variable {K : Type*} [Field K] [LinearOrder K] [IsStrictOrderedRing K]

/-! ### C64: stop criteria -/

theorem visitFactors_old (p : Params K) (o : Oracle K) (cfg : FeatureCfg) (dv : ℕ) (isd : Bool) (il : Flt K)
    (u : ℕ → K) (fs : FState K) (pred : Pred K) :
    (visitFactors p o cfg dv isd il u fs pred).1.factorsOld = fs.factorsOld := by
  unfold visitFactors
  simp only
  split
  · split
    · split
      · split
        · split <;> rfl
        · rfl
      · rfl
    · rfl
  · rfl

theorem featureIteration_old (p : Params K) (o : Oracle K) (it i : ℕ) (cfg : FeatureCfg) (dv : ℕ) (isd : Bool)
    (il : Flt K) (fs : FState K) (pred : Pred K) :
    (featureIteration p o it i cfg dv isd il fs pred).1.factorsOld = fs.factors := by
  unfold featureIteration
  simp only
  rw [visitFactors_old]
  rfl

theorem trace_start_updates (p : Params K) (o : Oracle K) (cfgs : List FeatureCfg) (prior : ℕ → K)
    (past : List (TState K)) (s : TState K) (h : Trace p o cfgs (startState o cfgs prior) past s) (h0 : s.iteration = 0)
    (fs : FState K) (hfs : fs ∈ s.feats) : fs.factors = fun _ => 0 := by
  cases h with
  | start =>
    unfold startState at hfs
    simp only [List.mem_map] at hfs
    obtain ⟨_, _, rfl⟩ := hfs
    rfl
  | step ht hc hit =>
    obtain ⟨_, _, _, _, _, _, _, _, hi, _⟩ := iterate_ok p o cfgs _ _ hit
    omega

/-- The `delta` of an iteration compares the updates of this iteration with those of the previous one. -/
theorem iterate_delta (p : Params K) (o : Oracle K) (cfgs : List FeatureCfg) (prior : ℕ → K)
    (past : List (TState K)) (s s' : TState K) (h : Trace p o cfgs (startState o cfgs prior) past s)
    (hit : iterate p o cfgs s = .ok s') : s'.delta = meanChange cfgs (updates s) (updates s') := by
  obtain ⟨feats, pred, r, hfp, _, hr, hf, _, _, _, _, _, hdel, _⟩ := iterate_ok p o cfgs _ _ hit
  have hw := trace_WF p o cfgs prior past s h
  have hlen : feats.length = cfgs.length := by
    have := featurePass_length p o s.iteration s.diverging s.isDiverging s.initialLoss cfgs 0 s.feats s.pred hw.1
    rw [hfp] at this; exact this
  have hup : (updates s') = feats.map (fun fs => fs.factors) := by
    unfold updates
    rw [hf]
    split at hr
    · obtain ⟨hl, hget⟩ := removePreds_get cfgs feats pred r hr hlen.symm
      apply List.ext_getElem?
      intro j
      rw [List.getElem?_map, List.getElem?_map]
      cases hj : feats[j]? with
      | none =>
        rw [List.getElem?_eq_none_iff] at hj
        rw [List.getElem?_eq_none (by omega)]
      | some fs =>
        obtain ⟨agg, _, hb⟩ := hget j fs hj
        rw [hb]; rfl
    · injection hr with hr
      rw [← hr]
  rw [hdel, hup]
  unfold factorsDeviation meanChange
  congr 2
  apply List.ext_getElem?
  intro j
  rw [List.getElem?_map]
  by_cases hj : j < cfgs.length
  · have h1 : cfgs[j]? = some cfgs[j] := List.getElem?_eq_getElem hj
    have h2 : s.feats[j]? = some (s.feats[j]'(by rw [← hw.1]; exact hj)) := List.getElem?_eq_getElem _
    obtain ⟨fs', fs0, pred', g1, g2, g3⟩ := featurePass_get p o s.iteration s.diverging s.isDiverging s.initialLoss cfgs 0
      s.feats s.pred j _ _ h1 h2
    rw [hfp] at g1
    simp only at g1
    have hz0 : fs0.factors = (s.feats[j]'(by rw [← hw.1]; exact hj)).factors := by
      rw [g2]
      split
      · rename_i h0
        rw [trace_start_updates p o cfgs prior past s h h0 _ (List.getElem_mem _)]
      · rfl
    have hold : fs'.factorsOld = (s.feats[j]'(by rw [← hw.1]; exact hj)).factors := by
      rcases g3 with ⟨_, g3⟩ | ⟨_, g3⟩
      · rw [g3]; exact hz0
      · rw [g3, featureIteration_old]; exact hz0
    have lhs : (List.zipWith factorDeviation cfgs feats)[j]? = some (factorDeviation cfgs[j] fs') := by
      rw [List.getElem?_zipWith, h1, g1]
    have rhs : (cfgs.zip ((updates s).zip (feats.map (fun fs => fs.factors))))[j]? =
        some (cfgs[j], (s.feats[j]'(by rw [← hw.1]; exact hj)).factors, fs'.factors) := by
      unfold updates
      rw [List.getElem?_zip_eq_some]
      refine ⟨h1, ?_⟩
      rw [List.getElem?_zip_eq_some, List.getElem?_map, List.getElem?_map, h2, g1]
      exact ⟨rfl, rfl⟩
    rw [lhs, rhs, Option.map_some]
    unfold factorDeviation meanAbsDiff
    rw [hold]
  · rw [List.getElem?_eq_none (by simp; omega), List.getElem?_eq_none (by simp; omega)]
    rfl

/-- **C64**, when training stops: after an iteration with finite losses, training ends if and only if the loss is not more than
twice the initial loss, at least one of the three criteria holds (the maximal number of iterations is reached, the mean absolute
difference between this and the previous update of the factors is at most `minimal_factor_change`, the relative change of the
loss is at most `minimal_loss_change` in absolute value), and the hierarchical phase, if there is one, is over. -/
theorem C64_stop_iff (p : Params K) (o : Oracle K) (cfgs : List FeatureCfg) (prior : ℕ → K)
    (past : List (TState K)) (s s' : TState K) (h : Trace p o cfgs (startState o cfgs prior) past s)
    (hc : continues p s = true) (hit : iterate p o cfgs s = .ok s') (a c : K) (ha : s.loss = .fin a) (hc' : s'.loss = .fin c) :
    continues p s' = false ↔
      ¬ LossDoubled s'.initialLoss s'.loss ∧
      (p.maximalIterations ≤ past.length + 1 ∨ meanChange cfgs (updates s) (updates s') ≤ p.minimalFactorChange ∨
        |relativeLossChange a c| ≤ p.minimalLossChange) ∧
      (p.hierarchical ≠ none → p.hierarchicalIterations < past.length + 1) := by
  have hdelta := iterate_delta p o cfgs prior past s s' h hit
  have hdiv := (C21_counter p o cfgs prior _ s' (.step h hc hit)).2.2 (by simp)
  have hiter := (trace_iterations p o cfgs prior _ s' (.step h hc hit)).1
  obtain ⟨feats, pred, r, _, _, _, _, _, _, _, hls, _, _, hlc⟩ := iterate_ok p o cfgs _ _ hit
  have hl : s'.lossChange = .fin (relativeLossChange a c) := by
    rw [hlc, ← hls, ha, hc']
    unfold lossChange relativeLossChange Flt.neZero Flt.sub Flt.div
    by_cases h0 : a = 0 <;> simp [h0]
  rw [List.length_cons] at hiter
  unfold continues checkStop
  rw [Bool.or_eq_false_iff, Bool.not_eq_false', ← hdelta, hl, hiter, ← hdiv]
  simp only [Flt.absLe, Bool.and_eq_true, Bool.or_eq_true, decide_eq_true_eq, Bool.not_eq_true', Bool.and_eq_false_iff,
    decide_eq_false_iff_not, Bool.not_eq_true]
  have hh : p.hierarchical.isSome = false ↔ p.hierarchical = none := by
    cases p.hierarchical <;> simp
  rw [hh]
  constructor
  · rintro ⟨⟨h1, h2⟩, h3⟩
    refine ⟨h3, ?_, ?_⟩
    · rcases h1 with (h1 | h1) | h1
      · exact Or.inl h1
      · exact Or.inr (Or.inl h1)
      · exact Or.inr (Or.inr h1)
    · intro hne
      rcases h2 with h2 | h2
      · omega
      · exact absurd h2 hne
  · rintro ⟨h3, h1, h2⟩
    refine ⟨⟨?_, ?_⟩, h3⟩
    · rcases h1 with h1 | h1 | h1
      · exact Or.inl (Or.inl h1)
      · exact Or.inl (Or.inr h1)
      · exact Or.inr h1
    · by_cases hn : p.hierarchical = none
      · exact Or.inr hn
      · have := h2 hn
        left; omega

/-- **C64**, what the updates are: in aggregate mode an accepted iteration changes the stored factors of every feature by the
update, otherwise the update of a fitted feature is its stored factors. -/
theorem C64_update_meaning (p : Params K) (o : Oracle K) (cfgs : List FeatureCfg) (prior : ℕ → K)
    (past : List (TState K)) (s s' : TState K) (h : Trace p o cfgs (startState o cfgs prior) past s)
    (hit : iterate p o cfgs s = .ok s') (hd : s'.isDiverging = false) (j : ℕ) (fs fs' : FState K)
    (hj : s.feats[j]? = some fs) (hj' : s'.feats[j]? = some fs') (b : ℕ) :
    (p.aggregate = true → stored fs' b = stored fs b + fs'.factors b) ∧
      (p.aggregate = false → fs'.isFitted = true → stored fs' b = fs'.factors b) := by
  obtain ⟨feats, pred, r, hfp, _, hr, hf, _⟩ := iterate_ok p o cfgs _ _ hit
  rw [hd] at hr
  simp only [Bool.false_eq_true, if_false, Except.ok.injEq] at hr
  have hw := trace_WF p o cfgs prior past s h
  have hjl : j < cfgs.length := by
    rw [hw.1]
    by_contra hcon
    rw [List.getElem?_eq_none (not_lt.mp hcon)] at hj
    cases hj
  obtain ⟨fs1, fs0, pred', g1, g2, g3⟩ := featurePass_get p o s.iteration s.diverging s.isDiverging s.initialLoss cfgs 0
    s.feats s.pred j cfgs[j] fs (List.getElem?_eq_getElem hjl) hj
  rw [hfp] at g1
  rw [hf, ← hr] at hj'
  simp only at g1 hj'
  rw [g1, Option.some.injEq] at hj'
  subst hj'
  have hs0 : stored fs0 = stored fs := by rw [g2]; split <;> rfl
  have hfw : fs.WF := hw.2 fs (List.mem_of_getElem? hj)
  have hw0 : fs0.WF := by rw [g2]; split <;> exact hfw
  rcases g3 with ⟨hsk, g3⟩ | ⟨_, g3⟩
  · obtain ⟨groups, hg⟩ : ∃ groups, p.hierarchical = some groups := by
      unfold skipped at hsk
      split at hsk
      · exact ⟨_, by assumption⟩
      · cases hsk
    unfold skipped at hsk
    rw [hg] at hsk
    simp only [Bool.and_eq_true, decide_eq_true_eq, Bool.not_eq_true', List.contains_eq_mem,
      decide_eq_false_iff_not] at hsk
    obtain ⟨g, hg1, hg2, hg3⟩ := C22_only_hierarchical p groups hg o cfgs prior past s h
      (by rw [← (trace_iterations p o cfgs prior past s h).1]; omega) j cfgs[j] (List.getElem?_eq_getElem hjl) hsk.2
    rw [hj, Option.some.injEq] at hg1
    subst hg1
    have hz : fs0.factors = fun _ => 0 := by rw [g2]; split <;> [rfl; exact hg2]
    have hn : fs0.agg = none := by rw [g2]; split <;> exact hg3
    constructor
    · intro _
      rw [g3, ← hs0]
      simp only [hz, add_zero]
      rfl
    · intro _ hfit
      rw [g3] at hfit
      have := hw0.mp hfit
      rw [hn] at this; cases this
  · constructor
    · intro hp
      obtain ⟨_, hagg⟩ := featureIteration_aggregate p o s.iteration (0 + j) cfgs[j] s.diverging s.isDiverging s.initialLoss fs0
        pred' hp hw0
      rw [g3, hagg b, hs0]
    · intro hp _
      rw [g3]
      unfold featureIteration visitFactors stored
      simp [hp]

end

/-- **C64**, consequence to be aware of: in aggregate mode `minimal_factor_change` is about the difference of successive updates,
not about the size of the update. Here every iteration adds 1/10 to the stored factors, and training stops after the second
one although neither the number of iterations nor the loss is a reason. -/
theorem C64_constant_updates_stop :
    ∃ (o : Oracle ℚ) (past : List (TState ℚ)) (s0 s : TState ℚ),
      Trace (toyParams true none) o toyFeatures (startState o toyFeatures (fun _ => 0)) (s0 :: past) s ∧
        continues (toyParams true none) s = false ∧ s.iteration = 2 ∧ s0.loss = .fin (81/100) ∧ s.loss = .fin (64/100) ∧
        s0.feats.map (fun fs => stored fs 0) = [1/10, 0] ∧ s.feats.map (fun fs => stored fs 0) = [2/10, 0] := by
  let o : Oracle ℚ :=
    { estimate := fun _ i _ _ _ => if i = 0 then 1/10 else 0
      smooth := fun _ _ _ _ unfitted b => some (unfitted b)
      learnRate := fun _ => 1
      calibrate := fun _ _ fs => fs.factors
      loss := fun pred => .fin ((pred.factors 0 - 1) * (pred.factors 0 - 1)) }
  have h1 : (runN (toyParams true none) o toyFeatures 1 (startState o toyFeatures (fun _ => 0))).map
      (fun s => (s.loss, s.feats.map (fun fs => stored fs 0))) = some (.fin (81/100), [1/10, 0]) := by decide +kernel
  have h2 : (runN (toyParams true none) o toyFeatures 2 (startState o toyFeatures (fun _ => 0))).map
      (fun s => (continues (toyParams true none) s, s.iteration, s.loss, s.feats.map (fun fs => stored fs 0)))
      = some (false, 2, .fin (64/100), [2/10, 0]) := by decide +kernel
  rw [Option.map_eq_some_iff] at h1 h2
  obtain ⟨s0, hs0, hv0⟩ := h1
  obtain ⟨s, hs, hv⟩ := h2
  obtain ⟨past, ht, _⟩ := runN_trace _ _ _ _ _ _ hs0
  simp only [Prod.mk.injEq] at hv0 hv
  refine ⟨o, past, s0, s, ?_, hv.1, hv.2.1, hv0.1, hv.2.2.1, hv0.2, hv.2.2.2⟩
  rw [runN] at hs
  rw [hs0] at hs
  simp only at hs
  split at hs
  · rename_i hc
    split at hs
    · rename_i s'' hit
      rw [Option.some.injEq] at hs
      subst hs
      exact .step ht hc hit
    · cases hs
  · cases hs

end CB
