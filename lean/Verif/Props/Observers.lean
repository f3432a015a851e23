import Verif.Model.Observers
import Verif.Props.Training

set_option autoImplicit false
set_option linter.unusedSectionVars false

/-!
C101: what observers see.
-/
namespace CB
open Spec

variable {K : Type*} [Field K] [LinearOrder K] [IsStrictOrderedRing K]

/-- The calls made in the iterations that started from the given states (earliest first). -/
def Spec.callsOf (p : Params K) (cfgs : List FeatureCfg) (states : List (TState K)) : List (ObserverCall K) :=
  states.flatMap (fun s => iterationCall p cfgs s :: featureCalls p s 0 cfgs)

theorem observedLoop_fst (p : Params K) (o : Oracle K) (cfgs : List FeatureCfg) : ∀ (fuel : ℕ) (s : TState K)
    (calls : List (ObserverCall K)), (observedLoop p o cfgs fuel s calls).1 = loop p o cfgs fuel s := by
  intro fuel
  induction fuel with
  | zero =>
    intro s calls
    rw [observedLoop, loop]
    by_cases h : continues p s = true <;> simp [h]
  | succ fuel ih =>
    intro s calls
    rw [observedLoop, loop]
    by_cases h : continues p s = true
    · simp only [h, if_true]
      cases iterate p o cfgs s with
      | error e => rfl
      | ok s' => exact ih s' _
    · simp [h]

/-- **C101**: training with observers has the same outcome as without. -/
theorem C101_same_fit (p : Params K) (o : Oracle K) (cfgs : List FeatureCfg) (prior : ℕ → K) (fuel : ℕ) :
    (observedFit p o cfgs prior fuel).1 = fitMain p o cfgs prior fuel := by
  have h := observedLoop_fst p o cfgs fuel (startState o cfgs prior) []
  unfold observedFit fitMain
  rw [← h]
  cases hl : observedLoop p o cfgs fuel (startState o cfgs prior) [] with
  | mk r calls =>
    cases r with
    | outOfFuel => rfl
    | failed e => rfl
    | done s =>
      simp only
      cases prepareFeatures s.feats with
      | error e => rfl
      | ok f =>
        simp only
        cases checkConvergence s.initialLoss s.loss s.diverging with
        | error e => rfl
        | ok _ => rfl

theorem observedLoop_calls (p : Params K) (o : Oracle K) (cfgs : List FeatureCfg) (s0 : TState K) :
    ∀ (fuel : ℕ) (s s' : TState K) (past : List (TState K)) (calls calls' : List (ObserverCall K)), Trace p o cfgs s0 past s →
      calls = Spec.callsOf p cfgs past.reverse → observedLoop p o cfgs fuel s calls = (.done s', calls') →
      ∃ past', Trace p o cfgs s0 past' s' ∧ continues p s' = false ∧ calls' = Spec.callsOf p cfgs past'.reverse := by
  intro fuel
  induction fuel with
  | zero =>
    intro s s' past calls calls' ht hcalls h
    rw [observedLoop] at h
    by_cases hc : continues p s = true
    · simp [hc] at h
    · simp only [hc, Bool.false_eq_true, if_false, Prod.mk.injEq, LoopResult.done.injEq] at h
      obtain ⟨rfl, rfl⟩ := h
      exact ⟨past, ht, by simpa using hc, hcalls⟩
  | succ fuel ih =>
    intro s s' past calls calls' ht hcalls h
    rw [observedLoop] at h
    by_cases hc : continues p s = true
    · simp only [hc, if_true] at h
      cases hit : iterate p o cfgs s with
      | error e => rw [hit] at h; simp at h
      | ok s1 =>
        rw [hit] at h
        refine ih s1 s' (s :: past) _ calls' (.step ht hc hit) ?_ h
        rw [hcalls, List.reverse_cons, Spec.callsOf, Spec.callsOf, List.flatMap_append]
        simp
    · simp only [hc, Bool.false_eq_true, if_false, Prod.mk.injEq, LoopResult.done.injEq] at h
      obtain ⟨rfl, rfl⟩ := h
      exact ⟨past, ht, by simpa using hc, hcalls⟩

/-- **C101**: the calls of a successful fit: for every iteration, one call with the state before it and one call after each feature
that takes part; then one call numbered -1 with the final state, in which the factors are those of the fitted model. -/
theorem C101_calls (p : Params K) (o : Oracle K) (cfgs : List FeatureCfg) (prior : ℕ → K) (fuel : ℕ) (r : FitResult K)
    (calls : List (ObserverCall K)) (h : observedFit p o cfgs prior fuel = (some (.ok r), calls)) :
    ∃ (past : List (TState K)) (s : TState K), Trace p o cfgs (startState o cfgs prior) past s ∧ r.iterations = past.length ∧
      s.feats.map (fun fs => fs.agg) = r.factors.map some ∧ r.prediction = s.prediction ∧
      calls = Spec.callsOf p cfgs past.reverse
        ++ [.iteration (-1) (stateFeatures p r.iterations cfgs r.factors) s.loss r.prediction s.delta] := by
  unfold observedFit at h
  cases hl : observedLoop p o cfgs fuel (startState o cfgs prior) [] with
  | mk res calls0 =>
    rw [hl] at h
    cases res with
    | outOfFuel => simp at h
    | failed e => simp at h
    | done s =>
      obtain ⟨past, ht, -, hcalls⟩ := observedLoop_calls p o cfgs _ fuel _ s [] [] calls0 .start rfl hl
      simp only at h
      cases hp : prepareFeatures s.feats with
      | error e => rw [hp] at h; simp at h
      | ok f =>
        rw [hp] at h
        simp only at h
        cases hcc : checkConvergence s.initialLoss s.loss s.diverging with
        | error e => rw [hcc] at h; simp at h
        | ok x =>
          rw [hcc] at h
          simp only [Prod.mk.injEq, Option.some.injEq, Except.ok.injEq] at h
          obtain ⟨rfl, rfl⟩ := h
          exact ⟨past, s, ht, (trace_iterations p o cfgs prior past s ht).1, prepareFeatures_spec _ _ hp, rfl, by rw [hcalls]⟩

/-! ### Calls per feature -/

theorem featureCalls_mem (p : Params K) (s : TState K) : ∀ (cfgs : List FeatureCfg) (k : ℕ) (c : ObserverCall K),
    c ∈ featureCalls p s k cfgs ↔ ∃ i cfg, cfgs[i]? = some cfg ∧ skipped p s.iteration cfg = false ∧
      c = .feature s.iteration (k + i) s.loss s.prediction := by
  intro cfgs
  induction cfgs with
  | nil => intro k c; simp [featureCalls]
  | cons cfg cfgs ih =>
    intro k c
    have key : (∃ i cfg', (cfg :: cfgs)[i]? = some cfg' ∧ skipped p s.iteration cfg' = false ∧
        c = .feature s.iteration (k + i) s.loss s.prediction) ↔
        ((skipped p s.iteration cfg = false ∧ c = .feature s.iteration k s.loss s.prediction) ∨
          ∃ i cfg', cfgs[i]? = some cfg' ∧ skipped p s.iteration cfg' = false ∧
            c = .feature s.iteration (k + 1 + i) s.loss s.prediction) := by
      constructor
      · rintro ⟨i, cfg', h1, h2, h3⟩
        cases i with
        | zero =>
          simp only [List.getElem?_cons_zero, Option.some.injEq] at h1
          subst h1
          exact Or.inl ⟨h2, by simpa using h3⟩
        | succ i =>
          rw [List.getElem?_cons_succ] at h1
          exact Or.inr ⟨i, cfg', h1, h2, by rw [h3]; congr 1; omega⟩
      · rintro (⟨h2, h3⟩ | ⟨i, cfg', h1, h2, h3⟩)
        · exact ⟨0, cfg, by simp, h2, by simpa using h3⟩
        · exact ⟨i + 1, cfg', by simpa using h1, h2, by rw [h3]; congr 1; omega⟩
    rw [key, featureCalls]
    by_cases hs : skipped p s.iteration cfg = true
    · simp only [hs, if_true, ih]
      simp
    · have hs' : skipped p s.iteration cfg = false := by simpa using hs
      simp only [hs', Bool.false_eq_true, if_false, List.mem_cons, ih]
      simp

/-- **C101**: `observe_feature_iterations` is called for exactly the features that take part in the iteration, always with the
prediction and the loss from before the iteration (not with those after the feature). -/
theorem C101_feature_calls (p : Params K) (cfgs : List FeatureCfg) (s : TState K) (number i : ℕ) (loss : Flt K) (prediction : Pred K) :
    ObserverCall.feature number i loss prediction ∈ featureCalls p s 0 cfgs ↔
      number = s.iteration ∧ loss = s.loss ∧ prediction = s.prediction ∧
        ∃ cfg, cfgs[i]? = some cfg ∧ skipped p s.iteration cfg = false := by
  rw [featureCalls_mem]
  constructor
  · rintro ⟨j, cfg, h1, h2, h3⟩
    simp only [ObserverCall.feature.injEq, Nat.zero_add] at h3
    obtain ⟨rfl, rfl, rfl, rfl⟩ := h3
    exact ⟨rfl, rfl, rfl, cfg, h1, h2⟩
  · rintro ⟨rfl, rfl, rfl, cfg, h1, h2⟩
    exact ⟨i, cfg, h1, h2, by simp⟩

/-! ### Plotting observers -/

/-- The snapshot of a state during training. -/
def Spec.snapshotOf (p : Params K) (cfgs : List FeatureCfg) (s : TState K) : Snapshot K :=
  ⟨stateFeatures p s.iteration cfgs (s.feats.map (fun fs => fs.factors)), s.prediction⟩

theorem afterCalls_append (obs : PlottingObserver K) (a b : List (ObserverCall K)) :
    obs.afterCalls (a ++ b) = (obs.afterCalls a).afterCalls b := by simp [PlottingObserver.afterCalls]

theorem afterCalls_features (p : Params K) (s : TState K) : ∀ (cfgs : List FeatureCfg) (k : ℕ) (obs : PlottingObserver K),
    obs.afterCalls (featureCalls p s k cfgs) = obs := by
  intro cfgs
  induction cfgs with
  | nil => intro k obs; rfl
  | cons cfg cfgs ih =>
    intro k obs
    rw [featureCalls]
    split
    · exact ih (k + 1) obs
    · exact ih (k + 1) obs

theorem afterCalls_iteration (p : Params K) (cfgs : List FeatureCfg) (s : TState K) (obs : PlottingObserver K) :
    obs.afterCalls (iterationCall p cfgs s :: featureCalls p s 0 cfgs) = obs.observe (iterationCall p cfgs s) := by
  have : iterationCall p cfgs s :: featureCalls p s 0 cfgs = [iterationCall p cfgs s] ++ featureCalls p s 0 cfgs := rfl
  rw [this, afterCalls_append, afterCalls_features]
  rfl

theorem observe_iteration (obs : PlottingObserver K) (number : ℤ) (factors : List (ℕ → K)) (loss : Flt K) (prediction : Pred K)
    (delta : K) :
    (obs.observe (.iteration number factors loss prediction delta)).iteration = obs.iteration ∧
    (obs.observe (.iteration number factors loss prediction delta)).loss
      = (if (number ≤ obs.iteration ∧ number ≠ -1) ∨ obs.iteration = -1 then obs.loss ++ [loss] else obs.loss) ∧
    (obs.observe (.iteration number factors loss prediction delta)).factorChange
      = (if ((number ≤ obs.iteration ∧ number ≠ -1) ∨ obs.iteration = -1) ∧ number ≠ 0 then obs.factorChange ++ [delta]
          else obs.factorChange) ∧
    (obs.observe (.iteration number factors loss prediction delta)).snapshot
      = (if number = obs.iteration then some ⟨factors, prediction⟩ else obs.snapshot) := by
  unfold PlottingObserver.observe
  by_cases h1 : (number ≤ obs.iteration ∧ number ≠ -1) ∨ obs.iteration = -1
  · simp only [if_pos h1, and_iff_right h1]
    by_cases h2 : number = obs.iteration
    · rw [if_pos h2]; exact ⟨rfl, rfl, rfl, by rw [if_pos h2]⟩
    · rw [if_neg h2]; exact ⟨rfl, rfl, rfl, by rw [if_neg h2]⟩
  · simp only [if_neg h1, if_neg (not_and_of_not_left _ h1)]
    by_cases h2 : number = obs.iteration
    · rw [if_pos h2]; exact ⟨rfl, rfl, rfl, by rw [if_pos h2]⟩
    · rw [if_neg h2]; exact ⟨rfl, rfl, rfl, by rw [if_neg h2]⟩

/-- States `0, 1, …` of a training history, earliest first. -/
theorem trace_past (p : Params K) (o : Oracle K) (cfgs : List FeatureCfg) (prior : ℕ → K) (past : List (TState K)) (s : TState K)
    (h : Trace p o cfgs (startState o cfgs prior) past s) :
    ∀ (i : ℕ) (t : TState K), past.reverse[i]? = some t → t.iteration = i := by
  induction h with
  | start => intro i t h; simp at h
  | @step past s s' ht _ _ ih =>
    intro i t h
    rw [List.reverse_cons] at h
    have hit := (trace_iterations p o cfgs prior past s ht).1
    rcases Nat.lt_or_ge i past.reverse.length with hi | hi
    · rw [List.getElem?_append_left hi] at h
      exact ih i t h
    · rw [List.getElem?_append_right hi] at h
      rw [List.length_reverse] at h hi
      have hz : i - past.length = 0 := by
        by_contra hne
        obtain ⟨j, hj⟩ := Nat.exists_eq_succ_of_ne_zero hne
        rw [hj] at h
        simp at h
      rw [hz] at h
      simp only [List.getElem?_cons_zero, Option.some.injEq] at h
      subst h
      omega

/-- An observer that waits for the end of training. -/
theorem afterCalls_all (p : Params K) (cfgs : List FeatureCfg) : ∀ (states : List (TState K)) (obs : PlottingObserver K),
    obs.iteration = -1 → ∃ obs', obs.afterCalls (Spec.callsOf p cfgs states) = obs' ∧ obs'.iteration = -1 ∧
      obs'.loss = obs.loss ++ states.map (fun s => s.loss) ∧
      obs'.factorChange = obs.factorChange ++ (states.filter (fun s => decide (s.iteration ≠ 0))).map (fun s => s.delta) ∧
      obs'.snapshot = obs.snapshot := by
  intro states
  induction states with
  | nil => intro obs h; exact ⟨obs, rfl, h, by simp, by simp, rfl⟩
  | cons s states ih =>
    intro obs h
    rw [show Spec.callsOf p cfgs (s :: states) = (iterationCall p cfgs s :: featureCalls p s 0 cfgs) ++ Spec.callsOf p cfgs states
      from by simp [Spec.callsOf], afterCalls_append, afterCalls_iteration]
    have hne : ((s.iteration : ℤ) = -1) = False := by simp
    obtain ⟨obs', h1, h2, h3, h4, h5⟩ := ih (obs.observe (iterationCall p cfgs s)) (by
      simp [iterationCall, PlottingObserver.observe, h, hne])
    refine ⟨obs', h1, h2, ?_, ?_, ?_⟩
    · rw [h3]
      simp [iterationCall, PlottingObserver.observe, h, hne]
    · rw [h4]
      by_cases h0 : s.iteration = 0
      · simp [iterationCall, PlottingObserver.observe, h, h0]
      · simp [iterationCall, PlottingObserver.observe, h, hne, h0]
    · rw [h5]
      simp [iterationCall, PlottingObserver.observe, h, hne]

/-- An observer for a given iteration. -/
theorem afterCalls_some (p : Params K) (cfgs : List FeatureCfg) (k : ℕ) : ∀ (states : List (TState K)) (obs : PlottingObserver K),
    obs.iteration = (k : ℤ) → ∃ obs', obs.afterCalls (Spec.callsOf p cfgs states) = obs' ∧ obs'.iteration = (k : ℤ) ∧
      obs'.loss = obs.loss ++ (states.filter (fun s => decide (s.iteration ≤ k))).map (fun s => s.loss) ∧
      obs'.factorChange = obs.factorChange
        ++ (states.filter (fun s => decide (s.iteration ≤ k ∧ s.iteration ≠ 0))).map (fun s => s.delta) ∧
      ((∀ s ∈ states, s.iteration ≠ k) → obs'.snapshot = obs.snapshot) ∧
      (∀ (i : ℕ) (t : TState K), states[i]? = some t → t.iteration = k → (∀ j u, i < j → states[j]? = some u → u.iteration ≠ k) →
        obs'.snapshot = some (Spec.snapshotOf p cfgs t)) := by
  intro states
  induction states with
  | nil => intro obs h; exact ⟨obs, rfl, h, by simp, by simp, fun _ => rfl, fun i t ht => by simp at ht⟩
  | cons s states ih =>
    intro obs h
    rw [show Spec.callsOf p cfgs (s :: states) = (iterationCall p cfgs s :: featureCalls p s 0 cfgs) ++ Spec.callsOf p cfgs states
      from by simp [Spec.callsOf], afterCalls_append, afterCalls_iteration]
    set obs1 := obs.observe (iterationCall p cfgs s) with hobs1
    obtain ⟨i1, l1, f1, s1⟩ := observe_iteration obs (s.iteration : ℤ)
      (stateFeatures p s.iteration cfgs (s.feats.map (fun fs => fs.factors))) s.loss s.prediction s.delta
    rw [show obs.observe (.iteration (s.iteration : ℤ) (stateFeatures p s.iteration cfgs (s.feats.map (fun fs => fs.factors)))
      s.loss s.prediction s.delta) = obs1 from rfl, h] at i1 l1 f1 s1
    have hcond : (((s.iteration : ℤ) ≤ (k : ℤ) ∧ (s.iteration : ℤ) ≠ -1) ∨ (k : ℤ) = -1) ↔ s.iteration ≤ k := by omega
    have hz : ((s.iteration : ℤ) ≠ 0) ↔ s.iteration ≠ 0 := by omega
    have hk : ((s.iteration : ℤ) = (k : ℤ)) ↔ s.iteration = k := by omega
    simp only [hcond, hz, hk] at l1 f1 s1
    rw [show (⟨stateFeatures p s.iteration cfgs (s.feats.map (fun fs => fs.factors)), s.prediction⟩ : Snapshot K)
      = Spec.snapshotOf p cfgs s from rfl] at s1
    obtain ⟨obs', h1, h2, h3, h4, h5, h6⟩ := ih obs1 i1
    refine ⟨obs', h1, h2, ?_, ?_, ?_, ?_⟩
    · rw [h3, l1]
      by_cases hle : s.iteration ≤ k <;> simp [hle]
    · rw [h4, f1]
      by_cases hle : s.iteration ≤ k ∧ s.iteration ≠ 0
      · rw [if_pos hle, List.filter_cons_of_pos (by simpa using hle)]; simp
      · rw [if_neg hle, List.filter_cons_of_neg (by simpa using hle)]
    · intro hall
      rw [h5 (fun t ht => hall t (by simp [ht])), s1, if_neg (hall s (by simp))]
    · intro i t hi ht hlast
      cases i with
      | zero =>
        simp only [List.getElem?_cons_zero, Option.some.injEq] at hi
        subst hi
        rw [h5 ?_, s1, if_pos ht]
        intro u hu
        obtain ⟨j, hj⟩ := List.mem_iff_getElem?.mp hu
        exact hlast (j + 1) u (by omega) (by simpa using hj)
      | succ i =>
        rw [List.getElem?_cons_succ] at hi
        exact h6 i t hi ht (fun j u hj hu => hlast (j + 1) u (by omega) (by simpa using hu))

/-- **C101**: the default observer (`iteration = -1`) after a successful fit of `N` iterations: it is fitted, holds the factors and the
in-sample prediction of the fitted model, the losses before training and after each iteration (`N + 1` values) and the change of the
factors in each iteration (`N` values). -/
theorem C101_default (p : Params K) (o : Oracle K) (cfgs : List FeatureCfg) (prior : ℕ → K) (fuel : ℕ) (r : FitResult K)
    (calls : List (ObserverCall K)) (h : observedFit p o cfgs prior fuel = (some (.ok r), calls)) (new : PlottingObserver K)
    (hnew : PlottingObserver.new (-1) = some new) :
    (new.afterCalls calls).checkFitted = true ∧
    (new.afterCalls calls).snapshot = some ⟨stateFeatures p r.iterations cfgs r.factors, r.prediction⟩ ∧
    ∃ (past : List (TState K)) (s : TState K), Trace p o cfgs (startState o cfgs prior) past s ∧ r.iterations = past.length ∧
      (new.afterCalls calls).loss = (past.reverse ++ [s]).map (fun t => t.loss) ∧
      ((0 : ℕ) < r.iterations → (new.afterCalls calls).factorChange = ((past.reverse ++ [s]).drop 1).map (fun t => t.delta)) := by
  obtain ⟨past, s, ht, hit, -, -, rfl⟩ := C101_calls p o cfgs prior fuel r calls h
  have hn : new = ⟨-1, [], [], none⟩ := by
    simp only [PlottingObserver.new] at hnew
    rw [if_neg (by omega)] at hnew
    exact (Option.some.inj hnew).symm
  obtain ⟨obs', h1, h2, h3, h4, h5⟩ := afterCalls_all p cfgs past.reverse new (by rw [hn])
  rw [afterCalls_append, h1]
  have hsnap : (obs'.afterCalls [.iteration (-1) (stateFeatures p r.iterations cfgs r.factors) s.loss r.prediction s.delta]).snapshot
      = some ⟨stateFeatures p r.iterations cfgs r.factors, r.prediction⟩ := by
    simp [PlottingObserver.afterCalls, PlottingObserver.observe, h2]
  refine ⟨by unfold PlottingObserver.checkFitted; rw [hsnap]; rfl, hsnap, past, s, ht, hit, ?_, ?_⟩
  · simp [PlottingObserver.afterCalls, PlottingObserver.observe, h2, h3, hn]
  · intro hpos
    have hf : past.reverse.filter (fun s => decide (s.iteration ≠ 0)) = past.reverse.drop 1 := by
      have hp := trace_past p o cfgs prior past s ht
      have hl : past.reverse.length = r.iterations := by rw [List.length_reverse, hit]
      cases hr : past.reverse with
      | nil => rfl
      | cons t ts =>
        rw [hr] at hp
        have h0 : t.iteration = 0 := hp 0 t (by simp)
        rw [List.filter_cons_of_neg (by simp [h0]), List.drop_one, List.tail_cons, List.filter_eq_self]
        intro u hu
        obtain ⟨j, hj⟩ := List.mem_iff_getElem?.mp hu
        have := hp (j + 1) u (by simpa using hj)
        simp [this]
    have hl : 1 ≤ past.reverse.length := by rw [List.length_reverse, ← hit]; exact hpos
    rw [List.drop_append_of_le_length hl, ← hf]
    simp [PlottingObserver.afterCalls, PlottingObserver.observe, h2, h4, hn]

/-- **C101**: the factors that the default observer holds are those of the fitted model, unless the fit ended within the iterations for
hierarchical features; then the features that have not been trained are left out. -/
theorem C101_default_factors (p : Params K) (o : Oracle K) (cfgs : List FeatureCfg) (prior : ℕ → K) (fuel : ℕ) (r : FitResult K)
    (calls : List (ObserverCall K)) (h : observedFit p o cfgs prior fuel = (some (.ok r), calls)) (new : PlottingObserver K)
    (hnew : PlottingObserver.new (-1) = some new) :
    ∃ snap, (new.afterCalls calls).snapshot = some snap ∧
      (p.hierarchical = none ∨ p.hierarchicalIterations ≤ r.iterations → snap.factors = r.factors) ∧
      (∀ groups, p.hierarchical = some groups → r.iterations < p.hierarchicalIterations →
        snap.factors = ((cfgs.zip r.factors).filter (fun q => groups.contains q.1.group)).map Prod.snd) := by
  obtain ⟨-, hs, -⟩ := C101_default p o cfgs prior fuel r calls h new hnew
  obtain ⟨past, s, ht, -, hf, -⟩ := C101_calls p o cfgs prior fuel r calls h
  have hlen : r.factors.length = cfgs.length := by
    have h1 := (trace_WF p o cfgs prior past s ht).1
    have h2 := congrArg List.length hf
    rw [List.length_map, List.length_map] at h2
    rw [← h2, ← h1]
  refine ⟨_, hs, fun hn => ?_, fun groups hg hi => ?_⟩
  · have hsk : ∀ cfg, skipped p r.iterations cfg = false := by
      intro cfg
      unfold skipped
      rcases hn with hn | hn
      · rw [hn]
      · cases p.hierarchical with
        | none => rfl
        | some g => simp [not_lt.mpr hn]
    simp only [stateFeatures, hsk, Bool.not_false, List.filter_true]
    rw [List.map_snd_zip (by omega)]
  · simp only [stateFeatures, skipped, hg, hi, decide_true, Bool.true_and, Bool.not_not]

/-- **C101**, for an observer of iteration `k ≥ 1` after a successful fit of `N` iterations: if `k < N`, it holds the state after `k`
iterations (the last update of each feature, and the prediction then) and the losses up to that iteration; otherwise it is not fitted.
Missing for the full claim: `k = N` (`C101_last_iteration`), and the factors of the model instead of the last updates
(`C101_updates`). -/
theorem C101_iteration_partial (p : Params K) (o : Oracle K) (cfgs : List FeatureCfg) (prior : ℕ → K) (fuel : ℕ) (r : FitResult K)
    (calls : List (ObserverCall K)) (h : observedFit p o cfgs prior fuel = (some (.ok r), calls)) (k : ℕ) (new : PlottingObserver K)
    (hnew : PlottingObserver.new (k : ℤ) = some new) :
    ((new.afterCalls calls).checkFitted = true ↔ k < r.iterations) ∧
    ∃ (past : List (TState K)) (s : TState K), Trace p o cfgs (startState o cfgs prior) past s ∧ r.iterations = past.length ∧
      (new.afterCalls calls).snapshot = (past.reverse[k]?).map (Spec.snapshotOf p cfgs) ∧
      (new.afterCalls calls).loss = (past.reverse.take (k + 1)).map (fun t => t.loss) := by
  obtain ⟨past, s, ht, hit, -, -, rfl⟩ := C101_calls p o cfgs prior fuel r calls h
  have hk0 : (k : ℤ) ≠ 0 := by
    intro h0; simp [PlottingObserver.new, h0] at hnew
  have hn : new = ⟨(k : ℤ), [], [], none⟩ := by
    simp only [PlottingObserver.new] at hnew
    rw [if_neg hk0] at hnew
    exact (Option.some.inj hnew).symm
  have hp := trace_past p o cfgs prior past s ht
  obtain ⟨obs', h1, h2, h3, -, h5, h6⟩ := afterCalls_some p cfgs k past.reverse new (by rw [hn])
  rw [afterCalls_append, h1]
  have hkm : ((k : ℤ) = -1) = False := by simp
  have hlast : obs'.afterCalls [.iteration (-1) (stateFeatures p r.iterations cfgs r.factors) s.loss r.prediction s.delta] = obs' := by
    have : ((-1 : ℤ) = (k : ℤ)) = False := by simp
    simp [PlottingObserver.afterCalls, PlottingObserver.observe, h2, hkm, this]
  rw [hlast]
  have hsnap : obs'.snapshot = (past.reverse[k]?).map (Spec.snapshotOf p cfgs) := by
    cases hk : past.reverse[k]? with
    | some t =>
      rw [Option.map_some]
      exact h6 k t hk (hp k t hk) (fun j u hj hu => by rw [hp j u hu]; omega)
    | none =>
      rw [h5, hn]
      · rfl
      · intro t ht'
        obtain ⟨j, hj⟩ := List.mem_iff_getElem?.mp ht'
        rw [hp j t hj]
        rintro rfl
        rw [hk] at hj
        simp at hj
  refine ⟨?_, past, s, ht, hit, hsnap, ?_⟩
  · unfold PlottingObserver.checkFitted
    rw [hsnap, hit, Option.isSome_map, ← List.length_reverse]
    simp
  · rw [h3, hn, List.nil_append]
    congr 1
    clear h1 h2 h3 h5 h6 hsnap hlast ht hit h
    -- the numbers are 0, 1, 2, …
    have key : ∀ (l : List (TState K)) (a : ℕ), (∀ (i : ℕ) t, l[i]? = some t → t.iteration = a + i) →
        l.filter (fun s => decide (s.iteration ≤ k)) = l.take (k + 1 - a) := by
      intro l
      induction l with
      | nil => intro a _; simp
      | cons t l ih =>
        intro a hl
        have h0 : t.iteration = a := by have := hl 0 t (by simp); omega
        have ih := ih (a + 1) (fun i u hu => by have := hl (i + 1) u (by simpa using hu); omega)
        by_cases hle : a ≤ k
        · rw [List.filter_cons_of_pos (by simpa [h0] using hle), ih, show k + 1 - a = (k + 1 - (a + 1)) + 1 from by omega,
            List.take_succ_cons]
        · rw [List.filter_cons_of_neg (by simpa [h0] using hle), ih, show k + 1 - (a + 1) = 0 from by omega,
            show k + 1 - a = 0 from by omega]
          simp
    have := key past.reverse 0 (fun i t hi => by rw [hp i t hi]; omega)
    simpa using this

/-- **C101** fails for the last iteration: an observer for iteration `N` of a successful fit with `N ≥ 1` iterations (for example for
`maximal_iterations`, if training does not stop earlier) is never filled, and `check_fitted` raises. -/
theorem C101_last_iteration (p : Params K) (o : Oracle K) (cfgs : List FeatureCfg) (prior : ℕ → K) (fuel : ℕ) (r : FitResult K)
    (calls : List (ObserverCall K)) (h : observedFit p o cfgs prior fuel = (some (.ok r), calls)) (new : PlottingObserver K)
    (hnew : PlottingObserver.new (r.iterations : ℤ) = some new) : (new.afterCalls calls).checkFitted = false := by
  have := (C101_iteration_partial p o cfgs prior fuel r calls h r.iterations new hnew).1
  cases hc : (new.afterCalls calls).checkFitted with
  | false => rfl
  | true => exact absurd (this.mp hc) (lt_irrefl _)

/-- **C101**: a plotting observer for iteration 0 cannot be created. -/
theorem C101_zero : (PlottingObserver.new 0 : Option (PlottingObserver K)) = none := rfl

/-- **C101** fails for refits: an observer keeps the losses of earlier fits, so that after a second fit they precede the new ones. -/
theorem C101_refit (obs : PlottingObserver K) : ∀ (calls : List (ObserverCall K)), obs.loss <+: (obs.afterCalls calls).loss := by
  intro calls
  induction calls generalizing obs with
  | nil => exact List.prefix_refl _
  | cons c calls ih =>
    refine List.IsPrefix.trans ?_ (ih (obs.observe c))
    cases c with
    | feature => exact List.prefix_refl _
    | iteration number factors loss prediction delta =>
      rw [(observe_iteration obs number factors loss prediction delta).2.1]
      split <;> simp

end CB
