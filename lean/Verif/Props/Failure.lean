import Verif.Spec.Failure
import Verif.Props.Api

/-!
# C138: what can make `fit` fail
-/

set_option autoImplicit false
set_option linter.unusedSectionVars false

namespace CB
open Finset Spec

section
variable {K : Type*} [Field K] [LinearOrder K] [IsStrictOrderedRing K]
  (p : Params K) (o : Oracle K) (cfgs : List FeatureCfg) (prior : ℕ → K)

/-- A feature without aggregated factors after a pass was left out. -/
theorem pass_none (it d : ℕ) (id : Bool) (il : Flt K) (fss : List (FState K)) (pred : Pred K) (hlen : cfgs.length = fss.length)
    (fs : FState K) (hfs : fs ∈ (featurePass p o it d id il 0 cfgs fss pred).1) (hn : fs.agg = none) :
    ∃ groups, p.hierarchical = some groups ∧ it < p.hierarchicalIterations ∧ ∃ cfg ∈ cfgs, cfg.group ∉ groups := by
  obtain ⟨j, hj⟩ := List.mem_iff_getElem?.mp hfs
  have hl := featurePass_length p o it d id il cfgs 0 fss pred hlen
  have hjl : j < cfgs.length := by
    rw [← hl]
    exact (List.getElem?_eq_some_iff.mp hj).1
  obtain ⟨fs', fs0, pred', h1, h2, h3⟩ := featurePass_get p o it d id il cfgs 0 fss pred j cfgs[j] (fss[j]'(by omega))
    (List.getElem?_eq_getElem hjl) (List.getElem?_eq_getElem _)
  rw [hj, Option.some.injEq] at h1
  subst h1
  rcases h3 with ⟨h3, -⟩ | ⟨-, h3⟩
  · unfold skipped at h3
    split at h3
    · rename_i groups hg
      simp only [Bool.and_eq_true, decide_eq_true_eq, Bool.not_eq_true', List.contains_eq_mem, decide_eq_false_iff_not] at h3
      exact ⟨groups, hg, h3.1, cfgs[j], List.getElem_mem _, h3.2⟩
    · simp at h3
  · rw [h3] at hn
    simp [featureIteration, visitFactors] at hn

/-- During the hierarchical phase nothing has diverged yet, if there are features outside of the hierarchical groups. -/
theorem early_counter (groups : List (List String)) (hh : p.hierarchical = some groups) (hout : ∃ cfg ∈ cfgs, cfg.group ∉ groups)
    (past : List (TState K)) (s : TState K) (h : Trace p o cfgs (startState o cfgs prior) past s)
    (hit : past.length ≤ p.hierarchicalIterations) : s.diverging = 0 := by
  induction h with
  | start => rfl
  | @step past s s' ht hc hi ih =>
    simp only [List.length_cons] at hit
    have h0 := ih (by omega)
    obtain ⟨feats, pred, r, hfp, hcc, -⟩ := iterate_ok p o cfgs _ _ hi
    by_cases hd : isDiverged s.initialLoss (o.loss pred) = true
    · have := C22_divergence_fails p groups hh o cfgs prior past s ht (by omega) hout (by rw [hfp]; exact hd) (by omega)
      rw [this] at hi
      cases hi
    · simp only [checkConvergence, hd, Bool.false_eq_true, if_false, Except.ok.injEq, Prod.mk.injEq] at hcc
      rw [← hcc.1, h0]

/-- An iteration fails only by divergence. -/
theorem iterate_failed (past : List (TState K)) (s : TState K) (h : Trace p o cfgs (startState o cfgs prior) past s) (e : TErr)
    (hi : iterate p o cfgs s = .error e) :
    (e = .convergenceError ∧ divergedCount (o.loss ⟨prior, fun _ => 0⟩) (s :: past).dropLast = 4 ∧
      LossDoubled (o.loss ⟨prior, fun _ => 0⟩) (lossAfter p o cfgs s)) ∨
    (e = .typeError ∧ past.length < p.hierarchicalIterations ∧ LossDoubled (o.loss ⟨prior, fun _ => 0⟩) (lossAfter p o cfgs s) ∧
      ∃ groups, p.hierarchical = some groups ∧ ∃ cfg ∈ cfgs, cfg.group ∉ groups) := by
  have hil := (C21_counter p o cfgs prior past s h).1
  cases e with
  | convergenceError =>
    left
    have := (C21_convergence_error p o cfgs prior past s h).mp hi
    rw [hil] at this
    exact ⟨rfl, this.1, by unfold lossAfter; rw [hil]; exact this.2⟩
  | typeError =>
    right
    refine ⟨rfl, ?_⟩
    have hw := trace_WF p o cfgs prior past s h
    have hiter := (trace_iterations p o cfgs prior past s h).1
    unfold iterate at hi
    dsimp only at hi
    split at hi
    · rename_i e' he'
      unfold checkConvergence at he'
      split at he'
      · split at he'
        · injection he' with he'
          rw [← he'] at hi
          cases hi
        · cases he'
      · cases he'
    · rename_i dv isd hcc
      split at hi
      · rename_i e' he'
        split at he'
        · rename_i hisd
          have hlen := featurePass_length p o s.iteration s.diverging s.isDiverging s.initialLoss cfgs 0 s.feats s.pred hw.1
          obtain ⟨ha, hb⟩ := removePreds_ok_iff cfgs _ (featurePass p o s.iteration s.diverging s.isDiverging
            s.initialLoss 0 cfgs s.feats s.pred).2 hlen.symm
          have hex : ∃ fs ∈ (featurePass p o s.iteration s.diverging s.isDiverging s.initialLoss 0 cfgs s.feats s.pred).1,
              fs.agg = none := by
            by_contra hall
            push Not at hall
            obtain ⟨r, hr⟩ := ha.mpr fun fs hfs => by
              cases hagg : fs.agg with
              | none => exact absurd hagg (hall fs hfs)
              | some a => rfl
            rw [hr] at he'
            cases he'
          obtain ⟨fs, hfs, hn⟩ := hex
          obtain ⟨groups, hg, hlt, hout⟩ := pass_none p o cfgs s.iteration s.diverging s.isDiverging s.initialLoss s.feats s.pred
            hw.1 fs hfs hn
          have hd := (checkConvergence_ok _ _ _ _ _ hcc).1
          refine ⟨by omega, ?_, groups, hg, hout⟩
          rw [← isDiverged_iff, ← hil]
          unfold lossAfter
          rw [← hd, hisd]
        · cases he'
      · cases hi

/-- The loop follows every history. -/
theorem loop_along (s0 : TState K) (past : List (TState K)) (s : TState K) (h : Trace p o cfgs s0 past s) :
    ∀ fuel, past.length ≤ fuel → loop p o cfgs fuel s0 = loop p o cfgs (fuel - past.length) s := by
  induction h with
  | start => intro fuel _; rfl
  | @step past s s' ht hc hi ih =>
    intro fuel hf
    simp only [List.length_cons] at hf
    rw [ih fuel (by omega), List.length_cons]
    obtain ⟨k, hk⟩ : ∃ k, fuel - past.length = k + 1 := ⟨fuel - past.length - 1, by omega⟩
    rw [hk, show fuel - (past.length + 1) = k by omega, loop, if_pos hc, hi]

theorem iterate_fails_fit (past : List (TState K)) (s : TState K) (h : Trace p o cfgs (startState o cfgs prior) past s) (e : TErr)
    (hc : continues p s = true) (hi : iterate p o cfgs s = .error e) (fuel : ℕ) (hf : normalIterations p + 4 ≤ fuel) :
    fitMain p o cfgs prior fuel = some (.error e) := by
  have hlen := (C21_terminates p o cfgs prior).1 past s h
  obtain ⟨r, hr⟩ := (C21_terminates p o cfgs prior).2 fuel hf
  have hl := loop_along p o cfgs _ past s h fuel (by omega)
  cases hk : fuel - past.length with
  | zero =>
    rw [hk, loop, if_pos hc] at hl
    unfold fitMain at hr
    rw [hl] at hr
    cases hr
  | succ k =>
    rw [hk, loop, if_pos hc, hi] at hl
    unfold fitMain
    rw [hl]

theorem loop_failed_at (s0 : TState K) (e : TErr) :
    ∀ (fuel : ℕ) (s : TState K) (past : List (TState K)), Trace p o cfgs s0 past s → loop p o cfgs fuel s = .failed e →
      ∃ past' s', Trace p o cfgs s0 past' s' ∧ continues p s' = true ∧ iterate p o cfgs s' = .error e := by
  intro fuel
  induction fuel with
  | zero =>
    intro s past _ h
    rw [loop] at h
    split at h <;> simp at h
  | succ fuel ih =>
    intro s past ht h
    rw [loop] at h
    split at h
    · rename_i hc
      cases hi : iterate p o cfgs s with
      | error e' =>
        rw [hi] at h
        simp only [LoopResult.failed.injEq] at h
        subst h
        exact ⟨past, s, ht, hc, hi⟩
      | ok s' =>
        rw [hi] at h
        exact ih s' (s :: past) (.step ht hc hi) h
    · simp at h

theorem start_stops : continues p (startState o cfgs prior) = false ↔ StopsAtOnce p := by
  unfold continues checkStop startState StopsAtOnce
  simp only [Flt.absLe]
  cases p.hierarchical with
  | none =>
    have h1 : |(100000000000000000000 : K)| = 100000000000000000000 := abs_of_nonneg (by norm_num)
    rw [h1]
    simp only [Nat.zero_le, ge_iff_le, Nat.le_zero, Option.isSome_none, Bool.and_false, Bool.not_false, Bool.and_true,
      Bool.or_false, Bool.not_eq_false', Bool.or_eq_true, decide_eq_true_eq, true_and, or_assoc]
  | some g => simp

theorem prepare_none (fss : List (FState K)) (fs : FState K) (h : fs ∈ fss) (hn : fs.agg = none) :
    prepareFeatures fss = .error .typeError := by
  induction fss with
  | nil => cases h
  | cons f fss ih =>
    unfold prepareFeatures
    cases hf : f.agg with
    | none => rfl
    | some a =>
      rcases List.mem_cons.mp h with rfl | h
      · rw [hn] at hf; cases hf
      · rw [ih h]

theorem prepare_all (fss : List (FState K)) (h : ∀ fs ∈ fss, fs.agg ≠ none) : ∃ l, prepareFeatures fss = .ok l := by
  induction fss with
  | nil => exact ⟨_, rfl⟩
  | cons fs fss ih =>
    obtain ⟨l, hl⟩ := ih fun f hf => h f (List.mem_cons_of_mem _ hf)
    cases hagg : fs.agg with
    | none => exact absurd hagg (h fs List.mem_cons_self)
    | some a =>
      simp only [prepareFeatures, hagg, hl]
      exact ⟨_, rfl⟩

/-- When the loop has ended after at least one iteration, training succeeds. -/
theorem done_ok (past : List (TState K)) (s : TState K) (h : Trace p o cfgs (startState o cfgs prior) past s)
    (hc : continues p s = false) (hne : past ≠ []) :
    ∃ l, prepareFeatures s.feats = .ok l ∧ ∃ x, checkConvergence s.initialLoss s.loss s.diverging = .ok x := by
  have hfin := C21_final_check p o cfgs prior past s h hne hc
  have hiter := (trace_iterations p o cfgs prior past s h).1
  have hisd : s.isDiverging = false := by
    unfold continues at hc
    rw [Bool.or_eq_false_iff] at hc
    exact hc.2
  have hlate : ∀ groups, p.hierarchical = some groups → p.hierarchicalIterations < s.iteration := by
    intro groups hg
    by_contra hle
    unfold continues checkStop at hc
    rw [hg] at hc
    simp [not_lt.mp hle] at hc
  have hagg : ∀ fs ∈ s.feats, fs.agg ≠ none := by
    cases h with
    | start => exact absurd rfl hne
    | @step past s' _ ht _ hi =>
      have hw := trace_WF p o cfgs prior past s' ht
      obtain ⟨feats, pred, r, hfp, -, hr, hf, -, hi', -⟩ := iterate_ok p o cfgs _ _ hi
      rw [hisd] at hr
      simp only [Bool.false_eq_true, if_false, Except.ok.injEq] at hr
      intro fs hfs hn
      rw [hf, ← hr] at hfs
      obtain ⟨groups, hg, hlt, -⟩ := pass_none p o cfgs s'.iteration s'.diverging s'.isDiverging s'.initialLoss s'.feats s'.pred
        hw.1 fs (by rw [hfp]; exact hfs) hn
      have := hlate groups hg
      omega
  obtain ⟨l, hl⟩ := prepare_all s.feats hagg
  exact ⟨l, hl, _, hfin⟩

/-- Without any iteration training fails as soon as there is a feature. -/
theorem fitMain_stopped (h : StopsAtOnce p) (fuel : ℕ) :
    fitMain p o cfgs prior fuel = if cfgs = [] then
      some (.ok ⟨[], ⟨prior, fun _ => 0⟩, 0⟩) else some (.error .typeError) := by
  have hc := (start_stops p o cfgs prior).mpr h
  unfold fitMain
  rw [loop.eq_def]
  simp only [hc, Bool.false_eq_true, if_false]
  cases cfgs with
  | nil =>
    simp only [startState, List.map_nil, prepareFeatures, if_true, checkConvergence]
    split
    · rename_i e he
      split at he <;> cases he
    · rfl
  | cons cfg cfgs =>
    simp only [startState, List.map_cons, prepareFeatures, FState.init]
    simp

/-- **C138, training.** Training ends with a `ConvergenceError` exactly if the loss exceeds twice the loss of the prior prediction
five times. It ends with a `TypeError` exactly if there are features but no iteration is made, or if the loss exceeds twice that
loss while only hierarchical groups are learned and there are other features. In all other cases it succeeds. -/
theorem C138_training (fuel : ℕ) (hf : normalIterations p + 4 ≤ fuel) :
    (fitMain p o cfgs prior fuel = some (.error .convergenceError) ↔ DivergesFiveTimes p o cfgs prior) ∧
    (fitMain p o cfgs prior fuel = some (.error .typeError) ↔ (cfgs ≠ [] ∧ StopsAtOnce p) ∨ DivergesEarly p o cfgs prior) ∧
    ((∃ r, fitMain p o cfgs prior fuel = some (.ok r)) ↔
      ¬ (DivergesFiveTimes p o cfgs prior ∨ (cfgs ≠ [] ∧ StopsAtOnce p) ∨ DivergesEarly p o cfgs prior)) := by
  have five : DivergesFiveTimes p o cfgs prior → fitMain p o cfgs prior fuel = some (.error .convergenceError) := by
    rintro ⟨past, s, ht, hc, h4, hl⟩
    have hil := (C21_counter p o cfgs prior past s ht).1
    refine iterate_fails_fit p o cfgs prior past s ht _ hc ?_ fuel hf
    rw [C21_convergence_error p o cfgs prior past s ht, hil]
    unfold lossAfter at hl
    rw [hil] at hl
    exact ⟨h4, hl⟩
  have early : DivergesEarly p o cfgs prior → fitMain p o cfgs prior fuel = some (.error .typeError) := by
    rintro ⟨groups, hg, hout, past, s, ht, hlt, hl⟩
    have hil := (C21_counter p o cfgs prior past s ht).1
    have h0 := early_counter p o cfgs prior groups hg hout past s ht (by omega)
    have hiter := (trace_iterations p o cfgs prior past s ht).1
    refine iterate_fails_fit p o cfgs prior past s ht _ ?_ ?_ fuel hf
    · unfold continues checkStop
      rw [hg]
      simp [show s.iteration ≤ p.hierarchicalIterations by omega]
    · refine C22_divergence_fails p groups hg o cfgs prior past s ht hlt hout ?_ (by omega)
      rw [isDiverged_iff, hil]
      unfold lossAfter at hl
      rw [hil] at hl
      exact hl
  have stop : cfgs ≠ [] ∧ StopsAtOnce p → fitMain p o cfgs prior fuel = some (.error .typeError) := by
    rintro ⟨hne, hs⟩
    rw [fitMain_stopped p o cfgs prior hs fuel, if_neg hne]
  have cause : ∀ e, fitMain p o cfgs prior fuel = some (.error e) →
      (e = .convergenceError ∧ DivergesFiveTimes p o cfgs prior) ∨
      (e = .typeError ∧ ((cfgs ≠ [] ∧ StopsAtOnce p) ∨ DivergesEarly p o cfgs prior)) := by
    intro e h
    by_cases hs : StopsAtOnce p
    · rw [fitMain_stopped p o cfgs prior hs fuel] at h
      split at h
      · cases h
      · rename_i hne
        simp only [Option.some.injEq, Except.error.injEq] at h
        exact .inr ⟨h.symm, .inl ⟨hne, hs⟩⟩
    · cases hl : loop p o cfgs fuel (startState o cfgs prior) with
      | outOfFuel => unfold fitMain at h; rw [hl] at h; cases h
      | failed e' =>
        unfold fitMain at h
        rw [hl] at h
        simp only [Option.some.injEq, Except.error.injEq] at h
        subst h
        obtain ⟨past, s, ht, hc, hi⟩ := loop_failed_at p o cfgs _ e' fuel _ [] .start hl
        rcases iterate_failed p o cfgs prior past s ht e' hi with ⟨he, h4, hd⟩ | ⟨he, hlt, hd, groups, hg, hout⟩
        · exact .inl ⟨he, past, s, ht, hc, h4, hd⟩
        · exact .inr ⟨he, .inr ⟨groups, hg, hout, past, s, ht, hlt, hd⟩⟩
      | done s =>
        exfalso
        obtain ⟨past, ht, hc⟩ := loop_done _ _ _ _ fuel _ s [] .start hl
        have hne : past ≠ [] := by
          rintro rfl
          cases ht
          exact hs ((start_stops p o cfgs prior).mp hc)
        obtain ⟨l, h1, x, h2⟩ := done_ok p o cfgs prior past s ht hc hne
        unfold fitMain at h
        simp only [hl, h1, h2] at h
        cases h
  obtain ⟨r, hr⟩ := (C21_terminates p o cfgs prior).2 fuel hf
  refine ⟨⟨fun h => ?_, five⟩, ⟨fun h => ?_, fun h => h.elim stop early⟩, ?_⟩
  · rcases cause _ h with ⟨-, h⟩ | ⟨h, -⟩
    · exact h
    · cases h
  · rcases cause _ h with ⟨h, -⟩ | ⟨-, h⟩
    · cases h
    · exact h
  · constructor
    · rintro ⟨r, h⟩ (h' | h' | h')
      · rw [five h'] at h; cases h
      · rw [stop h'] at h; cases h
      · rw [early h'] at h; cases h
    · intro hn
      cases r with
      | ok r => exact ⟨r, hr⟩
      | error e =>
        exfalso
        rcases cause e hr with ⟨-, h⟩ | ⟨-, h⟩
        · exact hn (.inl h)
        · exact hn (.inr h)

end

section
variable {σ : Type*}

theorem createFeatures_error (c : Choice) (props : Option (List (String × ℕ))) (groups : List (List String)) :
    (∃ e, createFeatures c props groups = .error e) ↔ ∃ g ∈ groups, ∃ e, smootherForGroup c props g = .error e := by
  induction groups with
  | nil => simp [createFeatures]
  | cons g groups ih =>
    unfold createFeatures
    cases hs : smootherForGroup c props g with
    | error e => simp [hs]
    | ok kind =>
      cases hr : createFeatures c props groups with
      | error e =>
        rw [hr] at ih
        simp only [Except.error.injEq, exists_eq', true_iff] at ih
        obtain ⟨g', hg', e', he'⟩ := ih
        simp only [Except.error.injEq, exists_eq', true_iff]
        exact ⟨g', List.mem_cons_of_mem _ hg', e', he'⟩
      | ok rest =>
        rw [hr] at ih
        simp only [reduceCtorEq, exists_false, false_iff] at ih ⊢
        rintro ⟨g', hg', e', he'⟩
        rcases List.mem_cons.mp hg' with rfl | hg'
        · rw [hs] at he'; cases he'
        · exact ih ⟨g', hg', e', he'⟩

theorem has_false (F : DataFrame) (l : List String) : F.has l = false ↔ ∃ c ∈ l, c ∉ F.columns := by
  unfold DataFrame.has
  rw [List.all_eq_false]
  simp

/-- `fit` after the checks of the arguments. -/
theorem fit_training (C : Config σ) (E : Estimator) (F : DataFrame) (y : ℕ → ℝ) (features : List (FeatureSpec × SmootherKind))
    (hv : ∀ i < F.n, E.valid (y i)) (fuel : ℕ) :
    (C.setup features).fit E (C.trainSet F y) fuel =
      if (E.scale F.n y (C.trainSet F y).w).isFinite then
        match fitMain ((C.setup features).paramsFor E) ((C.setup features).oracle E (C.trainSet F y))
          ((C.setup features).cfgs (C.trainSet F y)) (startPrediction E (C.trainSet F y)) fuel with
        | none => none
        | some (.error e) => some (.error (.training e))
        | some (.ok r) => some (.ok ⟨E.link, E.scale F.n y (C.trainSet F y).w, E.offset (C.trainSet F y),
            fittedFeatures F.X F.n (features.map (·.1)) r.factors, r.iterations⟩)
      else some (.error .notFinite) := by
  unfold Setup.fit
  rw [if_pos (show ∀ i < (C.trainSet F y).n, E.valid ((C.trainSet F y).y i) from hv)]
  rfl

/-- **C138.** `fit` succeeds exactly if there is none of the listed reasons for a failure, and otherwise raises the exception that
belongs to one of the reasons that are there: no rows, invalid targets, missing columns, a feature group for which no smoother can
be chosen, a target without mean in link space, stopping criteria that are met from the start, or training that diverges. -/
theorem C138_fit (C : Config σ) (E : Estimator) (o : EstimatorObject) (F : DataFrame) (y : ℕ → ℝ) (fuel : ℕ)
    (hf : normalIterations C.params + 4 ≤ fuel) :
    ((∃ o', o.fit C E F y fuel = some (o', .ok ())) ↔ ∀ e, ¬ FitFails C E o F y e) ∧
    ((∃ e, FitFails C E o F y e) → ∃ o' e, o.fit C E F y fuel = some (o', .error e) ∧ FitFails C E o F y e) := by
  suffices H : (∃ o' e, o.fit C E F y fuel = some (o', .error e) ∧ FitFails C E o F y e) ∨
      ((∃ o', o.fit C E F y fuel = some (o', .ok ())) ∧ ∀ e, ¬ FitFails C E o F y e) by
    rcases H with ⟨o', e, h, he⟩ | ⟨h, hn⟩
    · refine ⟨⟨?_, fun h' => absurd he (h' e)⟩, fun _ => ⟨o', e, h, he⟩⟩
      rintro ⟨o'', h'⟩
      rw [h] at h'
      simp at h'
    · exact ⟨⟨fun _ => hn, fun _ => h⟩, fun ⟨e, he⟩ => absurd he (hn e)⟩
  unfold EstimatorObject.fit EstimatorObject.initFit
  by_cases hn : F.n = 0
  · rw [hn]
    exact .inl ⟨o, _, rfl, .empty hn⟩
  have hlen : checkLenData F.n F.n = .ok () := by
    unfold checkLenData
    rw [if_neg (by rintro ⟨h1, h2⟩; exact hn (h1.trans h2))]
  rw [hlen]
  dsimp only
  by_cases hv : ∀ i < F.n, E.valid (y i)
  swap
  · rw [if_pos hv]
    push Not at hv
    obtain ⟨i, hi, h⟩ := hv
    exact .inl ⟨o, _, rfl, .target i hi h⟩
  rw [if_neg (not_not.mpr hv)]
  by_cases hw : F.has C.weightColumn.toList = false
  · rw [if_pos hw]
    obtain ⟨c, hc, h⟩ := (has_false _ _).mp hw
    exact .inl ⟨o, _, rfl, .weights c (by simpa using hc) h⟩
  rw [if_neg hw]
  cases hcf : createFeatures C.choice C.props (o.groupsFor C F) with
  | error e =>
    obtain ⟨g, hg, e', he'⟩ := (createFeatures_error C.choice C.props (o.groupsFor C F)).mp ⟨e, hcf⟩
    exact .inl ⟨_, _, rfl, .smoother g hg e' he'⟩
  | ok features =>
    have hcols := createFeatures_columns _ _ _ _ hcf
    have hfc : featureColumns features = (o.groupsFor C F).flatten := by
      unfold featureColumns
      rw [← hcols, List.flatMap_def]
    dsimp only
    by_cases hp : F.has (C.priorColumn.toList ++ featureColumns features) = false
    · simp only [hp, Bool.false_eq_true, if_false]
      obtain ⟨c, hc, h⟩ := (has_false _ _).mp hp
      refine .inl ⟨_, _, rfl, ?_⟩
      rcases List.mem_append.mp hc with hc | hc
      · exact .prior c (by simpa using hc) h
      · rw [hfc] at hc
        obtain ⟨g, hg, hc⟩ := List.mem_flatten.mp hc
        exact .column g hg c hc h
    have hp' := hp
    rw [Bool.not_eq_false] at hp'
    simp only [hp', if_true]
    rw [fit_training C E F y features hv fuel]
    by_cases hs : (E.scale F.n y (C.trainSet F y).w).isFinite = true
    swap
    · rw [if_neg hs]
      exact .inl ⟨_, _, rfl, .scale (by simpa using hs)⟩
    rw [if_pos hs]
    obtain ⟨t1, t2, t3⟩ := C138_training ((C.setup features).paramsFor E) ((C.setup features).oracle E (C.trainSet F y))
      ((C.setup features).cfgs (C.trainSet F y)) (startPrediction E (C.trainSet F y)) fuel hf
    obtain ⟨r, hr⟩ := (C21_terminates ((C.setup features).paramsFor E) ((C.setup features).oracle E (C.trainSet F y))
      ((C.setup features).cfgs (C.trainSet F y)) (startPrediction E (C.trainSet F y))).2 fuel hf
    have hempty : (C.setup features).cfgs (C.trainSet F y) = [] ↔ o.groupsFor C F = [] := by
      rw [← hcols]
      simp [Setup.cfgs, Config.setup]
    cases r with
    | error e =>
      rw [hr]
      refine .inl ⟨_, _, rfl, ?_⟩
      cases e with
      | convergenceError => exact .diverged features hcf (t1.mp hr)
      | typeError =>
        rcases t2.mp hr with ⟨h1, h2⟩ | h
        · exact .stopped (fun h => h1 (hempty.mpr h)) h2
        · exact .early features hcf h
    | ok r =>
      have hnone := t3.mp ⟨r, hr⟩
      rw [hr]
      refine .inr ⟨⟨_, rfl⟩, ?_⟩
      intro e he
      cases he with
      | empty h => exact hn h
      | target i hi h => exact h (hv i hi)
      | weights c hc h => exact hw ((has_false _ _).mpr ⟨c, by simp [hc], h⟩)
      | smoother g hg e' h =>
        obtain ⟨e'', h''⟩ := (createFeatures_error C.choice C.props (o.groupsFor C F)).mpr ⟨g, hg, e', h⟩
        rw [hcf] at h''
        cases h''
      | prior c hc h => exact hp ((has_false _ _).mpr ⟨c, by simp [hc], h⟩)
      | column g hg c hc h =>
        exact hp ((has_false _ _).mpr ⟨c, List.mem_append_right _ (by rw [hfc]; exact List.mem_flatten.mpr ⟨g, hg, hc⟩), h⟩)
      | scale h => rw [hs] at h; cases h
      | stopped hg h => exact hnone (.inr (.inl ⟨fun h' => hg (hempty.mp h'), h⟩))
      | early features' hf' h =>
        rw [hcf, Except.ok.injEq] at hf'
        subst hf'
        exact hnone (.inr (.inr h))
      | diverged features' hf' h =>
        rw [hcf, Except.ok.injEq] at hf'
        subst hf'
        exact hnone (.inl h)

end

end CB
