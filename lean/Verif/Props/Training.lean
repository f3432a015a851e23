import Verif.Lemmas.Training
import Mathlib.Data.Rat.Defs
import Mathlib.Algebra.Order.Field.Rat

set_option autoImplicit false
set_option linter.unusedSectionVars false

/-!
C18 - C22: the training loop.
-/
namespace CB

open Spec

variable {K : Type*} [Field K] [LinearOrder K] [IsStrictOrderedRing K]

/-! ### C18: bookkeeping in aggregate mode -/

theorem iterate_balance (p : Params K) (o : Oracle K) (cfgs : List FeatureCfg) (s s' : TState K)
    (hp : p.aggregate = true) (hw : s.WF cfgs) (h : iterate p o cfgs s = .ok s') (e : Bool) (i : ℕ) :
    s'.pred.col e i - s.pred.col e i = storedSum e cfgs s'.feats i - storedSum e cfgs s.feats i ∧
      s'.prediction.col e i - s.pred.col e i =
        storedSum e cfgs (featurePass p o s.iteration s.diverging s.isDiverging s.initialLoss 0 cfgs s.feats s.pred).1 i
          - storedSum e cfgs s.feats i := by
  obtain ⟨feats, pred, r, hfp, _, hr, hf, hpr, _, _, _, hpd, _⟩ := iterate_ok p o cfgs s s' h
  have h1 := featurePass_balance p o s.iteration s.diverging s.isDiverging s.initialLoss hp e i cfgs 0 s.feats s.pred hw.2
  rw [hfp] at h1 ⊢
  simp only at h1 ⊢
  refine ⟨?_, by rw [hpd]; exact h1⟩
  rw [hf, hpr]
  split at hr
  · have h2 := removePreds_balance e i cfgs feats pred r hr
    linarith
  · injection hr with hr
    rw [← hr]
    exact h1

/-- **C18.** In aggregate mode, after any training history (any estimates, smoothers, losses, learning rates, clipping and
rolled back iterations), the running prediction of every sample in link space is the prior prediction plus the sum of the
stored factors of the sample's bins; for the exponents of external features the same holds with prior 0. -/
theorem C18_bookkeeping (p : Params K) (hp : p.aggregate = true) (o : Oracle K) (cfgs : List FeatureCfg) (prior : ℕ → K)
    (past : List (TState K)) (s : TState K) (h : Trace p o cfgs (startState o cfgs prior) past s) (i : ℕ) :
    s.pred.factors i = prior i + storedSum false cfgs s.feats i ∧
      s.pred.exponents i = storedSum true cfgs s.feats i := by
  have key : ∀ e : Bool, s.pred.col e i = (if e then 0 else prior i) + storedSum e cfgs s.feats i := by
    intro e
    induction h with
    | start =>
      have : storedSum e cfgs (startState o cfgs prior).feats i = 0 := by
        unfold startState
        simp only
        induction cfgs with
        | nil => exact storedSum_nil_left _ _ _
        | cons c cs ih =>
          rw [List.map_cons, storedSum_cons, ih]
          simp [stored, FState.init]
      rw [this]
      unfold startState Pred.col
      cases e <;> simp
    | step ht hc hit ih =>
      have hw := trace_WF p o cfgs prior _ _ ht
      have := (iterate_balance p o cfgs _ _ hp hw hit e i).1
      linarith
  have h0 := key false
  have h1 := key true
  simp only [Pred.col, if_true, Bool.false_eq_true, if_false] at h0 h1
  exact ⟨h0, by rw [h1, zero_add]⟩

/-! ### C19: the final factors reproduce the in-sample prediction -/

theorem prepareFeatures_spec :
    ∀ (fss : List (FState K)) (factors : List (ℕ → K)), prepareFeatures fss = .ok factors →
      fss.map (fun fs => fs.agg) = factors.map some := by
  intro fss
  induction fss with
  | nil =>
    intro factors h
    rw [prepareFeatures] at h
    injection h with h
    rw [← h]; rfl
  | cons fs fss ih =>
    intro factors h
    rw [prepareFeatures] at h
    split at h
    · cases h
    · rename_i agg hagg
      split at h
      · cases h
      · rename_i rest hr
        injection h with h
        rw [← h, List.map_cons, List.map_cons, hagg, ih rest hr]

theorem factorSum_eq (e : Bool) (i : ℕ) :
    ∀ (cfgs : List FeatureCfg) (fss : List (FState K)) (factors : List (ℕ → K)),
      fss.map (fun fs => fs.agg) = factors.map some → factorSum e cfgs factors i = storedSum e cfgs fss i := by
  intro cfgs
  induction cfgs with
  | nil => intro fss factors _; simp [factorSum, storedSum]
  | cons cfg cfgs ih =>
    intro fss factors h
    cases fss with
    | nil =>
      have : factors = [] := by simpa using h.symm
      subst this
      simp [factorSum, storedSum]
    | cons fs fss =>
      cases factors with
      | nil => simp at h
      | cons f factors =>
        rw [List.map_cons, List.map_cons] at h
        injection h with h1 h2
        rw [storedSum_cons, ← ih fss factors h2]
        unfold factorSum
        rw [List.zip_cons_cons, List.filter_cons]
        have hst : stored fs (cfg.bin i) = f (cfg.bin i) := by unfold stored; rw [h1]
        by_cases he : cfg.external = e
        · simp [he, hst]
        · simp [he]

theorem trace_prediction (p : Params K) (o : Oracle K) (cfgs : List FeatureCfg) (prior : ℕ → K)
    (past : List (TState K)) (s : TState K) (h : Trace p o cfgs (startState o cfgs prior) past s)
    (hd : s.isDiverging = false) : s.prediction = s.pred := by
  cases h with
  | start => rfl
  | step ht hc hit =>
    obtain ⟨feats, pred, r, _, _, hr, _, hpr, _, _, _, hpd, _⟩ := iterate_ok p o cfgs _ _ hit
    rw [hd] at hr
    simp only [Bool.false_eq_true, if_false, Except.ok.injEq] at hr
    rw [hpd, hpr, ← hr]

/-- A successful fit in terms of its trace. -/
theorem fitMain_ok (p : Params K) (o : Oracle K) (cfgs : List FeatureCfg) (prior : ℕ → K) (fuel : ℕ) (r : FitResult K)
    (h : fitMain p o cfgs prior fuel = some (.ok r)) :
    ∃ (past : List (TState K)) (s : TState K), Trace p o cfgs (startState o cfgs prior) past s ∧
      continues p s = false ∧ s.feats.map (fun fs => fs.agg) = r.factors.map some ∧ r.prediction = s.prediction ∧
      r.iterations = s.iteration := by
  unfold fitMain at h
  split at h
  · cases h
  · cases h
  · rename_i s hl
    obtain ⟨past, ht, hc⟩ := loop_done p o cfgs _ fuel _ s [] .start hl
    refine ⟨past, s, ht, hc, ?_⟩
    split at h
    · cases h
    · rename_i factors hpf
      split at h
      · cases h
      · injection h with h
        injection h with h
        subst h
        exact ⟨prepareFeatures_spec _ _ hpf, rfl, rfl⟩

/-- **C19**, training side: in aggregate mode a successful fit returns as in-sample prediction exactly the prior prediction
plus the sum of the final factors (those the fitted model predicts with). `C19_predict_train` in `Props/Predict.lean`
connects this to `predict`. -/
theorem C19_final_factors (p : Params K) (hp : p.aggregate = true) (o : Oracle K) (cfgs : List FeatureCfg)
    (prior : ℕ → K) (fuel : ℕ) (r : FitResult K) (h : fitMain p o cfgs prior fuel = some (.ok r)) (i : ℕ) :
    r.prediction.factors i = prior i + factorSum false cfgs r.factors i ∧
      r.prediction.exponents i = factorSum true cfgs r.factors i := by
  obtain ⟨past, s, ht, hc, hf, hpred, _⟩ := fitMain_ok p o cfgs prior fuel r h
  have hd : s.isDiverging = false := by
    unfold continues at hc
    rw [Bool.or_eq_false_iff] at hc
    exact hc.2
  rw [hpred, trace_prediction p o cfgs prior past s ht hd, factorSum_eq false i cfgs _ _ hf, factorSum_eq true i cfgs _ _ hf]
  exact C18_bookkeeping p hp o cfgs prior past s ht i

/-! ### C21: termination -/

/-- The number of iterations after which only divergence can keep the loop going. -/
def normalIterations (p : Params K) : ℕ :=
  if p.hierarchical.isSome then max p.maximalIterations (p.hierarchicalIterations + 1) else p.maximalIterations

theorem continues_late (p : Params K) (s : TState K) (h : normalIterations p ≤ s.iteration) :
    continues p s = s.isDiverging := by
  unfold continues checkStop
  unfold normalIterations at h
  cases hh : p.hierarchical.isSome with
  | true =>
    rw [hh] at h
    simp only [if_true] at h
    have h1 : s.iteration ≥ p.maximalIterations := by omega
    have h2 : ¬ s.iteration ≤ p.hierarchicalIterations := by omega
    simp [h1, h2]
  | false =>
    rw [hh] at h
    simp only [Bool.false_eq_true, if_false] at h
    simp [h]

theorem checkConvergence_ok (il loss : Flt K) (dv dv' : ℕ) (isd : Bool)
    (h : checkConvergence il loss dv = .ok (dv', isd)) :
    isd = isDiverged il loss ∧ dv' = dv + (if isd then 1 else 0) ∧ (isd = true → dv' ≤ 4) := by
  unfold checkConvergence at h
  split at h
  · rename_i hd
    split at h
    · cases h
    · rename_i hlt
      injection h with h
      obtain ⟨h1, h2⟩ := Prod.mk.inj h
      subst h1 h2
      exact ⟨hd.symm, rfl, fun _ => by omega⟩
  · rename_i hd
    injection h with h
    obtain ⟨h1, h2⟩ := Prod.mk.inj h
    subst h1 h2
    refine ⟨by simpa using hd, rfl, ?_⟩
    intro h; cases h

/-- In every training history: the divergence counter is at most 4, and every iteration beyond the normal number has been
paid for by a divergence. -/
theorem trace_counter (p : Params K) (o : Oracle K) (cfgs : List FeatureCfg) (prior : ℕ → K) (past : List (TState K))
    (s : TState K) (h : Trace p o cfgs (startState o cfgs prior) past s) :
    s.diverging ≤ 4 ∧ (if s.isDiverging then s.iteration ≤ normalIterations p + s.diverging - 1 ∧ 1 ≤ s.diverging ∨
        s.iteration ≤ normalIterations p else s.iteration ≤ normalIterations p + s.diverging) := by
  induction h with
  | start =>
    unfold startState
    simp
  | @step past s s' ht hc hit ih =>
    obtain ⟨feats, pred, r, _, hcc, _, _, _, hi, _⟩ := iterate_ok p o cfgs _ _ hit
    obtain ⟨h1, h2, h3⟩ := checkConvergence_ok _ _ _ _ _ hcc
    obtain ⟨ih1, ih2⟩ := ih
    have hbound : s.iteration + 1 ≤ normalIterations p + s.diverging := by
      by_cases hl : normalIterations p ≤ s.iteration
      · rw [continues_late p s hl] at hc
        rw [hc] at ih2
        simp only [if_true] at ih2
        rcases ih2 with ih2 | ih2
        · omega
        · -- s.iteration = normalIterations p and the last iteration diverged: the counter is at least 1
          have hd : 1 ≤ s.diverging := by
            cases ht with
            | start => unfold startState at hc; cases hc
            | step ht' hc' hit' =>
              obtain ⟨_, _, _, _, hcc', _⟩ := iterate_ok p o cfgs _ _ hit'
              obtain ⟨_, h2', _⟩ := checkConvergence_ok _ _ _ _ _ hcc'
              rw [hc] at h2'
              simp only [if_true] at h2'
              omega
          omega
      · omega
    cases hd : s'.isDiverging with
    | true =>
      rw [hd] at h2 h3
      simp only [if_true] at h2 ⊢
      refine ⟨h3 rfl, Or.inl ?_⟩
      rw [hi]
      omega
    | false =>
      rw [hd] at h2
      simp only [Bool.false_eq_true, if_false] at h2 ⊢
      rw [hi]
      omega

theorem trace_iterations (p : Params K) (o : Oracle K) (cfgs : List FeatureCfg) (prior : ℕ → K)
    (past : List (TState K)) (s : TState K) (h : Trace p o cfgs (startState o cfgs prior) past s) :
    s.iteration = past.length ∧ s.iteration ≤ normalIterations p + 4 := by
  constructor
  · induction h with
    | start => rfl
    | step _ _ hit ih =>
      obtain ⟨_, _, _, _, _, _, _, _, hi, _⟩ := iterate_ok p o cfgs _ _ hit
      rw [hi, ih]; rfl
  · obtain ⟨h1, h2⟩ := trace_counter p o cfgs prior past s h
    split at h2
    · omega
    · omega

/-- **C21.** Whatever the estimates, smoothers, losses and parameters are: every training history has at most
`max(maximal_iterations, hierarchical iterations + 1) + 4` iterations (`maximal_iterations + 4` without hierarchical
feature groups), and with that many iterations the loop has always come to an end, with a result or an exception. -/
theorem C21_terminates (p : Params K) (o : Oracle K) (cfgs : List FeatureCfg) (prior : ℕ → K) :
    (∀ (past : List (TState K)) (s : TState K), Trace p o cfgs (startState o cfgs prior) past s →
        past.length ≤ normalIterations p + 4) ∧
      ∀ fuel : ℕ, normalIterations p + 4 ≤ fuel → ∃ r, fitMain p o cfgs prior fuel = some r := by
  refine ⟨fun past s h => by have := trace_iterations p o cfgs prior past s h; omega, ?_⟩
  have hloop : ∀ (fuel : ℕ) (past : List (TState K)) (s : TState K),
      Trace p o cfgs (startState o cfgs prior) past s → normalIterations p + 4 ≤ fuel + past.length →
      loop p o cfgs fuel s ≠ .outOfFuel := by
    intro fuel
    induction fuel with
    | zero =>
      intro past s ht hlen
      rw [loop]
      split
      · rename_i hc
        exfalso
        obtain ⟨h1, h2⟩ := trace_iterations p o cfgs prior past s ht
        obtain ⟨h3, h4⟩ := trace_counter p o cfgs prior past s ht
        rw [continues_late p s (by omega)] at hc
        rw [hc] at h4
        simp only [if_true] at h4
        omega
      · simp
    | succ fuel ih =>
      intro past s ht hlen
      rw [loop]
      split
      · rename_i hc
        split
        · simp
        · rename_i s' hit
          exact ih (s :: past) s' (.step ht hc hit) (by simp only [List.length_cons]; omega)
      · simp
  intro fuel hfuel
  have := hloop fuel [] _ .start (by simpa using hfuel)
  unfold fitMain
  split
  · rename_i h; exact absurd h this
  · exact ⟨_, rfl⟩
  · split
    · exact ⟨_, rfl⟩
    · split
      · exact ⟨_, rfl⟩
      · exact ⟨_, rfl⟩

theorem isDiverged_iff (il loss : Flt K) : isDiverged il loss = true ↔ LossDoubled il loss := by
  unfold isDiverged LossDoubled Flt.twice Flt.gt
  cases il <;> cases loss <;> simp [mul_comm]

/-- **C21**, meaning of the counter: the training is marked as diverging exactly when the last loss exceeds twice the initial
loss, which is the loss of the prior prediction, and the counter is the number of iterations so far with such a loss
(`s :: past` without the start state). -/
theorem C21_counter (p : Params K) (o : Oracle K) (cfgs : List FeatureCfg) (prior : ℕ → K) (past : List (TState K))
    (s : TState K) (h : Trace p o cfgs (startState o cfgs prior) past s) :
    s.initialLoss = o.loss ⟨prior, fun _ => 0⟩ ∧
      s.diverging = divergedCount s.initialLoss (s :: past).dropLast ∧
      (past ≠ [] → (s.isDiverging = true ↔ LossDoubled s.initialLoss s.loss)) := by
  classical
  induction h with
  | start => exact ⟨rfl, by simp [startState, divergedCount], by simp⟩
  | @step past s s' ht hc hit ih =>
    obtain ⟨feats, pred, r, _, hcc, _, _, _, _, hil, hls, _⟩ := iterate_ok p o cfgs _ _ hit
    obtain ⟨h1, h2, _⟩ := checkConvergence_ok _ _ _ _ _ hcc
    obtain ⟨ih0, ih1, ih2⟩ := ih
    refine ⟨by rw [hil]; exact ih0, ?_, ?_⟩
    · have : (s' :: s :: past).dropLast = s' :: (s :: past).dropLast := by simp
      rw [this, h2, ih1, h1, hil]
      unfold divergedCount
      rw [List.filter_cons, hls]
      by_cases hd : LossDoubled s.initialLoss (o.loss pred)
      · rw [(isDiverged_iff _ _).mpr hd]; simp [hd]
      · have : isDiverged s.initialLoss (o.loss pred) = false := by
          rw [← Bool.not_eq_true, isDiverged_iff]; exact hd
        rw [this]; simp [hd]
    · intro _
      rw [h1, hil, hls]
      exact isDiverged_iff _ _

/-- **C21**, when `ConvergenceError` is raised: in an iteration, exactly when the loss exceeds twice the initial loss for the
fifth time. -/
theorem C21_convergence_error (p : Params K) (o : Oracle K) (cfgs : List FeatureCfg) (prior : ℕ → K)
    (past : List (TState K)) (s : TState K) (h : Trace p o cfgs (startState o cfgs prior) past s) :
    iterate p o cfgs s = .error .convergenceError ↔
      divergedCount s.initialLoss (s :: past).dropLast = 4 ∧
        LossDoubled s.initialLoss (o.loss
          (featurePass p o s.iteration s.diverging s.isDiverging s.initialLoss 0 cfgs s.feats s.pred).2) := by
  have hle := (trace_counter p o cfgs prior past s h).1
  have hcnt := (C21_counter p o cfgs prior past s h).2.1
  rw [← hcnt, ← isDiverged_iff]
  unfold iterate checkConvergence
  simp only
  cases hd : isDiverged s.initialLoss (o.loss
      (featurePass p o s.iteration s.diverging s.isDiverging s.initialLoss 0 cfgs s.feats s.pred).2) with
  | false => simp
  | true =>
    simp only [if_true]
    by_cases h5 : s.diverging + 1 ≥ 5
    · rw [if_pos h5]
      simp
      omega
    · rw [if_neg h5]
      simp only [if_true]
      constructor
      · intro hh
        exfalso
        split at hh
        · rename_i e he
          have hw := trace_WF p o cfgs prior past s h
          have hlen := featurePass_length p o s.iteration s.diverging s.isDiverging s.initialLoss cfgs 0 s.feats s.pred hw.1
          obtain ⟨ha, hb⟩ := removePreds_ok_iff cfgs _ (featurePass p o s.iteration s.diverging s.isDiverging
            s.initialLoss 0 cfgs s.feats s.pred).2 hlen.symm
          by_cases hall : ∀ fs ∈ (featurePass p o s.iteration s.diverging s.isDiverging s.initialLoss 0 cfgs s.feats s.pred).1,
              fs.agg.isSome = true
          · obtain ⟨r, hr⟩ := ha.mpr hall
            rw [hr] at he; cases he
          · push Not at hall
            obtain ⟨fs, hfs, hn⟩ := hall
            rw [hb ⟨fs, hfs, by simpa using hn⟩] at he
            injection he with he
            rw [← he] at hh
            cases hh
        · cases hh
      · rintro ⟨h4, _⟩; omega

/-- **C21**, the final check after the loop never raises once an iteration has run. -/
theorem C21_final_check (p : Params K) (o : Oracle K) (cfgs : List FeatureCfg) (prior : ℕ → K)
    (past : List (TState K)) (s : TState K) (h : Trace p o cfgs (startState o cfgs prior) past s) (hne : past ≠ [])
    (hc : continues p s = false) : checkConvergence s.initialLoss s.loss s.diverging = .ok (s.diverging, false) := by
  have hd : s.isDiverging = false := by
    unfold continues at hc
    rw [Bool.or_eq_false_iff] at hc
    exact hc.2
  have := (C21_counter p o cfgs prior past s h).2.2 hne
  unfold checkConvergence
  have h2 : isDiverged s.initialLoss s.loss = false := by
    rw [← Bool.not_eq_true, isDiverged_iff, ← this, hd]; simp
  rw [h2]
  simp

/-! ### C22: hierarchical phase -/

/-- **C22**, first part: during the first `training_iterations_hierarchical_features` iterations a feature outside the
hierarchical groups keeps neutral factors and is not fitted. -/
theorem C22_only_hierarchical (p : Params K) (groups : List (List String)) (hh : p.hierarchical = some groups)
    (o : Oracle K) (cfgs : List FeatureCfg) (prior : ℕ → K) (past : List (TState K)) (s : TState K)
    (h : Trace p o cfgs (startState o cfgs prior) past s) (hit : past.length ≤ p.hierarchicalIterations)
    (j : ℕ) (cfg : FeatureCfg) (hj : cfgs[j]? = some cfg) (hout : cfg.group ∉ groups) :
    ∃ fs, s.feats[j]? = some fs ∧ fs.factors = (fun _ => 0) ∧ fs.agg = none := by
  induction h with
  | start =>
    refine ⟨FState.init, ?_, rfl, rfl⟩
    unfold startState
    simp only [List.getElem?_map, hj, Option.map_some]
  | @step past s s' ht hc hit' ih =>
    simp only [List.length_cons] at hit
    obtain ⟨fs, hfs, hz, hn⟩ := ih (by omega)
    have hiter := (trace_iterations p o cfgs prior past s ht).1
    have hw := trace_WF p o cfgs prior past s ht
    obtain ⟨feats, pred, r, hfp, _, hr, hf, _⟩ := iterate_ok p o cfgs _ _ hit'
    obtain ⟨fs', fs0, pred', h1, h2, h3⟩ :=
      featurePass_get p o s.iteration s.diverging s.isDiverging s.initialLoss cfgs 0 s.feats s.pred j cfg fs hj hfs
    have hsk : skipped p s.iteration cfg = true := by
      unfold skipped
      rw [hh]
      simp only [Bool.and_eq_true, decide_eq_true_eq, Bool.not_eq_true', List.contains_eq_mem, decide_eq_false_iff_not]
      exact ⟨by omega, hout⟩
    rw [hfp] at h1
    have hfs' : fs'.factors = (fun _ => 0) ∧ fs'.agg = none := by
      rcases h3 with ⟨_, h3⟩ | ⟨h3, _⟩
      · rw [h3, h2]
        split
        · exact ⟨rfl, hn⟩
        · exact ⟨hz, hn⟩
      · rw [hsk] at h3; cases h3
    rw [hf]
    split at hr
    · -- a rolled back iteration would have failed
      have hlen : feats.length = cfgs.length := by
        have := featurePass_length p o s.iteration s.diverging s.isDiverging s.initialLoss cfgs 0 s.feats s.pred hw.1
        rw [hfp] at this; exact this
      obtain ⟨agg, ha, _⟩ := (removePreds_get cfgs feats pred r hr hlen.symm).2 j fs' h1
      rw [hfs'.2] at ha; cases ha
    · injection hr with hr
      rw [← hr]
      exact ⟨fs', h1, hfs'⟩

/-- **C22**, second part: with hierarchical feature groups training does not end successfully before
`training_iterations_hierarchical_features + 1` iterations, so at least one iteration treats all features. -/
theorem C22_not_cut_short (p : Params K) (hh : p.hierarchical.isSome = true) (o : Oracle K) (cfgs : List FeatureCfg)
    (prior : ℕ → K) (fuel : ℕ) (r : FitResult K) (h : fitMain p o cfgs prior fuel = some (.ok r)) :
    p.hierarchicalIterations + 1 ≤ r.iterations := by
  obtain ⟨past, s, ht, hc, _, _, hri⟩ := fitMain_ok p o cfgs prior fuel r h
  rw [hri]
  by_contra hlt
  unfold continues checkStop at hc
  rw [hh] at hc
  have : s.iteration ≤ p.hierarchicalIterations := by omega
  simp [this] at hc

/-- **C22**, consequence for divergence (a defect): if an iteration of the hierarchical phase diverges, before the fifth
divergence, and some feature is outside the hierarchical groups, the rollback fails with a `TypeError`. -/
theorem C22_divergence_fails (p : Params K) (groups : List (List String)) (hh : p.hierarchical = some groups)
    (o : Oracle K) (cfgs : List FeatureCfg) (prior : ℕ → K) (past : List (TState K)) (s : TState K)
    (h : Trace p o cfgs (startState o cfgs prior) past s) (hit : past.length < p.hierarchicalIterations)
    (hout : ∃ cfg ∈ cfgs, cfg.group ∉ groups)
    (hdiv : isDiverged s.initialLoss (o.loss
      (featurePass p o s.iteration s.diverging s.isDiverging s.initialLoss 0 cfgs s.feats s.pred).2) = true)
    (hcount : s.diverging < 4) : iterate p o cfgs s = .error .typeError := by
  obtain ⟨cfg, hmem, hout⟩ := hout
  obtain ⟨j, hj⟩ := List.mem_iff_getElem?.mp hmem
  obtain ⟨fs, hfs, _, hn⟩ := C22_only_hierarchical p groups hh o cfgs prior past s h (by omega) j cfg hj hout
  have hw := trace_WF p o cfgs prior past s h
  have hiter := (trace_iterations p o cfgs prior past s h).1
  have hlen := featurePass_length p o s.iteration s.diverging s.isDiverging s.initialLoss cfgs 0 s.feats s.pred hw.1
  obtain ⟨fs', fs0, pred', h1, h2, h3⟩ :=
    featurePass_get p o s.iteration s.diverging s.isDiverging s.initialLoss cfgs 0 s.feats s.pred j cfg fs hj hfs
  have hsk : skipped p s.iteration cfg = true := by
    unfold skipped
    rw [hh]
    simp only [Bool.and_eq_true, decide_eq_true_eq, Bool.not_eq_true', List.contains_eq_mem, decide_eq_false_iff_not]
    exact ⟨by omega, hout⟩
  have hfs' : fs'.agg = none := by
    rcases h3 with ⟨_, h3⟩ | ⟨h3, _⟩
    · rw [h3, h2]
      split <;> exact hn
    · rw [hsk] at h3; cases h3
  have hrem := (removePreds_ok_iff cfgs _ (featurePass p o s.iteration s.diverging s.isDiverging
    s.initialLoss 0 cfgs s.feats s.pred).2 hlen.symm).2 ⟨fs', List.mem_of_getElem? h1, hfs'⟩
  unfold iterate checkConvergence
  simp only
  rw [hdiv]
  simp only [if_true]
  rw [if_neg (by omega)]
  simp only [if_true]
  rw [hrem]

/-! ### C20: non-aggregate mode -/

/-- In non-aggregate mode a feature iteration stores the new factors and replaces the previous contribution. -/
theorem featureIteration_replace (p : Params K) (o : Oracle K) (it i : ℕ) (cfg : FeatureCfg) (dv : ℕ) (isd : Bool)
    (il : Flt K) (fs : FState K) (pred : Pred K) (hp : p.aggregate = false) :
    (featureIteration p o it i cfg dv isd il fs pred).2 =
        (pred.remove cfg (predInSample cfg fs)).update cfg
          (predInSample cfg (featureIteration p o it i cfg dv isd il fs pred).1) ∧
      ∀ b, stored (featureIteration p o it i cfg dv isd il fs pred).1 b =
        (featureIteration p o it i cfg dv isd il fs pred).1.factors b := by
  constructor
  · unfold featureIteration
    simp only [visitFactors_pred, hp, Bool.false_eq_true, if_false]
  · intro b
    unfold featureIteration visitFactors stored
    simp [hp]

/-- In non-aggregate mode: if every stored factor array is the current one (0 if there is none), the same holds after a pass
over the features, and prediction and stored factors change by the same amount. -/
theorem featurePass_replace (p : Params K) (o : Oracle K) (it dv : ℕ) (isd : Bool) (il : Flt K)
    (hp : p.aggregate = false) (e : Bool) (s : ℕ) :
    ∀ (cfgs : List FeatureCfg) (i : ℕ) (fss : List (FState K)) (pred : Pred K),
      (∀ fs ∈ fss, ∀ b, stored fs b = fs.factors b) → (it = 0 → ∀ fs ∈ fss, ∀ b, stored fs b = 0) →
      ((featurePass p o it dv isd il i cfgs fss pred).2.col e s - pred.col e s =
        storedSum e cfgs (featurePass p o it dv isd il i cfgs fss pred).1 s - storedSum e cfgs fss s) ∧
      ∀ fs ∈ (featurePass p o it dv isd il i cfgs fss pred).1, ∀ b, stored fs b = fs.factors b := by
  intro cfgs
  induction cfgs with
  | nil => intro i fss pred _ _; simp [featurePass, storedSum_nil_left]
  | cons cfg cfgs ih =>
    intro i fss pred hcur hz
    cases fss with
    | nil => simp [featurePass, storedSum_nil_right]
    | cons fs fss =>
      have hcur0 := hcur fs (by simp)
      have hcurs : ∀ g ∈ fss, ∀ b, stored g b = g.factors b := fun g hg => hcur g (by simp [hg])
      have hzs : it = 0 → ∀ g ∈ fss, ∀ b, stored g b = 0 := fun h0 g hg => hz h0 g (by simp [hg])
      rw [featurePass]
      simp only
      generalize hfs0 : (if it = 0 then { fs with factors := fun _ => 0 } else fs : FState K) = fs0
      have hs0 : stored fs0 = stored fs := by rw [← hfs0]; split <;> rfl
      have hc0 : ∀ b, stored fs0 b = fs0.factors b := by
        intro b
        rw [hs0, ← hfs0]
        split
        · rename_i h0; exact hz h0 fs (by simp) b
        · exact hcur0 b
      cases hsk : skipped p it cfg with
      | true =>
        simp only [if_true]
        obtain ⟨ih1, ih2⟩ := ih (i + 1) fss pred hcurs hzs
        have h2 : stored ({ fs0 with factorsOld := fs0.factors } : FState K) = stored fs0 := rfl
        constructor
        · rw [storedSum_cons, storedSum_cons, h2, hs0]
          linarith
        · intro g hg b
          rcases List.mem_cons.mp hg with rfl | hg
          · rw [h2]; exact hc0 b
          · exact ih2 g hg b
      | false =>
        simp only [Bool.false_eq_true, if_false]
        obtain ⟨h1, h2⟩ := featureIteration_replace p o it i cfg dv isd il fs0 pred hp
        generalize hF : featureIteration p o it i cfg dv isd il fs0 pred = F at h1 h2
        obtain ⟨ih1, ih2⟩ := ih (i + 1) fss F.2 hcurs hzs
        have h3 : F.2.col e s = pred.col e s - (if cfg.external = e then stored fs (cfg.bin s) else 0)
            + (if cfg.external = e then F.1.factors (cfg.bin s) else 0) := by
          rw [h1, col_update, col_remove]
          unfold predInSample
          rw [← hs0, hc0]
        constructor
        · rw [storedSum_cons, storedSum_cons, h2 (cfg.bin s)]
          by_cases he : cfg.external = e
          · simp only [he, if_true] at h3 ⊢
            linarith
          · simp only [he, if_false] at h3 ⊢
            linarith
        · intro g hg b
          rcases List.mem_cons.mp hg with rfl | hg
          · exact h2 b
          · exact ih2 g hg b

/-- **C20**, without divergence: in non-aggregate mode, after any training history in which no iteration diverged, the running
prediction is the prior prediction plus the sum of the stored factors. What is missing for the full claim, histories with a
diverging iteration, is false of the code: `C20_divergence_counterexample`. -/
theorem C20_replace_partial (p : Params K) (hp : p.aggregate = false) (o : Oracle K) (cfgs : List FeatureCfg)
    (prior : ℕ → K) (past : List (TState K)) (s : TState K) (h : Trace p o cfgs (startState o cfgs prior) past s)
    (hnd : s.diverging = 0) (i : ℕ) :
    s.pred.factors i = prior i + storedSum false cfgs s.feats i ∧
      s.pred.exponents i = storedSum true cfgs s.feats i := by
  have key : ∀ e : Bool, s.pred.col e i = (if e then 0 else prior i) + storedSum e cfgs s.feats i ∧
      (∀ fs ∈ s.feats, ∀ b, stored fs b = fs.factors b) ∧ (s.iteration = 0 → ∀ fs ∈ s.feats, ∀ b, stored fs b = 0) := by
    intro e
    induction h with
    | start =>
      have hinit : ∀ fs ∈ (startState o cfgs prior).feats, fs = FState.init := by
        intro fs hfs
        unfold startState at hfs
        simp only [List.mem_map] at hfs
        obtain ⟨_, _, rfl⟩ := hfs
        rfl
      refine ⟨?_, ?_, ?_⟩
      · have : storedSum e cfgs (startState o cfgs prior).feats i = 0 := by
          unfold startState
          simp only
          clear hinit hnd
          induction cfgs with
          | nil => exact storedSum_nil_left _ _ _
          | cons c cs ih =>
            rw [List.map_cons, storedSum_cons, ih]
            simp [stored, FState.init]
        rw [this]
        unfold startState Pred.col
        cases e <;> simp
      · intro fs hfs b; rw [hinit fs hfs]; rfl
      · intro _ fs hfs b; rw [hinit fs hfs]; rfl
    | @step past s s' ht hc hit ih =>
      obtain ⟨feats, pred, r, hfp, hcc, hr, hf, hpr, hi, _⟩ := iterate_ok p o cfgs _ _ hit
      obtain ⟨_, h2, _⟩ := checkConvergence_ok _ _ _ _ _ hcc
      have hd : s'.isDiverging = false := by
        cases hd : s'.isDiverging with
        | false => rfl
        | true => rw [hd] at h2; simp only [if_true] at h2; omega
      rw [hd] at h2 hr
      simp only [Bool.false_eq_true, if_false, Except.ok.injEq] at h2 hr
      obtain ⟨ih1, ih2, ih3⟩ := ih (by omega)
      obtain ⟨a, b⟩ := featurePass_replace p o s.iteration s.diverging s.isDiverging s.initialLoss hp e i cfgs 0 s.feats
        s.pred ih2 ih3
      rw [hfp] at a b
      simp only at a b
      rw [hf, hpr, ← hr]
      simp only
      exact ⟨by linarith, b, by intro h0; omega⟩
  have h0 := (key false).1
  have h1 := (key true).1
  simp only [Pred.col, if_true, Bool.false_eq_true, if_false] at h0 h1
  exact ⟨h0, by rw [h1, zero_add]⟩

end CB
