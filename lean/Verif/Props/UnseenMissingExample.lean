import Verif.Props.UnseenMissing
import Verif.Props.LocationSettledExample
import Verif.Props.DispersionFitExample
import Verif.Props.OneFeatureExample

/-!
# C128: witnesses, and the location regressor
-/

set_option autoImplicit false
set_option linter.unusedSectionVars false

namespace CB
open Finset Spec

noncomputable section

theorem exNoMissing (y w : ℕ → ℝ) (prior : Option (ℕ → Flt ℝ)) : NoMissing { exData with y := y, w := w, prior := prior } ["a"] := by
  intro s _ c _
  refine ⟨if s = 0 then 0 else 1, rfl, ?_⟩
  split_ifs <;> norm_num

/-- Witness for C128, background subtraction. -/
example : ∃ (m : FittedModel) (g : FittedFeature ℝ), plainSetup.fit (gbsEstimator 0) exData 5 = some (.ok m) ∧ m.features[0]? = some g ∧ g.predict [.nan] = 0 := by
  have hsm := C80_no_smoothing plainSetup noOpen plainChoice none [["a"]] rfl plainFeatures rfl exData
  have hw : ∀ i < exData.n, 0 ≤ exData.w i := fun _ _ => by simp [exData]
  have hlr : ∀ k, 0 ≤ plainSetup.learnRate k ∧ plainSetup.learnRate k ≤ 1 := fun k => by simp [plainSetup]
  obtain ⟨hnd, m, hm⟩ := C80_fit_succeeds plainSetup exData 0 rfl le_rfl hw hlr (by simp [plainSetup]) hsm
    (by simp [exData]) le_rfl rfl (by norm_num [plainSetup, exSetup]) (by norm_num [plainSetup, exSetup]) 5 le_rfl
  obtain ⟨g, h1, -, h2⟩ := C128_neutral_partial plainSetup (gbsEstimator 0) exData rfl realConsts_ok hlr (.gbs 0) 5 m hm hnd 0 calFeature rfl
    (by simp [calFeature]) (exNoMissing _ _ _)
  exact ⟨m, g, hm, h1, h2 _ ⟨.nan, by simp, fun x hx => by cases hx⟩⟩

/-- Witness for C128, Poisson. -/
example (g : ℝ → ℝ) (hg : IsGamma2Median (g 2)) : ∃ (m : FittedModel) (f : FittedFeature ℝ), (poSetupWith false).fit (poissonEstimator g) (poDataWith none) 1 = some (.ok m) ∧
    m.features[0]? = some f ∧ 0 ≤ f.predict [.fin (-1)] ∧ f.predict [.fin (-1)] ≤ m.iterations * 6e-6 := by
  obtain ⟨hnd, m, hm, -⟩ := poFitWith g false none rfl
  obtain ⟨f, h1, -, h2⟩ := C128_poisson_partial (poSetupWith false) (poissonEstimator g) (poDataWith none) g hg (.inl rfl) rfl realConsts_ok
    (fun k => by simp [poSetupWith]) 1 m hm hnd 0 _ rfl (by simp) (exNoMissing _ _ _)
  exact ⟨m, f, hm, h1, h2 _ ⟨.fin (-1), by simp, fun x hx => by rw [Flt.fin.injEq] at hx; rw [← hx]; norm_num⟩⟩

theorem fit_iterations_pos {σ : Type*} (S : Setup σ) (E : Estimator) (D : TrainSet) (hm : 1 ≤ S.params.maximalIterations)
    (hf : S.params.minimalFactorChange < 100) (hlc : S.params.minimalLossChange < 100000000000000000000)
    (fuel : ℕ) (m : FittedModel) (h : S.fit E D fuel = some (.ok m)) :
    1 ≤ m.iterations ∧ m.iterations ≤ normalIterations S.params + 4 := by
  obtain ⟨a, r, -, hs, hfit, rfl⟩ := fit_ok S E D fuel m h
  obtain ⟨past, st, htr, hstop, -, -, hit⟩ := fitMain_ok _ _ _ _ fuel r hfit
  have hi := trace_iterations _ _ _ _ _ _ htr
  show 1 ≤ r.iterations ∧ r.iterations ≤ _
  rw [hit]
  refine ⟨?_, hi.2⟩
  rw [hi.1]
  cases htr with
  | start =>
    exfalso
    have hm' : (S.paramsFor E).maximalIterations = S.params.maximalIterations := rfl
    have hf' : (S.paramsFor E).minimalFactorChange = S.params.minimalFactorChange := rfl
    have hl' : (S.paramsFor E).minimalLossChange = S.params.minimalLossChange := rfl
    have : ¬ S.params.maximalIterations = 0 := by omega
    simp [continues, checkStop, startState, hm', hf', hl', Flt.absLe, not_le.mpr hf, not_le.mpr hlc, this] at hstop
  | step ht hc hit => simp

/-- Witness for C128, `CBGenericClassifier`: one iteration halves the odds. -/
example : ∃ (m : FittedModel) (g : FittedFeature ℝ), plainSetup.fit (genericClassifierEstimator (fun _ _ _ => 1 / 2) id (fun _ => .fin 0) fun _ x => x)
      { exData with y := fun s => if s = 0 then 0 else 1 } 1 = some (.ok m) ∧
    m.features[0]? = some g ∧ g.predict [.nan] = -Real.log 2 * m.iterations ∧ 1 ≤ m.iterations := by
  set E := genericClassifierEstimator (fun _ _ _ => 1 / 2) id (fun _ => .fin 0) fun _ x => x with hE
  set D : TrainSet := { exData with y := fun s => if s = 0 then 0 else 1 } with hD
  obtain ⟨a, ha⟩ : ∃ a, E.scale D.n D.y D.w = .fin a := by
    refine ⟨Real.log (501 / 499), ?_⟩
    simp only [hE, hD, genericClassifierEstimator, globalScaleLink, show exData.n = 2 from rfl, sum_range_succ, range_zero, sum_empty]
    norm_num [exData, quotientFlt, Flt.addFin, linkFlt]
  obtain ⟨hnd, m, hm, -⟩ := oneIteration plainSetup E D a (fun i _ => by
      show D.y i = 0 ∨ D.y i = 1
      simp only [hD]
      split_ifs <;> simp) ha rfl rfl
    (by norm_num [exSetup, plainSetup]) (by norm_num [exSetup, plainSetup]) (by
      show isDiverged (.fin 0) (.fin 0) = false
      norm_num [isDiverged, Flt.twice, Flt.gt])
  obtain ⟨g, h1, -, h2⟩ := C128_generic_classifier_drift plainSetup D (fun _ _ _ => 1 / 2) id (fun _ => .fin 0) (fun _ x => x) (fun _ _ => rfl)
    rfl realConsts_ok rfl 1 m hm hnd 0 calFeature rfl (by simp [calFeature]) rfl (exNoMissing _ _ _)
  refine ⟨m, g, hm, h1, ?_, (fit_iterations_pos plainSetup E D le_rfl (by norm_num [exSetup, plainSetup])
    (by norm_num [exSetup, plainSetup]) 1 m hm).1⟩
  rw [h2 _ ⟨.nan, by simp, fun x hx => by cases hx⟩]
  simp [plainSetup]

/-- Witness for C128, `CBNBinomC`: the dispersion parameter of such a missing value is shifted by -10 in the first iteration. -/
example : ∃ (m : FittedModel) (g : FittedFeature ℝ), plainSetup.fit (dispersionEstimator { dispArgs with nSteps := 10 } fun _ => 1) exData.clipPrior 5 = some (.ok m) ∧
    m.features[0]? = some g ∧ g.predict [.nan] ≤ -10 := by
  have hga : 0 ≤ dispArgs.gamma := by norm_num [dispArgs]
  have hy : ∀ i < exData.n, exData.y i = ((2 * i : ℕ) : ℝ) := fun i _ => by simp [exData]
  have hsm := noSmoothing_keeps plainSetup noOpen plainChoice none [["a"]] rfl plainFeatures rfl exData
  obtain ⟨hnd, m, hm⟩ := C95_fit_succeeds plainSetup { dispArgs with nSteps := 10 } (fun _ => 1) exData (fun s => 2 * s) rfl hga
    (fun _ _ => one_pos) hy rfl
    (fun _ => rfl) (by simp [plainSetup]) hsm le_rfl rfl (by norm_num [plainSetup, exSetup]) (by norm_num [plainSetup, exSetup]) 5 le_rfl
  obtain ⟨i1, i2⟩ := fit_iterations_pos plainSetup _ _ le_rfl (by norm_num [exSetup, plainSetup])
    (by norm_num [exSetup, plainSetup]) 5 m hm
  obtain ⟨g, h1, -, h2⟩ := C128_dispersion_drift plainSetup { dispArgs with nSteps := 10 } (fun _ => 1) rfl exData.clipPrior
    rfl realConsts_ok rfl 5 m hm (by
      have : normalIterations plainSetup.params = 1 := rfl
      show 2 * m.iterations ≤ 10
      omega) hnd 0 calFeature rfl (by simp [calFeature]) rfl (exNoMissing _ _ _)
  refine ⟨m, g, hm, h1, ?_⟩
  rw [h2 _ ⟨.nan, by simp, fun x hx => by cases hx⟩, neg_le_neg_iff]
  refine le_trans ?_ (single_le_sum (f := fun t : ℕ => plainSetup.learnRate (t + 1) * (10 : ℝ) ^ (1 / ((t + 1 : ℕ) : ℝ)))
    (fun t _ => by simp only [plainSetup, one_mul]; positivity) (mem_range.mpr i1))
  simp [plainSetup]

/-! ### The location regressor -/

theorem learnedCfgs : plainSetup.cfgs flatData = [exC] := by
  show plainSetup.cfgs exData = _
  simp [Setup.cfgs, plainSetup, FeatureSpec.cfg, show exData.n = 2 from rfl, exBind]

theorem learnedCfg : calFeature.1.cfg flatData.X flatData.n = exC := oneCfg

/-- Calibration takes equal updates away from the bins with samples and gives the negative update to the missing values. -/
theorem learnedCalibrate (raw : ℕ → ℝ) (h : raw 0 = raw 1) :
    (∀ b < 2, locCalibrate exC (binSum 2 exC.bin exData.w) raw b = 0) ∧
      locCalibrate exC (binSum 2 exC.bin exData.w) raw 2 = raw 2 - raw 0 := by
  unfold locCalibrate binSum
  simp only [sum_range_succ, range_zero, sum_empty]
  constructor
  · intro b hb
    interval_cases b
    · simp [exData, h]; ring
    · simp [exData, h]; ring
  · simp [exData, h]; ring

theorem learnedEstimate_missing (p : ℕ → ℝ) : locationParameter 2 exC.bin p (fun _ => 1) exData.w 2 = 0 := by
  unfold locationParameter interceptParameter calcFactorsGeneric binSum
  simp only [sum_range_succ, range_zero, sum_empty]
  norm_num

theorem learnedFit : NeverDiverges plainSetup locationEstimator flatData ∧
    ∃ m, plainSetup.fit locationEstimator flatData 1 = some (.ok m) := by
  have hfe : plainSetup.features[0]? = some calFeature := rfl
  set q : Pred ℝ := ⟨fun _ => 1001 / 1000, fun _ => 0⟩ with hq
  have key := oneIteration plainSetup locationEstimator flatData (1001 / 1000) (fun _ _ => trivial) flatScale rfl rfl
    (by norm_num [exSetup, plainSetup]) (by norm_num [exSetup, plainSetup])
  rw [learnedCfgs, flatBaseline, ← hq] at key
  have hsm : ∀ fs b, b < 2 → (plainSetup.oracle locationEstimator flatData).smooth 0 0 q fs
      ((plainSetup.oracle locationEstimator flatData).estimate 0 0 q FState.init) b = some (-0.002 / 2.01) := by
    intro fs b hb
    rcases oneUnsmoothed (fun _ => 1) exData.w (fun _ => one_ne_zero) b hb with ⟨-, hu⟩ | ⟨hu, -⟩
    · refine (hu _ _).trans (congrArg some ?_)
      simp only [Setup.oracle, hfe, learnedCfg]
      exact flatEstimate q.factors rfl rfl b hb
    · have hu : b = (calFeature.1.cfg flatData.X flatData.n).nFinite := hu
      rw [learnedCfg] at hu
      have : b = 2 := hu
      omega
  have hpred : ∀ il, ∀ s < 2, (featurePass (plainSetup.paramsFor locationEstimator) (plainSetup.oracle locationEstimator flatData) 0 0
        false il 0 [exC] [FState.init] q).2.factors s = 1001 / 1000 := by
    intro il s hs2
    have hc : (plainSetup.paramsFor locationEstimator).clip = false := by simp [Setup.paramsFor, locationEstimator]
    have ha : (plainSetup.paramsFor locationEstimator).aggregate = true := rfl
    have hk : skipped (plainSetup.paramsFor locationEstimator) 0 exC = false := rfl
    have hl : (plainSetup.oracle locationEstimator flatData).learnRate 1 = 1 := rfl
    have hcal : ∀ fs : FState ℝ, (plainSetup.oracle locationEstimator flatData).calibrate 0 0 fs
        = locCalibrate exC (binSum 2 exC.bin exData.w) fs.factors :=
      fun fs => by simp only [Setup.oracle, hfe, learnedCfg]; rfl
    simp only [featurePass, hk, if_true, Bool.false_eq_true, if_false, featureIteration, ha, visitFactors, hc, Bool.false_and,
      hl, hcal, updateFactors, FState.init, Pred.update, predInSample]
    rw [(learnedCalibrate _ ?_).1 _ (by interval_cases s <;> simp), add_zero]
    have h0 := hsm (updateFactors exC FState.init ((plainSetup.oracle locationEstimator flatData).estimate 0 0 q FState.init) 1)
    simp only [updateFactors, FState.init, Bool.false_eq_true, if_false] at h0
    simp only [predictFactors, show (0 : ℕ) < 2 from by norm_num, show (1 : ℕ) < 2 from by norm_num, if_true, Bool.false_eq_true, if_false,
      h0 0 (by norm_num), h0 1 (by norm_num)]
  refine (key ?_).imp id fun h => h.imp fun m hm => hm.1
  have h0 := hpred ((plainSetup.oracle locationEstimator flatData).loss q) 0 (by norm_num)
  have h1 := hpred ((plainSetup.oracle locationEstimator flatData).loss q) 1 (by norm_num)
  simp only [List.map_cons, List.map_nil]
  revert h0 h1
  generalize (featurePass (plainSetup.paramsFor locationEstimator) _ _ _ _ _ _ _ _ _).2 = r
  intro h0 h1
  simp only [Setup.oracle, locationEstimator, squaredLoss, LinkKind.toLink, identityLink, show flatData.n = 2 from rfl, sum_range_succ, range_zero,
    sum_empty]
  simp only [h0, h1, hq]
  norm_num [quotientFlt, isDiverged, Flt.twice, Flt.gt, flatData, exData]

/-- The factor of the missing values grows with every iteration. -/
theorem learnedStored (past : List (TState ℝ)) (s : TState ℝ) (ht : Trace (plainSetup.paramsFor locationEstimator)
    (plainSetup.oracle locationEstimator flatData) (plainSetup.cfgs flatData)
    (startState (plainSetup.oracle locationEstimator flatData) (plainSetup.cfgs flatData) (fun _ => 1001 / 1000)) past s) :
    ∃ fs, s.feats = [fs] ∧ (∀ b < 2, stored fs b = 0) ∧ stored fs 2 = past.length * (0.002 / 2.01) := by
  have hnd := learnedFit.1 _ flatScale
  rw [flatBaseline] at hnd
  have hfe : plainSetup.features[0]? = some calFeature := rfl
  induction ht with
  | start =>
    refine ⟨FState.init, ?_, fun _ _ => rfl, ?_⟩
    · unfold startState
      rw [learnedCfgs]
      rfl
    · simp [stored, FState.init]
  | @step past s s' ht hc hit ih =>
    obtain ⟨fs, hfs, i1, i2⟩ := ih
    have hw' := trace_WF _ _ _ _ _ _ (.step ht hc hit)
    have hlen : s'.feats.length = 1 := by rw [← hw'.1, learnedCfgs]; rfl
    obtain ⟨fs', hfs'⟩ : ∃ fs, s'.feats = [fs] := List.length_eq_one_iff.mp hlen
    refine ⟨fs', hfs', ?_⟩
    have hd := trace_not_diverging _ _ _ _ _ _ ht (hnd _ _ ht)
    have hd' := trace_not_diverging _ _ _ _ _ _ (.step ht hc hit) (hnd _ _ (.step ht hc hit))
    obtain ⟨running, input, raw, hrun, hraw, hupd⟩ := update_calibrated _ rfl rfl _ _ _ past s s' ht hit hd hd' 0 _ fs fs'
      (by rw [learnedCfgs]; rfl) (by rw [hfs]; rfl) (by rw [hfs']; rfl) rfl
    have hz : fs.zeroSmoother = false := by
      by_contra hz
      have := trace_zeroSmoother _ _ _ _ _ _ ht fs (by rw [hfs]; simp) (by simpa using hz)
      have := hnd _ _ ht
      omega
    have hpr : ∀ i < 2, running.factors i = 1001 / 1000 := by
      intro i hi
      rw [hrun i, List.take_zero, List.nil_append, List.drop_zero, hfs, learnedCfgs, storedSum_cons]
      rw [i1 _ (by interval_cases i <;> simp)]
      simp [storedSum]
    have hval : ∀ c < 2, raw c = 1 * (-0.002 / 2.01) := by
      intro c hcl
      refine hraw.2.1 c _ hcl hz ?_
      rcases oneUnsmoothed (fun _ => 1) exData.w (fun _ => one_ne_zero) c hcl with ⟨-, hu⟩ | ⟨hu, -⟩
      · refine (hu _ _).trans (congrArg some ?_)
        simp only [Setup.oracle, hfe, learnedCfg]
        exact flatEstimate running.factors (hpr 0 (by norm_num)) (hpr 1 (by norm_num)) c hcl
      · have hu : c = (calFeature.1.cfg flatData.X flatData.n).nFinite := hu
        rw [learnedCfg] at hu
        have : c = 2 := hu
        omega
    have hmis : raw 2 = 0 := by
      have := hraw.2.2.2.2 rfl
      refine this.trans ?_
      simp only [Setup.oracle, hfe, learnedCfg]
      exact mul_eq_zero_of_right _ (learnedEstimate_missing running.factors)
    have hcal := learnedCalibrate raw (by rw [hval 0 (by norm_num), hval 1 (by norm_num)])
    have hupd' : ∀ b, stored fs' b - stored fs b = locCalibrate exC (binSum 2 exC.bin exData.w) raw b := by
      intro b
      refine (hupd b).trans ?_
      simp only [Setup.oracle, hfe, learnedCfg]
      rfl
    constructor
    · intro b hb
      have := hupd' b
      rw [hcal.1 b hb, i1 b hb] at this
      linarith
    · have := hupd' 2
      rw [hcal.2, i2, hmis, hval 0 (by norm_num)] at this
      rw [List.length_cons]
      push_cast
      linarith

/-- **C128** fails for `CBLocationRegressor`: two training samples of target 1 without missing values; a missing value shifts the
prediction by about 0.001 per iteration. -/
theorem C128_location_counterexample : NoMissing flatData ["a"] ∧ NeverDiverges plainSetup locationEstimator flatData ∧
    ∃ (m : FittedModel) (g : FittedFeature ℝ), plainSetup.fit locationEstimator flatData 1 = some (.ok m) ∧ m.features[0]? = some g ∧ 1 ≤ m.iterations ∧
      ∀ row, LacksBin row → g.predict row = m.iterations * (0.002 / 2.01) := by
  obtain ⟨hnd, m, hm⟩ := learnedFit
  obtain ⟨a, past, st, ha, ht, hit, hpred⟩ := fitted_missing plainSetup locationEstimator flatData 1 m hm 0 calFeature rfl
  rw [flatScale, Flt.fin.injEq] at ha
  subst ha
  rw [flatBaseline] at ht
  obtain ⟨fs, hfs, -, h2⟩ := learnedStored past st ht
  obtain ⟨g, g1, -, g3⟩ := hpred fs (by rw [hfs]; rfl)
  refine ⟨exNoMissing _ _ _, hnd, m, g, hm, g1, (fit_iterations_pos plainSetup _ _ le_rfl (by norm_num [exSetup, plainSetup])
    (by norm_num [exSetup, plainSetup]) 1 m hm).1, fun row hrow => ?_⟩
  rw [g3 row hrow, learnedCfg, hit]
  exact h2

end
end CB
