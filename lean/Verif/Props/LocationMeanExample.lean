import Verif.Props.LocationMean
import Verif.Props.OneFeatureExample

/-!
# When C127 applies
-/

set_option autoImplicit false
set_option linter.unusedSectionVars false

namespace CB
open Finset Spec

noncomputable section

/-- The two samples of `exData` (targets 0 and 2); the first has no prior prediction, the one of the second is 7. -/
def locData : TrainSet := { exData with prior := some fun s => if s = 0 then .nan else .fin 7 }

theorem locScale : locationEstimator.scale locData.n locData.y locData.w = .fin (1001 / 1000) := by
  rw [location_scale]
  norm_num [locData, exData, sum_range_succ]

theorem locOffset : locationEstimator.offset locData = .fin (1001 / 1000 - 7) := by
  have hm : priorPredMean locData.n (fun s => if s = 0 then .nan else .fin 7) locData.w = .fin 7 := by
    unfold priorPredMean
    simp only [show locData.n = 2 from rfl, sum_range_succ, range_zero, sum_empty]
    norm_num [locData, exData, Flt.isFinite, Flt.getFin, quotientFlt]
  unfold Estimator.offset
  simp only [show locData.prior = some fun s => if s = 0 then .nan else .fin 7 from rfl, locScale,
    show locationEstimator.shiftPrior = true from rfl, show locationEstimator.link = .identity from rfl, if_true]
  unfold priorOffsetFrom
  rw [hm]
  simp [linkFlt, Flt.isFinite, Flt.sub]

theorem locBaseline : ∀ i < 2, baseline locationEstimator locData (1001 / 1000) i = 1001 / 1000 := by
  intro i hi
  unfold baseline
  rw [locOffset]
  simp only [show locData.prior = some fun s => if s = 0 then .nan else .fin 7 from rfl, priorPrediction,
    show locationEstimator.link = .identity from rfl, linkFlt]
  interval_cases i <;> norm_num [Flt.isFinite, Flt.add, Flt.getFin]

theorem locEstimate (p : ℕ → ℝ) (h0 : p 0 = 1001 / 1000) (h1 : p 1 = 1001 / 1000) (b : ℕ) (hb : b < 2) :
    locationParameter 2 (fun s => [0, 1].getD s 0) p exData.y exData.w b = if b = 0 then -2.002 / 2.01 else 1.998 / 2.01 := by
  have hv : ∀ b < 2, precalcVarianceY 2 (fun s => [0, 1].getD s 0) exData.y exData.w b = 1 / 2 := by
    intro b hb
    unfold precalcVarianceY variancePrior binSum
    simp only [sum_range_succ, range_zero, sum_empty, List.getD_cons_zero, List.getD_cons_succ]
    interval_cases b <;> norm_num [exData]
  unfold locationParameter interceptParameter calcFactorsGeneric binSum
  simp only [sum_range_succ, range_zero, sum_empty, h0, h1]
  simp only [List.getD_cons_zero, List.getD_cons_succ, hv 0 (by norm_num), hv 1 (by norm_num)]
  interval_cases b <;> norm_num [exData]

theorem locFit : ∃ m, plainSetup.fit locationEstimator locData 1 = some (.ok m) := by
  have hbind : bindData locData.X 2 ["a"] none = ([0, 1], [2]) := exBind
  have hcfg : plainSetup.cfgs locData = [exC] := by
    simp [Setup.cfgs, plainSetup, exC, FeatureSpec.cfg, show locData.n = 2 from rfl, hbind]
  have hfe : plainSetup.features[0]? = some calFeature := rfl
  have hfc : calFeature.1.cfg locData.X locData.n = exC := oneCfg
  refine (oneIteration plainSetup locationEstimator locData (1001 / 1000) (fun _ _ => trivial) locScale rfl rfl (by norm_num [exSetup, plainSetup])
    (by norm_num [exSetup, plainSetup]) ?_).2.imp fun m hm => hm.1
  rw [hcfg]
  set q : Pred ℝ := ⟨baseline locationEstimator locData (1001 / 1000), fun _ => 0⟩ with hq
  have hq0 : q.factors 0 = 1001 / 1000 := locBaseline 0 (by norm_num)
  have hq1 : q.factors 1 = 1001 / 1000 := locBaseline 1 (by norm_num)
  have hest : ∀ b < 2, (plainSetup.oracle locationEstimator locData).estimate 0 0 q FState.init b
      = if b = 0 then -2.002 / 2.01 else 1.998 / 2.01 := by
    intro b hb
    simp only [Setup.oracle, hfe, hfc]
    exact locEstimate q.factors hq0 hq1 b hb
  have hsm : ∀ fs b, b < 2 → (plainSetup.oracle locationEstimator locData).smooth 0 0 q fs
      ((plainSetup.oracle locationEstimator locData).estimate 0 0 q FState.init) b = some (if b = 0 then -2.002 / 2.01 else 1.998 / 2.01) := by
    intro fs b hb
    have hu := oneUnsmoothed locData.y locData.w (fun _ => one_ne_zero) b hb
    rcases hu with ⟨-, hu⟩ | ⟨hu, -⟩
    · exact (hu _ _).trans (congrArg some (hest b hb))
    · have : b = 2 := by rw [hu]; show (calFeature.1.cfg exData.X exData.n).nFinite = 2; rw [oneCfg]
      omega
  have hmiss : (plainSetup.oracle locationEstimator locData).estimate 0 0 q FState.init 2 = 0 := by
    simp only [Setup.oracle, hfe, hfc]
    show locationParameter 2 (fun s => [0, 1].getD s 0) q.factors exData.y exData.w 2 = 0
    unfold locationParameter interceptParameter calcFactorsGeneric binSum
    simp only [sum_range_succ, range_zero, sum_empty]
    norm_num
  have hpred : ∀ il, ∀ s < 2, (featurePass (plainSetup.paramsFor locationEstimator) (plainSetup.oracle locationEstimator locData) 0 0 false il
        0 [exC] [FState.init] q).2.factors s = 1001 / 1000 + if s = 0 then -2 / 2.01 else 2 / 2.01 := by
    intro il s hs2
    have hc : (plainSetup.paramsFor locationEstimator).clip = false := by simp [Setup.paramsFor, locationEstimator]
    have ha : (plainSetup.paramsFor locationEstimator).aggregate = true := rfl
    have hk : skipped (plainSetup.paramsFor locationEstimator) 0 exC = false := rfl
    have hl : (plainSetup.oracle locationEstimator locData).learnRate 1 = 1 := rfl
    have hcal : ∀ fs : FState ℝ, (plainSetup.oracle locationEstimator locData).calibrate 0 0 fs
        = locCalibrate exC (binSum 2 exC.bin exData.w) fs.factors := fun fs => by simp only [Setup.oracle, hfe, hfc]; rfl
    simp only [featurePass, hk, if_true, Bool.false_eq_true, if_false, featureIteration, ha, visitFactors, hc, Bool.false_and,
      hl, hcal, updateFactors, FState.init, Pred.update, predInSample]
    have h0 := hsm (updateFactors exC FState.init ((plainSetup.oracle locationEstimator locData).estimate 0 0 q FState.init) 1) 0 (by norm_num)
    have h1 := hsm (updateFactors exC FState.init ((plainSetup.oracle locationEstimator locData).estimate 0 0 q FState.init) 1) 1 (by norm_num)
    simp only [updateFactors, FState.init, Bool.false_eq_true, if_false, mul_one] at h0 h1
    unfold locCalibrate binSum predictFactors
    simp only [sum_range_succ, range_zero, sum_empty, Bool.false_eq_true, if_false]
    interval_cases s
    · simp [h0, h1, hq0, exData]
      norm_num
    · simp [h0, h1, hq1, exData]
      norm_num
  have h0 := hpred ((plainSetup.oracle locationEstimator locData).loss q) 0 (by norm_num)
  have h1 := hpred ((plainSetup.oracle locationEstimator locData).loss q) 1 (by norm_num)
  simp only [List.map_cons, List.map_nil]
  revert h0 h1
  generalize (featurePass (plainSetup.paramsFor locationEstimator) _ _ _ _ _ _ _ _ _).2 = r
  intro h0 h1
  simp only [Setup.oracle, locationEstimator, squaredLoss, LinkKind.toLink, identityLink, show locData.n = 2 from rfl, sum_range_succ, range_zero,
    sum_empty]
  simp only [h0, h1, hq0, hq1]
  norm_num [quotientFlt, isDiverged, Flt.twice, Flt.gt, locData, exData]

/-- Witness for C127: predictions for targets 0 and 2 that differ and have mean 1.001. -/
example : ∃ m, plainSetup.fit locationEstimator locData 1 = some (.ok m) ∧
    (m.predict locData.prior locData.X 0 + m.predict locData.prior locData.X 1) / 2 = 1.001 := by
  obtain ⟨m, hm⟩ := locFit
  refine ⟨m, hm, ?_⟩
  have h := C127_mean plainSetup locData rfl (by simp [plainSetup])
    (by
      intro f hf c hc
      obtain rfl : f = calFeature := by simpa [plainSetup, calFeature] using hf
      exact oneInts c hc)
    (fun _ _ => by simp [locData, exData])
    (by
      intro f hf
      obtain rfl : f = calFeature := by simpa [plainSetup, calFeature] using hf
      exact ⟨0, by simp [locData, exData], by simp [locData, exData], by simp [calFeature]⟩)
    (fun _ _ i hi => ⟨i, hi, rfl, by simp [locData, exData]⟩) 1 m hm
  norm_num [show locData.n = 2 from rfl, sum_range_succ, show locData.w = fun _ => 1 from rfl, show locData.y = fun s : ℕ => 2 * (s : ℝ) from rfl] at h
  norm_num
  exact h

end
end CB
