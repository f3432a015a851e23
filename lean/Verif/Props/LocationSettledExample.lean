import Verif.Props.LocationSettled
import Verif.Props.LocationMeanExample
import Verif.Props.PipelineRowsExample

/-!
# When C111 applies to the location regressor
-/

set_option autoImplicit false
set_option linter.unusedSectionVars false

namespace CB
open Finset Spec

noncomputable section

/-- Two samples of target 1. -/
def flatData : TrainSet := { exData with y := fun _ => 1 }

def flatFeature : FeatureSpec × SmootherKind := (⟨["a"], false, true⟩, .normalizationRegressionType .binValuesOne .discontinuous)

theorem flatScale : locationEstimator.scale flatData.n flatData.y flatData.w = .fin (1001 / 1000) := by
  rw [location_scale]
  norm_num [flatData, exData, sum_range_succ]

theorem flatBaseline : baseline locationEstimator flatData (1001 / 1000) = fun _ => 1001 / 1000 := by
  funext s; rfl

theorem flatCfg : flatFeature.1.cfg flatData.X flatData.n = ⟨["a"], false, 2, fun s => [0, 1].getD s 0, true⟩ := by
  rw [show flatFeature.1 = ⟨["a"], false, true⟩ from rfl]
  show FeatureSpec.cfg _ exData.X exData.n = _
  simp [FeatureSpec.cfg, show exData.n = 2 from rfl, exBind]

theorem flatCfgs : notLearnedSetup.cfgs flatData = [⟨["a"], false, 2, fun s => [0, 1].getD s 0, true⟩] := by
  rw [← flatCfg]; rfl

theorem flatEstimate (p : ℕ → ℝ) (h0 : p 0 = 1001 / 1000) (h1 : p 1 = 1001 / 1000) (b : ℕ) (hb : b < 2) :
    locationParameter 2 (fun s => [0, 1].getD s 0) p (fun _ => 1) exData.w b = -0.002 / 2.01 := by
  have hv : ∀ b < 2, precalcVarianceY 2 (fun s => [0, 1].getD s 0) (fun _ => (1 : ℝ)) exData.w b = 1 / 2 := by
    intro b hb
    unfold precalcVarianceY variancePrior binSum
    simp only [sum_range_succ, range_zero, sum_empty, List.getD_cons_zero, List.getD_cons_succ]
    interval_cases b <;> norm_num [exData]
  unfold locationParameter interceptParameter calcFactorsGeneric binSum
  simp only [sum_range_succ, range_zero, sum_empty, h0, h1]
  simp only [List.getD_cons_zero, List.getD_cons_succ, hv 0 (by norm_num), hv 1 (by norm_num)]
  interval_cases b <;> norm_num [exData]

theorem flatUnsmoothed (b : ℕ) (hb : b < 2) : Unsmoothed notLearnedSetup flatData flatFeature b := by
  refine C111_no_smoothing notLearnedSetup noOpen plainChoice (some catBinner.props) [["a"]] rfl notLearnedFeatures rfl (by simp) _ flatFeature
    (List.mem_singleton.mpr rfl) b (by rw [flatCfg]; exact hb) ?_
  unfold sumInBin
  rw [flatCfg, show flatData.n = 2 from rfl, sum_filter]
  simp only [sum_range_succ, range_zero, sum_empty]
  interval_cases b <;> simp [flatData, exData]

/-- The updates of bins 0 and 1 are equal, so calibration leaves nothing of them. -/
theorem flatCalibrate (raw : ℕ → ℝ) (h : raw 0 = raw 1) (b : ℕ) (hb : b ≤ 2) :
    locCalibrate ⟨["a"], false, 2, fun s => [0, 1].getD s 0, true⟩ (binSum 2 (fun s => [0, 1].getD s 0) exData.w) raw b = 0 := by
  unfold locCalibrate binSum
  simp only [sum_range_succ, range_zero, sum_empty, if_true]
  interval_cases b
  · simp [exData, h]; ring
  · simp [exData, h]; ring
  · simp

theorem flatFit : NeverDiverges notLearnedSetup locationEstimator flatData ∧
    ∃ m, notLearnedSetup.fit locationEstimator flatData 1 = some (.ok m) := by
  have hfe : notLearnedSetup.features[0]? = some flatFeature := rfl
  set q : Pred ℝ := ⟨fun _ => 1001 / 1000, fun _ => 0⟩ with hq
  have key := oneIteration notLearnedSetup locationEstimator flatData (1001 / 1000) (fun _ _ => trivial) flatScale rfl rfl
    (by norm_num [exSetup, notLearnedSetup]) (by norm_num [exSetup, notLearnedSetup])
  rw [flatCfgs, flatBaseline, ← hq] at key
  have hsm : ∀ fs b, b < 2 → (notLearnedSetup.oracle locationEstimator flatData).smooth 0 0 q fs
      ((notLearnedSetup.oracle locationEstimator flatData).estimate 0 0 q FState.init) b = some (-0.002 / 2.01) := by
    intro fs b hb
    rcases flatUnsmoothed b hb with ⟨-, hu⟩ | ⟨hu, -⟩
    · refine (hu _ _).trans (congrArg some ?_)
      simp only [Setup.oracle, hfe, flatCfg]
      exact flatEstimate q.factors rfl rfl b hb
    · rw [flatCfg] at hu
      have : b = 2 := hu
      omega
  have hpred : ∀ il, ∀ s < 2, (featurePass (notLearnedSetup.paramsFor locationEstimator) (notLearnedSetup.oracle locationEstimator flatData) 0 0
        false il 0 [⟨["a"], false, 2, fun s => [0, 1].getD s 0, true⟩] [FState.init] q).2.factors s = 1001 / 1000 := by
    intro il s hs2
    have hc : (notLearnedSetup.paramsFor locationEstimator).clip = false := by simp [Setup.paramsFor, locationEstimator]
    have ha : (notLearnedSetup.paramsFor locationEstimator).aggregate = true := rfl
    have hk : skipped (notLearnedSetup.paramsFor locationEstimator) 0 ⟨["a"], false, 2, fun s => [0, 1].getD s 0, true⟩ = false := rfl
    have hl : (notLearnedSetup.oracle locationEstimator flatData).learnRate 1 = 1 := rfl
    have hcal : ∀ fs : FState ℝ, (notLearnedSetup.oracle locationEstimator flatData).calibrate 0 0 fs
        = locCalibrate ⟨["a"], false, 2, fun s => [0, 1].getD s 0, true⟩ (binSum 2 (fun s => [0, 1].getD s 0) exData.w) fs.factors :=
      fun fs => by simp only [Setup.oracle, hfe, flatCfg]; rfl
    simp only [featurePass, hk, if_true, Bool.false_eq_true, if_false, featureIteration, ha, visitFactors, hc, Bool.false_and,
      hl, hcal, updateFactors, FState.init, Pred.update, predInSample]
    rw [flatCalibrate _ ?_ _ (by interval_cases s <;> simp), add_zero]
    have h0 := hsm (updateFactors ⟨["a"], false, 2, fun s => [0, 1].getD s 0, true⟩ FState.init
      ((notLearnedSetup.oracle locationEstimator flatData).estimate 0 0 q FState.init) 1)
    simp only [updateFactors, FState.init, if_true] at h0
    simp only [predictFactors, show (0 : ℕ) < 2 from by norm_num, show (1 : ℕ) < 2 from by norm_num, if_true, Bool.false_eq_true, if_false,
      h0 0 (by norm_num), h0 1 (by norm_num)]
  refine (key ?_).imp id fun h => h.imp fun m hm => hm.1
  have h0 := hpred ((notLearnedSetup.oracle locationEstimator flatData).loss q) 0 (by norm_num)
  have h1 := hpred ((notLearnedSetup.oracle locationEstimator flatData).loss q) 1 (by norm_num)
  simp only [List.map_cons, List.map_nil]
  revert h0 h1
  generalize (featurePass (notLearnedSetup.paramsFor locationEstimator) _ _ _ _ _ _ _ _ _).2 = r
  intro h0 h1
  simp only [Setup.oracle, locationEstimator, squaredLoss, LinkKind.toLink, identityLink, show flatData.n = 2 from rfl, sum_range_succ, range_zero,
    sum_empty]
  simp only [h0, h1, hq]
  norm_num [quotientFlt, isDiverged, Flt.twice, Flt.gt, flatData, exData]

/-- Nothing ever changes. -/
theorem flatStored (past : List (TState ℝ)) (s : TState ℝ) (ht : Trace (notLearnedSetup.paramsFor locationEstimator)
    (notLearnedSetup.oracle locationEstimator flatData) (notLearnedSetup.cfgs flatData)
    (startState (notLearnedSetup.oracle locationEstimator flatData) (notLearnedSetup.cfgs flatData) (fun _ => 1001 / 1000)) past s) :
    ∀ fs, s.feats[0]? = some fs → ∀ b ≤ 2, stored fs b = 0 := by
  have hnd := flatFit.1 _ flatScale
  rw [flatBaseline] at hnd
  have hfe : notLearnedSetup.features[0]? = some flatFeature := rfl
  induction ht with
  | start =>
    intro fs hfs b _
    unfold startState at hfs
    rw [flatCfgs] at hfs
    simp only [List.map_cons, List.map_nil, List.getElem?_cons_zero, Option.some.injEq] at hfs
    rw [← hfs]; rfl
  | @step past s s' ht hc hit ih =>
    intro fs' hfs' b hb
    have hw := trace_WF _ _ _ _ _ _ ht
    have hlen : s.feats.length = 1 := by rw [← hw.1, flatCfgs]; rfl
    obtain ⟨fs, hfs⟩ : ∃ fs, s.feats = [fs] := List.length_eq_one_iff.mp hlen
    have hfs0 : s.feats[0]? = some fs := by rw [hfs]; rfl
    have hd := trace_not_diverging _ _ _ _ _ _ ht (hnd _ _ ht)
    have hd' := trace_not_diverging _ _ _ _ _ _ (.step ht hc hit) (hnd _ _ (.step ht hc hit))
    obtain ⟨running, input, raw, hrun, hraw, hupd⟩ := update_calibrated _ rfl rfl _ _ _ past s s' ht hit hd hd' 0 _ fs fs'
      (by rw [flatCfgs]; rfl) hfs0 hfs' rfl
    have hz : fs.zeroSmoother = false := by
      by_contra hz
      have := trace_zeroSmoother _ _ _ _ _ _ ht fs (by rw [hfs]; simp) (by simpa using hz)
      have := hnd _ _ ht
      omega
    have hpr : ∀ i < 2, running.factors i = 1001 / 1000 := by
      intro i hi
      rw [hrun i, List.take_zero, List.nil_append, List.drop_zero, hfs, flatCfgs, storedSum_cons]
      rw [ih fs hfs0 _ (by interval_cases i <;> simp)]
      simp [storedSum]
    have hval : ∀ c < 2, raw c = 1 * (-0.002 / 2.01) := by
      intro c hcl
      refine hraw.2.1 c _ hcl hz ?_
      rcases flatUnsmoothed c hcl with ⟨-, hu⟩ | ⟨hu, -⟩
      · refine (hu _ _).trans (congrArg some ?_)
        simp only [Setup.oracle, hfe, flatCfg]
        exact flatEstimate running.factors (hpr 0 (by norm_num)) (hpr 1 (by norm_num)) c hcl
      · rw [flatCfg] at hu
        have : c = 2 := hu
        omega
    have := hupd b
    rw [ih fs hfs0 b hb, sub_zero] at this
    rw [this]
    simp only [Setup.oracle, hfe, flatCfg]
    exact flatCalibrate raw (by rw [hval 0 (by norm_num), hval 1 (by norm_num)]) b hb

/-- Witness for C111, location regressor: training has settled, and the prediction exceeds the target by 0.001 in each bin. -/
example : ∃ m, SettledModel notLearnedSetup locationEstimator flatData m 0 ∧
    m.predict none flatData.X 0 - 1 ≤ 1 / 1000 * 1.005 ∧ 1 ≤ m.predict none flatData.X 0 := by
  obtain ⟨hnd, m, hm⟩ := flatFit
  have h : SettledModel notLearnedSetup locationEstimator flatData m 0 := by
    refine ⟨⟨1, hm⟩, rfl, rfl, by simp [notLearnedSetup], ?_, fun _ _ => by simp [flatData, exData], le_rfl, hnd, ?_, one_pos⟩
    · intro f hf c hc
      obtain rfl : f = flatFeature := by simpa [notLearnedSetup, flatFeature] using hf
      exact oneInts c hc
    · intro a ha past s s' ht hstop j cfg before after hj hb hafter b hbn
      rw [flatScale, Flt.fin.injEq] at ha
      subst ha
      rw [flatBaseline] at ht
      rw [flatCfgs] at hj
      match j with
      | 0 =>
        simp only [List.getElem?_cons_zero, Option.some.injEq] at hj
        subst hj
        cases ht with
        | step ht hc hit =>
          rw [flatStored past s ht before hb b hbn, flatStored _ _ (.step ht hc hit) after hafter b hbn]
          simp
      | j + 1 => simp at hj
  refine ⟨m, h, ?_⟩
  have hc := C111_location notLearnedSetup flatData m 0 h
    (by
      intro f hf
      obtain rfl : f = flatFeature := by simpa [notLearnedSetup, flatFeature] using hf
      refine ⟨0, by simp [flatData, exData], by simp [flatData, exData], fun _ => ?_⟩
      rw [flatCfg]; simp) (fun _ _ i hi => ⟨i, hi, rfl, by simp [flatData, exData]⟩) flatFeature (List.mem_singleton.mpr rfl)
    (by
      intro i hi _
      rw [flatCfg]
      have : i < 2 := hi
      exact flatUnsmoothed _ (by interval_cases i <;> simp)) 0
  have hsum : ∀ x : ℕ → ℝ, sumInBin flatData flatFeature 0 x = x 0 := by
    intro x
    unfold sumInBin
    rw [flatCfg, show flatData.n = 2 from rfl, sum_filter]
    simp only [sum_range_succ, range_zero, sum_empty]
    simp
  have hv : precalcVarianceY flatData.n (flatFeature.1.cfg flatData.X flatData.n).bin flatData.y flatData.w 0 = 1 / 2 := by
    rw [flatCfg]
    unfold precalcVarianceY variancePrior binSum
    simp only [show flatData.n = 2 from rfl, sum_range_succ, range_zero, sum_empty, List.getD_cons_zero, List.getD_cons_succ]
    norm_num [flatData, exData]
  simp only [hsum, hv] at hc
  have hw : flatData.w 0 = 1 := rfl
  have hy : flatData.y 0 = 1 := rfl
  have hp : flatData.prior = none := rfl
  rw [hw, hy, hp] at hc
  constructor
  · have := hc.1; norm_num at this ⊢; exact this
  · have := hc.2; norm_num at this ⊢; exact this

end
end CB
