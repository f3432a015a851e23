import Verif.Props.SwapClasses
import Verif.Props.WholeFitExample
import Verif.Props.SmootherCentresExample

/-!
# When C120 applies
-/

set_option autoImplicit false
set_option linter.unusedSectionVars false

namespace CB
open Finset Spec

noncomputable section

/-- Quantiles with the symmetries of the beta and of the normal distribution. -/
def oddsPpf (a b p : ℝ) : ℝ := a * p / (a * p + b * (1 - p))

theorem odds_symmetric : SymmetricQuantiles oddsPpf fun p => p - 1 / 2 where
  inside a b p ha hb h0 h1 := by
    have h2 : 0 < 1 - p := by linarith
    have e1 : 0 < a * p := mul_pos ha h0
    have e2 : 0 < b * (1 - p) := mul_pos hb h2
    unfold oddsPpf
    exact ⟨by positivity, by rw [div_lt_one (by positivity)]; linarith⟩
  beta a b p ha hb h0 h1 := by
    have h2 : 0 < 1 - p := by linarith
    have e1 : 0 < a * p := mul_pos ha h0
    have e2 : 0 < b * (1 - p) := mul_pos hb h2
    unfold oddsPpf
    rw [sub_sub_cancel, add_comm (b * (1 - p)), eq_sub_iff_add_eq, ← add_div, add_comm, div_self (by positivity)]
  normal p _ _ := by ring
  normalStrict p q _ h _ := by linarith

/-- One sample of each class, of weight 1. -/
def classData : TrainSet := ⟨fun s _ => .fin (if s = 0 then 0 else 1), 2, fun s => if s = 0 then 0 else 1, fun _ => 1, none⟩

/-- A smoother that makes everything neutral. -/
def zeroSetup : Setup Unit := ⟨[(⟨["a"], false, false⟩, .binValuesOne)], fun _ => ⟨fun _ _ => (), fun _ rows => rows.map fun _ => .fin 0⟩,
  fun _ => 1, exSetup.params⟩

/-- Witness for C120, training: bin values without smoothing, two samples. -/
example : MirroredSmoothers plainSetup classData ∧ (∀ i < classData.n, classData.y i = 0 ∨ classData.y i = 1) ∧
    (classData.y 0 = 0 ∧ (swapClasses classData).y 0 = 1) := by
  refine ⟨C120_smoothers noOpen plainSetup classData rfl (by simp [plainSetup, followsSign]), fun i _ => ?_, ?_⟩
  · simp only [classData]
    split_ifs <;> simp
  · simp [swapClasses, classData]

/-- Two samples of weight 1, one of each class, are fitted. -/
theorem classFit (y : ℕ → ℝ) (hy : ∀ i < 2, y i = 0 ∨ y i = 1) (h1 : y 0 + y 1 = 1) :
    ∃ m, zeroSetup.fit (classifierEstimator oddsPpf fun p => p - 1 / 2) { classData with y := y } 1 = some (.ok m) := by
  have hs : (classifierEstimator oddsPpf fun p => p - 1 / 2).scale 2 y (fun _ => 1) = .fin (Real.log (501 / 499)) := by
    simp only [classifierEstimator, globalScaleLink, sum_range_succ, range_zero, sum_empty, mul_one, zero_add, h1]
    norm_num [quotientFlt, Flt.addFin, linkFlt]
  refine (fun h => ⟨h.choose, h.choose_spec.1⟩) (oneIteration zeroSetup _ _ _ (fun i hi => hy i hi) hs rfl rfl (by norm_num [exSetup, zeroSetup])
    (by norm_num [exSetup, zeroSetup]) ?_).2
  set E := classifierEstimator oddsPpf fun p => p - 1 / 2 with hE
  set D : TrainSet := { classData with y := y } with hD
  have hbind : bindData D.X 2 ["a"] none = ([0, 1], [2]) := exBind
  have hcfg : zeroSetup.cfgs D = [exCWith false] := by
    simp [Setup.cfgs, zeroSetup, exCWith, FeatureSpec.cfg, show D.n = 2 from rfl, hbind]
  rw [hcfg]
  generalize baseline E D (Real.log (501 / 499)) = start
  have hsm : ∀ pred fs u b, b < 2 → (zeroSetup.oracle E D).smooth 0 0 pred fs u b = some 0 := by
    intro pred fs u b hlt
    simp only [Setup.oracle, zeroSetup, List.getElem?_cons_zero, show D.n = 2 from rfl, hbind, smoothAtCentres, kindPredict]
    have ha : arangeMulti [2] = [[0], [1]] := by decide
    simp only [ha, List.map_cons, List.map_nil]
    interval_cases b <;> rfl
  have hpred : ∀ il, ∀ s < 2, (featurePass (zeroSetup.paramsFor E) (zeroSetup.oracle E D) 0 0 false il
      0 [exCWith false] [FState.init] ⟨start, fun _ => 0⟩).2.factors s = start s := by
    intro il s hs2
    have hc : (zeroSetup.paramsFor E).clip = false := by simp [Setup.paramsFor, hE, classifierEstimator]
    have ha : (zeroSetup.paramsFor E).aggregate = true := rfl
    have hk : skipped (zeroSetup.paramsFor E) 0 (exCWith false) = false := rfl
    have hl : (zeroSetup.oracle E D).learnRate 1 = 1 := rfl
    have hcal : ∀ fs : FState ℝ, (zeroSetup.oracle E D).calibrate 0 0 fs = fs.factors := fun _ => rfl
    have hbin : (exCWith false).bin s < 2 := by interval_cases s <;> simp
    simp only [featurePass, hk, if_true, Bool.false_eq_true, if_false, featureIteration, ha, visitFactors, hc,
      hl, hcal, updateFactors, FState.init, Pred.update, predInSample, predictFactors, Bool.and_true]
    rw [if_pos hbin, hsm _ _ _ _ hbin]
    simp
  simp only [List.map_cons, List.map_nil]
  have h0 := hpred ((zeroSetup.oracle E D).loss ⟨start, fun _ => 0⟩) 0 (by norm_num)
  have h1 := hpred ((zeroSetup.oracle E D).loss ⟨start, fun _ => 0⟩) 1 (by norm_num)
  revert h0 h1
  generalize (featurePass (zeroSetup.paramsFor E) _ _ _ _ _ _ _ _ _).2 = q
  intro h0 h1
  simp only [Setup.oracle, hE, classifierEstimator, squaredLoss, hD, classData, sum_range_succ, range_zero, sum_empty, h0, h1, mul_one, zero_add]
  have e : (1 : ℝ) + 1 ≠ 0 := by norm_num
  simp only [quotientFlt, e, if_false, isDiverged, Flt.twice, Flt.gt]
  rw [decide_eq_false_iff_not, not_lt]
  generalize LinkKind.logit.toLink.unlink (start 0) - y 0 = u
  generalize LinkKind.logit.toLink.unlink (start 1) - y 1 = v
  nlinarith [mul_self_nonneg u, mul_self_nonneg v]

/-- Witness for the failure of the full claim: both ways to name the classes are fitted. -/
example : ∃ m m' : FittedModel, zeroSetup.fit (classifierEstimator oddsPpf fun p => p - 1 / 2) classData 1 = some (.ok m) ∧
    zeroSetup.fit (classifierEstimator oddsPpf fun p => p - 1 / 2) (swapClasses classData) 1 = some (.ok m') ∧
    ∃ X : Table ℝ, ∀ s, m.predict none X s + m'.predict none X s = 1.002 := by
  obtain ⟨m, hm⟩ := classFit classData.y (fun i _ => by simp only [classData]; split_ifs <;> simp) (by simp [classData])
  obtain ⟨m', hm'⟩ := classFit (swapClasses classData).y (fun i _ => by simp only [swapClasses, classData]; split_ifs <;> simp)
    (by simp [swapClasses, classData])
  exact ⟨m, m', hm, hm', C120_full_claim_fails zeroSetup classData (by simp [zeroSetup]) 1 m m' hm hm'⟩

end
end CB
