import Verif.Props.Uncertainties
import Verif.Props.SmootherCentresExample
import Verif.Props.FloatEstimatesExample

/-!
# Witnesses for C158 and C81
-/

set_option autoImplicit false

namespace CB
open Spec

noncomputable section

/-- Witness for `C81_estimators`: targets 0 and 2 in bins 0 and 2, bin 1 empty. The Poisson, negative binomial, location and
quantile regressors get a smoothed value for bin 2, whatever the predictions are. -/
example (E : Estimator) (hE : E = poissonEstimator trueMedian ∨ E = nbinomEstimator trueMedian 1 2 ∨ E = locationEstimator ∨
    E = locPoissonEstimator ∨ ∃ m q, E = quantileEstimator m q (fun _ x => x)) (pred : ℕ → ℝ) :
    ∃ x, smoothAtCentres (packageSmoothers noOpen) (metaSmoother .weightedMean true (some .discontinuous)) [3]
      (binSum 2 (fun s => [0, 2].getD s 0) catData.w) (fun b => (E.parameters 1 2 (fun s => [0, 2].getD s 0) catData.y catData.w pred b).2)
      (fun b => (E.parameters 1 2 (fun s => [0, 2].getD s 0) catData.y catData.w pred b).1) 2 = some x := by
  have hbind : bindData catData.X catData.n ["a"] none = ([0, 2], [3]) := catBind
  have hw : ∀ i < catData.n, 0 ≤ catData.w i := fun _ _ => by simp [catData]
  have hy : ∀ i < catData.n, 0 ≤ catData.y i := fun i _ => by simp only [catData]; positivity
  have hB : BinsHaveWeight catData ["a"] := fun i hi => ⟨i, hi, rfl, by simp [catData]⟩
  have hT : TargetsVary catData := ⟨0, by simp [catData], 1, by simp [catData], by simp [catData], by simp [catData], by simp [catData]⟩
  have hU : Uncertain catData ["a"] E ∧ ∀ i < catData.n, E.valid (catData.y i) := by
    rcases hE with rfl | rfl | rfl | rfl | ⟨m, q, rfl⟩
    · exact ⟨.poisson _, hy⟩
    · exact ⟨.nbinom _ 1 2 one_pos zero_le_two, hy⟩
    · exact ⟨.location hB, fun _ _ => trivial⟩
    · exact ⟨.locPoisson hT, fun _ _ => trivial⟩
    · exact ⟨.quantile m q _ fun _ => hB, fun i hi _ => hy i hi⟩
  have hcfg : (FeatureSpec.mk ["a"] false false).cfg catData.X catData.n = ⟨["a"], false, 3, fun s => [0, 2].getD s 0, false⟩ := by
    simp only [FeatureSpec.cfg, hbind]
    rfl
  have := C81_estimators noOpen catData ⟨["a"], false, false⟩ E hU.1 hU.2 hw .weightedMean (by rw [hbind]; exact .one 3) true
    (some .discontinuous) 1 pred 2 (by rw [hbind]; simp) ⟨1, by simp [catData], by rw [hcfg]; rfl, by simp [catData]⟩
  rw [hbind, hcfg] at this
  exact this

/-- Witness for `C158_poisson_anti`: three samples with targets 0, 1, 0 and weights 2, 1, 0, in two bins; the first bin has more events. -/
example (pred : ℕ → ℝ) : ((poissonEstimator trueMedian).parameters 1 3 (fun i => i / 2) fewTargets fewWeights pred 0).2
    < ((poissonEstimator trueMedian).parameters 1 3 (fun i => i / 2) fewTargets fewWeights pred 1).2 := by
  refine C158_poisson_anti trueMedian 1 3 _ _ _ pred 1 1 3 _ _ _ pred 0 fewTargets_nonneg fewWeights_nonneg ?_
  simp [overBin, Finset.sum_filter, fewTargets, fewWeights]

/-- Witness for `C158_beta`, `C158_gamma` and `C158_gaussian_float`: a bin with two samples, and one whose only sample has weight 0. -/
example : 0 < uncertaintyBeta actualBetaPpf normalBase.ppf [(1, 2), (0, 1)] ∧ uncertaintyGamma [(1, 2), (0, 1)] < 1 / 2 ∧
    uncertaintyGaussianFlt [(1, 2), (0, 1)] = .fin (uncertaintyGaussian [(1, 2), (0, 1)]) ∧ uncertaintyGaussianFlt [(3, 0)] = .nan := by
  refine ⟨C158_beta _ _ actualQuantiles _ (by simp), ?_, ?_, ?_⟩
  · have := (C158_gamma [(1, 2), (0, 1)] (by simp)).2
    refine lt_of_lt_of_eq this ?_
    rw [show Real.sqrt ((([(1, 2), (0, 1)] : List (ℝ × ℝ)).map fun s => s.2 * s.1).sum + 2) = 2 by
      rw [show (([(1, 2), (0, 1)] : List (ℝ × ℝ)).map fun s => s.2 * s.1).sum + 2 = 2 ^ 2 by norm_num]
      exact Real.sqrt_sq zero_le_two]
  · rw [C158_gaussian_float _ (by simp), if_neg (by norm_num)]
  · rw [C158_gaussian_float _ (by simp), if_pos (by simp)]

end

end CB
