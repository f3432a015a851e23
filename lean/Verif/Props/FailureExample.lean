import Verif.Props.FailureScale
import Verif.Props.LimitsExample

/-!
# Witnesses for C138
-/

set_option autoImplicit false

namespace CB
open Finset Spec

noncomputable section

/-- Witness for C138_fit: a fit that succeeds, so there is no reason for a failure. -/
example : (∃ o, limNew.fit (configWith limConfig { limLimits with iterations := 402 }) (gbsEstimator 0) limFrame (fun s => 2 * s) 406
      = some (o, .ok ())) ∧
    ∀ e, ¬ FitFails (configWith limConfig { limLimits with iterations := 402 }) (gbsEstimator 0) limNew limFrame (fun s => 2 * s) e := by
  obtain ⟨o, m, h, hm, hit⟩ := limFit
  have h' := C136_larger_limit limConfig limLimits (.inl rfl) _ _ _ _ _ _ m h hm (by show _ < 1000; omega) 402 (by omega)
  exact ⟨⟨o, h'⟩, (C138_fit (configWith limConfig { limLimits with iterations := 402 }) (gbsEstimator 0) limNew limFrame
    (fun s => 2 * s) 406 (by simp [normalIterations, configWith, paramsWith, limConfig, limLimits, exSetup])).1.mp ⟨o, h'⟩⟩

/-- Witness for C138_only_divergence: all its hypotheses hold, and training diverges. -/
example : (∃ o', divNew.fit divConfig (gbsEstimator 0) limFrame (fun s => 2 * s) 20 = some (o', .ok ())) ∨
    ∃ o', divNew.fit divConfig (gbsEstimator 0) limFrame (fun s => 2 * s) 20 =
      some (o', .error (.training (.training .convergenceError))) :=
  C138_only_divergence divConfig (gbsEstimator 0) (by simp [gbsEstimator])
    (fun b q f h => by
      have := congrArg (fun E : Estimator => E.shiftPrior) h
      simp [gbsEstimator, quantileEstimator] at this)
    divNew limFrame (fun s => 2 * s) (.inl (.gbs 0 (by norm_num))) (by decide) (fun _ _ => trivial)
    (fun i _ => by simp [Config.trainSet, divConfig, initWeights]) (by simp [Config.trainSet, divConfig, initWeights, limFrame])
    (by
      rintro c (h | h | ⟨g, hg, hc⟩)
      · cases h
      · cases h
      · simp only [EstimatorObject.groupsFor, divNew, List.mem_singleton] at hg
        subst hg
        exact hc)
    (by
      intro g hg
      simp only [EstimatorObject.groupsFor, divNew, List.mem_singleton] at hg
      subst hg
      exact ⟨_, rfl⟩)
    (by simp [divConfig]) (by norm_num [divConfig, exSetup]) (by norm_num [divConfig, exSetup]) rfl 20
    (by simp [divConfig])

/-- The same with `maximal_iterations=0`: the first reason that stops training. -/
example : FitFails { limConfig with params := { limConfig.params with maximalIterations := 0 } } (gbsEstimator 0) limNew limFrame
    (fun s => 2 * s) (.training (.training .typeError)) :=
  .stopped (by simp [EstimatorObject.groupsFor, limNew]) ⟨rfl, .inl rfl⟩

/-! ### Divergence while only the hierarchical groups are learned -/

def earlyParams : Params ℝ := { exSetup.params with clip := false, hierarchical := some [["a"]], hierarchicalIterations := 3 }

/-- Each update is 1; the loss jumps from 1 to 100 when the prediction changes. -/
def earlyOracle : Oracle ℝ where
  estimate _ _ _ _ _ := 1
  smooth _ _ _ _ _ _ := some 1
  learnRate _ := 1
  calibrate _ _ fs := fs.factors
  loss pred := if pred.factors 0 = 0 then .fin 1 else .fin 100

def earlyCfgs : List FeatureCfg := [⟨["a"], false, 1, fun _ => 0, false⟩, ⟨["b"], false, 1, fun _ => 0, false⟩]

/-- Witness for C138_training: training with two features, one of them hierarchical, that fails in the first iteration. -/
example : fitMain earlyParams earlyOracle earlyCfgs (fun _ => 0) 20 = some (.error .typeError) := by
  refine (C138_training earlyParams earlyOracle earlyCfgs (fun _ => 0) 20 ?_).2.1.mpr (.inr ?_)
  · simp [normalIterations, earlyParams, exSetup]
  · refine ⟨[["a"]], rfl, ⟨⟨["b"], false, 1, fun _ => 0, false⟩, by simp [earlyCfgs], by simp⟩, [], _, .start, by simp [earlyParams], ?_⟩
    simp [lossAfter, earlyOracle, startState, earlyCfgs, featurePass, skipped, earlyParams, featureIteration, updateFactors,
      predictFactors, visitFactors, predInSample, Pred.update, FState.init, LossDoubled, exSetup]
    norm_num

end

end CB
