import Verif.Props.Settling
import Verif.Props.SmootherCentresExample

/-!
# Witnesses for C121
-/

set_option autoImplicit false

namespace CB
open Finset Spec

/-- One feature without smoothing, training until the factors change by less than 1/10, up to 1000 iterations. -/
noncomputable def settleSetup : Setup (List (FitRow ℝ) × List ℝ) :=
  { plainSetup with params := { plainSetup.params with maximalIterations := 1000, minimalFactorChange := 1 / 10 } }

theorem settleDescent : PlainDescent settleSetup exData 0 :=
  ⟨rfl, rfl, le_rfl, fun _ _ => by simp [exData], fun k => by simp [settleSetup, plainSetup],
    by simp [settleSetup, plainSetup], C80_no_smoothing settleSetup noOpen plainChoice none [["a"]] rfl plainFeatures rfl exData⟩

theorem settleError : trainingError exData (startingPredictions exData) = 2 := by
  norm_num [trainingError, startingPredictions, exData, sum_range_succ]

/-- Witness for C121: targets 0 and 2, so that the squared error of the mean is 2; fewer than 402 iterations, whether up to 500 or up
to 1000 are allowed. -/
example : (∃ m, settleSetup.fit (gbsEstimator 0) exData 406 = some (.ok m) ∧ m.iterations < 402) ∧
    (withMaximalIterations settleSetup 500).fit (gbsEstimator 0) exData 406 = settleSetup.fit (gbsEstimator 0) exData 406 := by
  constructor
  · refine C121_fit_succeeds settleSetup exData 0 settleDescent (by norm_num [settleSetup]) (by norm_num [settleSetup])
      (by norm_num [settleSetup, plainSetup, exSetup]) (by simp [exData]) 402 ?_ (by norm_num [settleSetup]) 406 le_rfl
    rw [settleError]
    norm_num [settleSetup]
  · refine C121_maximal_iterations settleSetup exData 0 settleDescent (by norm_num [settleSetup]) 406 500 ?_ ?_ <;>
    · rw [settleError]
      norm_num [settleSetup]

end CB
