import Verif.Props.TargetUnitsSmoothers
import Verif.Props.SmootherCentresExample

/-!
# When C118 applies, and where it ends
-/

set_option autoImplicit false
set_option linter.unusedSectionVars false

namespace CB
open Finset Spec

noncomputable section

/-- The two samples with targets 0 and 2 are learned. -/
theorem plainGbs : ∃ m, plainSetup.fit (gbsEstimator 0) exData 5 = some (.ok m) :=
  (C80_fit_succeeds plainSetup exData 0 rfl le_rfl (fun _ _ => by simp [exData]) (fun k => by simp [plainSetup]) (by simp [plainSetup])
    (C80_no_smoothing plainSetup noOpen plainChoice none [["a"]] rfl plainFeatures rfl exData)
    (by simp [exData]) le_rfl rfl (by norm_num [plainSetup, exSetup]) (by norm_num [plainSetup, exSetup]) 5 le_rfl).2

/-- Witness for C118, units: targets 0 and 2 become 0 and 2000. -/
example : ∃ m m', plainSetup.fit (gbsEstimator 0) exData 5 = some (.ok m) ∧
    (setupInUnits 1000 plainSetup).fit (gbsEstimator 0) (dataInUnits 1000 exData) 5 = some (.ok m') ∧
    (dataInUnits 1000 exData).y 1 = 2000 ∧ m'.predict none exData.X 1 = 1000 * m.predict none exData.X 1 := by
  obtain ⟨m, hm⟩ := plainGbs
  obtain ⟨m', h1, -, h2⟩ := (C118_units plainSetup exData 0 1000 (by norm_num)
    (C118_smoothers_units noOpen plainSetup exData (by norm_num) rfl (by simp [plainSetup, followsUnits])) rfl
    (fun _ _ => by simp [exData]) (by norm_num [plainSetup, exSetup]) (by norm_num [plainSetup, exSetup]) 5).2.2 m hm
  exact ⟨m, m', hm, h1, by norm_num [dataInUnits, exData], h2 none exData.X 1⟩

/-- Witness for C118, sign: targets 0 and 2 become 0 and -2. -/
example : ∃ m m', plainSetup.fit (gbsEstimator 0) exData 5 = some (.ok m) ∧
    plainSetup.fit (gbsEstimator 0) (dataInUnits (-1) exData) 5 = some (.ok m') ∧
    (dataInUnits (-1) exData).y 1 = -2 ∧ m'.predict none exData.X 1 = -m.predict none exData.X 1 := by
  obtain ⟨m, hm⟩ := plainGbs
  obtain ⟨m', h1, -, h2⟩ := (C118_mirror plainSetup exData 0
    (C118_smoothers_mirror noOpen plainSetup exData rfl (by simp [plainSetup, followsSign])) 5).2.2 m hm
  exact ⟨m, m', hm, h1, by norm_num [dataInUnits, exData], h2 none exData.X 1⟩

/-- The same with the weighted mean smoother. -/
example : HomogeneousSmoothers meanSetup exData (-1) :=
  C118_smoothers_mirror noOpen meanSetup exData rfl (by simp [meanSetup, followsSign])

/-- Two bins with uncertainty 1. -/
def unitTable : List (FitRow ℝ) := [⟨[0], 1, 1⟩, ⟨[1], 1, 1⟩]

/-- **C118, where it ends.** The weighted mean smoother does not follow a change of units: bin values of 1e-9 are equal to the
neutral factor for `np.allclose` and are kept, the same values in units of 1e-9 are moved to the neutral factor. -/
theorem C118_weighted_mean_units_fail :
    (weightedMean1 (some 0)).after unitTable [1 / 10 ^ 9, -1 / 10 ^ 9] [[.fin 0]] = [.fin (1 / 10 ^ 9)] ∧
    (weightedMean1 (some 0)).after (unitTable.map fun r => ⟨r.x, r.w, 10 ^ 9 * r.unc⟩)
      ([1 / 10 ^ 9, -1 / 10 ^ 9].map fun v : ℝ => 10 ^ 9 * v) [[.fin 0]] = [.fin (1 / (10 ^ 18 + 1))] := by
  constructor
  · simp only [Smoother.after, weightedMean1, unitTable]
    have hr : rint (0 : ℝ) = 0 := by simpa using rint_intCast (K := ℝ) 0
    norm_num [lookupOneDim, hr, List.range_succ, regularizeToMeanFlt, allclose, column, abs_le]
  · simp only [Smoother.after, weightedMean1, unitTable]
    have hr : rint (0 : ℝ) = 0 := by simpa using rint_intCast (K := ℝ) 0
    norm_num [lookupOneDim, hr, List.range_succ, regularizeToMeanFlt, regularizeToMean, regMeanTarget, allclose, column, uncColumn,
      sum_range_succ]

end
end CB
