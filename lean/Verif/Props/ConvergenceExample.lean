import Verif.Props.Convergence
import Verif.Props.CalibrationExample

/-!
# Where C124 applies, and witnesses
-/

set_option autoImplicit false

namespace CB
open Finset Spec

section
variable {c : Choice} {props : Option (List (String × ℕ))} {groups : List (List String)}

/-- **C124**, where it applies: with `NoSmootherChoice` and missing values that are learned, no bin with weight is smoothed. -/
theorem C124_no_smoothing (S : Setup (List (FitRow ℝ) × List ℝ)) (O : OpenSmoothers) (hbase : S.base = packageSmoothers O)
    (hS : createFeatures c props groups = .ok S.features)
    (hk : c.kind = .noSmoother) (hg : ∀ g ∈ groups, g ≠ []) (D : TrainSet) (hw : ∀ i < D.n, 0 ≤ D.w i)
    (hmiss : ∀ f ∈ S.features, f.1.missingNotLearned = false) (f : FeatureSpec × SmootherKind) (hf : f ∈ S.features) (i : ℕ)
    (hi : i < D.n) (hwi : D.w i ≠ 0) : Unsmoothed S D f ((f.1.cfg D.X D.n).bin i) := by
  obtain ⟨hmem, -, -⟩ := createFeatures_mem c props groups S.features hS f hf
  rcases (cfg_bin_le f.1 (hg _ hmem) D.X D.n i hi).lt_or_eq with hlt | heq
  · refine C111_no_smoothing S O c props groups hbase hS hk hg D f hf _ hlt (ne_of_gt ?_)
    unfold sumInBin
    refine Finset.sum_pos' (fun j hj => hw j (by simp at hj; exact hj.1)) ⟨i, by simp [hi], lt_of_le_of_ne (hw i hi) (Ne.symm hwi)⟩
  · exact Or.inr ⟨heq, hmiss f hf⟩

end

/-- Two features without smoothing, as many iterations as allowed, learning rates that start at one half. -/
noncomputable def twoSetup : Setup (List (FitRow ℝ) × List ℝ) :=
  { plainSetup with
    features := [(⟨["a"], false, false⟩, .normalizationRegressionType .binValuesOne .discontinuous),
      (⟨["b"], false, false⟩, .normalizationRegressionType .binValuesOne .discontinuous)]
    learnRate := fun k => if k ≤ 3 then 1 / 2 else 1
    params := { plainSetup.params with maximalIterations := 10, minimalFactorChange := -1, minimalLossChange := -1 } }

theorem twoFeatures : createFeatures plainChoice none [["a"], ["b"]] = .ok twoSetup.features := by rfl

/-- Three samples; the features overlap. -/
def twoData : TrainSet :=
  ⟨fun s c => .fin (if c = "a" then (if s = 2 then 1 else 0) else (if s = 0 then 0 else 1)), 3, fun s => if s = 2 then 5 else s,
    fun s => s + 1, none⟩

theorem twoFree : FreeDescent twoSetup twoData 0 (1 / 2) := by
  refine ⟨⟨rfl, rfl, le_rfl, fun i _ => by simp only [twoData]; positivity, fun k => ?_, by simp [twoSetup],
    C80_no_smoothing twoSetup noOpen plainChoice none [["a"], ["b"]] rfl twoFeatures rfl twoData⟩, fun k _ => ?_, ?_, ?_⟩
  · simp only [twoSetup]
    split_ifs <;> norm_num
  · simp only [twoSetup]
    split_ifs <;> norm_num
  · exact C124_no_smoothing twoSetup noOpen rfl twoFeatures rfl (by simp) twoData (fun i _ => by simp only [twoData]; positivity)
      (by simp [twoSetup])
  · intro f _ c _ i _ x hx
    simp only [twoData, Flt.fin.injEq] at hx
    rw [← hx]
    split_ifs
    · exact ⟨1, by simp⟩
    · exact ⟨0, by simp⟩
    · exact ⟨0, by simp⟩
    · exact ⟨1, by simp⟩

/-- Witness for C124: the best additive model is exact on the three samples, so long trainings have errors as small as one likes. -/
example (ε : ℝ) (hε : 0 < ε) : ∃ N, ∀ M, N ≤ M → ∃ m,
    (withMaximalIterations twoSetup M).fit (gbsEstimator 0) twoData (M + 4) = some (.ok m) ∧
      trainingError twoData (m.predict none twoData.X) < ε := by
  have hba : bindData twoData.X 3 ["a"] none = ([0, 0, 1], [2]) := by
    simp [bindData, lexBinnos, inferBins, maxPlusOne, twoData, Table.row, finiteSemiPositive, floorComp, validRow, validComp,
      binSteps, dotRow, List.range_succ]
  have hbb : bindData twoData.X 3 ["b"] none = ([0, 1, 1], [2]) := by
    simp [bindData, lexBinnos, inferBins, maxPlusOne, twoData, Table.row, finiteSemiPositive, floorComp, validRow, validComp,
      binSteps, dotRow, List.range_succ]
  have hbest : BestAdditiveModel twoSetup twoData twoData.y := by
    refine ⟨⟨fun f b => if f.1.group = ["a"] then (if b = 0 then - startingPredictions twoData 0 else 4 - startingPredictions twoData 0)
      else b, fun i hi => ?_⟩, fun q _ => ?_⟩
    · have hs : startingPredictions twoData i = startingPredictions twoData 0 := rfl
      have hi : i < 3 := hi
      rw [hs]
      have : twoData.n = 3 := rfl
      generalize startingPredictions twoData 0 = p
      interval_cases i <;> simp [twoSetup, FeatureSpec.cfg, this, hba, hbb] <;> simp [twoData] <;> ring
    · have h0 : trainingError twoData twoData.y = 0 := by simp [trainingError]
      rw [h0]
      exact Finset.sum_nonneg fun i _ => mul_nonneg (by simp only [twoData]; positivity) (sq_nonneg _)
  obtain ⟨N, hN⟩ := C124_limit twoSetup twoData 0 (1 / 2) twoFree (by norm_num) (by norm_num [twoSetup]) (by norm_num [twoSetup])
    (by simp [twoData, Finset.sum_range_succ]; norm_num) twoData.y hbest ε hε
  refine ⟨N, fun M hM => ?_⟩
  obtain ⟨m, hm, -, h2⟩ := hN M hM
  refine ⟨m, hm, lt_of_lt_of_eq h2 ?_⟩
  simp [trainingError]

end CB
