import Verif.Props.OneFeatureQuantile
import Verif.Props.OneFeatureExample
import Verif.Props.CostDescentExample
import Verif.Props.UnseenMissingExample

/-! Witness for C154. -/

set_option autoImplicit false
set_option linter.unusedSectionVars false

namespace CB
open Finset Spec

theorem bestMinimize_notWorse : NotWorse bestMinimize := by
  intro f start b hb
  unfold bestMinimize
  split_ifs with h1 h2
  · exact ⟨b, hb, le_rfl⟩
  · obtain ⟨a, e1, e2⟩ := h2.choose_spec
    exact ⟨a, e1, e2 start b hb⟩
  · exact ⟨b, hb, le_rfl⟩

/-- Two samples in two bins, with the targets 0 and 2. Training starts with 0 for both; the medians of the bins are learned exactly. -/
example : ∃ m, OneFeatureModel plainSetup (quantileEstimator false (1 / 2) bestMinimize) exData m calFeature ∧ 1 ≤ m.iterations ∧
    quantileScale .identity (1 / 2) exData.n exData.y exData.w = .fin 0 ∧ m.predict none exData.X 0 = 0 ∧ m.predict none exData.X 1 = 2 := by
  have hsm := C80_no_smoothing plainSetup noOpen plainChoice none [["a"]] rfl plainFeatures rfl exData
  have hw : ∀ i < exData.n, 0 ≤ exData.w i := fun _ _ => by simp [exData]
  have hlr : ∀ k, 0 ≤ plainSetup.learnRate k ∧ plainSetup.learnRate k ≤ 1 := fun k => by simp [plainSetup]
  have hne : ∀ f ∈ plainSetup.features, f.1.group ≠ [] := by simp [plainSetup]
  have hs : quantileScale .identity (1 / 2) exData.n exData.y exData.w = .fin 0 := by
    have : (([(0, 1), (2, 1)] : List (ℝ × ℝ)).mergeSort fun a b => decide (a.1 ≤ b.1)) = [(0, 1), (2, 1)] :=
      List.mergeSort_of_pairwise (by simp)
    simp [quantileScale, exData, List.range_succ, this, continuousQuantile, firstReaching, linkFlt]
    rw [if_pos (by norm_num)]
    simp
  have hE : CostEstimator bestMinimize false (quantileEstimator false (1 / 2) bestMinimize) (Spec.pinball (1 / 2)) :=
    .quantile false (1 / 2) (by norm_num) (by norm_num)
  obtain ⟨hnd, m, hm⟩ := C84_fit_succeeds plainSetup exData hE bestMinimize_notWorse (fun h => by cases h) rfl rfl hw hlr hne hsm
    (fun _ i _ => by simp [exData]) 0 hs le_rfl rfl (by norm_num [plainSetup, exSetup])
    (by norm_num [plainSetup, exSetup]) 5 le_rfl
  have h : OneFeatureModel plainSetup (quantileEstimator false (1 / 2) bestMinimize) exData m calFeature :=
    ⟨⟨5, hm⟩, rfl, rfl, rfl, rfl, by simp [calFeature], oneInts, hw, rfl, hnd, hlr⟩
  have hit := (fit_iterations_pos plainSetup _ exData le_rfl (by norm_num [plainSetup, exSetup]) (by norm_num [plainSetup, exSetup]) 5 m hm).1
  have hb0 : (calFeature.1.cfg exData.X exData.n).bin 0 = 0 := by rw [oneCfg]; rfl
  have hb1 : (calFeature.1.cfg exData.X exData.n).bin 1 = 1 := by rw [oneCfg]; rfl
  have hu := fun b hb => oneUnsmoothed exData.y exData.w (fun _ => one_ne_zero) b hb
  have q0 := C154_exact (1 / 2) (by norm_num) (by norm_num) bestMinimize bestMinimize_finds h rfl 0 (by decide)
    (by rw [hb0]; exact hu 0 (by omega)) (by rw [hb0, oneSum]; simp [exData]) 0 (by omega) rfl
  have q1 := C154_exact (1 / 2) (by norm_num) (by norm_num) bestMinimize bestMinimize_finds h rfl 1 (by decide)
    (by rw [hb1]; exact hu 1 (by omega)) (by rw [hb1, oneSum]; simp [exData]) 0 (by omega) rfl
  have hp : exData.prior = none := rfl
  rw [hb0, hp] at q0
  rw [hb1, hp] at q1
  unfold IsBinQuantile at q0 q1
  simp only [oneSum] at q0 q1
  refine ⟨m, h, hit, hs, ?_, ?_⟩
  · generalize m.predict none exData.X 0 = x at q0
    simp only [exData] at q0
    norm_num at q0
    rcases lt_trichotomy x 0 with e | e | e
    · rw [if_neg (not_le.mpr e)] at q0; norm_num at q0
    · exact e
    · rw [if_pos e] at q0; norm_num at q0
  · generalize m.predict none exData.X 1 = x at q1
    simp only [exData] at q1
    norm_num at q1
    rcases lt_trichotomy x 2 with e | e | e
    · rw [if_neg (not_le.mpr e)] at q1; norm_num at q1
    · exact e
    · rw [if_pos e] at q1; norm_num at q1

end CB
