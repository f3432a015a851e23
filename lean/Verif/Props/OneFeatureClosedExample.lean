import Verif.Props.OneFeatureClosed
import Verif.Props.OneFeatureExample
import Verif.Props.TargetUnitsSmoothers

/-! Witnesses for C153. -/

set_option autoImplicit false
set_option linter.unusedSectionVars false

namespace CB
open Finset Spec

/-- Two samples of weight 1 in two bins, with the targets 0 and 2: every iteration halves the distance to the target of the bin. With the
targets 0 and -2, training takes as many iterations and predicts less. -/
example : ∃ m m', OneFeatureModel plainSetup (gbsEstimator 0) exData m calFeature ∧
    OneFeatureModel plainSetup (gbsEstimator 0) { exData with y := fun s => -1 * exData.y s } m' calFeature ∧
    m'.iterations = m.iterations ∧
    m.predict none exData.X 1 = 2 - (1 / 2) ^ m.iterations ∧ m'.predict none exData.X 1 ≤ m.predict none exData.X 1 := by
  have hlr : ∀ k, 0 ≤ plainSetup.learnRate k ∧ plainSetup.learnRate k ≤ 1 := fun k => by simp [plainSetup]
  have hw : ∀ i < exData.n, 0 ≤ exData.w i := fun _ _ => by simp [exData]
  have fits : ∀ y : ℕ → ℝ, NeverDiverges plainSetup (gbsEstimator 0) { exData with y := y } ∧
      ∃ m, plainSetup.fit (gbsEstimator 0) { exData with y := y } 5 = some (.ok m) := fun y =>
    C80_fit_succeeds plainSetup { exData with y := y } 0 rfl le_rfl hw hlr (by simp [plainSetup])
      (C80_no_smoothing plainSetup noOpen plainChoice none [["a"]] rfl plainFeatures rfl _)
      (by simp [exData]) le_rfl rfl (by norm_num [plainSetup, exSetup]) (by norm_num [plainSetup, exSetup]) 5 le_rfl
  obtain ⟨hnd, m, hm⟩ := fits exData.y
  have h : OneFeatureModel plainSetup (gbsEstimator 0) exData m calFeature :=
    ⟨⟨5, hm⟩, rfl, rfl, rfl, rfl, by simp [calFeature], oneInts, hw, rfl, hnd, hlr⟩
  obtain ⟨m', hm', hit, -⟩ := (C118_mirror (S := plainSetup) (D := exData) (ra := 0)
    (C118_smoothers_mirror noOpen plainSetup exData rfl (by simp [plainSetup, followsSign])) 5).2.2 m hm
  have h' : OneFeatureModel plainSetup (gbsEstimator 0) { exData with y := fun s => -1 * exData.y s } m' calFeature :=
    ⟨⟨5, hm'⟩, rfl, rfl, rfl, rfl, by simp [calFeature], oneInts, hw, rfl, (fits _).1, hlr⟩
  have hb1 : (calFeature.1.cfg exData.X exData.n).bin 1 = 1 := by rw [oneCfg]; rfl
  have hu := oneUnsmoothed exData.y exData.w (fun _ => one_ne_zero) 1 (by omega)
  have hu' := oneUnsmoothed (fun s => -1 * exData.y s) exData.w (fun _ => one_ne_zero) 1 (by omega)
  have hpos : 0 < sumInBin exData calFeature ((calFeature.1.cfg exData.X exData.n).bin 1) exData.w := by
    rw [hb1, oneSum]; simp [exData]
  refine ⟨m, m', h, h', hit, ?_, ?_⟩
  · have e := C153_closed_form 0 h rfl 1 (by decide) (by rw [hb1]; exact hu) hpos
    dsimp only at e
    rw [hb1, oneSum, oneSum] at e
    have hp : exData.prior = none := rfl
    rw [hp] at e
    rw [e]
    norm_num [exData, sum_range_succ, plainSetup]
    ring_nf
    norm_num
  · refine C153_monotone (D := { exData with y := fun s => -1 * exData.y s }) 0 le_rfl exData.y h' h ?_ hit rfl 1 (by decide) ?_ hpos
    · intro k _
      simp only [exData]
      have : (0 : ℝ) ≤ k := Nat.cast_nonneg k
      linarith
    · show Unsmoothed plainSetup _ calFeature ((calFeature.1.cfg exData.X exData.n).bin 1)
      rw [hb1]
      exact hu'

end CB
