import Verif.Props.OneFeatureCosts
import Verif.Props.OneFeatureQuantileExample

/-! Witness for C155. -/

set_option autoImplicit false
set_option linter.unusedSectionVars false

namespace CB
open Finset Spec

theorem squareLoss_convex : ConvexLoss fun p y => (p - y) ^ 2 where
  nonneg p y := sq_nonneg _
  convex a b y t h0 h1 := by nlinarith [mul_nonneg (mul_nonneg h0 (sub_nonneg.mpr h1)) (sq_nonneg (a - b))]

/-- The squared error, two samples in two bins, with the targets 0 and 2. Training starts with 1.001 for both; the targets are learned
exactly. -/
example : ∃ m, OneFeatureModel plainSetup (genericEstimator false (meanCosts fun p y => (p - y) ^ 2) bestMinimize) exData m calFeature ∧
    1 ≤ m.iterations ∧ m.predict none exData.X 0 = 0 ∧ m.predict none exData.X 1 = 2 := by
  have hsm := C80_no_smoothing plainSetup noOpen plainChoice none [["a"]] rfl plainFeatures rfl exData
  have hw : ∀ i < exData.n, 0 ≤ exData.w i := fun _ _ => by simp [exData]
  have hlr : ∀ k, 0 ≤ plainSetup.learnRate k ∧ plainSetup.learnRate k ≤ 1 := fun k => by simp [plainSetup]
  have hne : ∀ f ∈ plainSetup.features, f.1.group ≠ [] := by simp [plainSetup]
  have hE : CostEstimator bestMinimize false (genericEstimator false (meanCosts fun p y => (p - y) ^ 2) bestMinimize)
      fun p y => (p - y) ^ 2 := .generic false _ squareLoss_convex
  obtain ⟨hnd, m, hm⟩ := C84_fit_succeeds plainSetup exData hE bestMinimize_notWorse (fun h => by cases h) rfl rfl hw hlr hne hsm
    (fun _ i _ => by simp [exData]) 1.001 (by
      simp [genericEstimator, globalScaleLink, exData, sum_range_succ, quotientFlt, Flt.addFin]
      norm_num [linkFlt]) le_rfl rfl (by norm_num [plainSetup, exSetup])
    (by norm_num [plainSetup, exSetup]) 5 le_rfl
  have h : OneFeatureModel plainSetup (genericEstimator false (meanCosts fun p y => (p - y) ^ 2) bestMinimize) exData m calFeature :=
    ⟨⟨5, hm⟩, rfl, rfl, rfl, rfl, by simp [calFeature], oneInts, hw, rfl, hnd, hlr⟩
  have hit := (fit_iterations_pos plainSetup _ exData le_rfl (by norm_num [plainSetup, exSetup]) (by norm_num [plainSetup, exSetup]) 5 m hm).1
  have hb : ∀ b < 2, (calFeature.1.cfg exData.X exData.n).bin b = b := by
    intro b hb
    rw [oneCfg]
    interval_cases b <;> rfl
  have hu := fun b hb => oneUnsmoothed exData.y exData.w (fun _ => one_ne_zero) b hb
  have hcost : ∀ b < 2, ∀ x, binCost exData calFeature b (fun p y => (p - y) ^ 2) x = (x - 2 * b) ^ 2 := by
    intro b hb x
    unfold binCost
    rw [oneSum]
    interval_cases b <;> simp [exData]
  have key : ∀ b < 2, m.predict none exData.X b = 2 * b := by
    intro b hb2
    have q := C155_optimal hE bestMinimize_finds h rfl b hb2 (by rw [hb b hb2]; exact hu b hb2)
      (by rw [hb b hb2, oneSum]; interval_cases b <;> simp [exData])
      ⟨2 * b, fun z => by rw [hb b hb2, hcost b hb2, hcost b hb2, sub_self, zero_pow two_ne_zero]; exact sq_nonneg _⟩ 0 (by omega) rfl (2 * b)
    rw [hb b hb2, hcost b hb2, hcost b hb2, sub_self, zero_pow two_ne_zero] at q
    have := pow_eq_zero_iff two_ne_zero |>.mp (le_antisymm q (sq_nonneg _))
    have hp : exData.prior = none := rfl
    rw [hp] at this
    linarith
  refine ⟨m, h, hit, ?_, ?_⟩
  · simpa using key 0 (by omega)
  · simpa using key 1 (by omega)

end CB
