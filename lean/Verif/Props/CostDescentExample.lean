import Verif.Props.CostDescent
import Verif.Props.SmootherCentresExample

/-!
# Concrete fits that minimise costs bin by bin (witnesses for C84)
-/

set_option autoImplicit false

namespace CB
open Finset Spec

noncomputable section

open Classical in
/-- An optimiser that tries a step of 1 to either side. -/
def stepMinimize (f : ℝ → Flt ℝ) (start : ℝ) : ℝ :=
  if ∃ a b, f start = .fin b ∧ f (start + 1) = .fin a ∧ a < b then start + 1
  else if ∃ a b, f start = .fin b ∧ f (start - 1) = .fin a ∧ a < b then start - 1
  else start

theorem stepMinimize_notWorse : NotWorse stepMinimize := by
  intro f start b hb
  unfold stepMinimize
  split_ifs with h1 h2
  · obtain ⟨a, b', e1, e2, h⟩ := h1
    rw [hb, Flt.fin.injEq] at e1
    exact ⟨a, e2, by linarith⟩
  · obtain ⟨a, b', e1, e2, h⟩ := h2
    rw [hb, Flt.fin.injEq] at e1
    exact ⟨a, e2, by linarith⟩
  · exact ⟨b, hb, le_rfl⟩

theorem stepMinimize_pos (mult : Bool) (loss : ℝ → ℝ → ℝ) (D : TrainSet) : NoNegativeParameters stepMinimize mult loss D := by
  intro _ codes prediction b
  unfold stepMinimize
  split_ifs <;> norm_num

theorem absLoss_convex : ConvexLoss fun p y => |p - y| where
  nonneg p y := abs_nonneg _
  convex a b y t h0 h1 := by
    have : (1 - t) * a + t * b - y = (1 - t) * (a - y) + t * (b - y) := by ring
    rw [this]
    refine le_trans (abs_add_le _ _) (le_of_eq ?_)
    rw [abs_mul, abs_mul, abs_of_nonneg (by linarith : (0 : ℝ) ≤ 1 - t), abs_of_nonneg h0]

/-- Every such regressor with a global scale fits the two samples of `exData`, and its costs are at most those of the constant
prediction. -/
theorem costExample (mult : Bool) (E : Estimator) (loss : ℝ → ℝ → ℝ) (hE : CostEstimator stepMinimize mult E loss) (a : ℝ)
    (hs : E.scale exData.n exData.y exData.w = .fin a) :
    ∃ m, plainSetup.fit E exData 5 = some (.ok m) ∧ m.scale = .fin a ∧
      trainingCost loss exData (m.predict none exData.X) ≤ trainingCost loss exData fun _ => E.link.toLink.unlink a := by
  have hsm := C80_no_smoothing plainSetup noOpen plainChoice none [["a"]] rfl plainFeatures rfl exData
  have hw : ∀ i < exData.n, 0 ≤ exData.w i := fun _ _ => by simp [exData]
  have hlr : ∀ k, 0 ≤ plainSetup.learnRate k ∧ plainSetup.learnRate k ≤ 1 := fun k => by simp [plainSetup]
  have hne : ∀ f ∈ plainSetup.features, f.1.group ≠ [] := by simp [plainSetup]
  obtain ⟨-, m, hm⟩ := C84_fit_succeeds plainSetup exData hE stepMinimize_notWorse (stepMinimize_pos _ _ _) rfl rfl hw hlr hne hsm
    (fun _ i _ => by simp [exData]) a hs le_rfl rfl (by norm_num [plainSetup, exSetup])
    (by norm_num [plainSetup, exSetup]) 5 le_rfl
  have hsc : m.scale = .fin a := by
    obtain ⟨a', r, -, hs', -, rfl⟩ := fit_ok plainSetup _ exData 5 m hm
    rw [hs] at hs'
    rw [hs']
  refine ⟨m, hm, hsc, ?_⟩
  have := C84_training_cost plainSetup exData hE stepMinimize_notWorse (stepMinimize_pos _ _ _) rfl rfl hw hlr hne hsm (by
    intro f hf c hc i hi x hx
    simp only [exData, Flt.fin.injEq] at hx
    refine ⟨if i = 0 then 0 else 1, ?_⟩
    rw [← hx]
    split_ifs <;> simp) 5 m hm
  rw [hsc] at this
  exact this

/-- The absolute error with factors: the constant prediction 1.001 of the targets 0 and 2 has costs 2. -/
example : ∃ m, plainSetup.fit (genericEstimator true (meanCosts fun p y => |p - y|) stepMinimize) exData 5 = some (.ok m) ∧
    m.scale = .fin (Real.log 1.001) ∧ trainingCost (fun p y => |p - y|) exData (m.predict none exData.X) ≤ 2 := by
  obtain ⟨m, h1, h2, h3⟩ := costExample true _ _ (.generic true _ absLoss_convex) (Real.log 1.001) (by
    simp [genericEstimator, globalScaleLink, exData, sum_range_succ, quotientFlt, Flt.addFin]
    norm_num [linkFlt])
  refine ⟨m, h1, h2, le_trans h3 (le_of_eq ?_)⟩
  have : Real.exp (Real.log 1.001) = 1.001 := Real.exp_log (by norm_num)
  simp only [trainingCost, genericEstimator, exData, sum_range_succ, range_zero, sum_empty, LinkKind.toLink, logLink, if_true, this]
  norm_num [abs_of_nonneg, abs_of_neg]

/-- The median with summands. -/
example : ∃ m, plainSetup.fit (quantileEstimator false (1 / 2) stepMinimize) exData 5 = some (.ok m) ∧
    m.scale = .fin 0 ∧ trainingCost (Spec.pinball (1 / 2)) exData (m.predict none exData.X) ≤ 1 := by
  obtain ⟨m, h1, h2, h3⟩ := costExample false _ _ (.quantile false (1 / 2) (by norm_num) (by norm_num)) 0 (by
    have : (([(0, 1), (2, 1)] : List (ℝ × ℝ)).mergeSort fun a b => decide (a.1 ≤ b.1)) = [(0, 1), (2, 1)] :=
      List.mergeSort_of_pairwise (by simp)
    simp [quantileEstimator, quantileScale, exData, List.range_succ, this, continuousQuantile, firstReaching, linkFlt]
    rw [if_pos (by norm_num)]
    simp)
  refine ⟨m, h1, h2, le_trans h3 (le_of_eq ?_)⟩
  simp [trainingCost, quantileEstimator, exData, sum_range_succ, LinkKind.toLink, identityLink, Spec.pinball]
  norm_num

end

end CB
