import Verif.Props.PriorUnits
import Verif.Props.CostDescentExample

/-!
# When C119 applies, and where it ends
-/

set_option autoImplicit false
set_option linter.unusedSectionVars false

namespace CB
open Finset Spec

noncomputable section

/-- **C119, where it ends.** If the weighted mean of the prior predictions is not positive, the unit does matter: with prior
predictions multiplied by `c` the model starts from values that are `c` times as large. -/
theorem C119_mean_not_positive (E : Estimator) (hlink : E.link = .log) (hshift : E.shiftPrior = true) (D : TrainSet) (a : ℝ)
    (hs : E.scale D.n D.y D.w = .fin a) (prior : ℕ → Flt ℝ) (mean : ℝ) (hm : IsPriorMean D prior mean) (hneg : mean ≤ 0)
    (c : ℝ) (hc : 0 < c) (i : ℕ) (x : ℝ) (hi : prior i = .fin x) (hx : 0 < x) :
    let scaled := fun s => inUnits c (prior s)
    ∃ start start', priorPrediction .log (.fin a) (E.offset (withPrior D prior)) (some prior) i = .fin start ∧
      priorPrediction .log (.fin a) (E.offset (withPrior D scaled)) (some scaled) i = .fin start' ∧
      Real.exp start' = c * Real.exp start := by
  have off : ∀ (p : ℕ → Flt ℝ) (m : ℝ), IsPriorMean D p m → m ≤ 0 → E.offset (withPrior D p) = .fin a := by
    intro p m h hle
    unfold Estimator.offset withPrior
    dsimp only
    rw [hshift, if_pos rfl, hs, hlink]
    unfold priorOffsetFrom
    rw [priorPredMean_of D p m h]
    rcases hle.lt_or_eq with h0 | h0
    · simp [linkFlt, not_lt.mpr h0.le, h0.ne, Flt.isFinite]
    · simp [linkFlt, h0, Flt.isFinite]
  intro scaled
  rw [off prior mean hm hneg, off scaled (c * mean) (priorMean_units c D prior mean hm) (mul_nonpos_of_nonneg_of_nonpos hc.le hneg)]
  refine ⟨Real.log x + a, Real.log (c * x) + a, ?_, ?_, ?_⟩
  · simp [priorPrediction, hi, linkFlt, hx, Flt.add, Flt.isFinite]
  · simp [priorPrediction, scaled, hi, inUnits, linkFlt, hx, hc, mul_pos hc hx, Flt.add, Flt.isFinite]
  · rw [Real.exp_add, Real.exp_add, Real.exp_log hx, Real.exp_log (mul_pos hc hx)]
    ring

/-- Prior predictions 1 and 3 of the two samples, missing elsewhere. -/
def exPrior : ℕ → Flt ℝ
  | 0 => .fin 1
  | 1 => .fin 3
  | _ => .nan

theorem exPrior_mean : IsPriorMean exData exPrior 2 := by
  have : (range exData.n).filter (fun i => (exPrior i).isFinite = true) = range 2 := by
    show (range 2).filter _ = _
    rw [filter_true_of_mem]
    intro i hi
    have := mem_range.mp hi
    interval_cases i <;> rfl
  simp only [IsPriorMean, this]
  norm_num [exData, sum_range_succ, exPrior, Flt.getFin]

theorem priorFit (mult : Bool) (E : Estimator) (loss : ℝ → ℝ → ℝ) (hE : CostEstimator stepMinimize mult E loss) (a : ℝ)
    (hs : E.scale exData.n exData.y exData.w = .fin a) (p : ℕ → Flt ℝ) :
    ∃ m, plainSetup.fit E (withPrior exData p) 5 = some (.ok m) :=
  (C84_fit_succeeds plainSetup (withPrior exData p) hE stepMinimize_notWorse (stepMinimize_pos _ _ _) rfl rfl
    (fun _ _ => by simp [withPrior, exData]) (fun k => by simp [plainSetup]) (by simp [plainSetup])
    (C80_no_smoothing plainSetup noOpen plainChoice none [["a"]] rfl plainFeatures rfl _)
    (fun _ i _ => by simp [withPrior, exData]) a hs le_rfl rfl (by norm_num [plainSetup, exSetup])
    (by norm_num [plainSetup, exSetup]) 5 le_rfl).2

/-- Witness for C119, multiplicative: the absolute error, prior predictions 1 and 3, and 10 and 30. -/
example : ∃ m m', plainSetup.fit (genericEstimator true (meanCosts fun p y => |p - y|) stepMinimize) (withPrior exData exPrior) 5 = some (.ok m) ∧
    plainSetup.fit (genericEstimator true (meanCosts fun p y => |p - y|) stepMinimize)
      (withPrior exData fun s => inUnits 10 (exPrior s)) 5 = some (.ok m') ∧
    m'.predict (some fun _ => .fin 70) exData.X 1 = m.predict (some fun _ => .fin 7) exData.X 1 := by
  have hs : (genericEstimator true (meanCosts fun p y => |p - y|) stepMinimize).scale exData.n exData.y exData.w = .fin (Real.log 1.001) := by
    simp [genericEstimator, globalScaleLink, exData, sum_range_succ, quotientFlt, Flt.addFin]
    norm_num [linkFlt]
  obtain ⟨m, hm⟩ := priorFit true _ _ (.generic true _ absLoss_convex) _ hs exPrior
  obtain ⟨m', h1, -, h2⟩ := (C119_multiplicative plainSetup _ rfl rfl exData exPrior 2 exPrior_mean (by norm_num) 10 (by norm_num) 5).2.2 m hm
  refine ⟨m, m', hm, h1, ?_⟩
  rw [← h2 (fun _ => .fin 7) exData.X 1]
  norm_num [inUnits]

/-- Witness for C119, additive: the median, prior predictions 1 and 3, and 101 and 103. -/
example : ∃ m m', plainSetup.fit (quantileEstimator false (1 / 2) stepMinimize) (withPrior exData exPrior) 5 = some (.ok m) ∧
    plainSetup.fit (quantileEstimator false (1 / 2) stepMinimize)
      (withPrior exData fun s => moved 100 (exPrior s)) 5 = some (.ok m') ∧
    m'.predict (some fun _ => .fin 107) exData.X 1 = m.predict (some fun _ => .fin 7) exData.X 1 := by
  have hs : (quantileEstimator false (1 / 2) stepMinimize).scale exData.n exData.y exData.w = .fin 0 := by
    have : (([(0, 1), (2, 1)] : List (ℝ × ℝ)).mergeSort fun a b => decide (a.1 ≤ b.1)) = [(0, 1), (2, 1)] :=
      List.mergeSort_of_pairwise (by simp)
    simp [quantileEstimator, quantileScale, exData, List.range_succ, this, continuousQuantile, firstReaching, linkFlt]
    rw [if_pos (by norm_num)]
    simp
  obtain ⟨m, hm⟩ := priorFit false _ _ (.quantile false (1 / 2) (by norm_num) (by norm_num)) _ hs exPrior
  obtain ⟨m', h1, -, h2⟩ := (C119_additive plainSetup _ rfl rfl exData exPrior 2 exPrior_mean 100 5).2.2 m hm
  refine ⟨m, m', hm, h1, ?_⟩
  rw [← h2 (fun _ => .fin 7) exData.X 1]
  norm_num [moved]

/-- Witness for the limit: prior predictions 1 and -1. -/
example : IsPriorMean exData (fun s => if s = 0 then .fin 1 else .fin (-1)) 0 := by
  have : (range exData.n).filter (fun i => ((if i = 0 then .fin 1 else .fin (-1) : Flt ℝ)).isFinite = true) = range 2 := by
    show (range 2).filter _ = _
    rw [filter_true_of_mem]
    intro i hi
    have := mem_range.mp hi
    interval_cases i <;> rfl
  simp only [IsPriorMean, this]
  norm_num [exData, sum_range_succ, Flt.getFin]

/-- **C119, the regressors.** Those to which the multiplicative and the additive statement apply. -/
theorem C119_regressors (g : ℝ → ℝ) (a c q : ℝ) (minimize : (ℝ → Flt ℝ) → ℝ → ℝ) :
    (∀ E ∈ [poissonEstimator g, nbinomEstimator g a c, quantileEstimator true q minimize], E.link = .log ∧ E.shiftPrior = true) ∧
    (∀ E ∈ [locationEstimator, locPoissonEstimator, quantileEstimator false q minimize], E.link = .identity ∧ E.shiftPrior = true) := by
  constructor <;> intro E hE <;> simp only [List.mem_cons, List.not_mem_nil, or_false] at hE <;>
    rcases hE with rfl | rfl | rfl <;> exact ⟨rfl, rfl⟩

end
end CB
