import Verif.Props.WeightScale
import Verif.Props.CostDescentExample
import Verif.Props.SwapClasses

/-!
# C123: where it fails, and concrete cases
-/

set_option autoImplicit false
set_option linter.unusedSectionVars false

namespace CB
open Finset Spec

noncomputable section

/-- Two samples with target 0 and weight 1. -/
def tieData : TrainSet := ⟨fun _ _ => .fin 0, 2, fun _ => 0, fun _ => 1, none⟩

/-- The global scale of the median for `tieData` with weights `c` is `⌊c⌋` (and not 0, the only target there is). -/
theorem tieScale (c : ℝ) (hc : 0 < c) (minimize : (ℝ → Flt ℝ) → ℝ → ℝ) :
    (quantileEstimator false (1 / 2) minimize).scale 2 (fun _ => 0) (weightsTimes c tieData).w = .fin (⌊c⌋ : ℝ) := by
  have hsort : (([(0, c), (0, c)] : List (ℝ × ℝ)).mergeSort fun a b => decide (a.1 ≤ b.1)) = [(0, c), (0, c)] :=
    List.mergeSort_of_pairwise (by simp)
  have hcut : (c + c) * 2⁻¹ = c := by ring
  simp [quantileEstimator, quantileScale, weightsTimes, tieData, List.range_succ, hsort, continuousQuantile, firstReaching, linkFlt, hcut]

/-- **C123, quantile regression with repeated targets.** For every optimiser that never returns anything worse than its start value: two
samples, both with target 0 and the same weight, are fitted by the median regressor. With weights of 1 the prediction for a new sample,
whose bin number did not occur in training, is 1. With weights of 100 it is 100. -/
theorem C123_ties_counterexample (minimize : (ℝ → Flt ℝ) → ℝ → ℝ) (hmin : NotWorse minimize) :
    ∃ m m' : FittedModel, plainSetup.fit (quantileEstimator false (1 / 2) minimize) (weightsTimes 1 tieData) 5 = some (.ok m) ∧
      plainSetup.fit (quantileEstimator false (1 / 2) minimize) (weightsTimes 100 tieData) 5 = some (.ok m') ∧
      ∃ X : Table ℝ, ∀ s, m.predict none X s = 1 ∧ m'.predict none X s = 100 := by
  have hg : ∀ f ∈ plainSetup.features, f.1.group ≠ [] := by simp [plainSetup]
  have key : ∀ c : ℝ, 0 < c → ∃ m, plainSetup.fit (quantileEstimator false (1 / 2) minimize) (weightsTimes c tieData) 5 = some (.ok m) ∧
      ∀ s, m.predict none (fun _ _ => .fin (((plainSetup.features.map fun f => (bindData tieData.X 2 f.1.group none).2.sum).sum : ℕ) : ℝ)) s = ⌊c⌋ := by
    intro c hc
    obtain ⟨-, m, hm⟩ := C84_fit_succeeds plainSetup (weightsTimes c tieData)
      (CostEstimator.quantile (minimize := minimize) false (1 / 2) (by norm_num) (by norm_num)) hmin (fun h => by cases h) rfl rfl
      (fun _ _ => by simp [weightsTimes, tieData, hc.le]) (fun k => by simp [plainSetup]) hg
      (C80_no_smoothing plainSetup noOpen plainChoice none [["a"]] rfl plainFeatures rfl _) (fun h => by cases h) _ (tieScale c hc minimize) le_rfl rfl
      (by norm_num [plainSetup, exSetup]) (by norm_num [plainSetup, exSetup]) 5 le_rfl
    refine ⟨m, hm, fun s => ?_⟩
    obtain ⟨a, r, -, hs, -, rfl⟩ := fit_ok plainSetup _ _ 5 m hm
    have ha := (tieScale c hc minimize).symm.trans hs
    rw [Flt.fin.injEq] at ha
    unfold FittedModel.predict
    dsimp only
    have hN : ∀ f ∈ plainSetup.features, ∀ k ∈ (bindData (weightsTimes c tieData).X (weightsTimes c tieData).n f.1.group none).2,
        k ≤ (plainSetup.features.map fun f => (bindData tieData.X 2 f.1.group none).2.sum).sum := fun f hf k hk =>
      (mem_le_sum _ k hk).trans (mem_le_sum _ _ (List.mem_map_of_mem (f := fun f => (bindData tieData.X 2 f.1.group none).2.sum) hf))
    rw [unseen_contributes_nothing plainSetup (weightsTimes c tieData) hg r.factors _ hN, ← ha]
    rfl
  obtain ⟨m, hm, hp⟩ := key 1 one_pos
  obtain ⟨m', hm', hp'⟩ := key 100 (by norm_num)
  refine ⟨m, m', hm, hm', _, fun s => ⟨(hp s).trans (by simp), (hp' s).trans ?_⟩⟩
  rw [show (100 : ℝ) = ((100 : ℤ) : ℝ) by norm_num, Int.floor_intCast]

/-- Witness for `C123_quantile_partial`: the median for the targets 0 and 2, with an optimiser that never gets worse. -/
example : ∃ m, plainSetup.fit (quantileEstimator false (1 / 2) stepMinimize) exData 5 = some (.ok m) ∧
    plainSetup.fit (quantileEstimator false (1 / 2) stepMinimize) (weightsTimes 7 exData) 5 = some (.ok m) := by
  obtain ⟨m, h1, -⟩ := costExample false _ _ (.quantile false (1 / 2) (by norm_num) (by norm_num)) 0 (by
    have : (([(0, 1), (2, 1)] : List (ℝ × ℝ)).mergeSort fun a b => decide (a.1 ≤ b.1)) = [(0, 1), (2, 1)] :=
      List.mergeSort_of_pairwise (by simp)
    simp [quantileEstimator, quantileScale, exData, List.range_succ, this, continuousQuantile, firstReaching, linkFlt]
    rw [if_pos (by norm_num)]
    simp)
  refine ⟨m, h1, ?_⟩
  rw [C123_quantile_partial plainSetup exData 7 (by norm_num) false (1 / 2) stepMinimize
    (C123_no_smoothing plainSetup noOpen plainChoice none [["a"]] rfl plainFeatures rfl (by simp) exData 7 (by norm_num)) (by
      intro i _ j _ h
      simpa [exData] using h) 5]
  exact h1

/-- The mean absolute error, weighted. -/
def weightedAbs (l : List (ℝ × ℝ × ℝ)) : Flt ℝ :=
  quotientFlt (l.map fun s => s.2.2 * |s.1 - s.2.1|).sum (l.map fun s => s.2.2).sum

theorem weightedAbs_scaleFree : ScaleFreeCosts weightedAbs := by
  intro c l hc
  unfold weightedAbs
  refine Eq.trans ?_ (quotientFlt_times c hc _ _)
  rw [← List.sum_map_mul_left, ← List.sum_map_mul_left, List.map_map, List.map_map]
  congr 2
  exact List.map_congr_left fun s _ => by simp only [Function.comp_apply]; ring

/-- Witness for `C123_generic`: every optimiser, every fuel, the data of two samples; the global scale is a number. -/
example (minimize : (ℝ → Flt ℝ) → ℝ → ℝ) (fuel : ℕ) :
    plainSetup.fit (genericEstimator true weightedAbs minimize) (weightsTimes 7 exData) fuel =
        plainSetup.fit (genericEstimator true weightedAbs minimize) exData fuel ∧
      (genericEstimator true weightedAbs minimize).scale exData.n exData.y exData.w = .fin (Real.log 1.001) :=
  ⟨C123_generic plainSetup exData 7 (by norm_num) true weightedAbs weightedAbs_scaleFree minimize
    (C123_no_smoothing plainSetup noOpen plainChoice none [["a"]] rfl plainFeatures rfl (by simp) exData 7 (by norm_num)) fuel, by
    simp [genericEstimator, globalScaleLink, exData, sum_range_succ, quotientFlt, Flt.addFin]
    norm_num [linkFlt]⟩

end
end CB
