import Verif.Props.ConvergenceExample

/-!
# C125 and C126: what the limit of the training depends on, and its calibration
-/

set_option autoImplicit false
set_option linter.unusedSectionVars false

namespace CB
open Finset Spec

section
variable {σ : Type*} (S S' : Setup σ) (D : TrainSet) (ra ra' low low' : ℝ)

/-- What one set of features can say, a larger one can say. -/
theorem additive_mono (hsub : ∀ f ∈ S.features, ∃ f' ∈ S'.features, f'.1.group = f.1.group) (q : ℕ → ℝ) (h : AdditiveModel S D q) :
    AdditiveModel S' D q := by
  obtain ⟨φ, hφ⟩ := h
  choose! other hmem hgroup using hsub
  obtain ⟨ψ, hψ⟩ := merge_functions S'.features (codeOf D.X D.n) (S.features.map fun f => (other f, φ f)) (by
    intro p hp
    obtain ⟨f, hf, rfl⟩ := List.mem_map.mp hp
    exact hmem f hf)
  refine ⟨ψ, fun i hi => ?_⟩
  rw [hφ i hi]
  congr 1
  refine Eq.trans ?_ (hψ ⟨i, hi⟩)
  rw [List.map_map]
  refine congrArg List.sum (List.map_congr_left fun f hf => ?_)
  show φ f ((f.1.cfg D.X D.n).bin i) = φ f (((other f).1.cfg D.X D.n).bin i)
  congr 1
  show (bindData D.X D.n f.1.group none).1.getD i 0 = (bindData D.X D.n (other f).1.group none).1.getD i 0
  rw [hgroup f hf]

theorem weightedDistance_triangle (hw : ∀ i < D.n, 0 ≤ D.w i) (p q r : ℕ → ℝ) :
    weightedDistance D p q ≤ 2 * weightedDistance D p r + 2 * weightedDistance D q r := by
  unfold weightedDistance
  rw [Finset.mul_sum, Finset.mul_sum, ← Finset.sum_add_distrib]
  refine Finset.sum_le_sum fun i hi => ?_
  have := hw i (Finset.mem_range.mp hi)
  nlinarith [mul_nonneg this (sq_nonneg ((p i - r i) + (q i - r i)))]

/-- **C125.** Two long trainings on the same data with the same feature groups end in the same predictions, whatever their order, how
often a group is repeated, the regularization and the learning rates. -/
theorem C125_same_limit (h : FreeDescent S D ra low) (h' : FreeDescent S' D ra' low') (hlow : 0 < low) (hlow' : 0 < low')
    (hsub : ∀ f ∈ S.features, ∃ f' ∈ S'.features, f'.1.group = f.1.group)
    (hsup : ∀ f' ∈ S'.features, ∃ f ∈ S.features, f.1.group = f'.1.group)
    (hf : S.params.minimalFactorChange < 0) (hl : S.params.minimalLossChange < 0)
    (hf' : S'.params.minimalFactorChange < 0) (hl' : S'.params.minimalLossChange < 0) (hsum : ∑ i ∈ range D.n, D.w i ≠ 0)
    (ε : ℝ) (hε : 0 < ε) :
    ∃ N, ∀ M M', N ≤ M → N ≤ M' → ∃ m m', (withMaximalIterations S M).fit (gbsEstimator ra) D (M + 4) = some (.ok m) ∧
      (withMaximalIterations S' M').fit (gbsEstimator ra') D (M' + 4) = some (.ok m') ∧
      weightedDistance D (m.predict D.prior D.X) (m'.predict D.prior D.X) < ε := by
  obtain ⟨best, hb⟩ := C124_best_exists S D h.plain.weights
  have hb' : BestAdditiveModel S' D best := ⟨additive_mono S S' D hsub best hb.1, fun q hq => hb.2 q (additive_mono S' S D hsup q hq)⟩
  obtain ⟨N, hN⟩ := C124_limit S D ra low h hlow hf hl hsum best hb (ε / 4) (by linarith)
  obtain ⟨N', hN'⟩ := C124_limit S' D ra' low' h' hlow' hf' hl' hsum best hb' (ε / 4) (by linarith)
  refine ⟨max N N', fun M M' h1 h2 => ?_⟩
  obtain ⟨m, hm, hd, -⟩ := hN M (le_trans (le_max_left _ _) h1)
  obtain ⟨m', hm', hd', -⟩ := hN' M' (le_trans (le_max_right _ _) h2)
  refine ⟨m, m', hm, hm', ?_⟩
  have := weightedDistance_triangle D h.plain.weights (m.predict D.prior D.X) (m'.predict D.prior D.X) best
  linarith

/-- **C125**, more features: on the training data, a long unsmoothed training with more feature groups is at least as good as any model
with fewer of them, smoothed or not, stopped early or not. -/
theorem C125_more_features (h' : FreeDescent S' D ra' low') (hlow' : 0 < low')
    (hsub : ∀ f ∈ S.features, ∃ f' ∈ S'.features, f'.1.group = f.1.group)
    (hf' : S'.params.minimalFactorChange < 0) (hl' : S'.params.minimalLossChange < 0) (hsum : ∑ i ∈ range D.n, D.w i ≠ 0)
    (hagg : S.params.aggregate = true) (hg : ∀ f ∈ S.features, f.1.group ≠ [] ∧ f.1.external = false) (ε : ℝ) (hε : 0 < ε) :
    ∃ N, ∀ M, N ≤ M → ∃ m', (withMaximalIterations S' M).fit (gbsEstimator ra') D (M + 4) = some (.ok m') ∧
      ∀ (fuel : ℕ) (m : FittedModel), S.fit (gbsEstimator ra) D fuel = some (.ok m) →
        trainingError D (m'.predict D.prior D.X) < trainingError D (m.predict D.prior D.X) + ε := by
  obtain ⟨best, hb⟩ := C124_best_exists S' D h'.plain.weights
  obtain ⟨N, hN⟩ := C124_limit S' D ra' low' h' hlow' hf' hl' hsum best hb ε hε
  refine ⟨N, fun M hM => ?_⟩
  obtain ⟨m', hm', -, he⟩ := hN M hM
  refine ⟨m', hm', fun fuel m hm => ?_⟩
  have := hb.2 _ (additive_mono S S' D hsub _ (fitted_additive S D ra hagg hg (by
    intro f hf c hc i hi x hx
    obtain ⟨f', hf', hgr⟩ := hsub f hf
    exact h'.binNumbers f' hf' c (hgr.trans hc) i hi x hx) fuel m hm))
  linarith

/-- The best additive model is calibrated: the weighted mean of its predictions over the samples of a bin is that of the target. -/
theorem best_calibrated (best : ℕ → ℝ) (hb : BestAdditiveModel S D best) (f : FeatureSpec × SmootherKind) (hf : f ∈ S.features) (b : ℕ) :
    sumInBin D f b (fun i => D.w i * best i) = sumInBin D f b (fun i => D.w i * D.y i) := by
  have hadd : ∀ t : ℝ, AdditiveModel S D (fun i => best i + t * if (f.1.cfg D.X D.n).bin i = b then 1 else 0) := by
    intro t
    obtain ⟨φ, hφ⟩ := hb.1
    obtain ⟨ψ, hψ⟩ := merge_functions S.features (codeOf D.X D.n) [(f, fun c => t * if c = b then 1 else 0)] (by simpa using hf)
    refine ⟨fun g c => φ g c + ψ g c, fun i hi => ?_⟩
    have e := hψ ⟨i, hi⟩
    simp only [List.map_cons, List.map_nil, List.sum_cons, List.sum_nil, add_zero] at e
    beta_reduce
    rw [hφ i hi, List.sum_map_add, ← add_assoc]
    exact congrArg _ e
  set A := sumInBin D f b (fun i => D.w i * (best i - D.y i)) with hA
  set W := sumInBin D f b D.w with hW
  have herr : ∀ t : ℝ, trainingError D (fun i => best i + t * if (f.1.cfg D.X D.n).bin i = b then 1 else 0) =
      trainingError D best + 2 * t * A + t ^ 2 * W := by
    intro t
    rw [hA, hW]
    unfold trainingError sumInBin
    rw [Finset.sum_filter, Finset.sum_filter, Finset.mul_sum, Finset.mul_sum, ← Finset.sum_add_distrib, ← Finset.sum_add_distrib]
    refine Finset.sum_congr rfl fun i _ => ?_
    by_cases hi : (f.1.cfg D.X D.n).bin i = b
    · simp only [if_pos hi]
      ring
    · simp only [if_neg hi]
      ring
  have hle : ∀ t : ℝ, 0 ≤ 2 * t * A + t ^ 2 * W := by
    intro t
    have := hb.2 _ (hadd t)
    rw [herr t] at this
    linarith
  have hA0 : A = 0 := by
    by_contra hne
    by_cases hW0 : W ≤ 0
    · have h1 := hle (-A)
      have h2 : 0 < A ^ 2 := by positivity
      nlinarith [mul_nonneg h2.le (by linarith : 0 ≤ -W)]
    · push Not at hW0
      have h1 := hle (-A / W)
      have h2 : 2 * (-A / W) * A + (-A / W) ^ 2 * W = - (A ^ 2 / W) := by
        field_simp
        ring
      rw [h2] at h1
      have h3 : 0 < A ^ 2 / W := by positivity
      linarith
  have e : A = sumInBin D f b (fun i => D.w i * best i) - sumInBin D f b (fun i => D.w i * D.y i) := by
    rw [hA]
    unfold sumInBin
    rw [← Finset.sum_sub_distrib]
    exact Finset.sum_congr rfl fun i _ => by ring
  linarith

/-- A small distance means close sums in each bin. -/
theorem sumInBin_close (hw : ∀ i < D.n, 0 ≤ D.w i) (f : FeatureSpec × SmootherKind) (b : ℕ) (p q : ℕ → ℝ) :
    (sumInBin D f b (fun i => D.w i * p i) - sumInBin D f b (fun i => D.w i * q i)) ^ 2 ≤ sumInBin D f b D.w * weightedDistance D p q := by
  have e : sumInBin D f b (fun i => D.w i * p i) - sumInBin D f b (fun i => D.w i * q i) =
      ∑ i ∈ (range D.n).filter (fun i => (f.1.cfg D.X D.n).bin i = b), Real.sqrt (D.w i) * (Real.sqrt (D.w i) * (p i - q i)) := by
    unfold sumInBin
    rw [← Finset.sum_sub_distrib]
    refine Finset.sum_congr rfl fun i hi => ?_
    rw [← mul_assoc, Real.mul_self_sqrt (hw i (Finset.mem_range.mp (Finset.mem_filter.mp hi).1))]
    ring
  rw [e]
  refine (Finset.sum_mul_sq_le_sq_mul_sq _ _ _).trans ?_
  refine mul_le_mul (le_of_eq ?_) ?_ (Finset.sum_nonneg fun i _ => sq_nonneg _) ?_
  · unfold sumInBin
    exact Finset.sum_congr rfl fun i hi => Real.sq_sqrt (hw i (Finset.mem_range.mp (Finset.mem_filter.mp hi).1))
  · unfold weightedDistance
    refine le_trans (le_of_eq (Finset.sum_congr rfl fun i hi => ?_)) (Finset.sum_le_sum_of_subset_of_nonneg (Finset.filter_subset _ _)
      fun i hi _ => mul_nonneg (hw i (Finset.mem_range.mp hi)) (sq_nonneg _))
    rw [mul_pow, Real.sq_sqrt (hw i (Finset.mem_range.mp (Finset.mem_filter.mp hi).1))]
  · exact Finset.sum_nonneg fun i hi => hw i (Finset.mem_range.mp (Finset.mem_filter.mp hi).1)

/-- **C126.** Long training calibrates: with early stopping switched off, the weighted sums of prediction and target over the samples of
every bin of every feature differ by less than any given number if `maximal_iterations` is large enough, whatever the regularization. -/
theorem C126_calibrated (h : FreeDescent S D ra low) (hlow : 0 < low) (hf : S.params.minimalFactorChange < 0)
    (hl : S.params.minimalLossChange < 0) (hsum : ∑ i ∈ range D.n, D.w i ≠ 0) (ε : ℝ) (hε : 0 < ε) :
    ∃ N, ∀ M, N ≤ M → ∃ m, (withMaximalIterations S M).fit (gbsEstimator ra) D (M + 4) = some (.ok m) ∧
      ∀ f ∈ S.features, ∀ b,
        |sumInBin D f b (fun i => D.w i * m.predict D.prior D.X i) - sumInBin D f b (fun i => D.w i * D.y i)| < ε := by
  obtain ⟨best, hb⟩ := C124_best_exists S D h.plain.weights
  set W := ∑ i ∈ range D.n, D.w i with hW
  have hw := h.plain.weights
  have hW0 : 0 < W := lt_of_le_of_ne (Finset.sum_nonneg fun i hi => hw i (Finset.mem_range.mp hi)) (Ne.symm hsum)
  obtain ⟨N, hN⟩ := C124_limit S D ra low h hlow hf hl hsum best hb (ε ^ 2 / W) (by positivity)
  refine ⟨N, fun M hM => ?_⟩
  obtain ⟨m, hm, hd, -⟩ := hN M hM
  refine ⟨m, hm, fun f hfm b => ?_⟩
  rw [← best_calibrated S D best hb f hfm b]
  have h1 := sumInBin_close D hw f b (m.predict D.prior D.X) best
  have h2 : sumInBin D f b D.w ≤ W := by
    unfold sumInBin
    exact Finset.sum_le_sum_of_subset_of_nonneg (Finset.filter_subset _ _) fun i hi _ => hw i (Finset.mem_range.mp hi)
  have h3 : 0 ≤ weightedDistance D (m.predict D.prior D.X) best := Finset.sum_nonneg fun i hi =>
    mul_nonneg (hw i (Finset.mem_range.mp hi)) (sq_nonneg _)
  have h4 : W * weightedDistance D (m.predict D.prior D.X) best < ε ^ 2 := by
    rw [lt_div_iff₀ hW0] at hd
    linarith
  exact abs_lt_of_sq_lt_sq (lt_of_le_of_lt (h1.trans (mul_le_mul_of_nonneg_right h2 h3)) h4) hε.le

/-- **C126**, the whole: so do the weighted means of prediction and target over all samples. -/
theorem C126_total (h : FreeDescent S D ra low) (hlow : 0 < low) (hf : S.params.minimalFactorChange < 0)
    (hl : S.params.minimalLossChange < 0) (hsum : ∑ i ∈ range D.n, D.w i ≠ 0) (hne : S.features ≠ []) (ε : ℝ) (hε : 0 < ε) :
    ∃ N, ∀ M, N ≤ M → ∃ m, (withMaximalIterations S M).fit (gbsEstimator ra) D (M + 4) = some (.ok m) ∧
      |∑ i ∈ range D.n, D.w i * m.predict D.prior D.X i - ∑ i ∈ range D.n, D.w i * D.y i| < ε := by
  obtain ⟨f, hf0⟩ := List.exists_mem_of_ne_nil _ hne
  set B := (f.1.cfg D.X D.n).nFinite + 1 with hB
  have hB0 : (0 : ℝ) < B := by rw [hB]; positivity
  obtain ⟨N, hN⟩ := C126_calibrated S D ra low h hlow hf hl hsum (ε / B) (by positivity)
  refine ⟨N, fun M hM => ?_⟩
  obtain ⟨m, hm, hc⟩ := hN M hM
  refine ⟨m, hm, ?_⟩
  have e : ∀ g : ℕ → ℝ, ∑ i ∈ range D.n, g i = ∑ b ∈ range B, sumInBin D f b g := by
    intro g
    rw [sum_over_bins D.n _ (f.1.cfg D.X D.n).bin (fun i hi => cfg_bin_le f.1 (h.plain.features f hf0).1 D.X D.n i hi) g]
    exact Finset.sum_congr rfl fun b _ => sumInBin_binSum D f b g
  rw [e, e, ← Finset.sum_sub_distrib]
  refine lt_of_le_of_lt (Finset.abs_sum_le_sum_abs _ _) ?_
  refine lt_of_lt_of_le (Finset.sum_lt_sum_of_nonempty ⟨0, by simp [hB]⟩ fun b _ => hc f hf0 b) (le_of_eq ?_)
  rw [Finset.sum_const, card_range, nsmul_eq_mul]
  field_simp

end

/-- The features of the example the other way round, and one of them twice. -/
noncomputable def backSetup : Setup (List (FitRow ℝ) × List ℝ) :=
  { twoSetup with
    features := [(⟨["b"], false, false⟩, .normalizationRegressionType .binValuesOne .discontinuous),
      (⟨["a"], false, false⟩, .normalizationRegressionType .binValuesOne .discontinuous),
      (⟨["b"], false, false⟩, .normalizationRegressionType .binValuesOne .discontinuous)]
    learnRate := fun _ => 1 }

theorem backFeatures : createFeatures plainChoice none [["b"], ["a"], ["b"]] = .ok backSetup.features := by rfl

theorem backFree : FreeDescent backSetup twoData 100 1 := by
  refine ⟨⟨rfl, rfl, by norm_num, fun i _ => by simp only [twoData]; positivity, fun k => ?_, by simp [backSetup],
    C80_no_smoothing backSetup noOpen plainChoice none [["b"], ["a"], ["b"]] rfl backFeatures rfl twoData⟩, fun k _ => ?_, ?_, ?_⟩
  · simp [backSetup]
  · simp [backSetup]
  · exact C124_no_smoothing backSetup noOpen rfl backFeatures rfl (by simp) twoData (fun i _ => by simp only [twoData]; positivity)
      (by simp [backSetup])
  · intro f _ c _ i _ x hx
    simp only [twoData, Flt.fin.injEq] at hx
    rw [← hx]
    split_ifs
    · exact ⟨1, by simp⟩
    · exact ⟨0, by simp⟩
    · exact ⟨0, by simp⟩
    · exact ⟨1, by simp⟩

/-- Witness for C125: other order, a repeated feature, a strong regularization and other learning rates. -/
example (ε : ℝ) (hε : 0 < ε) : ∃ N, ∀ M M', N ≤ M → N ≤ M' → ∃ m m',
    (withMaximalIterations twoSetup M).fit (gbsEstimator 0) twoData (M + 4) = some (.ok m) ∧
      (withMaximalIterations backSetup M').fit (gbsEstimator 100) twoData (M' + 4) = some (.ok m') ∧
      weightedDistance twoData (m.predict none twoData.X) (m'.predict none twoData.X) < ε :=
  C125_same_limit twoSetup backSetup twoData 0 100 (1 / 2) 1 twoFree backFree (by norm_num) (by norm_num)
    (by simp [twoSetup, backSetup]) (by simp [twoSetup, backSetup]) (by norm_num [twoSetup]) (by norm_num [twoSetup])
    (by norm_num [backSetup, twoSetup]) (by norm_num [backSetup, twoSetup]) (by simp [twoData, Finset.sum_range_succ]; norm_num) ε hε

/-- Witness for C125, more features: the model with one smoothed feature and an early stop. -/
example (ε : ℝ) (hε : 0 < ε) : ∃ N, ∀ M, N ≤ M → ∃ m',
    (withMaximalIterations backSetup M).fit (gbsEstimator 100) twoData (M + 4) = some (.ok m') ∧
      ∀ (fuel : ℕ) (m : FittedModel), meanSetup.fit (gbsEstimator 0) twoData fuel = some (.ok m) →
        trainingError twoData (m'.predict none twoData.X) < trainingError twoData (m.predict none twoData.X) + ε :=
  C125_more_features meanSetup backSetup twoData 0 100 1 backFree (by norm_num) (by simp [meanSetup, backSetup])
    (by norm_num [backSetup, twoSetup]) (by norm_num [backSetup, twoSetup]) (by simp [twoData, Finset.sum_range_succ]; norm_num)
    rfl (by simp [meanSetup]) ε hε

/-- Witness for C126: the third sample is alone in bin 1 of the feature `a`, so its prediction comes close to its target 5, even with
a regularization of 100. -/
example : ∃ N, ∀ M, N ≤ M → ∃ m, (withMaximalIterations backSetup M).fit (gbsEstimator 100) twoData (M + 4) = some (.ok m) ∧
    |3 * m.predict none twoData.X 2 - 15| < 1 / 1000 := by
  have hba : bindData twoData.X 3 ["a"] none = ([0, 0, 1], [2]) := by
    simp [bindData, lexBinnos, inferBins, maxPlusOne, twoData, Table.row, finiteSemiPositive, floorComp, validRow, validComp,
      binSteps, dotRow, List.range_succ]
  obtain ⟨N, hN⟩ := C126_calibrated backSetup twoData 100 1 backFree (by norm_num) (by norm_num [backSetup, twoSetup])
    (by norm_num [backSetup, twoSetup]) (by simp [twoData, Finset.sum_range_succ]; norm_num) (1 / 1000) (by norm_num)
  refine ⟨N, fun M hM => ?_⟩
  obtain ⟨m, hm, hc⟩ := hN M hM
  refine ⟨m, hm, ?_⟩
  have h1 := hc (⟨["a"], false, false⟩, .normalizationRegressionType .binValuesOne .discontinuous) (by simp [backSetup]) 1
  have e : ∀ g : ℕ → ℝ, sumInBin twoData (⟨["a"], false, false⟩, .normalizationRegressionType .binValuesOne .discontinuous) 1 g = g 2 := by
    intro g
    unfold sumInBin
    rw [Finset.sum_filter]
    simp [FeatureSpec.cfg, show twoData.n = 3 from rfl, hba, Finset.sum_range_succ]
  rw [e, e] at h1
  have h2 : twoData.w 2 = 3 := by norm_num [twoData]
  have h3 : twoData.w 2 * twoData.y 2 = 15 := by norm_num [twoData]
  rw [h3, h2] at h1
  exact h1

end CB
