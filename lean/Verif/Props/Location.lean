import Verif.Model.Location
import Verif.Props.Predict
import Verif.Props.Estimators
import Verif.Props.TrainingExamples

/-!
# C54: location regressors
-/

set_option autoImplicit false
set_option linter.unusedSectionVars false

open Finset

namespace CB
open Spec

section
variable {K : Type*} [Field K] [LinearOrder K] [IsStrictOrderedRing K]

/-- Summing over the samples is summing over the bins with the weight sums. -/
theorem sum_samples_bins (n m : ℕ) (codes : ℕ → ℕ) (w f : ℕ → K) (hc : ∀ i < n, codes i < m) :
    ∑ i ∈ range n, w i * f (codes i) = ∑ b ∈ range m, f b * binSum n codes w b := by
  unfold binSum
  simp only [mul_sum]
  rw [sum_comm]
  refine sum_congr rfl fun i hi => ?_
  rw [sum_eq_single (codes i)]
  · rw [if_pos rfl, mul_comm]
  · intro b _ hb
    rw [if_neg (Ne.symm hb), mul_zero]
  · intro h
    exact absurd (mem_range.mpr (hc i (mem_range.mp hi))) h

/-- The weight of the samples that take part in the calibration. -/
def Spec.calibrationWeight (n : ℕ) (w : ℕ → K) (cfg : FeatureCfg) : K :=
  ∑ i ∈ range n, if cfg.missingNotLearned = true ∧ cfg.bin i = cfg.nFinite then 0 else w i

/-- **C54.**  After calibration the weighted mean of the parameters over the training sample is
zero, whatever the parameters were before. -/
theorem C54_calibrated (n : ℕ) (w : ℕ → K) (cfg : FeatureCfg) (hbin : ∀ i < n, cfg.bin i ≤ cfg.nFinite)
    (hw : Spec.calibrationWeight n w cfg ≠ 0) (factors : ℕ → K) :
    ∑ i ∈ range n, w i * locCalibrate cfg (binSum n cfg.bin w) factors (cfg.bin i) = 0 := by
  rw [sum_samples_bins n (cfg.nFinite + 1) cfg.bin w _ (fun i hi => Nat.lt_succ_of_le (hbin i hi))]
  have hone := sum_samples_bins n (cfg.nFinite + 1) cfg.bin w
    (fun b => if cfg.missingNotLearned = true ∧ b = cfg.nFinite then 0 else 1)
    (fun i hi => Nat.lt_succ_of_le (hbin i hi))
  have hcw : Spec.calibrationWeight n w cfg = ∑ b ∈ range (cfg.nFinite + 1),
      (if cfg.missingNotLearned = true ∧ b = cfg.nFinite then 0 else 1) * binSum n cfg.bin w b := by
    rw [← hone]
    unfold Spec.calibrationWeight
    refine sum_congr rfl fun i _ => ?_
    split_ifs <;> simp
  unfold locCalibrate
  cases hm : cfg.missingNotLearned with
  | true =>
    rw [hm, sum_range_succ] at hcw
    have hcw' : Spec.calibrationWeight n w cfg = ∑ c ∈ range cfg.nFinite, binSum n cfg.bin w c := by
      rw [hcw]
      simp only [true_and, if_true, zero_mul, add_zero]
      refine sum_congr rfl fun b hb => ?_
      rw [if_neg (by have := mem_range.mp hb; omega), one_mul]
    rw [hcw'] at hw
    simp only [if_true]
    rw [sum_range_succ, if_neg (lt_irrefl _), zero_mul, add_zero]
    have e : ∀ b ∈ range cfg.nFinite, (if b < cfg.nFinite then factors b -
        (∑ c ∈ range cfg.nFinite, factors c * binSum n cfg.bin w c) /
          ∑ c ∈ range cfg.nFinite, binSum n cfg.bin w c else 0) * binSum n cfg.bin w b
        = factors b * binSum n cfg.bin w b -
          (∑ c ∈ range cfg.nFinite, factors c * binSum n cfg.bin w c) /
          (∑ c ∈ range cfg.nFinite, binSum n cfg.bin w c) * binSum n cfg.bin w b := by
      intro b hb
      rw [if_pos (mem_range.mp hb), sub_mul]
    rw [sum_congr rfl e, sum_sub_distrib, ← mul_sum, div_mul_cancel₀ _ hw, sub_self]
  | false =>
    rw [hm] at hcw
    have hcw' : Spec.calibrationWeight n w cfg
        = ∑ c ∈ range (cfg.nFinite + 1), binSum n cfg.bin w c := by
      rw [hcw]
      refine sum_congr rfl fun b _ => ?_
      simp
    rw [hcw'] at hw
    simp only [Bool.false_eq_true, if_false]
    have e : ∀ b ∈ range (cfg.nFinite + 1), (factors b -
        (∑ c ∈ range (cfg.nFinite + 1), factors c * binSum n cfg.bin w c) /
          ∑ c ∈ range (cfg.nFinite + 1), binSum n cfg.bin w c) * binSum n cfg.bin w b
        = factors b * binSum n cfg.bin w b -
          (∑ c ∈ range (cfg.nFinite + 1), factors c * binSum n cfg.bin w c) /
          (∑ c ∈ range (cfg.nFinite + 1), binSum n cfg.bin w c) * binSum n cfg.bin w b := by
      intro b _
      rw [sub_mul]
    rw [sum_congr rfl e, sum_sub_distrib, ← mul_sum, div_mul_cancel₀ _ hw, sub_self]

/-- The calibration only shifts: differences between bins are kept (apart from the missing bin
that is not learned). -/
theorem C54_only_shifts (cfg : FeatureCfg) (bw factors : ℕ → K) (a b : ℕ) (ha : a < cfg.nFinite)
    (hb : b < cfg.nFinite) :
    locCalibrate cfg bw factors a - locCalibrate cfg bw factors b = factors a - factors b := by
  unfold locCalibrate
  split_ifs <;> ring

/-- A linear condition on the parameters that calibration establishes in every iteration holds
for the stored parameters after every iteration of every training (without clipping, that
is, without log link). -/
theorem training_linear_invariant (p : Params K) (hclip : p.clip = false) (o : Oracle K)
    (cfgs : List FeatureCfg) (prior : ℕ → K) (past : List (TState K)) (s : TState K)
    (h : Trace p o cfgs (startState o cfgs prior) past s) (j : ℕ) (cfg : FeatureCfg)
    (hj : cfgs[j]? = some cfg) (L : (ℕ → K) → K) (h0 : L (fun _ => 0) = 0)
    (hadd : ∀ a b, L a = 0 → L b = 0 → L (fun i => a i + b i) = 0)
    (hsub : ∀ a b, L a = 0 → L b = 0 → L (fun i => a i - b i) = 0)
    (hcal : ∀ it (fs : FState K), L (o.calibrate it j fs) = 0) :
    ∃ fs, s.feats[j]? = some fs ∧ L (stored fs) = 0 := by
  have hit : ∀ it dv isd il (fs : FState K) (pred : Pred K), L (stored fs) = 0 →
      L (featureIteration p o it j cfg dv isd il fs pred).1.factors = 0 ∧
      L (stored (featureIteration p o it j cfg dv isd il fs pred).1) = 0 := by
    intro it dv isd il fs pred hst
    unfold featureIteration visitFactors
    simp only [hclip, Bool.false_and, Bool.false_eq_true, if_false]
    set pred1 := if p.aggregate then pred else pred.remove cfg (predInSample cfg fs)
    set u := o.estimate it j pred1 fs
    set f1 := updateFactors cfg fs u (o.learnRate (it + 1)) with hf1
    set f2 : FState K := { f1 with factors := predictFactors cfg f1 (o.smooth it j pred1 f1 u) (o.learnRate (it + 1)) }
      with hf2
    have hagg : f2.agg = fs.agg := rfl
    refine ⟨hcal it f2, ?_⟩
    have hc := hcal it f2
    unfold stored
    simp only
    cases f2.isFitted <;> cases p.aggregate <;> cases ha : f2.agg
    case true.true.some agg =>
      simp only
      apply hadd _ _ _ hc
      unfold stored at hst
      rw [← hagg, ha] at hst
      exact hst
    all_goals exact hc
  suffices hsuf : ∃ fs, s.feats[j]? = some fs ∧ L fs.factors = 0 ∧ L (stored fs) = 0 by
    obtain ⟨fs, h1, _, h2⟩ := hsuf
    exact ⟨fs, h1, h2⟩
  induction h with
  | start =>
    refine ⟨FState.init, ?_, h0, h0⟩
    unfold startState
    simp only [List.getElem?_map, hj, Option.map_some]
  | @step past s s' ht hc' hiter ih =>
    obtain ⟨feats, pred, r, hfp, hcc, hr, hf, _⟩ := iterate_ok p o cfgs _ _ hiter
    obtain ⟨fs, hfs, hz, hst⟩ := ih
    have hw := trace_WF p o cfgs prior past s ht
    obtain ⟨fs', fs0, pred', h1, h3, h4⟩ :=
      featurePass_get p o s.iteration s.diverging s.isDiverging s.initialLoss cfgs 0 s.feats s.pred j cfg fs hj hfs
    have hz0 : L fs0.factors = 0 ∧ L (stored fs0) = 0 := by
      rw [h3]
      split
      · exact ⟨h0, hst⟩
      · exact ⟨hz, hst⟩
    have hfin : L fs'.factors = 0 ∧ L (stored fs') = 0 := by
      rcases h4 with ⟨_, h4⟩ | ⟨_, h4⟩
      · rw [h4]; exact ⟨hz0.1, hz0.2⟩
      · rw [h4]
        have := hit s.iteration s.diverging s.isDiverging s.initialLoss fs0 pred' hz0.2
        simpa using this
    rw [hfp] at h1
    split at hr
    · have hlen : feats.length = cfgs.length := by
        have := featurePass_length p o s.iteration s.diverging s.isDiverging s.initialLoss cfgs 0 s.feats s.pred hw.1
        rw [hfp] at this; exact this
      obtain ⟨_, hget⟩ := removePreds_get cfgs feats pred r hr hlen.symm
      obtain ⟨agg, ha, hb⟩ := hget j fs' h1
      refine ⟨{ fs' with agg := some (fun b => agg b - fs'.factors b) }, by rw [hf]; exact hb, hfin.1, ?_⟩
      have h5 := hfin.2
      unfold stored at h5 ⊢
      rw [ha] at h5
      exact hsub _ _ h5 hfin.1
    · injection hr with hr
      exact ⟨fs', by rw [hf, ← hr]; exact h1, hfin⟩

/-- **C54, whole training.**  In every training history of the location regressor (identity link,
so nothing is clipped; any estimates, smoothers, learning rates, losses, diverging or not),
after every iteration the stored parameters of every feature have weighted mean zero over
the training sample. -/
theorem C54_training (p : Params K) (hclip : p.clip = false) (o : Oracle K) (cfgs : List FeatureCfg)
    (prior : ℕ → K) (past : List (TState K)) (s : TState K)
    (h : Trace p o cfgs (startState o cfgs prior) past s) (j : ℕ) (cfg : FeatureCfg)
    (hj : cfgs[j]? = some cfg) (n : ℕ) (w : ℕ → K) (hbin : ∀ i < n, cfg.bin i ≤ cfg.nFinite)
    (hw : Spec.calibrationWeight n w cfg ≠ 0)
    (hcal : ∀ it (fs : FState K), o.calibrate it j fs = locCalibrate cfg (binSum n cfg.bin w) fs.factors) :
    ∃ fs, s.feats[j]? = some fs ∧ ∑ i ∈ range n, w i * stored fs (cfg.bin i) = 0 := by
  refine training_linear_invariant p hclip o cfgs prior past s h j cfg hj
    (fun f => ∑ i ∈ range n, w i * f (cfg.bin i)) (by simp) ?_ ?_ ?_
  · intro a b ha hb
    simp only [mul_add, sum_add_distrib]
    rw [ha, hb, add_zero]
  · intro a b ha hb
    simp only [mul_sub, sum_sub_distrib]
    rw [ha, hb, sub_zero]
  · intro it fs
    simp only [hcal it fs]
    exact C54_calibrated n w cfg hbin hw fs.factors

/-! ### Variance estimates -/

theorem variancePrior_pos (n : ℕ) (y w : ℕ → K) : 0 < variancePrior n y w := by
  unfold variancePrior
  dsimp only
  split_ifs with h
  · exact one_pos
  · push Not at h
    exact lt_trans (by positivity) h

/-- The weighted sum of squared deviations from the mean of bin `b`. -/
def Spec.binScatter (n : ℕ) (codes : ℕ → ℕ) (y w : ℕ → K) (b : ℕ) : K :=
  let mean := (∑ i ∈ (range n).filter (fun i => codes i = b), w i * y i)
    / ∑ i ∈ (range n).filter (fun i => codes i = b), w i
  ∑ i ∈ (range n).filter (fun i => codes i = b), w i * (y i - mean) ^ 2

/-- **C54.**  The variance estimate of a bin is the mean of the prior variance, counted as one
observation, and of the scatter of the bin. -/
theorem C54_variance_posterior (n : ℕ) (codes : ℕ → ℕ) (y w : ℕ → K) (hw : ∀ i < n, 0 ≤ w i) (b : ℕ) :
    precalcVarianceY n codes y w b * (1 + ∑ i ∈ (range n).filter (fun i => codes i = b), w i)
      = variancePrior n y w + Spec.binScatter n codes y w b := by
  have hW : binSum n codes w b = ∑ i ∈ (range n).filter (fun i => codes i = b), w i := binSum_filter n codes w b
  have h0 : 0 ≤ binSum n codes w b := binSum_nonneg n codes w hw b
  have hres : binSum n codes (fun i => w i * (y i - binSum n codes (fun i => w i * y i) (codes i) /
      binSum n codes w (codes i)) ^ 2) b = Spec.binScatter n codes y w b := by
    rw [binSum_filter]
    unfold Spec.binScatter
    dsimp only
    refine sum_congr rfl fun i hi => ?_
    rw [(mem_filter.mp hi).2, binSum_filter, binSum_filter]
  unfold precalcVarianceY
  dsimp only
  rw [hres, ← hW]
  generalize binSum n codes w b = W at h0 ⊢
  have hne : (1 / 2 * 1 + 1 / 2 * W : K) ≠ 0 := by
    have : (0 : K) < 1 / 2 * 1 + 1 / 2 * W := by linarith
    exact this.ne'
  rw [div_mul_eq_mul_div, div_eq_iff hne]
  ring

/-- **C54.**  Every variance estimate is positive: for every target, all weights that are not
negative, and also for bins without samples. -/
theorem C54_variance_pos (n : ℕ) (codes : ℕ → ℕ) (y w : ℕ → K) (hw : ∀ i < n, 0 ≤ w i) (b : ℕ) :
    0 < precalcVarianceY n codes y w b := by
  have h := C54_variance_posterior n codes y w hw b
  have hW : 0 ≤ ∑ i ∈ (range n).filter (fun i => codes i = b), w i :=
    sum_nonneg fun i hi => hw i (mem_range.mp (mem_filter.mp hi).1)
  have hs : 0 ≤ Spec.binScatter n codes y w b := by
    unfold Spec.binScatter
    exact sum_nonneg fun i hi => mul_nonneg (hw i (mem_range.mp (mem_filter.mp hi).1)) (sq_nonneg _)
  have hv := variancePrior_pos n y w
  by_contra hc
  have := mul_nonpos_of_nonpos_of_nonneg (not_lt.mp hc) (by linarith : 0 ≤ 1 + ∑ i ∈ (range n).filter (fun i => codes i = b), w i)
  linarith

/-- **C54.**  The intercept of a bin is the unique minimiser of the weighted squared residuals of
the bin, with a small pull towards 0. -/
theorem C54_intercept_minimiser (n : ℕ) (codes : ℕ → ℕ) (pred y w : ℕ → K) (hw : ∀ i < n, 0 ≤ w i) (b : ℕ)
    (t : K) (ht : t ≠ locationParameter n codes pred y w b) :
    let chi2 := fun x : K => (∑ i ∈ (range n).filter (fun i => codes i = b),
        w i / precalcVarianceY n codes y w b * (y i - pred i - x) ^ 2) + 1 / 100 * x ^ 2
    chi2 (locationParameter n codes pred y w b) < chi2 t := by
  intro chi2
  have hv := C54_variance_pos n codes y w hw
  have key := C30_unique_minimiser n codes (fun i => y i - pred i)
    (fun i => w i / precalcVarianceY n codes y w (codes i))
    (fun i hi => div_nonneg (hw i hi) (hv _).le) 0 (1 / 100) (by norm_num) b t ht
  have e : ∀ x : K, Spec.chi2 n codes (fun i => y i - pred i)
      (fun i => w i / precalcVarianceY n codes y w (codes i)) 0 (1 / 100) b x = chi2 x := by
    intro x
    simp only [chi2]
    unfold Spec.chi2
    rw [sub_zero]
    congr 1
    refine sum_congr rfl fun i hi => ?_
    beta_reduce
    rw [(mem_filter.mp hi).2]
  rw [e, e] at key
  exact key

end

/-! ### The Poisson location regressor -/

/-- **C54.**  Predictions are never negative, and positive predictions are not changed. -/
theorem C54_poisson_nonneg (v : ℝ) : 0 ≤ locPoissonPredict v ∧ (0 < v → locPoissonPredict v = v) := by
  unfold locPoissonPredict
  refine ⟨?_, fun h => if_pos h⟩
  split_ifs with h
  · exact h.le
  · exact le_refl _

theorem weightedStddev_pos (n : ℕ) (y w : ℕ → ℝ) (hw : ∀ i < n, 0 < w i) (i k : ℕ) (hi : i < n) (hk : k < n)
    (hne : y i ≠ y k) : 0 < weightedStddev n y w := by
  unfold weightedStddev
  dsimp only
  set m := (∑ i ∈ range n, w i * y i) / ∑ i ∈ range n, w i
  apply Real.sqrt_pos.mpr
  apply div_pos
  · have : ∃ l < n, y l ≠ m := by
      by_cases h : y i = m
      · exact ⟨k, hk, fun h2 => hne (h.trans h2.symm)⟩
      · exact ⟨i, hi, h⟩
    obtain ⟨l, hl, hlm⟩ := this
    refine sum_pos' (fun a ha => mul_nonneg (hw a (mem_range.mp ha)).le (sq_nonneg _)) ⟨l, mem_range.mpr hl, ?_⟩
    exact mul_pos (hw l hl) (by have := sub_ne_zero.mpr hlm; positivity)
  · exact sum_pos' (fun a ha => (hw a (mem_range.mp ha)).le) ⟨i, mem_range.mpr hi, hw i hi⟩

/-- **C54.**  If the target is not constant and all weights are positive, the uncertainty of every
bin is positive. -/
theorem C54_poisson_uncertainty_pos (n : ℕ) (codes : ℕ → ℕ) (predLink y w : ℕ → ℝ) (hw : ∀ i < n, 0 < w i)
    (i k : ℕ) (hi : i < n) (hk : k < n) (hne : y i ≠ y k) (b : ℕ) :
    0 < (locPoissonParameter n codes predLink y w b).2 := by
  unfold locPoissonParameter
  dsimp only
  have := weightedStddev_pos n y w hw i k hi hk hne
  generalize (binSum n codes (fun i => w i ^ 2 / _) b / _) = u
  split_ifs with h
  · exact h
  · exact this

/-- **C54.**  The regularised summand of a bin lies between 0 and the summand that was measured,
and a bin without weight gets 0. -/
theorem C54_poisson_shrinks (bincount summand unc std : ℝ) (hb : 0 ≤ bincount) (hu : 0 < unc) (hs : 0 < std) :
    |regularizeSummand bincount summand unc std| ≤ |summand| ∧
      0 ≤ regularizeSummand bincount summand unc std * summand ∧
      (bincount = 0 → regularizeSummand bincount summand unc std = 0) := by
  have h1 : 0 < std ^ 2 := by positivity
  have h2 : 0 < unc ^ 2 := by positivity
  set A := bincount / unc ^ 2 with hA
  have hA0 : 0 ≤ A := div_nonneg hb h2.le
  set B := 1 / std ^ 2 with hB
  have hB0 : 0 < B := by positivity
  have e : regularizeSummand bincount summand unc std = A / (A + B) * summand := by
    unfold regularizeSummand
    rw [zero_div, add_zero, ← hB, ← hA, mul_div_right_comm, ← hA]
    ring
  have hr0 : 0 ≤ A / (A + B) := by positivity
  have hr1 : A / (A + B) ≤ 1 := by
    rw [div_le_one (by linarith)]; linarith
  refine ⟨?_, ?_, ?_⟩
  · rw [e, abs_mul, abs_of_nonneg hr0]
    exact mul_le_of_le_one_left (abs_nonneg _) hr1
  · rw [e, mul_assoc]
    exact mul_nonneg hr0 (mul_self_nonneg _)
  · intro h
    rw [e, hA, h]; simp

/-! ### Witnesses -/

/-- Calibration in a feature of two bins and a missing bin, four samples with weights 1, 2, 1, 4. -/
example :
    let cfg : FeatureCfg := ⟨["a"], false, 2, fun s => [0, 1, 1, 2].getD s 0, true⟩
    let w : ℕ → ℚ := fun s => [1, 2, 1, 4].getD s 0
    Spec.calibrationWeight 4 w cfg = 4 ∧
      (List.range 3).map (locCalibrate cfg (binSum 4 cfg.bin w) fun b => b + 1) = [-3 / 4, 1 / 4, 0] := by
  decide +kernel

/-- A training of two iterations with calibration: the stored parameters of feature "a" are not
all zero and have weighted mean zero. -/
example :
    let w : ℕ → ℚ := fun s => s + 1
    let o : Oracle ℚ := { toyOracle (fun it => 1 / (it + 1)) toyLoss with
      calibrate := fun _ i fs =>
        let cfg := toyFeatures.getD i ⟨[], false, 0, fun _ => 0, false⟩
        locCalibrate cfg (binSum 4 cfg.bin w) fs.factors }
    (runN (toyParams false none) o toyFeatures 2 (startState o toyFeatures fun _ => 1)).map
      (fun s => s.feats.map fun fs => [stored fs 0, stored fs 1, stored fs 2])
      = some [[-3 / 5, 2 / 5, 7 / 5], [0, 0, 0]] := by
  decide +kernel

/-- Variance estimates for three samples in bin 0 and none in bin 1. -/
example : (List.range 2).map (precalcVarianceY 3 (fun _ => 0) (fun s => (s : ℚ)) (fun _ => 1))
    = [2 / 3, 2 / 3] := by decide +kernel

example : precalcVarianceY 4 (fun s => s / 2) (fun s => [0, 2, 5, 5].getD s 0) (fun _ => (1 : ℚ)) 0 ≠
    precalcVarianceY 4 (fun s => s / 2) (fun s => [0, 2, 5, 5].getD s 0) (fun _ => (1 : ℚ)) 1 := by
  decide +kernel

/-- Summand 4, three observations, uncertainty 1 and global standard deviation 1: 4 becomes 3. -/
example : regularizeSummand 3 4 1 1 = 3 := by unfold regularizeSummand; norm_num

end CB
