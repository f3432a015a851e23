import Verif.Spec.FloatEstimates
import Verif.Spec.GammaMedian
import Verif.Spec.ClassifierQuantiles
import Verif.Props.Estimators
import Verif.Props.Location
import Verif.Props.Classifier

/-!
# C157: the estimates are numbers

The factors and uncertainties that the estimators compute for a bin, with divisions by zero, logarithms and square roots as floats have them.
The theorems say when the results are numbers, that they are then the numbers of the model over the reals, and when they are NaN.
-/

set_option autoImplicit false
set_option linter.unusedSectionVars false

namespace CB
open Finset Spec

/-! ### Arithmetic of finite floats -/

theorem over_fin {a b : ℝ} (hb : b ≠ 0) : (Flt.fin a).over (.fin b) = .fin (a / b) := by
  simp only [Flt.over]
  rw [if_pos hb]

theorem over_zero : (Flt.fin 0).over (.fin 0) = .nan := by simp [Flt.over]

theorem mul_fin (a b : ℝ) : (Flt.fin a).mul (.fin b) = .fin (a * b) := rfl

theorem add_fin' (a b : ℝ) : (Flt.fin a).add (.fin b) = .fin (a + b) := rfl

theorem sub_fin' (a b : ℝ) : (Flt.fin a).sub (.fin b) = .fin (a - b) := rfl

theorem sqrt_fin {a : ℝ} (ha : 0 ≤ a) : (Flt.fin a).sqrt = .fin (Real.sqrt a) := by
  simp only [Flt.sqrt]
  rw [if_pos ha]

theorem log_fin {a : ℝ} (ha : 0 < a) : linkFlt .log (.fin a) = .fin (Real.log a) := by
  simp only [linkFlt]
  rw [if_pos ha]

theorem add_nan (x : Flt ℝ) : x.add .nan = .nan := by cases x <;> rfl

theorem nan_add (x : Flt ℝ) : Flt.nan.add x = .nan := by cases x <;> rfl

theorem mul_nan (x : Flt ℝ) : x.mul .nan = .nan := by cases x <;> rfl

theorem nan_mul (x : Flt ℝ) : Flt.nan.mul x = .nan := by cases x <;> rfl

theorem nan_over (x : Flt ℝ) : Flt.nan.over x = .nan := by cases x <;> rfl

theorem over_nan (x : Flt ℝ) : x.over .nan = .nan := by cases x <;> rfl

theorem fltSum_fin (n : ℕ) (x : ℕ → Flt ℝ) (r : ℕ → ℝ) (h : ∀ i < n, x i = .fin (r i)) : fltSum n x = .fin (∑ i ∈ range n, r i) := by
  induction n with
  | zero => simp [fltSum]
  | succ n ih =>
    unfold fltSum
    rw [ih fun i hi => h i (by omega), h n (by omega), sum_range_succ]
    rfl

theorem fltBinSum_fin (n : ℕ) (codes : ℕ → ℕ) (x : ℕ → Flt ℝ) (r : ℕ → ℝ) (b : ℕ) (h : ∀ i < n, codes i = b → x i = .fin (r i)) :
    fltBinSum n codes x b = .fin (binSum n codes r b) := by
  unfold fltBinSum binSum
  refine fltSum_fin n _ _ fun i hi => ?_
  split_ifs with hc
  · exact h i hi hc
  · rfl

theorem fltSum_nan (n : ℕ) (x : ℕ → Flt ℝ) (k : ℕ) (hk : k < n) (h : x k = .nan) : fltSum n x = .nan := by
  induction n with
  | zero => omega
  | succ n ih =>
    unfold fltSum
    by_cases hkn : k = n
    · rw [← hkn, h, add_nan]
    · rw [ih (by omega), nan_add]

theorem fltBinSum_nan (n : ℕ) (codes : ℕ → ℕ) (x : ℕ → Flt ℝ) (k : ℕ) (hk : k < n) (h : x k = .nan) :
    fltBinSum n codes x (codes k) = .nan := by
  unfold fltBinSum
  exact fltSum_nan n _ k hk (by rw [if_pos rfl, h])

/-- A pair of numbers as floats. -/
def finPair (p : ℝ × ℝ) : Flt ℝ × Flt ℝ := (.fin p.1, .fin p.2)

/-! ### Poisson and negative binomial regression -/

theorem gammaPosterior_fin (g : ℝ → ℝ) (hg : GammaMedian g) (alpha beta : ℝ) (ha : 0 ≤ alpha) (hb : 0 ≤ beta) :
    calcFactorsAndUncertaintiesFlt g (.fin alpha) (.fin beta) = finPair (calcFactorsAndUncertainties g alpha beta) := by
  have h1 : 2 ≤ alpha + gammaPriors.1 := by unfold gammaPriors; simpa using ha
  have h2 : 0 < beta + gammaPriors.2 := by unfold gammaPriors; norm_num; linarith
  have hm := (hg _ h1).1
  unfold calcFactorsAndUncertaintiesFlt calcFactorsAndUncertainties finPair
  dsimp only
  rw [add_fin', add_fin', add_fin']
  set ap := alpha + gammaPriors.1
  set bp := beta + gammaPriors.2
  have hap : 0 < ap := by linarith
  refine Prod.ext ?_ ?_
  · dsimp only
    unfold calcFactorFromPosteriorFlt calcFactorFromPosterior
    dsimp only
    rw [if_pos hap, over_fin h2.ne', over_fin h2.ne']
    by_cases hs : ap ≤ 1e12 ∧ bp ≤ 1e12
    · rw [if_pos hs, if_pos (by simp only [Flt.leFin, hs.1, hs.2]; rfl), log_fin (div_pos hm h2)]
    · rw [if_neg hs, if_neg (by simpa only [Flt.leFin, Bool.and_eq_true, decide_eq_true_eq] using hs), log_fin (div_pos hap h2)]
  · dsimp only
    rw [log_fin (by linarith), log_fin hap, sub_fin', sqrt_fin]
    exact sub_nonneg.mpr (Real.log_le_log hap (by linarith))

/-- **C157.** `CBPoissonRegressor` computes numbers for every bin, also for bins without samples, without weight and with targets 0, if
the weights and targets are not negative: the numbers of the model. -/
theorem C157_poisson (g : ℝ → ℝ) (hg : GammaMedian g) (n : ℕ) (codes : ℕ → ℕ) (y w pred : ℕ → ℝ) (hy : ∀ i < n, 0 ≤ y i)
    (hw : ∀ i < n, 0 ≤ w i) (nBins b : ℕ) :
    poissonParametersFlt g n codes y w pred b = finPair ((poissonEstimator g).parameters nBins n codes y w pred b) :=
  gammaPosterior_fin g hg _ _ (binSum_nonneg n codes _ (fun i hi => mul_nonneg (hy i hi) (hw i hi)) b)
    (binSum_nonneg n codes _ (fun i hi => mul_nonneg (hw i hi) (Real.exp_pos _).le) b)

/-- **C157.** The same for `CBNBinomRegressor`, if its parameters `a` and `c` describe a variance: `a` positive and `c` not negative. -/
theorem C157_nbinom (g : ℝ → ℝ) (hg : GammaMedian g) (a c : ℝ) (ha : 0 < a) (hc : 0 ≤ c) (n : ℕ) (codes : ℕ → ℕ)
    (y w pred : ℕ → ℝ) (hy : ∀ i < n, 0 ≤ y i) (hw : ∀ i < n, 0 ≤ w i) (nBins b : ℕ) :
    nbinomParametersFlt g a c n codes y w pred b = finPair ((nbinomEstimator g a c).parameters nBins n codes y w pred b) := by
  have hpos : ∀ i, 0 < a + c * Real.exp (pred i) := fun i => add_pos_of_pos_of_nonneg ha (mul_nonneg hc (Real.exp_pos _).le)
  unfold nbinomParametersFlt
  dsimp only
  rw [fltBinSum_fin n codes _ (fun i => w i * y i / (a + c * Real.exp (pred i))) b fun i _ _ => over_fin (hpos i).ne',
    fltBinSum_fin n codes _ (fun i => w i * Real.exp (pred i) / (a + c * Real.exp (pred i))) b fun i _ _ => over_fin (hpos i).ne']
  refine gammaPosterior_fin g hg _ _ (binSum_nonneg n codes _ (fun i hi => ?_) b) (binSum_nonneg n codes _ (fun i hi => ?_) b)
  · exact div_nonneg (mul_nonneg (hw i hi) (hy i hi)) (hpos i).le
  · exact div_nonneg (mul_nonneg (hw i hi) (Real.exp_pos _).le) (hpos i).le

/-- **C157, counterexample.** With `a = 1` and `c = -1` a sample whose prediction is 1 makes the factor of its bin NaN. -/
theorem C157_nbinom_counterexample (g : ℝ → ℝ) :
    (nbinomParametersFlt g 1 (-1) 1 (fun _ => 0) (fun _ => 1) (fun _ => 1) (fun _ => 0) 0).1 = .nan := by
  simp [nbinomParametersFlt, fltBinSum, fltSum, Flt.over, Flt.add, calcFactorsAndUncertaintiesFlt, calcFactorFromPosteriorFlt,
    Flt.leFin, linkFlt]

/-! ### Classification -/

/-- **C157.** `CBClassifier` computes numbers for every bin if the targets are 0 or 1 and the weights are not negative. -/
theorem C157_classifier (betaPpf : ℝ → ℝ → ℝ → ℝ) (coef : ℝ → ℝ) (hq : ActualQuantiles betaPpf coef) (n : ℕ) (codes : ℕ → ℕ)
    (y w pred : ℕ → ℝ) (hy : ∀ i < n, y i = 0 ∨ y i = 1) (hw : ∀ i < n, 0 ≤ w i) (nBins b : ℕ) :
    classifierParametersFlt betaPpf coef n codes y w pred b
      = finPair ((classifierEstimator betaPpf coef).parameters nBins n codes y w pred b) := by
  obtain ⟨h1, h2, -, -⟩ := C35_posterior n codes y w pred hy hw b
  show _ = finPair (classifierCalcParameters betaPpf coef n codes y w pred b)
  unfold classifierParametersFlt classifierCalcParameters
  dsimp only
  set al := (classifierPosterior n codes y w pred b).1
  set be := (classifierPosterior n codes y w pred b).2
  have hal : 0 < al := by linarith
  have hbe : 0 < be := by linarith
  obtain ⟨l1, l2, l3⟩ := C35_levels al be hal hbe
  rw [over_fin (by linarith : al + be ≠ 0), sub_fin', mul_fin, sub_fin', sub_fin']
  dsimp only
  change _ = finPair (gaussianMatching (betaPpf al be) logitLink.link coef (percentiles al be).1 (percentiles al be).2)
  have e1 : (0.75 : ℝ) - 0.4 * (al / (al + be) - 0.5) = (percentiles al be).1 := rfl
  have e2 : (0.25 : ℝ) - 0.4 * (al / (al + be) - 0.5) = (percentiles al be).2 := rfl
  rw [e1, e2]
  set p1 := (percentiles al be).1
  set p2 := (percentiles al be).2
  have a1 : 0 < p1 := by norm_num at l1 l3; linarith
  have a2 : p1 < 1 := by norm_num at l2; linarith
  have a3 : 0 < p2 := by norm_num at l1; linarith
  have a4 : p2 < 1 := by norm_num at l2 l3; linarith
  have hne : coef p1 - coef p2 ≠ 0 := by
    intro hc
    have n1 := hq.normal p1 a1 a2
    have n2 := hq.normal p2 a3 a4
    unfold IsNormalQuantile at n1 n2
    rw [sub_eq_zero.mp hc, n2] at n1
    rw [n1] at l3
    norm_num at l3
  have hlogit : ∀ q : ℝ, 0 < q → q < 1 → linkFlt .logit (.fin q) = .fin (logitLink.link q) := by
    intro q hq0 hq1
    simp only [linkFlt]
    rw [if_neg hq1.ne, if_pos (div_pos hq0 (by linarith))]
    rfl
  obtain ⟨b1, b2, -⟩ := hq.beta al be p1 hal hbe a1 a2
  obtain ⟨b3, b4, -⟩ := hq.beta al be p2 hal hbe a3 a4
  rw [hlogit _ b1 b2, hlogit _ b3 b4, sub_fin', over_fin hne, mul_fin, sub_fin']
  rfl

/-! ### Location -/

section Location
variable (n : ℕ) (codes : ℕ → ℕ) (y w pred : ℕ → ℝ) (hw : ∀ i < n, 0 ≤ w i)

theorem total_pos (hw : ∀ i < n, 0 ≤ w i) (h : ∃ i < n, 0 < w i) : 0 < ∑ i ∈ range n, w i := by
  obtain ⟨i, hi, hpos⟩ := h
  exact sum_pos' (fun k hk => hw k (mem_range.mp hk)) ⟨i, mem_range.mpr hi, hpos⟩

theorem bin_pos (hw : ∀ i < n, 0 ≤ w i) (b k : ℕ) (hk : k < n) (hb : codes k = b) (hpos : 0 < w k) : 0 < binSum n codes w b := by
  unfold binSum
  refine sum_pos' (fun i hi => ?_) ⟨k, mem_range.mpr hk, ?_⟩
  · split_ifs
    · exact hw i (mem_range.mp hi)
    · exact le_rfl
  · rw [if_pos hb]; exact hpos

include hw in
theorem variance_fin (h : n ≠ 0 ∧ ∀ i < n, ∃ k < n, codes k = codes i ∧ 0 < w k) (b : ℕ) : precalcVarianceYFlt n codes y w b = .fin (precalcVarianceY n codes y w b) := by
  obtain ⟨hn, hbins⟩ := h
  have hW : ∑ i ∈ range n, w i ≠ 0 := by
    obtain ⟨k, hk, -, hpos⟩ := hbins 0 (by omega)
    exact (total_pos n w hw ⟨k, hk, hpos⟩).ne'
  have hB : ∀ i < n, binSum n codes w (codes i) ≠ 0 := fun i hi => by
    obtain ⟨k, hk, hc, hpos⟩ := hbins i hi
    exact (bin_pos n codes w hw _ k hk hc hpos).ne'
  have h0 := binSum_nonneg n codes w hw b
  unfold precalcVarianceYFlt precalcVarianceY variancePrior
  dsimp only
  rw [over_fin hW]
  set m := (∑ i ∈ range n, y i * w i) / ∑ i ∈ range n, w i
  have hsum : (fltSum n fun i => (((Flt.fin (y i)).sub (.fin m)).mul ((Flt.fin (y i)).sub (.fin m))).mul (.fin (w i)))
      = .fin (∑ i ∈ range n, (y i - m) * (y i - m) * w i) := fltSum_fin n _ _ fun i _ => rfl
  simp only [hsum, over_fin hW]
  have pick : ∀ x : ℝ, (if (Flt.fin x).leFin (1 / 10 ^ 9) then Flt.fin 1 else .fin x) = .fin (if x ≤ 1 / 10 ^ 9 then 1 else x) := by
    intro x
    by_cases hx : x ≤ 1 / 10 ^ 9
    · rw [if_pos hx, if_pos (by simpa only [Flt.leFin, decide_eq_true_eq] using hx)]
    · rw [if_neg hx, if_neg (by simpa only [Flt.leFin, decide_eq_true_eq] using hx)]
  rw [pick, mul_fin, fltBinSum_fin n codes _ (fun i => w i * (y i - binSum n codes (fun i => w i * y i) (codes i) /
      binSum n codes w (codes i)) ^ 2) b fun i hi _ => by
    rw [over_fin (hB i hi), sub_fin', mul_fin, mul_fin, pow_two], mul_fin, add_fin', over_fin (by positivity)]
  congr 1
  rw [mul_one]

include hw in
/-- **C157.** `CBLocationRegressor` computes numbers for every bin, the numbers of the model, if weights are not negative and
every bin with samples has a sample of positive weight. -/
theorem C157_location (h : n ≠ 0 ∧ ∀ i < n, ∃ k < n, codes k = codes i ∧ 0 < w k) (nBins b : ℕ) :
    locationParametersFlt n codes y w pred b = finPair (locationEstimator.parameters nBins n codes y w pred b) := by
  have hv := fun b => C54_variance_pos n codes y w hw b
  have hw' : ∀ i < n, 0 ≤ w i / precalcVarianceY n codes y w (codes i) := fun i hi => div_nonneg (hw i hi) (hv _).le
  have hS := binSum_nonneg n codes (fun i => w i / precalcVarianceY n codes y w (codes i)) hw' b
  have hV := binSum_nonneg n codes (fun i => w i * (w i / precalcVarianceY n codes y w (codes i)))
    (fun i hi => mul_nonneg (hw i hi) (hw' i hi)) b
  unfold locationParametersFlt
  dsimp only
  simp only [variance_fin n codes y w hw h, over_fin (hv _).ne', mul_fin]
  rw [fltBinSum_fin n codes _ _ b fun i _ _ => rfl, fltBinSum_fin n codes _ _ b fun i _ _ => rfl,
    fltBinSum_fin n codes _ _ b fun i _ _ => rfl, add_fin', add_fin', add_fin', mul_fin, over_fin (by positivity),
    over_fin (by positivity), sqrt_fin (by positivity)]
  unfold finPair locationEstimator locationParameter interceptParameter calcFactorsGeneric calcVarianceGeneric
  dsimp only
  rw [pow_two]

include hw in
/-- **C157, counterexample.** If all samples of a bin have weight 0, `CBLocationRegressor` computes NaN as factor and as uncertainty
of the bin. -/
theorem C157_location_nan (i : ℕ) (hi : i < n) (h0 : ∀ k < n, codes k = codes i → w k = 0) :
    locationParametersFlt n codes y w pred (codes i) = (.nan, .nan) := by
  have e1 : binSum n codes w (codes i) = 0 := by
    unfold binSum
    refine sum_eq_zero fun k hk => ?_
    split_ifs with hc
    · exact h0 k (mem_range.mp hk) hc
    · rfl
  have e2 : binSum n codes (fun i => w i * y i) (codes i) = 0 := by
    unfold binSum
    refine sum_eq_zero fun k hk => ?_
    split_ifs with hc
    · dsimp only
      rw [h0 k (mem_range.mp hk) hc, zero_mul]
    · rfl
  have hv : precalcVarianceYFlt n codes y w (codes i) = .nan := by
    unfold precalcVarianceYFlt
    dsimp only
    rw [fltBinSum_nan n codes _ i hi (by
      rw [e1, e2, over_zero]
      show (Flt.fin (w i)).mul (((Flt.fin (y i)).sub .nan).mul ((Flt.fin (y i)).sub .nan)) = .nan
      rfl), mul_nan, add_nan, nan_over]
  unfold locationParametersFlt
  dsimp only
  rw [fltBinSum_nan n codes _ i hi (by rw [hv, over_nan, nan_mul]), fltBinSum_nan n codes _ i hi (by rw [hv, over_nan]),
    fltBinSum_nan n codes _ i hi (by rw [hv, over_nan, mul_nan]), nan_add, nan_add, nan_over, nan_over]
  rfl

/-- **C157.** The mean that `CBLocationRegressor` subtracts is a number iff the sum of weights of the bins is not 0 or the sum of the weighted
factors is; with weight sums that are all 0 it is NaN. -/
theorem C157_calibration (k : ℕ) (bw factors : ℕ → ℝ) :
    (∑ c ∈ range k, bw c ≠ 0 → calibrationMeanFlt k bw factors
      = .fin ((∑ c ∈ range k, factors c * bw c) / ∑ c ∈ range k, bw c)) ∧
    ((∀ c < k, bw c = 0) → calibrationMeanFlt k bw factors = .nan) := by
  refine ⟨fun h => over_fin h, fun h => ?_⟩
  unfold calibrationMeanFlt
  rw [sum_eq_zero fun c hc => h c (mem_range.mp hc), sum_eq_zero fun c hc => by rw [h c (mem_range.mp hc), mul_zero], over_zero]

/-! ### Location with the variance of a Poisson distribution -/

theorem stddev_fin (hw : ∀ i < n, 0 ≤ w i) (hW : ∑ i ∈ range n, w i ≠ 0) : weightedStddevFlt n y w = .fin (weightedStddev n y w) := by
  unfold weightedStddevFlt weightedStddev
  dsimp only
  rw [over_fin hW]
  simp only [sub_fin', mul_fin]
  rw [fltSum_fin n _ _ fun i _ => rfl, over_fin hW, sqrt_fin]
  · simp only [pow_two]
  · exact div_nonneg (sum_nonneg fun i hi => mul_nonneg (hw i (mem_range.mp hi)) (mul_self_nonneg _))
      (sum_nonneg fun i hi => hw i (mem_range.mp hi))

/-- The standard deviation is positive if two samples of positive weight have different targets. -/
theorem stddev_pos (hw : ∀ i < n, 0 ≤ w i) (h : ∃ i < n, ∃ j < n, 0 < w i ∧ 0 < w j ∧ y i ≠ y j) : 0 < weightedStddev n y w := by
  obtain ⟨i, hi, j, hj, hwi, hwj, hne⟩ := h
  unfold weightedStddev
  dsimp only
  set m := (∑ i ∈ range n, w i * y i) / ∑ i ∈ range n, w i
  refine Real.sqrt_pos.mpr (div_pos ?_ (total_pos n w hw ⟨i, hi, hwi⟩))
  have hex : ∃ k < n, 0 < w k ∧ y k ≠ m := by
    by_cases hm : y i = m
    · exact ⟨j, hj, hwj, fun hc => hne (hm.trans hc.symm)⟩
    · exact ⟨i, hi, hwi, hm⟩
  obtain ⟨k, hk, hwk, hmk⟩ := hex
  refine sum_pos' (fun l hl => mul_nonneg (hw l (mem_range.mp hl)) (sq_nonneg _)) ⟨k, mem_range.mpr hk, ?_⟩
  have := sub_ne_zero.mpr hmk
  positivity

/-- The standard deviation is 0 if all samples of positive weight have the same target. -/
theorem stddev_zero (hw : ∀ i < n, 0 ≤ w i) (hW : ∑ i ∈ range n, w i ≠ 0) (c : ℝ) (h : ∀ i < n, 0 < w i → y i = c) :
    weightedStddev n y w = 0 := by
  have key : ∀ i ∈ range n, w i * y i = w i * c := fun i hi => by
    rcases (hw i (mem_range.mp hi)).eq_or_lt with h0 | h0
    · rw [← h0, zero_mul, zero_mul]
    · rw [h i (mem_range.mp hi) h0]
  unfold weightedStddev
  dsimp only
  rw [sum_congr rfl key, ← sum_mul, mul_div_cancel_left₀ _ hW, sum_eq_zero fun i hi => ?_, zero_div, Real.sqrt_zero]
  rcases (hw i (mem_range.mp hi)).eq_or_lt with h0 | h0
  · rw [← h0, zero_mul]
  · rw [h i (mem_range.mp hi) h0, sub_self]; ring

theorem locPoisson_parts (hw : ∀ i < n, 0 ≤ w i) (hW : ∑ i ∈ range n, w i ≠ 0) (b : ℕ) :
    ∃ s, locPoissonParametersFlt n codes y w pred b
      = (regularizeSummandFlt (binSum n codes w b) s (.fin (locPoissonParameter n codes pred y w b).2) (.fin (weightedStddev n y w)),
          .fin (locPoissonParameter n codes pred y w b).2) ∧
      (locPoissonParameter n codes pred y w b).1
        = regularizeSummand (binSum n codes w b) s (locPoissonParameter n codes pred y w b).2 (weightedStddev n y w) ∧
      (0 < weightedStddev n y w → 0 < (locPoissonParameter n codes pred y w b).2) := by
  have hv : ∀ i, (if (if 0 < pred i then pred i else 0) ≤ 0 then (1 : ℝ) else if 0 < pred i then pred i else 0) ≠ 0 := by
    intro i
    split_ifs <;> linarith
  refine ⟨_, ?_, rfl, ?_⟩
  swap
  · intro hs
    unfold locPoissonParameter
    dsimp only
    split_ifs with h1 h2 <;> assumption
  unfold locPoissonParametersFlt locPoissonParameter
  dsimp only
  rw [stddev_fin n y w hw hW]
  simp only [over_fin (hv _)]
  rw [fltBinSum_fin n codes _ _ b fun i _ _ => rfl, fltBinSum_fin n codes _ _ b fun i _ _ => rfl,
    fltBinSum_fin n codes _ _ b fun i _ _ => rfl]
  have pick : ∀ x d : ℝ, (if (Flt.fin x).gtZero then Flt.fin x else .fin d) = .fin (if 0 < x then x else d) := by
    intro x d
    by_cases hx : 0 < x
    · rw [if_pos hx, if_pos (by simpa only [Flt.gtZero, decide_eq_true_eq] using hx)]
    · rw [if_neg hx, if_neg (by simpa only [Flt.gtZero, decide_eq_true_eq] using hx)]
  rw [pick]
  have hden : ∀ x : ℝ, (if 0 < x then x else 1) ≠ 0 := fun x => by split_ifs <;> linarith
  rw [over_fin (hden _), over_fin (hden _), pick]

include hw in
/-- **C157.** `CBLocPoissonRegressor` computes numbers for every bin, the numbers of the model, if weights are not negative and
two samples of positive weight have different targets. -/
theorem C157_locPoisson (h : ∃ i < n, ∃ j < n, 0 < w i ∧ 0 < w j ∧ y i ≠ y j) (nBins b : ℕ) :
    locPoissonParametersFlt n codes y w pred b = finPair (locPoissonEstimator.parameters nBins n codes y w pred b) := by
  have hs := stddev_pos n y w hw h
  have hW : ∑ i ∈ range n, w i ≠ 0 := by
    obtain ⟨i, hi, -, -, hwi, -⟩ := h
    exact (total_pos n w hw ⟨i, hi, hwi⟩).ne'
  obtain ⟨s, h1, h2, h3⟩ := locPoisson_parts n codes y w pred hw hW b
  have hu := h3 hs
  have hb := binSum_nonneg n codes w hw b
  show _ = finPair (locPoissonParameter n codes pred y w b)
  rw [h1]
  unfold finPair
  rw [h2]
  set u := (locPoissonParameter n codes pred y w b).2
  set sd := weightedStddev n y w
  unfold regularizeSummandFlt regularizeSummand
  rw [mul_fin, mul_fin, over_fin (by positivity), over_fin (by positivity), add_fin', over_fin (by positivity),
    over_fin (by positivity), over_fin (by positivity), add_fin', mul_fin]
  simp only [pow_two]

include hw in
/-- **C157, counterexample.** If all samples of positive weight have the same target, `CBLocPoissonRegressor` computes NaN as
factor of every bin. -/
theorem C157_locPoisson_nan (hW : ∑ i ∈ range n, w i ≠ 0) (c : ℝ) (h : ∀ i < n, 0 < w i → y i = c) (b : ℕ) :
    (locPoissonParametersFlt n codes y w pred b).1 = .nan := by
  obtain ⟨s, h1, -, -⟩ := locPoisson_parts n codes y w pred hw hW b
  rw [h1, stddev_zero n y w hw hW c h]
  unfold regularizeSummandFlt
  dsimp only
  rw [mul_fin 0 0, mul_zero, over_zero, add_nan, mul_nan]

/-! ### Background subtraction -/

theorem gbs_square (N D : ℕ → ℝ) (m : ℕ) (A B : ℝ) :
    0 ≤ B ^ 2 * (∑ i ∈ range m, N i * N i) - 2 * A * B * (∑ i ∈ range m, N i * D i) + A ^ 2 * (∑ i ∈ range m, D i * D i + 1 ^ 2) := by
  have key : B ^ 2 * (∑ i ∈ range m, N i * N i) - 2 * A * B * (∑ i ∈ range m, N i * D i) + A ^ 2 * (∑ i ∈ range m, D i * D i + 1 ^ 2)
      = ∑ i ∈ range m, (B * N i - A * D i) ^ 2 + A ^ 2 := by
    rw [mul_sum, mul_sum, mul_add, mul_sum, ← add_assoc, ← sum_sub_distrib, ← sum_add_distrib]
    congr 1
    · exact sum_congr rfl fun i _ => by ring
    · ring
  rw [key]
  exact add_nonneg (sum_nonneg fun i _ => sq_nonneg _) (sq_nonneg _)

include hw in
/-- **C157.** `CBGBSRegressor` computes numbers for every bin, the numbers of the model, if weights are not negative and the
regularisation is at least -1. -/
theorem C157_gbs (regalpha : ℝ) (ha : -1 ≤ regalpha) (nBins b : ℕ) :
    gbsParametersFlt regalpha n codes y w pred b = finPair ((gbsEstimator regalpha).parameters nBins n codes y w pred b) := by
  have hD := binSum_nonneg n codes (fun i => w i * (1 + regalpha)) (fun i hi => mul_nonneg (hw i hi) (by linarith)) b
  unfold gbsParametersFlt
  dsimp only
  rw [over_fin (by positivity), over_fin (by positivity), sqrt_fin]
  · rfl
  · refine div_nonneg ?_ (by positivity)
    have := gbs_square (fun i => if codes i = b then (y i - pred i) * w i else 0)
      (fun i => if codes i = b then w i * (1 + regalpha) else 0) n
      (binSum n codes (fun i => (y i - pred i) * w i) b) (binSum n codes (fun i => w i * (1 + regalpha)) b + 1)
    simp only [← ite_and, mul_ite, ite_mul, mul_zero, zero_mul, and_self] at this
    exact this

/-- **C157, counterexample.** With a regularisation of -2 and one sample of weight 1 the factor of its bin is infinite. -/
theorem C157_gbs_counterexample :
    (gbsParametersFlt (-2) 1 (fun _ => 0) (fun _ => 1) (fun _ => 1) (fun _ => 0) 0).1 = .pinf := by
  norm_num [gbsParametersFlt, binSum, Flt.over]

end Location

/-! ### Summary -/

/-- What the code computes for a bin, as floats (from the number of samples, their bins, the target, the weights, the prediction
without the feature, and the bin), for the cases of `EstimatesNumbers`. The functions of scipy are the actual quantiles. -/
inductive FloatParameters (groups : List (List String)) (D : TrainSet) :
    Estimator → (ℕ → (ℕ → ℕ) → (ℕ → ℝ) → (ℕ → ℝ) → (ℕ → ℝ) → ℕ → Flt ℝ × Flt ℝ) → Prop
  | poisson (g : ℝ → ℝ) (hg : GammaMedian g) : FloatParameters groups D (poissonEstimator g) (poissonParametersFlt g)
  | nbinom (g : ℝ → ℝ) (hg : GammaMedian g) (a c : ℝ) (ha : 0 < a) (hc : 0 ≤ c) :
      FloatParameters groups D (nbinomEstimator g a c) (nbinomParametersFlt g a c)
  | classifier (ppf : ℝ → ℝ → ℝ → ℝ) (coef : ℝ → ℝ) (h : ActualQuantiles ppf coef) :
      FloatParameters groups D (classifierEstimator ppf coef) (classifierParametersFlt ppf coef)
  | location (h : ∀ g ∈ groups, BinsHaveWeight D g) : FloatParameters groups D locationEstimator locationParametersFlt
  | locPoisson (h : TargetsVary D) : FloatParameters groups D locPoissonEstimator locPoissonParametersFlt
  | gbs (regalpha : ℝ) (h : -1 ≤ regalpha) : FloatParameters groups D (gbsEstimator regalpha) (gbsParametersFlt regalpha)

/-- Every case of `EstimatesNumbers` is covered, with the actual functions of scipy. -/
theorem floatParameters_of {groups : List (List String)} {D : TrainSet} {E : Estimator} (h : EstimatesNumbers groups D E)
    (hg : ∀ g, E = poissonEstimator g ∨ (∃ a c, E = nbinomEstimator g a c) → GammaMedian g)
    (hq : ∀ ppf coef, E = classifierEstimator ppf coef → ActualQuantiles ppf coef) : ∃ P, FloatParameters groups D E P := by
  cases h with
  | poisson g => exact ⟨_, .poisson g (hg g (.inl rfl))⟩
  | nbinom g a c ha hc => exact ⟨_, .nbinom g (hg g (.inr ⟨a, c, rfl⟩)) a c ha hc⟩
  | classifier ppf coef => exact ⟨_, .classifier ppf coef (hq _ _ rfl)⟩
  | location h => exact ⟨_, .location h⟩
  | locPoisson h => exact ⟨_, .locPoisson h⟩
  | gbs r h => exact ⟨_, .gbs r h⟩

/-- **C157, summary.** In a training on valid targets with weights that are not negative, outside the listed cases (parameters of the
estimator out of range; for `CBLocationRegressor` a bin all of whose samples have weight 0; for `CBLocPoissonRegressor` a constant target),
the factors and uncertainties that are computed for the bins of a feature are numbers, the ones of the model, whatever the
predictions without the feature are. -/
theorem C157_estimates (groups : List (List String)) (D : TrainSet) (E : Estimator)
    (P : ℕ → (ℕ → ℕ) → (ℕ → ℝ) → (ℕ → ℝ) → (ℕ → ℝ) → ℕ → Flt ℝ × Flt ℝ) (hP : FloatParameters groups D E P) (hn : D.n ≠ 0)
    (hy : ∀ i < D.n, E.valid (D.y i)) (hw : ∀ i < D.n, 0 ≤ D.w i) (f : FeatureSpec) (hf : f.group ∈ groups) (pred : ℕ → ℝ)
    (nBins b : ℕ) :
    P D.n (f.cfg D.X D.n).bin D.y D.w pred b
      = (.fin (E.parameters nBins D.n (f.cfg D.X D.n).bin D.y D.w pred b).1,
          .fin (E.parameters nBins D.n (f.cfg D.X D.n).bin D.y D.w pred b).2) := by
  cases hP with
  | poisson g hg => exact C157_poisson g hg D.n _ D.y D.w pred hy hw nBins b
  | nbinom g hg a c ha hc => exact C157_nbinom g hg a c ha hc D.n _ D.y D.w pred hy hw nBins b
  | classifier ppf coef h => exact C157_classifier ppf coef h D.n _ D.y D.w pred hy hw nBins b
  | location h => exact C157_location D.n _ D.y D.w pred hw ⟨hn, h f.group hf⟩ nBins b
  | locPoisson h => exact C157_locPoisson D.n _ D.y D.w pred hw h nBins b
  | gbs regalpha h => exact C157_gbs D.n _ D.y D.w pred hw regalpha h nBins b

/-- Witness for C157: two samples with different bins and targets, for the estimators with a condition on the data. -/
example : (locationParametersFlt 2 (fun i => i) (fun i => i) (fun _ => 1) (fun _ => 0) 1
      = finPair (locationEstimator.parameters 3 2 (fun i => i) (fun i => i) (fun _ => 1) (fun _ => 0) 1)) ∧
    locPoissonParametersFlt 2 (fun i => i) (fun i => i) (fun _ => 1) (fun _ => 0) 1
      = finPair (locPoissonEstimator.parameters 3 2 (fun i => i) (fun i => i) (fun _ => 1) (fun _ => 0) 1) :=
  ⟨C157_location 2 _ _ _ _ (fun _ _ => zero_le_one) ⟨two_ne_zero, fun i hi => ⟨i, hi, rfl, one_pos⟩⟩ 3 1,
    C157_locPoisson 2 _ _ _ _ (fun _ _ => zero_le_one) ⟨0, by norm_num, 1, by norm_num, one_pos, one_pos, by norm_num⟩ 3 1⟩

/-- Witness for `C157_location_nan`: the second bin has one sample, of weight 0. -/
example : locationParametersFlt 2 (fun i => i) (fun i => i) (fun i => if i = 0 then 1 else 0) (fun _ => 0) 1 = (.nan, .nan) :=
  C157_location_nan 2 (fun i => i) _ _ _ (fun i _ => by split_ifs <;> norm_num) 1 (by norm_num) fun k _ hc => by
    have hc : k = 1 := hc
    rw [hc, if_neg one_ne_zero]

/-- Witness for `C157_locPoisson_nan`. -/
example : (locPoissonParametersFlt 2 (fun i => i) (fun _ => 3) (fun _ => 1) (fun _ => 0) 0).1 = .nan :=
  C157_locPoisson_nan 2 _ _ _ _ (fun _ _ => zero_le_one) (by norm_num) 3 (fun _ _ _ => rfl) 0

end CB
