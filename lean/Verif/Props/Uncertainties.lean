import Verif.Props.FloatEstimates
import Verif.Props.WeightedMean
import Verif.Props.ClassifierQuantiles
import Verif.Spec.Uncertainties

/-!
# C158: the uncertainties of the bins
-/

set_option autoImplicit false
set_option linter.unusedSectionVars false

namespace CB
open Finset Spec

/-! ### Gamma posteriors -/

/-- The standard deviation of the logarithm, by which the package approximates the uncertainty of a rate with `x` observed events and a
prior of 2 events. -/
theorem gamma_bounds (x : ℝ) (hx : 0 ≤ x) :
    1 / Real.sqrt (x + 3) < Real.sqrt (Real.log (1 + (x + 2)) - Real.log (x + 2)) ∧
      Real.sqrt (Real.log (1 + (x + 2)) - Real.log (x + 2)) < 1 / Real.sqrt (x + 2) := by
  have h2 : 0 < x + 2 := by linarith
  have h3 : 0 < x + 3 := by linarith
  have e : Real.log (1 + (x + 2)) - Real.log (x + 2) = Real.log ((x + 3) / (x + 2)) := by
    rw [Real.log_div h3.ne' h2.ne']; congr 2; ring
  rw [e, ← Real.sqrt_one, ← Real.sqrt_div zero_le_one, ← Real.sqrt_div zero_le_one]
  have hne : (x + 3) / (x + 2) ≠ 1 := by
    rw [Ne, div_eq_one_iff_eq h2.ne']; linarith
  have hpos : 0 < (x + 3) / (x + 2) := div_pos h3 h2
  constructor
  · refine Real.sqrt_lt_sqrt (by positivity) ?_
    have := Real.one_sub_inv_le_log_of_pos hpos
    have hlt : 1 - ((x + 3) / (x + 2))⁻¹ < Real.log ((x + 3) / (x + 2)) := by
      have h := Real.log_lt_sub_one_of_pos (inv_pos.mpr hpos) (by rwa [Ne, inv_eq_one])
      rw [Real.log_inv] at h
      linarith
    have : 1 - ((x + 3) / (x + 2))⁻¹ = 1 / (x + 3) := by
      rw [inv_div]; field_simp; ring
    linarith
  · refine Real.sqrt_lt_sqrt ?_ ?_
    · refine Real.log_nonneg ?_
      rw [le_div_iff₀ h2]; linarith
    · have h := Real.log_lt_sub_one_of_pos hpos hne
      have : (x + 3) / (x + 2) - 1 = 1 / (x + 2) := by field_simp; ring
      linarith

/-- More events make the uncertainty smaller. -/
theorem gamma_anti (x y : ℝ) (hx : 0 ≤ x) (hxy : x < y) :
    Real.sqrt (Real.log (1 + (y + 2)) - Real.log (y + 2)) < Real.sqrt (Real.log (1 + (x + 2)) - Real.log (x + 2)) := by
  have hx2 : 0 < x + 2 := by linarith
  have hy2 : 0 < y + 2 := by linarith
  rw [← Real.log_div (by linarith) hx2.ne', ← Real.log_div (by linarith) hy2.ne']
  refine Real.sqrt_lt_sqrt (Real.log_nonneg ?_) (Real.log_lt_log (by positivity) ?_)
  · rw [le_div_iff₀ hy2]; linarith
  · rw [div_lt_div_iff₀ hy2 hx2]; nlinarith

theorem overBin_nonneg (n : ℕ) (codes : ℕ → ℕ) (b : ℕ) (x : ℕ → ℝ) (h : ∀ i < n, 0 ≤ x i) : 0 ≤ overBin n codes b x :=
  sum_nonneg fun i hi => h i (mem_range.mp (mem_filter.mp hi).1)

/-- **C158.** The uncertainty that the Poisson regressor assigns to a bin depends on nothing but the sum `S` of its targets, weighted; it
lies between `1/√(S + 3)` and `1/√(S + 2)`. -/
theorem C158_poisson (g : ℝ → ℝ) (it n : ℕ) (codes : ℕ → ℕ) (y w pred : ℕ → ℝ) (b : ℕ) (hy : ∀ i < n, 0 ≤ y i) (hw : ∀ i < n, 0 ≤ w i) :
    1 / Real.sqrt (overBin n codes b (fun i => w i * y i) + 3) < ((poissonEstimator g).parameters it n codes y w pred b).2 ∧
      ((poissonEstimator g).parameters it n codes y w pred b).2 < 1 / Real.sqrt (overBin n codes b (fun i => w i * y i) + 2) := by
  have e : poissonPrecalc n codes y w b = overBin n codes b (fun i => w i * y i) := by
    unfold poissonPrecalc overBin
    rw [binSum_filter]
    exact sum_congr rfl fun i _ => mul_comm _ _
  show _ < (calcFactorsAndUncertainties g (poissonPrecalc n codes y w b) _).2 ∧ (calcFactorsAndUncertainties g (poissonPrecalc n codes y w b) _).2 < _
  rw [e]
  exact gamma_bounds _ (overBin_nonneg n codes b _ fun i hi => mul_nonneg (hw i hi) (hy i hi))

/-- **C158.** The same for the negative binomial regressor, where the weight of a sample is divided by `a + c·p` with its prediction `p`. -/
theorem C158_nbinom (g : ℝ → ℝ) (a c : ℝ) (ha : 0 < a) (hc : 0 ≤ c) (it n : ℕ) (codes : ℕ → ℕ) (y w pred : ℕ → ℝ) (b : ℕ)
    (hy : ∀ i < n, 0 ≤ y i) (hw : ∀ i < n, 0 ≤ w i) :
    1 / Real.sqrt (overBin n codes b (fun i => w i * y i / (a + c * Real.exp (pred i))) + 3)
        < ((nbinomEstimator g a c).parameters it n codes y w pred b).2 ∧
      ((nbinomEstimator g a c).parameters it n codes y w pred b).2
        < 1 / Real.sqrt (overBin n codes b (fun i => w i * y i / (a + c * Real.exp (pred i))) + 2) := by
  have e : binSum n codes (fun i => w i * y i / (a + c * Real.exp (pred i))) b
      = overBin n codes b (fun i => w i * y i / (a + c * Real.exp (pred i))) := binSum_filter n codes _ b
  show _ < (calcFactorsAndUncertainties g (binSum n codes (fun i => w i * y i / (a + c * Real.exp (pred i))) b) _).2 ∧
    (calcFactorsAndUncertainties g (binSum n codes (fun i => w i * y i / (a + c * Real.exp (pred i))) b) _).2 < _
  rw [e]
  exact gamma_bounds _ (overBin_nonneg n codes b _ fun i hi => div_nonneg (mul_nonneg (hw i hi) (hy i hi)) (by positivity))

/-- **C158.** If a bin of one training set has a larger weighted sum of targets than a bin of another one, the Poisson regressor is more
certain about it, whatever the predictions are. -/
theorem C158_poisson_anti (g : ℝ → ℝ) (it n : ℕ) (codes : ℕ → ℕ) (y w pred : ℕ → ℝ) (b : ℕ)
    (it' n' : ℕ) (codes' : ℕ → ℕ) (y' w' pred' : ℕ → ℝ) (b' : ℕ) (hy : ∀ i < n, 0 ≤ y i) (hw : ∀ i < n, 0 ≤ w i)
    (h : overBin n codes b (fun i => w i * y i) < overBin n' codes' b' (fun i => w' i * y' i)) :
    ((poissonEstimator g).parameters it' n' codes' y' w' pred' b').2 < ((poissonEstimator g).parameters it n codes y w pred b).2 := by
  have e : ∀ (n : ℕ) (codes : ℕ → ℕ) (y w : ℕ → ℝ) (b : ℕ), poissonPrecalc n codes y w b = overBin n codes b (fun i => w i * y i) := by
    intro n codes y w b
    unfold poissonPrecalc overBin
    rw [binSum_filter]
    exact sum_congr rfl fun i _ => mul_comm _ _
  show (calcFactorsAndUncertainties g (poissonPrecalc n' codes' y' w' b') _).2 < (calcFactorsAndUncertainties g (poissonPrecalc n codes y w b) _).2
  rw [e, e]
  exact gamma_anti _ _ (overBin_nonneg n codes b _ fun i hi => mul_nonneg (hw i hi) (hy i hi)) h

/-! ### Location -/

/-- **C158.** The squared uncertainty that the location regressor assigns to a bin with `m` samples of weight 1 and the variance estimate
`v`: `1/(m/v + 1/100)`. -/
theorem C158_location (it n : ℕ) (codes : ℕ → ℕ) (y pred : ℕ → ℝ) (b : ℕ) :
    (locationEstimator.parameters it n codes y (fun _ => 1) pred b).2 ^ 2
      = 1 / (numberInBin n codes b / precalcVarianceY n codes y (fun _ => 1) b + 1 / 100) := by
  have hv := fun b => C54_variance_pos n codes y (fun _ => (1 : ℝ)) (fun _ _ => zero_le_one) b
  have hc := C30_variance_pos n codes (fun i => 1 / precalcVarianceY n codes y (fun _ => 1) (codes i)) (fun _ => (1 : ℝ))
    (fun i _ => (one_div_pos.mpr (hv _)).le) (fun _ _ => zero_le_one) (1 / 100) (by norm_num) b
  show Real.sqrt (calcVarianceGeneric n codes (fun i => 1 / precalcVarianceY n codes y (fun _ => 1) (codes i)) (fun _ => 1) (1 / 100) b) ^ 2 = _
  rw [Real.sq_sqrt hc.2.le]
  unfold calcVarianceGeneric
  simp only [one_mul]
  have e : binSum n codes (fun i => 1 / precalcVarianceY n codes y (fun _ => 1) (codes i)) b
      = numberInBin n codes b / precalcVarianceY n codes y (fun _ => 1) b := by
    rw [binSum_filter, sum_congr rfl fun i hi => by rw [(mem_filter.mp hi).2], sum_const, nsmul_eq_mul, numberInBin, mul_one_div]
  rw [e] at hc ⊢
  rw [pow_two, div_mul_eq_div_div, div_self hc.1.ne']

/-- **C158.** The location regressor assigns the uncertainty 10 to a bin without samples, and with weights of 1 none above 10. -/
theorem C158_location_prior (it n : ℕ) (codes : ℕ → ℕ) (y w pred : ℕ → ℝ) (b : ℕ) :
    ((∀ i < n, codes i ≠ b) → (locationEstimator.parameters it n codes y w pred b).2 = 10) ∧
      (locationEstimator.parameters it n codes y (fun _ => 1) pred b).2 ≤ 10 := by
  constructor
  · intro h
    have e : ∀ x : ℕ → ℝ, binSum n codes x b = 0 := fun x =>
      sum_eq_zero fun i hi => if_neg (h i (mem_range.mp hi))
    show Real.sqrt (calcVarianceGeneric n codes _ w (1 / 100) b) = 10
    unfold calcVarianceGeneric
    rw [e, e, show ((0 : ℝ) + 1 / 100) / (0 + 1 / 100) ^ 2 = 10 ^ 2 by norm_num]
    exact Real.sqrt_sq (by norm_num)
  · refine abs_le_of_sq_le_sq' ?_ (by norm_num) |>.2
    rw [C158_location]
    have hv := C54_variance_pos n codes y (fun _ => (1 : ℝ)) (fun _ _ => zero_le_one) b
    rw [div_le_iff₀ (by positivity)]
    have : 0 ≤ (numberInBin n codes b : ℝ) / precalcVarianceY n codes y (fun _ => 1) b := by positivity
    linarith

/-- **C158, finding.** The uncertainty that `CBLocPoissonRegressor` assigns to a bin with samples of weight 1 is 1, whatever their number,
targets and predictions are: it does not fall with the amount of data. -/
theorem C158_locPoisson_unit (it n : ℕ) (codes : ℕ → ℕ) (y pred : ℕ → ℝ) (b : ℕ) (h : ∃ i < n, codes i = b) :
    (locPoissonEstimator.parameters it n codes y (fun _ => 1) pred b).2 = 1 := by
  obtain ⟨i, hi, hb⟩ := h
  show (locPoissonParameter n codes pred y (fun _ => 1) b).2 = 1
  unfold locPoissonParameter
  simp only [one_pow]
  have hpos : 0 < binSum n codes (fun i => 1 / if (if 0 < pred i then pred i else 0) ≤ 0 then (1 : ℝ) else if 0 < pred i then pred i else 0) b := by
    unfold binSum
    have hp : ∀ i, 0 < (1 : ℝ) / if (if 0 < pred i then pred i else 0) ≤ 0 then (1 : ℝ) else if 0 < pred i then pred i else 0 := by
      intro i
      split_ifs with h1 h2 <;> first | positivity | (exact one_div_pos.mpr (by linarith))
    refine sum_pos' (fun k _ => ?_) ⟨i, mem_range.mpr hi, ?_⟩
    · split_ifs <;> first | exact (hp k).le | exact le_rfl
    · rw [if_pos hb]; exact hp i
  rw [if_pos hpos, div_self hpos.ne', if_pos one_pos]

/-- **C158.** With weights the uncertainty of `CBLocPoissonRegressor` for a bin with weight lies between the smallest and the largest weight of
its samples. -/
theorem C158_locPoisson (it n : ℕ) (codes : ℕ → ℕ) (y w pred : ℕ → ℝ) (b : ℕ) (lo hi : ℝ) (hlo : 0 < lo)
    (hw : ∀ i < n, codes i = b → lo ≤ w i ∧ w i ≤ hi) (h : ∃ i < n, codes i = b) :
    lo ≤ (locPoissonEstimator.parameters it n codes y w pred b).2 ∧ (locPoissonEstimator.parameters it n codes y w pred b).2 ≤ hi := by
  obtain ⟨i, hi', hb⟩ := h
  show lo ≤ (locPoissonParameter n codes pred y w b).2 ∧ (locPoissonParameter n codes pred y w b).2 ≤ hi
  set v := fun i => if (if 0 < pred i then pred i else 0) ≤ 0 then (1 : ℝ) else if 0 < pred i then pred i else 0 with hv
  have hp : ∀ i, 0 < v i := by
    intro i
    rw [hv]; dsimp only
    split_ifs <;> linarith
  have hpos : 0 < binSum n codes (fun i => w i / v i) b := by
    unfold binSum
    refine sum_pos' (fun k hk => ?_) ⟨i, mem_range.mpr hi', ?_⟩
    · split_ifs with hc
      · exact div_nonneg (hlo.le.trans (hw k (mem_range.mp hk) hc).1) (hp k).le
      · exact le_rfl
    · rw [if_pos hb]; exact div_pos (hlo.trans_le (hw i hi' hb).1) (hp i)
  have key : lo * binSum n codes (fun i => w i / v i) b ≤ binSum n codes (fun i => w i ^ 2 / v i) b ∧
      binSum n codes (fun i => w i ^ 2 / v i) b ≤ hi * binSum n codes (fun i => w i / v i) b := by
    unfold binSum
    rw [mul_sum, mul_sum]
    constructor <;>
    · refine sum_le_sum fun k hk => ?_
      split_ifs with hc
      · obtain ⟨h1, h2⟩ := hw k (mem_range.mp hk) hc
        have h0 : 0 ≤ w k / v k := div_nonneg (hlo.le.trans h1) (hp k).le
        have e : w k ^ 2 / v k = w k * (w k / v k) := by ring
        dsimp only
        rw [e]
        exact mul_le_mul_of_nonneg_right (by assumption) h0
      · rw [mul_zero]
  have e : (locPoissonParameter n codes pred y w b).2
      = binSum n codes (fun i => w i ^ 2 / v i) b / binSum n codes (fun i => w i / v i) b := by
    unfold locPoissonParameter
    dsimp only
    rw [if_pos hpos, if_pos]
    refine div_pos (lt_of_lt_of_le (mul_pos hlo hpos) key.1) hpos
  rw [e, le_div_iff₀ hpos, div_le_iff₀ hpos]
  exact key

/-! ### Background subtraction -/

/-- **C158, finding.** The uncertainty that `CBGBSRegressor` assigns to a bin is 0 exactly if the model fits every sample of the bin that has a
weight, in particular for a bin without samples. -/
theorem C158_gbs (ra : ℝ) (ha : -1 ≤ ra) (it n : ℕ) (codes : ℕ → ℕ) (y w pred : ℕ → ℝ) (b : ℕ) (hw : ∀ i < n, 0 ≤ w i) :
    ((gbsEstimator ra).parameters it n codes y w pred b).2 = 0 ↔ ∀ i < n, codes i = b → 0 < w i → pred i = y i := by
  have hD : 0 < binSum n codes (fun i => w i * (1 + ra)) b + 1 := by
    have := binSum_nonneg n codes (fun i => w i * (1 + ra)) (fun i hi => mul_nonneg (hw i hi) (by linarith)) b
    linarith
  set Dd := binSum n codes (fun i => w i * (1 + ra)) b + 1 with hDd
  set A := binSum n codes (fun i => (y i - pred i) * w i) b with hA
  have hsq : gbsVariance ra n codes y pred w b
      = (∑ i ∈ range n, (if codes i = b then (Dd * ((y i - pred i) * w i) - A * (w i * (1 + ra))) ^ 2 else 0) + A ^ 2) / Dd ^ 4 := by
    unfold gbsVariance
    dsimp only
    rw [← hDd, ← hA]
    congr 1
    clear_value Dd A
    unfold binSum
    rw [mul_sum, mul_sum, mul_add (A ^ 2), mul_sum, ← add_assoc, ← sum_sub_distrib, ← sum_add_distrib]
    congr 1
    · refine sum_congr rfl fun i _ => ?_
      split_ifs <;> ring
    · ring
  have hnn : 0 ≤ ∑ i ∈ range n, (if codes i = b then (Dd * ((y i - pred i) * w i) - A * (w i * (1 + ra))) ^ 2 else 0) :=
    sum_nonneg fun i _ => by split_ifs <;> positivity
  show Real.sqrt (gbsVariance ra n codes y pred w b) = 0 ↔ _
  rw [hsq, Real.sqrt_eq_zero (by positivity), div_eq_zero_iff, or_iff_left (by positivity)]
  constructor
  · intro h0 i hi hb hpos
    have hA0 : A = 0 := by
      have := sq_nonneg A
      exact pow_eq_zero_iff (two_ne_zero) |>.mp (by linarith)
    have hs : ∑ i ∈ range n, (if codes i = b then (Dd * ((y i - pred i) * w i) - A * (w i * (1 + ra))) ^ 2 else 0) = 0 := by
      rw [hA0] at h0 ⊢; linarith
    have := (sum_eq_zero_iff_of_nonneg fun i _ => by split_ifs <;> positivity).mp hs i (mem_range.mpr hi)
    rw [if_pos hb, hA0, zero_mul, sub_zero, pow_eq_zero_iff two_ne_zero, mul_eq_zero, or_iff_right hD.ne', mul_eq_zero,
      or_iff_left hpos.ne'] at this
    linarith
  · intro h
    have h0 : ∀ i < n, codes i = b → (y i - pred i) * w i = 0 := fun i hi hb => by
      rcases (hw i hi).eq_or_lt with hz | hz
      · rw [← hz, mul_zero]
      · rw [h i hi hb hz, sub_self, zero_mul]
    have hA0 : A = 0 := by
      rw [hA]
      refine sum_eq_zero fun i hi => ?_
      split_ifs with hb
      · exact h0 i (mem_range.mp hi) hb
      · rfl
    rw [hA0, sum_eq_zero fun i hi => ?_]
    · ring
    · split_ifs with hb
      · rw [h0 i (mem_range.mp hi) hb]; ring
      · rfl

/-! ### Quantile regression and other losses -/

theorem list_sum_nonneg' (l : List (ℝ × ℝ)) (f : ℝ × ℝ → ℝ) (h : ∀ s ∈ l, 0 ≤ f s) : 0 ≤ (l.map f).sum := by
  refine List.sum_nonneg fun x hx => ?_
  obtain ⟨s, hs, rfl⟩ := List.mem_map.mp hx
  exact h s hs

/-- **C158.** The uncertainty of a bin for multiplicative losses, from the weighted sum of its targets. -/
theorem C158_gamma (l : List (ℝ × ℝ)) (h : ∀ s ∈ l, 0 ≤ s.1 ∧ 0 ≤ s.2) :
    1 / Real.sqrt ((l.map fun s => s.2 * s.1).sum + 3) < uncertaintyGamma l ∧
      uncertaintyGamma l < 1 / Real.sqrt ((l.map fun s => s.2 * s.1).sum + 2) :=
  gamma_bounds _ (list_sum_nonneg' l _ fun s hs => mul_nonneg (h s hs).2 (h s hs).1)

theorem gaussian_variance_pos (S R P : ℝ) (hS : 0 ≤ S) (hR : 0 ≤ R) (hP : 0 < P) : 0 < (0.5 * P + 0.5 * R) / (0.5 + 0.5 * S) := by
  have : 0 < 0.5 * P + 0.5 * R := by nlinarith
  have : (0 : ℝ) < 0.5 + 0.5 * S := by nlinarith
  positivity

/-- **C158.** The uncertainty of a bin for additive losses is positive. -/
theorem C158_gaussian (l : List (ℝ × ℝ)) (h : ∀ s ∈ l, 0 ≤ s.2) : 0 < uncertaintyGaussian l := by
  unfold uncertaintyGaussian
  dsimp only
  set S := (l.map fun s => s.2).sum
  set m := (l.map fun s => s.1 * s.2).sum / S
  set R := (l.map fun s => s.2 * (s.1 - m) ^ 2).sum
  have hS : 0 ≤ S := list_sum_nonneg' l _ h
  have hR : 0 ≤ R := list_sum_nonneg' l _ fun s hs => mul_nonneg (h s hs) (sq_nonneg _)
  have hP : 0 < if R / S ≤ 1e-9 then 1 else R / S := by
    split_ifs with hc
    · exact one_pos
    · push Not at hc; exact lt_trans (by norm_num) hc
  have hV := gaussian_variance_pos S R _ hS hR hP
  set V := (0.5 * (if R / S ≤ 1e-9 then 1 else R / S) + 0.5 * R) / (0.5 + 0.5 * S)
  have h1 : 0 ≤ (l.map fun s => s.2 / V).sum := list_sum_nonneg' l _ fun s hs => div_nonneg (h s hs) hV.le
  have h2 : 0 ≤ (l.map fun s => s.2 * (s.2 / V)).sum := list_sum_nonneg' l _ fun s hs => mul_nonneg (h s hs) (div_nonneg (h s hs) hV.le)
  refine Real.sqrt_pos.mpr (div_pos ?_ (pow_pos ?_ 2)) <;> norm_num <;> linarith

/-- **C158.** The uncertainty of a bin for losses of classifiers is positive. -/
theorem C158_beta (ppf : ℝ → ℝ → ℝ → ℝ) (coef : ℝ → ℝ) (hq : ActualQuantiles ppf coef) (l : List (ℝ × ℝ))
    (h : ∀ s ∈ l, (s.1 = 0 ∨ s.1 = 1) ∧ 0 ≤ s.2) : 0 < uncertaintyBeta ppf coef l := by
  obtain ⟨hs, hm⟩ := C120_quantiles hq
  unfold uncertaintyBeta
  dsimp only
  have e1 : 0 ≤ (l.map fun s => s.2 * s.1).sum := list_sum_nonneg' l _ fun s hs => by
    rcases (h s hs).1 with h1 | h1 <;> simp [h1, (h s hs).2]
  have e2 : 0 ≤ (l.map fun s => s.2 * (1 - s.1)).sum := list_sum_nonneg' l _ fun s hs => by
    rcases (h s hs).1 with h1 | h1 <;> simp [h1, (h s hs).2]
  set A := (l.map fun s => s.2 * s.1).sum + betaPriors.1 with hA
  set B := (l.map fun s => s.2 * (1 - s.1)).sum + betaPriors.2 with hB
  have pa : 0 < A := by rw [hA]; norm_num [betaPriors]; linarith
  have pb : 0 < B := by rw [hB]; norm_num [betaPriors]; linarith
  have hl := C35_levels A B pa pb
  have p2pos : 0 < (percentiles A B).2 := by linarith [hl.1]
  have p1lt : (percentiles A B).1 < 1 := by linarith [hl.2.1]
  have hlt : (percentiles A B).2 < (percentiles A B).1 := by linarith [hl.2.2]
  have := C35_matching (ppf A B) logitLink.link coef _ _ (hs.normalStrict _ _ p2pos hlt p1lt)
  exact this.2.2 (logit_strictMono _ _ (hs.inside _ _ _ pa pb p2pos (by linarith)).1 (hs.inside _ _ _ pa pb (by linarith) p1lt).2
    (hm _ _ _ _ pa pb p2pos hlt p1lt))

theorem fltListSum_fin {α : Type*} (l : List α) (x : α → Flt ℝ) (r : α → ℝ) (h : ∀ s ∈ l, x s = .fin (r s)) :
    fltListSum (l.map x) = .fin (l.map r).sum := by
  unfold fltListSum
  induction l with
  | nil => simp
  | cons a l ih =>
    rw [List.map_cons, List.foldr_cons, ih fun s hs => h s (List.mem_cons_of_mem _ hs), h a List.mem_cons_self, add_fin',
      List.map_cons, List.sum_cons]

theorem fltListSum_nan {α : Type*} (l : List α) (x : α → Flt ℝ) (s : α) (hs : s ∈ l) (h : x s = .nan) : fltListSum (l.map x) = .nan := by
  unfold fltListSum
  induction l with
  | nil => cases hs
  | cons a l ih =>
    rw [List.map_cons, List.foldr_cons]
    rcases List.mem_cons.mp hs with rfl | hs
    · rw [h, nan_add]
    · rw [ih hs, add_nan]

/-- **C158.** In floats, the uncertainty for additive losses is this number if the bin has no samples or weight, and NaN if it has samples
without weight. -/
theorem C158_gaussian_float (l : List (ℝ × ℝ)) (h : ∀ s ∈ l, 0 ≤ s.2) :
    uncertaintyGaussianFlt l = if l ≠ [] ∧ ∀ s ∈ l, s.2 = 0 then .nan else .fin (uncertaintyGaussian l) := by
  by_cases hnil : l = []
  · subst hnil
    rw [if_neg (by simp)]
    unfold uncertaintyGaussianFlt uncertaintyGaussian fltListSum
    simp only [List.map_nil, List.sum_nil, List.foldr_nil, over_zero, zero_add, add_fin', mul_fin]
    rw [over_fin (by norm_num), sqrt_fin (by norm_num)]
    norm_num
  have hS0 : (l.map fun s => s.2).sum = 0 ↔ ∀ s ∈ l, s.2 = 0 := by
    constructor
    · intro h0 s hs
      have := List.single_le_sum (l := l.map fun s => s.2) (by
        intro x hx; obtain ⟨t, ht, rfl⟩ := List.mem_map.mp hx; exact h t ht) s.2 (List.mem_map_of_mem hs)
      linarith [h s hs]
    · intro h0
      refine List.sum_eq_zero fun x hx => ?_
      obtain ⟨t, ht, rfl⟩ := List.mem_map.mp hx
      exact h0 t ht
  by_cases hz : ∀ s ∈ l, s.2 = 0
  · rw [if_pos ⟨hnil, hz⟩]
    obtain ⟨s0, hs0⟩ := List.exists_mem_of_ne_nil l hnil
    have e1 : (l.map fun s => s.1 * s.2).sum = 0 := List.sum_eq_zero fun x hx => by
      obtain ⟨t, ht, rfl⟩ := List.mem_map.mp hx
      rw [hz t ht, mul_zero]
    unfold uncertaintyGaussianFlt
    dsimp only
    rw [hS0.mpr hz, e1, over_zero]
    have e2 : ∀ x : ℝ, (Flt.fin x).sub .nan = .nan := fun x => rfl
    simp only [e2, mul_nan]
    rw [fltListSum_nan l (fun _ => .nan) s0 hs0 rfl]
    simp only [nan_over, Flt.leFin, mul_nan, add_nan, over_nan]
    rw [fltListSum_nan l (fun _ => .nan) s0 hs0 rfl]
    simp only [mul_nan, nan_over, over_nan, nan_add, nan_mul]
    rfl
  · rw [if_neg fun hc => hz hc.2]
    have hS : 0 ≤ (l.map fun s => s.2).sum := list_sum_nonneg' l _ h
    have hne : (l.map fun s => s.2).sum ≠ 0 := fun hc => hz (hS0.mp hc)
    unfold uncertaintyGaussianFlt uncertaintyGaussian
    dsimp only
    rw [over_fin hne]
    set S := (l.map fun s => s.2).sum
    set m := (l.map fun s => s.1 * s.2).sum / S
    have hsum : fltListSum (l.map fun s => (Flt.fin s.2).mul (((Flt.fin s.1).sub (.fin m)).mul ((Flt.fin s.1).sub (.fin m))))
        = .fin (l.map fun s => s.2 * (s.1 - m) ^ 2).sum := fltListSum_fin l _ _ fun s _ => by
      rw [sub_fin', mul_fin, mul_fin, pow_two]
    rw [hsum]
    set R := (l.map fun s => s.2 * (s.1 - m) ^ 2).sum
    have hR : 0 ≤ R := list_sum_nonneg' l _ fun s hs => mul_nonneg (h s hs) (sq_nonneg _)
    rw [over_fin hne]
    have e9 : (1e-9 : ℝ) = 1 / 10 ^ 9 := by norm_num
    have pick : ∀ x : ℝ, (if (Flt.fin x).leFin (1 / 10 ^ 9) then Flt.fin 1 else .fin x) = .fin (if x ≤ 1e-9 then 1 else x) := by
      intro x
      rw [e9]
      by_cases hx : x ≤ 1 / 10 ^ 9
      · rw [if_pos hx, if_pos (by simpa only [Flt.leFin, decide_eq_true_eq] using hx)]
      · rw [if_neg hx, if_neg (by simpa only [Flt.leFin, decide_eq_true_eq] using hx)]
    rw [pick]
    have hP : 0 < if R / S ≤ 1e-9 then 1 else R / S := by
      split_ifs with hc
      · exact one_pos
      · push Not at hc; exact lt_trans (by norm_num) hc
    set P := if R / S ≤ 1e-9 then 1 else R / S
    have hV := gaussian_variance_pos S R P hS hR hP
    rw [mul_fin, mul_fin, add_fin', over_fin (by positivity)]
    have e5 : (1 / 2 * P + 1 / 2 * R) / (1 / 2 + 1 / 2 * S) = (0.5 * P + 0.5 * R) / (0.5 + 0.5 * S) := by norm_num
    rw [e5]
    set V := (0.5 * P + 0.5 * R) / (0.5 + 0.5 * S)
    rw [fltListSum_fin l _ (fun s => s.2 / V) fun s _ => over_fin hV.ne',
      fltListSum_fin l _ (fun s => s.2 * (s.2 / V)) fun s _ => by rw [over_fin hV.ne', mul_fin]]
    have h1 : 0 ≤ (l.map fun s => s.2 / V).sum := list_sum_nonneg' l _ fun s hs => div_nonneg (h s hs) hV.le
    have h2 : 0 ≤ (l.map fun s => s.2 * (s.2 / V)).sum := list_sum_nonneg' l _ fun s hs => mul_nonneg (h s hs) (div_nonneg (h s hs) hV.le)
    rw [add_fin', add_fin', mul_fin, over_fin (by positivity), sqrt_fin (by positivity)]
    have e6 : (1e-2 : ℝ) = 1 / 100 := by norm_num
    rw [e6, pow_two]

/-! ### All estimators -/

/-- **C158.** Every bin gets a positive uncertainty, also without samples: for every estimator but background subtraction, if targets are
valid and weights not negative. -/
theorem C158_positive (D : TrainSet) (group : List String) (E : Estimator) (hE : Uncertain D group E)
    (hy : ∀ i < D.n, E.valid (D.y i)) (hw : ∀ i < D.n, 0 ≤ D.w i) (it : ℕ) (codes : ℕ → ℕ) (pred : ℕ → ℝ) (b : ℕ) :
    0 < (E.parameters it D.n codes D.y D.w pred b).2 := by
  have hmem : ∀ s ∈ (binMembers D.n codes b).map fun i => (D.y i, D.w i), ∃ i < D.n, s = (D.y i, D.w i) := by
    intro s hs
    obtain ⟨i, hi, rfl⟩ := List.mem_map.mp hs
    exact ⟨i, List.mem_range.mp (List.mem_of_mem_filter hi), rfl⟩
  have hmult : ∀ (mult : Bool), (∀ i < D.n, mult = true → 0 ≤ D.y i) →
      0 < (if mult then uncertaintyGamma else uncertaintyGaussian) ((binMembers D.n codes b).map fun i => (D.y i, D.w i)) := by
    intro mult hm
    cases mult with
    | true =>
      have hall : ∀ s ∈ (binMembers D.n codes b).map fun i => (D.y i, D.w i), 0 ≤ s.1 ∧ 0 ≤ s.2 := fun s hs => by
        obtain ⟨i, hi, rfl⟩ := hmem s hs
        exact ⟨hm i hi rfl, hw i hi⟩
      refine lt_trans ?_ (C158_gamma _ hall).1
      have := list_sum_nonneg' _ (fun s => s.2 * s.1) fun s hs => mul_nonneg (hall s hs).2 (hall s hs).1
      positivity
    | false =>
      refine C158_gaussian _ fun s hs => ?_
      obtain ⟨i, hi, rfl⟩ := hmem s hs
      exact hw i hi
  cases hE with
  | poisson g =>
    have := overBin_nonneg D.n codes b (fun i => D.w i * D.y i) fun i hi => mul_nonneg (hw i hi) (hy i hi)
    exact lt_trans (by positivity) (C158_poisson g it D.n codes D.y D.w pred b hy hw).1
  | nbinom g a c ha hc =>
    have := overBin_nonneg D.n codes b (fun i => D.w i * D.y i / (a + c * Real.exp (pred i))) fun i hi =>
      div_nonneg (mul_nonneg (hw i hi) (hy i hi)) (by positivity)
    exact lt_trans (by positivity) (C158_nbinom g a c ha hc it D.n codes D.y D.w pred b hy hw).1
  | classifier ppf coef h => exact (C35_actual_quantiles ppf coef h D.n codes D.y D.w pred hy hw b).1
  | location h =>
    have hv := fun b => C54_variance_pos D.n codes D.y D.w hw b
    exact Real.sqrt_pos.mpr (C30_variance_pos D.n codes (fun i => D.w i / precalcVarianceY D.n codes D.y D.w (codes i)) D.w
      (fun i hi => div_nonneg (hw i hi) (hv _).le) hw (1 / 100) (by norm_num) b).2
  | locPoisson h =>
    have hW : ∑ i ∈ range D.n, D.w i ≠ 0 := by
      obtain ⟨i, hi, -, -, hwi, -⟩ := h
      exact (total_pos D.n D.w hw ⟨i, hi, hwi⟩).ne'
    obtain ⟨s, -, -, h3⟩ := locPoisson_parts D.n codes D.y D.w pred hw hW b
    exact h3 (stddev_pos D.n D.y D.w hw h)
  | quantile mult q minimize h => exact hmult mult hy
  | generic mult costs minimize h => exact hmult mult hy
  | genericClassifier ppf coef costs minimize h =>
    refine C158_beta ppf coef h _ fun s hs => ?_
    obtain ⟨i, hi, rfl⟩ := hmem s hs
    exact ⟨hy i hi, hw i hi⟩

section
variable (O : OpenSmoothers)

/-- **C81**, for the estimators of the package: except with background subtraction, weighted mean smoothing gives a number to every bin of a
categorical feature or an interaction that has weight, in every iteration. -/
theorem C81_estimators (D : TrainSet) (f : FeatureSpec) (E : Estimator) (hE : Uncertain D f.group E)
    (hy : ∀ i < D.n, E.valid (D.y i)) (hw : ∀ i < D.n, 0 ≤ D.w i) (s : SmootherKind)
    (h : IsWeightedMean s (bindData D.X D.n f.group none).2) (useNorm : Bool) (t : Option RegType) (it : ℕ) (pred : ℕ → ℝ) (b : ℕ)
    (hb : b < (bindData D.X D.n f.group none).2.prod) (hweight : ∃ i < D.n, (f.cfg D.X D.n).bin i = b ∧ 0 < D.w i) :
    ∃ x, smoothAtCentres (packageSmoothers O) (metaSmoother s useNorm t) (bindData D.X D.n f.group none).2
      (binSum D.n (f.cfg D.X D.n).bin D.w)
      (fun b => (E.parameters it D.n (f.cfg D.X D.n).bin D.y D.w pred b).2)
      (fun b => (E.parameters it D.n (f.cfg D.X D.n).bin D.y D.w pred b).1) b = some x := by
  obtain ⟨i, hi, hbin, hpos⟩ := hweight
  exact C81_defined_partial O s _ h useNorm t _ _ _ (fun k _ => C158_positive D f.group E hE hy hw it _ pred k) b hb
    (bin_pos D.n _ D.w hw b i hi hbin hpos).ne'

end

end CB
