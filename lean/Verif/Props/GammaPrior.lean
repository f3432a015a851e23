import Verif.Props.Estimators
import Mathlib.MeasureTheory.Integral.IntervalIntegral.FundThmCalculus
import Mathlib.Analysis.SpecialFunctions.ExpDeriv
import Mathlib.Analysis.SpecialFunctions.Exponential
import Mathlib.Analysis.Complex.Exponential

set_option autoImplicit false

/-!
C57: a bin without samples has almost the neutral factor in the Poisson and negative binomial regressors.
-/
namespace CB
open Finset

/-- `m` is the median of the gamma distribution with shape 2 and rate 1, whose density is `t * exp (-t)`. -/
def Spec.IsGamma2Median (m : ℝ) : Prop := 0 < m ∧ ∫ t in (0 : ℝ)..m, t * Real.exp (-t) = 1 / 2

theorem gamma2_cdf (x : ℝ) : ∫ t in (0 : ℝ)..x, t * Real.exp (-t) = 1 - (1 + x) * Real.exp (-x) := by
  have hd : ∀ t ∈ Set.uIcc 0 x, HasDerivAt (fun t => -((1 + t) * Real.exp (-t))) (t * Real.exp (-t)) t := by
    intro t _
    have h1 : HasDerivAt (fun t : ℝ => Real.exp (-t)) (Real.exp (-t) * (-1)) t := (hasDerivAt_neg t).exp
    have h2 : HasDerivAt (fun t : ℝ => 1 + t) 1 t := (hasDerivAt_id t).const_add 1
    have h3 : HasDerivAt (fun t => -((1 + t) * Real.exp (-t))) (-(1 * Real.exp (-t) + (1 + t) * (Real.exp (-t) * (-1)))) t :=
      (h2.mul h1).neg
    exact h3.congr_deriv (by ring)
  rw [intervalIntegral.integral_eq_sub_of_hasDerivAt hd]
  · simp; ring
  · apply Continuous.intervalIntegrable
    fun_prop

theorem gamma2_decreasing (a b : ℝ) (ha : 0 < a) (hab : a < b) : (1 + b) * Real.exp (-b) < (1 + a) * Real.exp (-a) := by
  have h1 : 1 + (b - a) ≤ Real.exp (b - a) := by linarith [Real.add_one_le_exp (b - a)]
  have h2 : Real.exp (-a) = Real.exp (-b) * Real.exp (b - a) := by rw [← Real.exp_add]; congr 1; ring
  rw [h2]
  have hb := Real.exp_pos (-b)
  have : (1 + b) < (1 + a) * Real.exp (b - a) := by
    have h3 := mul_le_mul_of_nonneg_left h1 (by linarith : (0 : ℝ) ≤ 1 + a)
    nlinarith
  nlinarith

theorem exp_half_bounds : Real.exp 0.83917 < 2.314450 ∧ 2.314456 < Real.exp 0.839175 := by
  constructor
  · have h := Real.exp_bound (x := 0.83917) (by norm_num [abs_of_pos]) (n := 12) (by norm_num)
    have := (abs_le.mp h).2
    norm_num [sum_range_succ, Nat.factorial, abs_of_pos] at this
    linarith
  · have h := Real.exp_bound (x := 0.839175) (by norm_num [abs_of_pos]) (n := 12) (by norm_num)
    have := (abs_le.mp h).1
    norm_num [sum_range_succ, Nat.factorial, abs_of_pos] at this
    linarith

/-- The median of the gamma distribution with shape 2 lies within 1e-5 above the prior `beta`. -/
theorem gamma2_median_bounds (m : ℝ) (h : Spec.IsGamma2Median m) : 1.67834 < m ∧ m < 1.67835 := by
  obtain ⟨hm, hi⟩ := h
  rw [gamma2_cdf] at hi
  obtain ⟨b1, b2⟩ := exp_half_bounds
  have e1 : Real.exp 1.67834 = Real.exp 0.83917 * Real.exp 0.83917 := by rw [← Real.exp_add]; norm_num
  have e2 : Real.exp 1.67835 = Real.exp 0.839175 * Real.exp 0.839175 := by rw [← Real.exp_add]; norm_num
  have p1 := Real.exp_pos 0.83917
  have p2 := Real.exp_pos 0.839175
  have l1 : Real.exp 1.67834 < 2 * (1 + 1.67834) := by rw [e1]; nlinarith
  have l2 : 2 * (1 + 1.67835) < Real.exp 1.67835 := by rw [e2]; nlinarith
  have c : ∀ x : ℝ, (1 + x) * Real.exp (-x) * Real.exp x = 1 + x := by
    intro x; rw [mul_assoc, ← Real.exp_add]; simp
  have v1 : 1 / 2 < (1 + 1.67834) * Real.exp (-1.67834) := by
    have := c 1.67834
    have hp := Real.exp_pos 1.67834
    by_contra hc
    rw [not_lt] at hc
    nlinarith
  have v2 : (1 + 1.67835) * Real.exp (-1.67835) < 1 / 2 := by
    have := c 1.67835
    have hp := Real.exp_pos 1.67835
    by_contra hc
    rw [not_lt] at hc
    nlinarith
  constructor
  · by_contra hc
    rw [not_lt] at hc
    rcases hc.eq_or_lt with hc | hc
    · rw [hc] at hi; linarith
    · have := gamma2_decreasing m 1.67834 hm hc
      linarith
  · by_contra hc
    rw [not_lt] at hc
    rcases hc.eq_or_lt with hc | hc
    · rw [← hc] at hi; linarith
    · have := gamma2_decreasing 1.67835 m (by norm_num) hc
      linarith

/-- **C57**: in the Poisson and negative binomial regressors a bin without samples gets a factor (in link space) between 0 and
6e-6, and the same uncertainty as every other empty bin, if `gammaincinv` computes the median of the gamma distribution with
shape 2. -/
theorem C57_empty_bin (gammaincinv : ℝ → ℝ) (hg : Spec.IsGamma2Median (gammaincinv 2)) (a c : ℝ) (n : ℕ) (codes : ℕ → ℕ)
    (y weights predLink : ℕ → ℝ) (b : ℕ) (hb : ∀ i < n, codes i ≠ b) :
    0 < (nbinomCalcParameters gammaincinv a c n codes y weights predLink b).1 ∧
    (nbinomCalcParameters gammaincinv a c n codes y weights predLink b).1 < 6e-6 ∧
    (nbinomCalcParameters gammaincinv a c n codes y weights predLink b).2 = Real.sqrt (Real.log 3 - Real.log 2) := by
  have hz : ∀ u : ℕ → ℝ, binSum n codes u b = 0 := by
    intro u
    unfold binSum
    exact sum_eq_zero (fun i hi => if_neg (hb i (mem_range.mp hi)))
  obtain ⟨m1, m2⟩ := gamma2_median_bounds _ hg
  have e : nbinomCalcParameters gammaincinv a c n codes y weights predLink b
      = (Real.log (gammaincinv 2 / 1.67834), Real.sqrt (Real.log (1 + 2) - Real.log 2)) := by
    unfold nbinomCalcParameters
    simp only [hz]
    unfold calcFactorsAndUncertainties calcFactorFromPosterior gammaPriors
    simp only [zero_add]
    rw [if_pos (by norm_num)]
  rw [e]
  refine ⟨?_, ?_, by norm_num⟩
  · apply Real.log_pos
    rw [lt_div_iff₀ (by norm_num)]
    linarith
  · have h1 : Real.log (gammaincinv 2 / 1.67834) ≤ gammaincinv 2 / 1.67834 - 1 :=
      Real.log_le_sub_one_of_pos (div_pos (by linarith) (by norm_num))
    have h2 : gammaincinv 2 / 1.67834 < 1 + 6e-6 := by
      rw [div_lt_iff₀ (by norm_num)]
      norm_num
      linarith
    show Real.log (gammaincinv 2 / 1.67834) < 6e-6
    linarith

/-- Witness for C57: the median exists. -/
example : ∃ m, Spec.IsGamma2Median m := by
  have hcont : Continuous (fun x : ℝ => 1 - (1 + x) * Real.exp (-x)) := by fun_prop
  have h0 : (fun x : ℝ => 1 - (1 + x) * Real.exp (-x)) 0 ≤ 1 / 2 := by simp
  have h1 : 1 / 2 ≤ (fun x : ℝ => 1 - (1 + x) * Real.exp (-x)) 1.67835 := by
    have b2 := exp_half_bounds.2
    have e2 : Real.exp 1.67835 = Real.exp 0.839175 * Real.exp 0.839175 := by rw [← Real.exp_add]; norm_num
    have l2 : 2 * (1 + 1.67835) < Real.exp 1.67835 := by rw [e2]; nlinarith
    have c : (1 + 1.67835) * Real.exp (-1.67835) * Real.exp 1.67835 = 1 + 1.67835 := by
      rw [mul_assoc, ← Real.exp_add]; simp
    have hp := Real.exp_pos 1.67835
    show 1 / 2 ≤ 1 - (1 + 1.67835) * Real.exp (-1.67835)
    by_contra hc
    rw [not_le] at hc
    nlinarith
  obtain ⟨m, hm, hv⟩ := intermediate_value_Icc (by norm_num : (0 : ℝ) ≤ 1.67835) hcont.continuousOn ⟨h0, h1⟩
  refine ⟨m, ?_, ?_⟩
  · rcases hm.1.eq_or_lt with h | h
    · rw [← h] at hv; norm_num at hv
    · exact h
  · rw [gamma2_cdf]; exact hv

end CB
