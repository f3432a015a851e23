import Verif.Model.Nbinom
import Verif.Model.Price
import Verif.Props.NegBinomial
import Verif.Spec.Gamma
import Mathlib.Analysis.SpecialFunctions.Gamma.Basic
import Mathlib.MeasureTheory.Integral.Bochner.Set

set_option autoImplicit false
set_option linter.unusedSectionVars false

/-!
C68: what the dispersion of the negative binomial model means.
C69: the gamma distribution of a factor with given value and variance.
-/
namespace CB

open Spec

/-- Mean and variance of the negative binomial distribution. -/
theorem nbinom_mean_var (n p mu var : ℝ) (hp : 0 < p) (hp1 : p < 1) (h1 : n * (1 - p) / p = mu)
    (h2 : n * (1 - p) / p ^ 2 = var) :
    HasSum (fun k : ℕ => nbinomPmf n p k) 1 ∧
      HasSum (fun k : ℕ => (k : ℝ) * nbinomPmf n p k) mu ∧
      HasSum (fun k : ℕ => ((k : ℝ) - mu) ^ 2 * nbinomPmf n p k) var := by
  have m0 := nbinomPmf_hasSum n p hp hp1
  have m1 := nbinomPmf_moment1 n p hp hp1
  have m2 := nbinomPmf_moment2 n p hp hp1
  rw [h1] at m1
  refine ⟨m0, m1, ?_⟩
  have h := (m2.add (m1.mul_left (1 - 2 * mu))).add (m0.mul_left (mu ^ 2))
  have e3 : n * (n + 1) * (1 - p) ^ 2 / p ^ 2 + (1 - 2 * mu) * mu + mu ^ 2 * 1 = var := by
    rw [← h2, ← h1]
    field_simp
    ring
  rw [e3] at h
  refine h.congr_fun ?_
  intro k
  ring

/-- **C68.** The sample loss of the dispersion model for a count `k`, a positive predicted mean `mu` and a dispersion `c ≥ 0` is
the negative logarithm of the probability of `k` in a negative binomial distribution with mean `mu` and variance `mu + c mu²`
(with a lower limit `mu / (1 - 1e-8)` for the variance), plus the penalty `gamma |c|`.  If the
logarithm of the probability is not finite, its negative is replaced by 400. -/
theorem C68_dispersion (logpmf : ℝ → ℝ → ℝ → Flt ℝ) (gamma mu c : ℝ) (hmu : 0 < mu) (hc : 0 ≤ c) :
    ∃ n p : ℝ, 0 < n ∧ 0 < p ∧ p < 1 ∧
      HasSum (fun k : ℕ => nbinomPmf n p k) 1 ∧
      HasSum (fun k : ℕ => (k : ℝ) * nbinomPmf n p k) mu ∧
      HasSum (fun k : ℕ => ((k : ℝ) - mu) ^ 2 * nbinomPmf n p k)
        (max (mu + c * mu ^ 2) (mu / (1 - 1e-8))) ∧
      (∀ k : ℕ, logpmf k n p = .fin (Real.log (nbinomPmf n p k)) →
        sampleLoss logpmf gamma k mu c = -Real.log (nbinomPmf n p k) + gamma * |c|) ∧
      (∀ y : ℝ, (logpmf y n p).isFinite = false → sampleLoss logpmf gamma y mu c = 400 + gamma * |c|) := by
  have hcm : 0 ≤ c * mu := by positivity
  have hp : 0 < nbinomP c mu := by
    unfold nbinomP
    apply lt_min (by positivity) (by norm_num)
  have hp1 : nbinomP c mu < 1 := lt_of_le_of_lt (min_le_right _ _) (by norm_num)
  have hq : 0 < 1 - nbinomP c mu := by linarith
  have hn : 0 < nbinomN c mu := by unfold nbinomN; positivity
  have e1 : nbinomN c mu * (1 - nbinomP c mu) / nbinomP c mu = mu := by
    unfold nbinomN
    field_simp
  have e2 : nbinomN c mu * (1 - nbinomP c mu) / nbinomP c mu ^ 2 = max (mu + c * mu ^ 2) (mu / (1 - 1e-8)) := by
    have : nbinomN c mu * (1 - nbinomP c mu) / nbinomP c mu ^ 2 = mu / nbinomP c mu := by
      unfold nbinomN
      field_simp
    rw [this]
    have e3 : mu / (1 / (1 + c * mu)) = mu + c * mu ^ 2 := by
      have : 1 + c * mu ≠ 0 := by positivity
      field_simp
    unfold nbinomP
    rcases le_total (1 / (1 + c * mu)) (1 - 1e-8) with h | h
    · rw [min_eq_left h, max_eq_left, e3]
      rw [← e3]
      exact div_le_div_of_nonneg_left hmu.le (by positivity) h
    · rw [min_eq_right h, max_eq_right]
      rw [← e3]
      exact div_le_div_of_nonneg_left hmu.le (by norm_num) h
  obtain ⟨a, b, d⟩ := nbinom_mean_var _ _ _ _ hp hp1 e1 e2
  refine ⟨nbinomN c mu, nbinomP c mu, hn, hp, hp1, a, b, d, ?_, ?_⟩
  · intro k hk
    simp only [sampleLoss, hk, negOr400]
  · intro y hy
    unfold sampleLoss
    cases h : logpmf y (nbinomN c mu) (nbinomP c mu) with
    | fin x => rw [h] at hy; simp [Flt.isFinite] at hy
    | nan => simp [negOr400]
    | pinf => simp [negOr400]
    | ninf => simp [negOr400]

/-- **C68**, link: the dispersion tried for a sample is strictly between 0 and 1, and a link value `l` stands for the
dispersion `c` with `log (c / (1 - c)) = l`. -/
theorem C68_link (l c : ℝ) : 0 < sigmoid l ∧ sigmoid l < 1 ∧
    (0 < c → c < 1 → (sigmoid l = c ↔ l = Real.log (c / (1 - c)))) := by
  have he := Real.exp_pos (-l)
  refine ⟨by unfold sigmoid; positivity, ?_, ?_⟩
  · unfold sigmoid
    rw [div_lt_one (by positivity)]
    linarith
  · intro h0 h1
    have hc : 0 < 1 - c := by linarith
    have hq : 0 < c / (1 - c) := by positivity
    have : sigmoid l = c ↔ Real.exp l = c / (1 - c) := by
      unfold sigmoid
      rw [Real.exp_neg, div_eq_iff (by positivity), eq_div_iff hc.ne']
      have hl := Real.exp_pos l
      constructor
      · intro h; field_simp at h; linarith
      · intro h; field_simp; linarith
    rw [this]
    constructor
    · intro h; rw [← h, Real.log_exp]
    · intro h; rw [h, Real.exp_log hq]

/-- Witness for C68: mean 2 with dispersion 1/2, where the variance is 4 (the lower limit does not matter). -/
example : (0 : ℝ) < 2 ∧ (0 : ℝ) ≤ 1 / 2 ∧ max ((2 : ℝ) + 1 / 2 * 2 ^ 2) (2 / (1 - 1e-8)) = 4 := by
  refine ⟨by norm_num, by norm_num, ?_⟩
  rw [max_eq_left] <;> norm_num

/-- Moments of the gamma distribution. -/
theorem gammaDensity_moment (a b : ℝ) (ha : 0 < a) (hb : 0 < b) (k : ℕ) :
    ∫ x in Set.Ioi (0 : ℝ), x ^ k * gammaDensity a b x = Real.Gamma (a + k) / Real.Gamma a / b ^ k := by
  have hk : 0 < a + k := by positivity
  have h := Real.integral_rpow_mul_exp_neg_mul_Ioi hk hb
  have e : ∀ x ∈ Set.Ioi (0 : ℝ), x ^ k * gammaDensity a b x
      = b ^ a / Real.Gamma a * (x ^ (a + k - 1) * Real.exp (-(b * x))) := by
    intro x hx
    have hx' : (0 : ℝ) < x := hx
    have : x ^ (a + k - 1) = x ^ (a - 1) * x ^ k := by
      rw [← Real.rpow_natCast, ← Real.rpow_add hx']
      congr 1
      ring
    rw [this]
    unfold gammaDensity
    ring
  rw [MeasureTheory.setIntegral_congr_fun measurableSet_Ioi e, MeasureTheory.integral_const_mul, h]
  have hba : b ^ a ≠ 0 := (Real.rpow_pos_of_pos hb a).ne'
  have hg : Real.Gamma a ≠ 0 := (Real.Gamma_pos_of_pos ha).ne'
  rw [one_div, Real.inv_rpow hb.le, Real.rpow_add hb, Real.rpow_natCast]
  field_simp

/-- The moments exist. -/
theorem gammaDensity_integrable (a b : ℝ) (ha : 0 < a) (hb : 0 < b) (k : ℕ) :
    MeasureTheory.IntegrableOn (fun x => x ^ k * gammaDensity a b x) (Set.Ioi 0) := by
  apply MeasureTheory.Integrable.of_integral_ne_zero
  rw [gammaDensity_moment a b ha hb k]
  have h1 := Real.Gamma_pos_of_pos ha
  have h2 := Real.Gamma_pos_of_pos (show 0 < a + k by positivity)
  positivity

/-- **C69.** For a positive factor and a finite positive variance, the gamma distribution used for the uncertainty of the factor has
this factor as mean and this variance as variance. -/
theorem C69_gamma_matching (factor v : ℝ) (hf : 0 < factor) (hv : 0 < v) :
    let alpha := (gammaMoments factor (.fin v)).1
    let beta := (gammaMoments factor (.fin v)).2
    0 < alpha ∧ 0 < beta ∧
      ∫ x in Set.Ioi (0 : ℝ), gammaDensity alpha beta x = 1 ∧
      ∫ x in Set.Ioi (0 : ℝ), x * gammaDensity alpha beta x = factor ∧
      ∫ x in Set.Ioi (0 : ℝ), (x - factor) ^ 2 * gammaDensity alpha beta x = v := by
  intro alpha beta
  have ha : 0 < alpha := by simp only [alpha, gammaMoments]; positivity
  have hb : 0 < beta := by simp only [beta, gammaMoments]; positivity
  have eb : alpha / beta = factor := by simp only [alpha, beta, gammaMoments]; field_simp
  have ev : alpha / beta ^ 2 = v := by simp only [alpha, beta, gammaMoments]; field_simp
  have hg : Real.Gamma alpha ≠ 0 := (Real.Gamma_pos_of_pos ha).ne'
  have m0 := gammaDensity_moment alpha beta ha hb 0
  have m1 := gammaDensity_moment alpha beta ha hb 1
  have m2 := gammaDensity_moment alpha beta ha hb 2
  have i0 := gammaDensity_integrable alpha beta ha hb 0
  have i1 := gammaDensity_integrable alpha beta ha hb 1
  have i2 := gammaDensity_integrable alpha beta ha hb 2
  have g1 : Real.Gamma (alpha + 1) = alpha * Real.Gamma alpha := Real.Gamma_add_one ha.ne'
  have g2 : Real.Gamma (alpha + 2) = (alpha + 1) * (alpha * Real.Gamma alpha) := by
    rw [show alpha + 2 = (alpha + 1) + 1 by ring, Real.Gamma_add_one (by positivity), g1]
  simp only [pow_zero, one_mul, pow_one, Nat.cast_zero, add_zero, Nat.cast_one, Nat.cast_ofNat] at m0 m1 m2 i0 i1 i2
  have r0 : ∫ x in Set.Ioi (0 : ℝ), gammaDensity alpha beta x = 1 := by rw [m0]; field_simp
  have r1 : ∫ x in Set.Ioi (0 : ℝ), x * gammaDensity alpha beta x = factor := by
    rw [m1, g1, ← eb]; field_simp
  have r2 : ∫ x in Set.Ioi (0 : ℝ), x ^ 2 * gammaDensity alpha beta x = v + factor ^ 2 := by
    rw [m2, g2, ← ev, ← eb]; field_simp
    ring
  refine ⟨ha, hb, r0, r1, ?_⟩
  have e : ∀ x, (x - factor) ^ 2 * gammaDensity alpha beta x
      = (x ^ 2 * gammaDensity alpha beta x + (-2 * factor) * (x * gammaDensity alpha beta x))
        + factor ^ 2 * gammaDensity alpha beta x := by
    intro x; ring
  simp_rw [e]
  have i12 : MeasureTheory.IntegrableOn
      (fun x => x ^ 2 * gammaDensity alpha beta x + (-2 * factor) * (x * gammaDensity alpha beta x)) (Set.Ioi 0) :=
    i2.add (i1.const_mul _)
  rw [MeasureTheory.integral_add i12 (i0.const_mul _), MeasureTheory.integral_add i2 (i1.const_mul _), MeasureTheory.integral_const_mul,
    MeasureTheory.integral_const_mul, r0, r1, r2]
  ring

/-- **C69**, second part: without a finite variance both parameters are zero. -/
theorem C69_no_variance (factor : ℝ) (v : Flt ℝ) (hv : v.isFinite = false) : gammaMoments factor v = (0, 0) := by
  cases v with
  | fin x => simp [Flt.isFinite] at hv
  | nan => rfl
  | pinf => rfl
  | ninf => rfl

/-- Witness for C69: factor 2 with variance 1/2 gives shape 8 and rate 4. -/
example : gammaMoments 2 (.fin (1 / 2)) = (8, 4) := by
  simp only [gammaMoments]; norm_num

end CB
