import Verif.Model.Estimators
import Verif.Spec.Estimators
import Mathlib.Algebra.Order.BigOperators.Ring.Finset
import Mathlib.Algebra.BigOperators.Group.Finset.Piecewise
import Mathlib.Algebra.BigOperators.Ring.Finset
import Mathlib.Tactic.Linarith
import Mathlib.Tactic.Ring
import Mathlib.Tactic.FieldSimp
import Mathlib.Tactic.NormNum
import Mathlib.Tactic.Positivity
import Mathlib.Algebra.Order.Field.Rat

set_option autoImplicit false
set_option linter.unusedSectionVars false

/-!
C30 (penalised least squares), C31 (Poisson and negative binomial), C32 (linear regression).
-/
namespace CB
open Finset

section
variable {K : Type*} [Field K] [LinearOrder K] [IsStrictOrderedRing K]

theorem binSum_filter (n : ℕ) (codes : ℕ → ℕ) (w : ℕ → K) (b : ℕ) :
    binSum n codes w b = ∑ i ∈ (range n).filter (fun i => codes i = b), w i := by
  unfold binSum; rw [sum_filter]

theorem binSum_nonneg (n : ℕ) (codes : ℕ → ℕ) (w : ℕ → K) (hw : ∀ i < n, 0 ≤ w i) (b : ℕ) : 0 ≤ binSum n codes w b := by
  rw [binSum_filter]
  exact sum_nonneg (fun i hi => hw i (mem_range.mp (mem_filter.mp hi).1))

/-- Completing the square: the excess error of `t` over the estimate. -/
theorem chi2_excess (n : ℕ) (codes : ℕ → ℕ) (x w : ℕ → K) (hw : ∀ i < n, 0 ≤ w i) (x0 w0 : K) (hw0 : 0 < w0) (b : ℕ) (t : K) :
    Spec.chi2 n codes x w x0 w0 b t
      = Spec.chi2 n codes x w x0 w0 b (calcFactorsGeneric n codes (fun i => w i * x i) w x0 w0 b)
        + (binSum n codes w b + w0) * (t - calcFactorsGeneric n codes (fun i => w i * x i) w x0 w0 b) ^ 2 := by
  have hpos : 0 < binSum n codes w b + w0 := by linarith [binSum_nonneg n codes w hw b]
  have hm : (binSum n codes w b + w0) * calcFactorsGeneric n codes (fun i => w i * x i) w x0 w0 b
      = binSum n codes (fun i => w i * x i) b + w0 * x0 := by
    unfold calcFactorsGeneric; field_simp
  set m := calcFactorsGeneric n codes (fun i => w i * x i) w x0 w0 b
  rw [binSum_filter] at hm hpos ⊢
  rw [binSum_filter] at hm
  unfold Spec.chi2
  set S := (range n).filter (fun i => codes i = b)
  have exp : ∀ u : K, ∑ i ∈ S, w i * (x i - u) ^ 2
      = ∑ i ∈ S, w i * x i ^ 2 - 2 * u * ∑ i ∈ S, w i * x i + u ^ 2 * ∑ i ∈ S, w i := by
    intro u
    rw [mul_sum, mul_sum, ← sum_sub_distrib, ← sum_add_distrib]
    exact sum_congr rfl (fun i _ => by ring)
  rw [exp t, exp m]
  have h2 : ∑ i ∈ S, w i * x i = (∑ i ∈ S, w i + w0) * m - w0 * x0 := by rw [hm]; ring
  rw [h2]
  ring

/-- **C30**: the estimate of each bin minimises the penalised squared error, and is the only minimiser. -/
theorem C30_unique_minimiser (n : ℕ) (codes : ℕ → ℕ) (x w : ℕ → K) (hw : ∀ i < n, 0 ≤ w i) (x0 w0 : K) (hw0 : 0 < w0)
    (b : ℕ) (t : K) (ht : t ≠ calcFactorsGeneric n codes (fun i => w i * x i) w x0 w0 b) :
    Spec.chi2 n codes x w x0 w0 b (calcFactorsGeneric n codes (fun i => w i * x i) w x0 w0 b)
      < Spec.chi2 n codes x w x0 w0 b t := by
  rw [chi2_excess n codes x w hw x0 w0 hw0 b t]
  have hpos : 0 < binSum n codes w b + w0 := by linarith [binSum_nonneg n codes w hw b]
  have := mul_pos hpos (pow_pos (abs_pos.mpr (sub_ne_zero.mpr ht)) 2)
  rw [sq_abs] at this
  linarith

/-- **C30**: a bin without samples gets the prior mean. -/
theorem C30_empty_bin (n : ℕ) (codes : ℕ → ℕ) (wx w : ℕ → K) (x0 w0 : K) (hw0 : 0 < w0) (b : ℕ) (hb : ∀ i < n, codes i ≠ b) :
    calcFactorsGeneric n codes wx w x0 w0 b = x0 := by
  have h : ∀ u : ℕ → K, binSum n codes u b = 0 := by
    intro u
    unfold binSum
    exact sum_eq_zero (fun i hi => if_neg (hb i (mem_range.mp hi)))
  unfold calcFactorsGeneric
  rw [h, h]
  field_simp
  ring

/-- **C30**: the estimate lies between any bounds of the prior mean and the values of the samples of the bin that carry
weight. -/
theorem C30_between (n : ℕ) (codes : ℕ → ℕ) (x w : ℕ → K) (hw : ∀ i < n, 0 ≤ w i) (x0 w0 : K) (hw0 : 0 < w0) (b : ℕ)
    (lo hi : K) (h0 : lo ≤ x0 ∧ x0 ≤ hi) (hx : ∀ i < n, codes i = b → 0 < w i → lo ≤ x i ∧ x i ≤ hi) :
    lo ≤ calcFactorsGeneric n codes (fun i => w i * x i) w x0 w0 b ∧
      calcFactorsGeneric n codes (fun i => w i * x i) w x0 w0 b ≤ hi := by
  have hpos : 0 < binSum n codes w b + w0 := by linarith [binSum_nonneg n codes w hw b]
  unfold calcFactorsGeneric
  have key : ∀ i ∈ (range n).filter (fun i => codes i = b), lo * w i ≤ w i * x i ∧ w i * x i ≤ hi * w i := by
    intro i hi'
    rw [mem_filter, mem_range] at hi'
    rcases (hw i hi'.1).eq_or_lt with h | h
    · rw [← h]; simp
    · have := hx i hi'.1 hi'.2 h
      rw [mul_comm (w i)]
      exact ⟨mul_le_mul_of_nonneg_right this.1 h.le, mul_le_mul_of_nonneg_right this.2 h.le⟩
  rw [le_div_iff₀ hpos, div_le_iff₀ hpos, binSum_filter, binSum_filter, mul_add, mul_add, mul_sum, mul_sum]
  constructor
  · have h1 := sum_le_sum (fun i hi' => (key i hi').1)
    have h2 := mul_le_mul_of_nonneg_left h0.1 hw0.le
    linarith
  · have h1 := sum_le_sum (fun i hi' => (key i hi').2)
    have h2 := mul_le_mul_of_nonneg_left h0.2 hw0.le
    linarith

/-- **C30**: the variance of the estimate is positive and finite (the divisor is positive). -/
theorem C30_variance_pos (n : ℕ) (codes : ℕ → ℕ) (w v : ℕ → K) (hw : ∀ i < n, 0 ≤ w i) (hv : ∀ i < n, 0 ≤ v i) (w0 : K)
    (hw0 : 0 < w0) (b : ℕ) : 0 < binSum n codes w b + w0 ∧ 0 < calcVarianceGeneric n codes w v w0 b := by
  have h1 : 0 < binSum n codes w b + w0 := by linarith [binSum_nonneg n codes w hw b]
  have h2 : 0 < binSum n codes (fun i => v i * w i) b + w0 := by
    linarith [binSum_nonneg n codes (fun i => v i * w i) (fun i hi => mul_nonneg (hv i hi) (hw i hi)) b]
  exact ⟨h1, div_pos h2 (pow_pos h1 2)⟩

/-- **C30** for the general linear ansatz of the documentation: with slopes `m i ≠ 0` and offsets `o i`, the error of the
linear model `t * m i + o i` with variances `s i` is the one `calc_factors_generic` minimises for
`x i = (y i - o i) / m i` and `w i = v i * m i ^ 2 / s i`. -/
theorem C30_linear_ansatz (n : ℕ) (codes : ℕ → ℕ) (y m o v s : ℕ → K) (hm : ∀ i, m i ≠ 0) (x0 w0 : K) (b : ℕ) (t : K) :
    (∑ i ∈ (range n).filter (fun i => codes i = b), v i * (y i - (t * m i + o i)) ^ 2 / s i) + w0 * (t - x0) ^ 2
      = Spec.chi2 n codes (fun i => (y i - o i) / m i) (fun i => v i * m i ^ 2 / s i) x0 w0 b t := by
  unfold Spec.chi2
  congr 1
  apply sum_congr rfl
  intro i _
  have h := hm i
  have h1 : y i - (t * m i + o i) = m i * ((y i - o i) / m i - t) := by field_simp; ring
  rw [h1]; ring

/-- Witness for C30: two samples in bin 0, one in bin 1, none in bin 2. -/
example : let est := calcFactorsGeneric 3 (fun i => i / 2) (fun i => (2 : ℚ) * (i : ℚ)) (fun _ => 2) 5 1
    est 0 = 7 / 5 ∧ est 1 = 3 ∧ est 2 = 5 := by decide +kernel

/-! ### Linear regression -/

theorem weighted_square_pos (n : ℕ) (x w : ℕ → K) (hw : ∀ i < n, 0 ≤ w i) (i j : ℕ) (hi : i < n) (hj : j < n)
    (hwi : 0 < w i) (hwj : 0 < w j) (hx : x i ≠ x j) (u v : K) (huv : u ≠ 0 ∨ v ≠ 0) :
    0 < ∑ k ∈ range n, w k * (u + v * x k) ^ 2 := by
  have hnn : ∀ k ∈ range n, 0 ≤ w k * (u + v * x k) ^ 2 :=
    fun k hk => mul_nonneg (hw k (mem_range.mp hk)) (sq_nonneg _)
  rcases (sum_nonneg hnn).lt_or_eq with h | h
  · exact h
  · exfalso
    have hz := (sum_eq_zero_iff_of_nonneg hnn).mp h.symm
    have zi : u + v * x i = 0 := by
      have := hz i (mem_range.mpr hi)
      rcases mul_eq_zero.mp this with h' | h'
      · exact absurd h' hwi.ne'
      · exact pow_eq_zero_iff (two_ne_zero) |>.mp h'
    have zj : u + v * x j = 0 := by
      have := hz j (mem_range.mpr hj)
      rcases mul_eq_zero.mp this with h' | h'
      · exact absurd h' hwj.ne'
      · exact pow_eq_zero_iff (two_ne_zero) |>.mp h'
    have hv : v * (x i - x j) = 0 := by linarith
    rcases mul_eq_zero.mp hv with h' | h'
    · rcases huv with h2 | h2
      · rw [h'] at zi; simp at zi; exact h2 zi
      · exact h2 h'
    · exact hx (sub_eq_zero.mp h')

/-- **C32**: whenever two different x values carry positive weight, the intercept and slope of `linear_regression` are the
only ones with the smallest weighted squared error. -/
theorem C32_unique_minimiser (n : ℕ) (x y w : ℕ → K) (hw : ∀ i < n, 0 ≤ w i)
    (hx : ∃ i < n, ∃ j < n, 0 < w i ∧ 0 < w j ∧ x i ≠ x j) (a b : K) (hab : (a, b) ≠ linearRegression n x y w) :
    Spec.squaredError n x y w (linearRegression n x y w).1 (linearRegression n x y w).2 < Spec.squaredError n x y w a b := by
  obtain ⟨i, hi, j, hj, hwi, hwj, hxij⟩ := hx
  have hQ := weighted_square_pos n x w hw i j hi hj hwi hwj hxij
  set sw := ∑ i ∈ range n, w i with hsw
  set swx := ∑ i ∈ range n, w i * x i with hswx
  set swxx := ∑ i ∈ range n, x i ^ 2 * w i with hswxx
  set swy := ∑ i ∈ range n, w i * y i with hswy
  set swxy := ∑ i ∈ range n, w i * x i * y i with hswxy
  have hq : ∀ u v : K, ∑ k ∈ range n, w k * (u + v * x k) ^ 2 = u ^ 2 * sw + 2 * u * v * swx + v ^ 2 * swxx := by
    intro u v
    rw [hsw, hswx, hswxx, mul_sum, mul_sum, mul_sum, ← sum_add_distrib, ← sum_add_distrib]
    exact sum_congr rfl (fun k _ => by ring)
  have hswpos : 0 < sw := by
    have := hQ 1 0 (Or.inl one_ne_zero)
    rw [hq] at this
    linarith
  have hdet : 0 < sw * swxx - swx * swx := by
    have := hQ (-swx) sw (Or.inr hswpos.ne')
    rw [hq] at this
    have h2 : (-swx) ^ 2 * sw + 2 * (-swx) * sw * swx + sw ^ 2 * swxx = sw * (sw * swxx - swx * swx) := by ring
    rw [h2] at this
    exact (mul_pos_iff_of_pos_left hswpos).mp this
  have hlr : linearRegression n x y w
      = ((swxx * swy - swx * swxy) / (sw * swxx - swx * swx), (sw * swxy - swx * swy) / (sw * swxx - swx * swx)) := rfl
  rw [hlr] at hab ⊢
  set det := sw * swxx - swx * swx with hdetdef
  set al := (swxx * swy - swx * swxy) / det with hal
  set be := (sw * swxy - swx * swy) / det with hbe
  have hne : det ≠ 0 := hdet.ne'
  have n1 : al * sw + be * swx = swy := by
    rw [hal, hbe]; field_simp; rw [hdetdef]; ring
  have n2 : al * swx + be * swxx = swxy := by
    rw [hal, hbe]; field_simp; rw [hdetdef]; ring
  set syy := ∑ i ∈ range n, w i * y i ^ 2 with hsyy
  have hE : ∀ p q : K, Spec.squaredError n x y w p q
      = syy - 2 * p * swy - 2 * q * swxy + (p ^ 2 * sw + 2 * p * q * swx + q ^ 2 * swxx) := by
    intro p q
    unfold Spec.squaredError
    rw [hsyy, hswy, hswxy, hsw, hswx, hswxx]
    simp only [mul_sum]
    rw [← sum_sub_distrib, ← sum_sub_distrib, ← sum_add_distrib, ← sum_add_distrib, ← sum_add_distrib]
    exact sum_congr rfl (fun k _ => by ring)
  have hstrict := hQ (a - al) (b - be) (by
    by_contra hc
    rw [not_or, not_not, not_not] at hc
    exact hab (by rw [sub_eq_zero.mp hc.1, sub_eq_zero.mp hc.2]))
  rw [hq] at hstrict
  rw [hE, hE, ← n1, ← n2]
  have : syy - 2 * a * (al * sw + be * swx) - 2 * b * (al * swx + be * swxx) + (a ^ 2 * sw + 2 * a * b * swx + b ^ 2 * swxx)
      = (syy - 2 * al * (al * sw + be * swx) - 2 * be * (al * swx + be * swxx)
          + (al ^ 2 * sw + 2 * al * be * swx + be ^ 2 * swxx))
        + ((a - al) ^ 2 * sw + 2 * (a - al) * (b - be) * swx + (b - be) ^ 2 * swxx) := by ring
  rw [this]
  linarith

/-- Witness for C32: three points, one without weight. -/
example : linearRegression 3 (fun i => (i : ℚ)) (fun i => (2 * i + 1 : ℚ)) (fun i => if i = 2 then 0 else 3) = (1, 2) := by
  decide +kernel

end

/-! ### Poisson and negative binomial regression -/

/-- **C31**: with `a = 1` and `c = 0` the negative binomial regressor computes the factors and uncertainties of the Poisson
regressor. -/
theorem C31_poisson_special_case (gammaincinv : ℝ → ℝ) (n : ℕ) (codes : ℕ → ℕ) (y weights predLink : ℕ → ℝ) (b : ℕ) :
    nbinomCalcParameters gammaincinv 1 0 n codes y weights predLink b
      = poissonCalcParameters gammaincinv n codes weights predLink (poissonPrecalc n codes y weights) b := by
  unfold nbinomCalcParameters poissonCalcParameters poissonPrecalc
  simp only [zero_mul, add_zero, div_one]
  congr 1
  unfold binSum
  exact sum_congr rfl (fun i _ => by simp only [mul_comm])

/-- **C31**: for targets that pass the check, non-negative weights, `a > 0` and `c ≥ 0`, the posterior parameters of every
bin are at least the prior ones, hence positive; the factor is the logarithm of a positive number and its uncertainty is
positive. `gammaincinv` only has to be positive for positive shapes. -/
theorem C31_positive_posterior (gammaincinv : ℝ → ℝ) (hg : ∀ a, 0 < a → 0 < gammaincinv a) (a c : ℝ) (ha : 0 < a) (hc : 0 ≤ c)
    (n : ℕ) (codes : ℕ → ℕ) (y weights predLink : ℕ → ℝ) (hy : regressorCheckY n y) (hw : ∀ i < n, 0 ≤ weights i) (b : ℕ) :
    ∃ alpha beta q : ℝ, 2 ≤ alpha ∧ 1.67834 ≤ beta ∧ 0 < q ∧
      (alpha ≤ 1e12 ∧ beta ≤ 1e12 → q = gammaincinv alpha / beta) ∧
      (¬ (alpha ≤ 1e12 ∧ beta ≤ 1e12) → q = alpha / beta) ∧
      (nbinomCalcParameters gammaincinv a c n codes y weights predLink b).1 = Real.log q ∧
      0 < (nbinomCalcParameters gammaincinv a c n codes y weights predLink b).2 := by
  have hden : ∀ i, 0 < a + c * Real.exp (predLink i) := fun i => by
    have := mul_nonneg hc (Real.exp_pos (predLink i)).le
    linarith
  set al := binSum n codes (fun i => weights i * y i / (a + c * Real.exp (predLink i))) b with hal
  set be := binSum n codes (fun i => weights i * Real.exp (predLink i) / (a + c * Real.exp (predLink i))) b with hbe
  have h1 : 0 ≤ al := binSum_nonneg _ _ _ (fun i hi => div_nonneg (mul_nonneg (hw i hi) (hy i hi)) (hden i).le) b
  have h2 : 0 ≤ be := binSum_nonneg _ _ _ (fun i hi => div_nonneg (mul_nonneg (hw i hi) (Real.exp_pos _).le) (hden i).le) b
  have e : nbinomCalcParameters gammaincinv a c n codes y weights predLink b = calcFactorsAndUncertainties gammaincinv al be := rfl
  rw [e]
  have p1 : 0 < al + 2 := by linarith
  have p2 : 0 < be + 1.67834 := by norm_num; linarith
  refine ⟨al + 2, be + 1.67834, if al + 2 ≤ 1e12 ∧ be + 1.67834 ≤ 1e12 then gammaincinv (al + 2) / (be + 1.67834)
      else (al + 2) / (be + 1.67834), by linarith, by linarith, ?_, fun h => if_pos h, fun h => if_neg h, rfl, ?_⟩
  · split
    · exact div_pos (hg _ p1) p2
    · exact div_pos p1 p2
  · apply Real.sqrt_pos.mpr
    have : Real.log (al + 2) < Real.log (1 + (al + 2)) := Real.log_lt_log p1 (by linarith)
    show 0 < Real.log (1 + (al + 2)) - Real.log (al + 2)
    linarith

/-- **C31**: what the posterior parameters are: weighted sums over the samples of the bin plus the prior. -/
theorem C31_poisson_posterior (gammaincinv : ℝ → ℝ) (n : ℕ) (codes : ℕ → ℕ) (y weights predLink : ℕ → ℝ) (b : ℕ) :
    poissonCalcParameters gammaincinv n codes weights predLink (poissonPrecalc n codes y weights) b
      = calcFactorsAndUncertainties gammaincinv
          (∑ i ∈ (range n).filter (fun i => codes i = b), weights i * y i)
          (∑ i ∈ (range n).filter (fun i => codes i = b), weights i * Real.exp (predLink i)) := by
  unfold poissonCalcParameters poissonPrecalc
  rw [binSum_filter, binSum_filter]
  simp only [mul_comm]

/-- Witness for C31: the hypotheses are met by targets 0, 1, 2 with weight 1. -/
example : regressorCheckY 3 (fun i => (i : ℝ)) ∧ ∃ g : ℝ → ℝ, ∀ a, 0 < a → 0 < g a :=
  ⟨fun i _ => Nat.cast_nonneg i, fun a => a, fun _ h => h⟩

end CB
