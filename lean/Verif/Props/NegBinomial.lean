import Verif.Model.QuantileMatching
import Verif.Spec.NegBinomial
import Mathlib.Analysis.Analytic.Binomial
import Mathlib.Tactic.Linarith
import Mathlib.Tactic.FieldSimp
import Mathlib.Tactic.Positivity
import Mathlib.Tactic.NormNum

set_option autoImplicit false
set_option linter.unusedSectionVars false

/-!
C67: the parameters of the negative binomial distribution for given mean and variance.
-/
namespace CB

open Spec

theorem nbinomCoeff_succ (n : ℝ) (k : ℕ) : nbinomCoeff n (k + 1) = nbinomCoeff n k * ((n + k) / (k + 1)) := by
  unfold nbinomCoeff
  rw [Finset.prod_range_succ]

theorem nbinomCoeff_shift (n : ℝ) (k : ℕ) : ((k : ℝ) + 1) * nbinomCoeff n (k + 1) = n * nbinomCoeff (n + 1) k := by
  induction k with
  | zero => simp [nbinomCoeff]
  | succ k ih =>
    have h1 : (k : ℝ) + 1 ≠ 0 := by positivity
    have h2 : (k : ℝ) + 1 + 1 ≠ 0 := by positivity
    rw [nbinomCoeff_succ n (k + 1), nbinomCoeff_succ (n + 1) k]
    push_cast
    rw [← mul_assoc n, ← ih]
    field_simp
    ring

theorem nbinomCoeff_eq (n : ℝ) (k : ℕ) : nbinomCoeff n k = Ring.choose (n + k - 1) k := by
  rw [← Ring.multichoose_eq]
  have h := Ring.factorial_nsmul_multichoose_eq_ascPochhammer n k
  rw [Polynomial.ascPochhammer_smeval_eq_eval, nsmul_eq_mul] at h
  have hk : (k.factorial : ℝ) ≠ 0 := by exact_mod_cast Nat.factorial_ne_zero k
  apply mul_left_cancel₀ hk
  rw [h]
  clear h hk
  induction k with
  | zero => simp [nbinomCoeff]
  | succ k ih =>
    rw [nbinomCoeff_succ, ascPochhammer_succ_eval, ← ih, Nat.factorial_succ]
    push_cast
    field_simp

/-- The binomial series. -/
theorem nbinomCoeff_hasSum (n x : ℝ) (hx : |x| < 1) :
    HasSum (fun k => nbinomCoeff n k * x ^ k) (1 / (1 - x) ^ n) := by
  have h := (Real.one_div_one_sub_rpow_hasFPowerSeriesOnBall_zero n).hasSum (y := x)
    (by simpa [Metric.mem_eball, edist_dist] using hx)
  simp only [zero_add] at h
  have hfun : (fun k => nbinomCoeff n k * x ^ k) =
      fun k => (FormalMultilinearSeries.ofScalars ℝ (fun k => Ring.choose (n + (k : ℝ) - 1) k) k) fun _ => x := by
    funext k
    rw [FormalMultilinearSeries.ofScalars_apply_eq, nbinomCoeff_eq]
    simp
  rw [hfun]
  exact h

/-- The probabilities sum to one. -/
theorem nbinomPmf_hasSum (n p : ℝ) (hp : 0 < p) (hp1 : p < 1) : HasSum (nbinomPmf n p) 1 := by
  have h := (nbinomCoeff_hasSum n (1 - p) (by rw [abs_lt]; constructor <;> linarith)).mul_left (p ^ n)
  have hpn : p ^ n ≠ 0 := (Real.rpow_pos_of_pos hp n).ne'
  have h1 : p ^ n * (1 / (1 - (1 - p)) ^ n) = 1 := by
    rw [sub_sub_cancel]
    field_simp
  rw [h1] at h
  refine h.congr_fun ?_
  intro k
  unfold nbinomPmf
  ring

/-- First factorial moment. -/
theorem nbinomPmf_moment1 (n p : ℝ) (hp : 0 < p) (hp1 : p < 1) :
    HasSum (fun k : ℕ => (k : ℝ) * nbinomPmf n p k) (n * (1 - p) / p) := by
  rw [← hasSum_nat_add_iff' 1]
  have h := (nbinomCoeff_hasSum (n + 1) (1 - p) (by rw [abs_lt]; constructor <;> linarith)).mul_left (n * (1 - p) * p ^ n)
  have hpn : p ^ n ≠ 0 := (Real.rpow_pos_of_pos hp n).ne'
  have h1 : n * (1 - p) * p ^ n * (1 / (1 - (1 - p)) ^ (n + 1)) =
      n * (1 - p) / p - ∑ i ∈ Finset.range 1, (i : ℝ) * nbinomPmf n p i := by
    rw [sub_sub_cancel, Real.rpow_add hp, Real.rpow_one]
    simp
    field_simp
  rw [h1] at h
  refine h.congr_fun ?_
  intro k
  unfold nbinomPmf
  have := nbinomCoeff_shift n k
  push_cast
  rw [pow_succ]
  linear_combination (p ^ n * (1 - p) ^ k * (1 - p)) * this

/-- Second factorial moment. -/
theorem nbinomPmf_moment2 (n p : ℝ) (hp : 0 < p) (hp1 : p < 1) :
    HasSum (fun k : ℕ => (k : ℝ) * ((k : ℝ) - 1) * nbinomPmf n p k) (n * (n + 1) * (1 - p) ^ 2 / p ^ 2) := by
  rw [← hasSum_nat_add_iff' 2]
  have h := (nbinomCoeff_hasSum (n + 1 + 1) (1 - p) (by rw [abs_lt]; constructor <;> linarith)).mul_left
    (n * (n + 1) * (1 - p) ^ 2 * p ^ n)
  have hpn : p ^ n ≠ 0 := (Real.rpow_pos_of_pos hp n).ne'
  have h1 : n * (n + 1) * (1 - p) ^ 2 * p ^ n * (1 / (1 - (1 - p)) ^ (n + 1 + 1)) =
      n * (n + 1) * (1 - p) ^ 2 / p ^ 2 - ∑ i ∈ Finset.range 2, (i : ℝ) * ((i : ℝ) - 1) * nbinomPmf n p i := by
    rw [sub_sub_cancel, Real.rpow_add hp, Real.rpow_add hp, Real.rpow_one]
    simp [Finset.sum_range_succ]
    field_simp
  rw [h1] at h
  refine h.congr_fun ?_
  intro k
  unfold nbinomPmf
  have e1 := nbinomCoeff_shift n (k + 1)
  have e2 := nbinomCoeff_shift (n + 1) k
  push_cast at e1 ⊢
  rw [pow_add]
  linear_combination (p ^ n * (1 - p) ^ k * (1 - p) ^ 2 * (k + 1)) * e1 + (n * p ^ n * (1 - p) ^ k * (1 - p) ^ 2) * e2

/-- **C67.** For a mean `mu` and a variance `var` above it, the parameters `n` and `p` handed to the negative binomial distribution
are valid, and the distribution with these parameters has mean `mu` and variance `var`. -/
theorem C67_nbinom_mean_variance (mu var : ℝ) (hmu : 0 < mu) (hvar : mu < var) :
    0 < (nbinomParams mu var).1 ∧ 0 < (nbinomParams mu var).2 ∧ (nbinomParams mu var).2 < 1 ∧
      HasSum (fun k : ℕ => nbinomPmf (nbinomParams mu var).1 (nbinomParams mu var).2 k) 1 ∧
      HasSum (fun k : ℕ => (k : ℝ) * nbinomPmf (nbinomParams mu var).1 (nbinomParams mu var).2 k) mu ∧
      HasSum (fun k : ℕ => ((k : ℝ) - mu) ^ 2 * nbinomPmf (nbinomParams mu var).1 (nbinomParams mu var).2 k) var := by
  have hv : 0 < var := lt_trans hmu hvar
  have hd : 0 < var - mu := by linarith
  have hn : 0 < (nbinomParams mu var).1 := by unfold nbinomParams; positivity
  have hp : 0 < (nbinomParams mu var).2 := by unfold nbinomParams; positivity
  have hp1 : (nbinomParams mu var).2 < 1 := by unfold nbinomParams; rw [div_lt_one hv]; exact hvar
  have m0 := nbinomPmf_hasSum (nbinomParams mu var).1 _ hp hp1
  have m1 := nbinomPmf_moment1 (nbinomParams mu var).1 _ hp hp1
  have m2 := nbinomPmf_moment2 (nbinomParams mu var).1 _ hp hp1
  have e1 : (nbinomParams mu var).1 * (1 - (nbinomParams mu var).2) / (nbinomParams mu var).2 = mu := by
    unfold nbinomParams
    simp only
    field_simp
  have e2 : (nbinomParams mu var).1 * ((nbinomParams mu var).1 + 1) * (1 - (nbinomParams mu var).2) ^ 2
      / (nbinomParams mu var).2 ^ 2 = var - mu + mu ^ 2 := by
    unfold nbinomParams
    simp only
    field_simp
    ring
  rw [e1] at m1
  rw [e2] at m2
  refine ⟨hn, hp, hp1, m0, m1, ?_⟩
  have h := (m2.add (m1.mul_left (1 - 2 * mu))).add (m0.mul_left (mu ^ 2))
  have e3 : var - mu + mu ^ 2 + (1 - 2 * mu) * mu + mu ^ 2 * 1 = var := by ring
  rw [e3] at h
  refine h.congr_fun ?_
  intro k
  ring

/-- **C67**, where it ends: for a positive mean, a variance at or below the mean gives no valid parameters (scipy then returns
NaN). -/
theorem C67_invalid (mu var : ℝ) (hmu : 0 < mu) (hvar : var ≤ mu) :
    ¬ (0 < (nbinomParams mu var).1 ∧ 0 < (nbinomParams mu var).2 ∧ (nbinomParams mu var).2 ≤ 1) := by
  rintro ⟨h, _, _⟩
  have : (nbinomParams mu var).1 ≤ 0 := by
    unfold nbinomParams
    exact div_nonpos_of_nonneg_of_nonpos (by positivity) (by linarith)
  linarith

/-- Witness for C67: the starting values of the fit, 2.2 and 2.4. -/
example : (0 : ℝ) < 2.2 ∧ (2.2 : ℝ) < 2.4 := by norm_num

end CB
