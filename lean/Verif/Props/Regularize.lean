import Verif.Model.Regularize
import Mathlib.Algebra.Order.BigOperators.Ring.Finset
import Mathlib.Algebra.BigOperators.Group.Finset.Piecewise
import Mathlib.Algebra.BigOperators.Ring.Finset
import Mathlib.Tactic.Linarith
import Mathlib.Tactic.Ring
import Mathlib.Tactic.FieldSimp
import Mathlib.Tactic.NormNum
import Mathlib.Tactic.Positivity
import Mathlib.Algebra.Order.Field.Rat

set_option autoImplicit false
set_option linter.unusedSectionVars false

/-!
C33 (regularisation towards the mean) and C34 (regularisation towards a prior expectation).
-/
namespace CB
open Finset

section
variable {K : Type*} [Field K] [LinearOrder K] [IsStrictOrderedRing K]

/-- The error-weighted mean of the documentation. -/
def Spec.errorWeightedMean (S : Finset ℕ) (x u : ℕ → K) : K := (∑ i ∈ S, x i / u i ^ 2) / ∑ i ∈ S, 1 / u i ^ 2

/-- A weighted average of two numbers lies between them. -/
theorem average_between (a b p q : K) (hp : 0 ≤ p) (hq : 0 ≤ q) (h : 0 < p + q) :
    min a b ≤ (p * a + q * b) / (p + q) ∧ (p * a + q * b) / (p + q) ≤ max a b := by
  rw [le_div_iff₀ h, div_le_iff₀ h]
  have h1 := mul_le_mul_of_nonneg_left (min_le_left a b) hp
  have h2 := mul_le_mul_of_nonneg_left (min_le_right a b) hq
  have h3 := mul_le_mul_of_nonneg_left (le_max_left a b) hp
  have h4 := mul_le_mul_of_nonneg_left (le_max_right a b) hq
  constructor <;> linarith

/-- The spread around the target is positive unless the early return applies. -/
theorem spread_pos (n : ℕ) (x u : ℕ → K) (hu : ∀ i < n, 0 < u i) (m : K) (h : ∃ i < n, x i ≠ m) :
    0 < ∑ i ∈ range n, 1 / u i ^ 2 * (x i - m) ^ 2 := by
  obtain ⟨i, hi, hx⟩ := h
  apply sum_pos'
  · intro j hj
    exact mul_nonneg (div_nonneg zero_le_one (sq_nonneg _)) (sq_nonneg _)
  · refine ⟨i, mem_range.mpr hi, mul_pos (div_pos one_pos (pow_pos (hu i hi) 2)) ?_⟩
    exact lt_of_le_of_ne (sq_nonneg _) (fun h => hx (sub_eq_zero.mp (pow_eq_zero_iff two_ne_zero |>.mp h.symm)))

theorem not_allclose_ne (n : ℕ) (x : ℕ → K) (c : K) (h : ¬ allclose n x c = true) : ∃ i < n, x i ≠ c := by
  unfold allclose at h
  simp only [List.all_eq_true, List.mem_range, decide_eq_true_eq, not_forall] at h
  obtain ⟨i, hi, hx⟩ := h
  refine ⟨i, hi, fun hc => hx ?_⟩
  rw [hc, sub_self, abs_zero]
  have := abs_nonneg c
  positivity

/-- The two ways `regularize_to_error_weighted_mean` can go: the values unchanged, or the average with the target. -/
theorem regularizeToMean_cases (n : ℕ) (x u : ℕ → K) (hu : ∀ i < n, 0 < u i) (prior : Option K) :
    regularizeToMean n x u prior = x ∨
      ∃ q : K, 0 < q ∧ ∀ i, regularizeToMean n x u prior i
        = (1 / u i ^ 2 * x i + q * regMeanTarget n x u prior) / (1 / u i ^ 2 + q) := by
  unfold regularizeToMean
  split
  · left; rfl
  · rename_i hn
    split
    · left; rfl
    · rename_i hc
      right
      have hn1 : 0 < n := by omega
      have hs : 0 < ∑ i ∈ range n, 1 / u i ^ 2 :=
        sum_pos (fun i hi => div_pos one_pos (pow_pos (hu i (mem_range.mp hi)) 2)) ⟨0, mem_range.mpr hn1⟩
      refine ⟨_, ?_, fun i => rfl⟩
      apply div_pos one_pos
      apply div_pos _ hs
      apply spread_pos n x u hu
      by_contra hall
      simp only [not_exists, not_and, not_not] at hall
      obtain ⟨j, hj, hxj⟩ := not_allclose_ne n x _ hc
      cases prior with
      | some p => exact hxj (hall j hj)
      | none => exact hxj ((hall j hj).trans (hall 0 hn1).symm)

/-- **C33**: each returned value lies between the measured value and the target, which is the error-weighted mean, or the
prior prediction if one is given. -/
theorem C33_between (n : ℕ) (x u : ℕ → K) (hu : ∀ i < n, 0 < u i) (prior : Option K) (i : ℕ) (hi : i < n) :
    let target := prior.getD (Spec.errorWeightedMean (range n) x u)
    min (x i) target ≤ regularizeToMean n x u prior i ∧ regularizeToMean n x u prior i ≤ max (x i) target := by
  intro target
  have ht : regMeanTarget n x u prior = target := by
    cases prior with
    | some p => rfl
    | none =>
      show (∑ i ∈ range n, 1 / u i ^ 2 * x i) / _ = (∑ i ∈ range n, x i / u i ^ 2) / _
      congr 1
      exact sum_congr rfl (fun j _ => by ring)
  rcases regularizeToMean_cases n x u hu prior with h | ⟨q, hq, h⟩
  · rw [h]; exact ⟨min_le_left _ _, le_max_left _ _⟩
  · rw [h, ht]
    have : 0 < 1 / u i ^ 2 := div_pos one_pos (pow_pos (hu i hi) 2)
    exact average_between _ _ _ _ this.le hq.le (by linarith)

/-- **C33**: the result stays inside the range of the values (without a prior prediction). -/
theorem C33_range (n : ℕ) (x u : ℕ → K) (hu : ∀ i < n, 0 < u i) (lo hi : K) (hx : ∀ i < n, lo ≤ x i ∧ x i ≤ hi) (i : ℕ)
    (hi' : i < n) : lo ≤ regularizeToMean n x u none i ∧ regularizeToMean n x u none i ≤ hi := by
  have h := C33_between n x u hu none i hi'
  simp only [Option.getD_none] at h
  have hs : 0 < ∑ i ∈ range n, 1 / u i ^ 2 :=
    sum_pos (fun i hi => div_pos one_pos (pow_pos (hu i (mem_range.mp hi)) 2)) ⟨i, mem_range.mpr hi'⟩
  have h1 : lo ≤ Spec.errorWeightedMean (range n) x u ∧ Spec.errorWeightedMean (range n) x u ≤ hi := by
    unfold Spec.errorWeightedMean
    rw [le_div_iff₀ hs, div_le_iff₀ hs, mul_sum, mul_sum]
    constructor
    · apply sum_le_sum
      intro j hj
      rw [mul_one_div]
      exact div_le_div_of_nonneg_right (hx j (mem_range.mp hj)).1 (sq_nonneg _)
    · apply sum_le_sum
      intro j hj
      rw [mul_one_div]
      exact div_le_div_of_nonneg_right (hx j (mem_range.mp hj)).2 (sq_nonneg _)
  exact ⟨le_trans (le_min (hx i hi').1 h1.1) h.1, le_trans h.2 (max_le (hx i hi').2 h1.2)⟩

/-- **C33**: equal values, and a single value, are returned unchanged. -/
theorem C33_unchanged (n : ℕ) (x u : ℕ → K) (h : n = 1 ∨ ∃ c, ∀ i < n, x i = c) : regularizeToMean n x u none = x := by
  unfold regularizeToMean
  split
  · rfl
  · rename_i hn
    rw [if_pos]
    rcases h with h | ⟨c, h⟩
    · exact absurd (Or.inr ⟨rfl, h⟩) hn
    · unfold allclose
      simp only [List.all_eq_true, List.mem_range, decide_eq_true_eq]
      intro i hi
      have h0 : x 0 = c := h 0 (by omega)
      rw [Option.getD_none, h i hi, h0, sub_self, abs_zero]
      have := abs_nonneg c
      positivity

/-- **C33**: the order of two values with the same uncertainty is preserved. -/
theorem C33_monotone (n : ℕ) (x u : ℕ → K) (hu : ∀ i < n, 0 < u i) (prior : Option K) (i j : ℕ) (hi : i < n)
    (huij : u i = u j) (hx : x i ≤ x j) : regularizeToMean n x u prior i ≤ regularizeToMean n x u prior j := by
  rcases regularizeToMean_cases n x u hu prior with h | ⟨q, hq, h⟩
  · rw [h]; exact hx
  · rw [h, h, ← huij]
    have hp : 0 < 1 / u i ^ 2 := div_pos one_pos (pow_pos (hu i hi) 2)
    apply div_le_div_of_nonneg_right _ (by linarith)
    have := mul_le_mul_of_nonneg_left hx hp.le
    linarith

/-- **C33**: of two bins with the same value, the one with the larger uncertainty ends nearer to the target. -/
theorem C33_uncertain_shrinks_more (n : ℕ) (x u : ℕ → K) (hu : ∀ i < n, 0 < u i) (prior : Option K) (i j : ℕ) (hi : i < n)
    (hj : j < n) (hx : x i = x j) (huij : u i ≤ u j) :
    let target := prior.getD (Spec.errorWeightedMean (range n) x u)
    |regularizeToMean n x u prior j - target| ≤ |regularizeToMean n x u prior i - target| := by
  intro target
  have ht : regMeanTarget n x u prior = target := by
    cases prior with
    | some p => rfl
    | none =>
      show (∑ i ∈ range n, 1 / u i ^ 2 * x i) / _ = (∑ i ∈ range n, x i / u i ^ 2) / _
      congr 1
      exact sum_congr rfl (fun j _ => by ring)
  rcases regularizeToMean_cases n x u hu prior with h | ⟨q, hq, h⟩
  · rw [h, hx]
  · rw [h, h, ht, ← hx]
    have hpi : 0 < 1 / u i ^ 2 := div_pos one_pos (pow_pos (hu i hi) 2)
    have hpj : 0 < 1 / u j ^ 2 := div_pos one_pos (pow_pos (hu j hj) 2)
    have hle : 1 / u j ^ 2 ≤ 1 / u i ^ 2 :=
      one_div_le_one_div_of_le (pow_pos (hu i hi) 2) (pow_le_pow_left₀ (hu i hi).le huij 2)
    generalize 1 / u i ^ 2 = p at *
    generalize 1 / u j ^ 2 = p' at *
    have e : ∀ r : K, 0 < r → (r * x i + q * target) / (r + q) - target = r / (r + q) * (x i - target) := by
      intro r hr
      have : r + q ≠ 0 := by positivity
      field_simp
      ring
    rw [e p hpi, e p' hpj, abs_mul, abs_mul]
    apply mul_le_mul_of_nonneg_right _ (abs_nonneg _)
    rw [abs_of_pos (by positivity), abs_of_pos (by positivity), div_le_div_iff₀ (by positivity) (by positivity)]
    have := mul_le_mul_of_nonneg_right hle hq.le
    linarith

/-- The window of bin `i`. -/
def Spec.window (n i : ℕ) : Finset ℕ := (range n).filter (fun j => j = i ∨ j = i + 1 ∨ i = j + 1)

theorem window_eq (n i : ℕ) : (range n).filter (fun j => j ≤ i + 1 ∧ i ≤ j + 1) = Spec.window n i := by
  unfold Spec.window
  apply filter_congr
  intro j _
  omega

/-- **C33** for the version with a sliding window (the default smoother of ordered features): if the values of a bin and its
direct neighbours are not all equal, the returned value lies between the measured one and the error-weighted mean of the
window. -/
theorem C33_neighbors (n : ℕ) (hn : 3 ≤ n) (x u : ℕ → K) (hu : ∀ i < n, 0 < u i) (i : ℕ) (hi : i < n)
    (hvar : ∃ j ∈ Spec.window n i, ∃ k ∈ Spec.window n i, x j ≠ x k) :
    ∃ r, regularizeToMeanNeighbors n x u i = .fin r ∧
      min (x i) (Spec.errorWeightedMean (Spec.window n i) x u) ≤ r ∧
      r ≤ max (x i) (Spec.errorWeightedMean (Spec.window n i) x u) := by
  unfold regularizeToMeanNeighbors windowSum
  rw [if_neg (by omega)]
  simp only [window_eq]
  have hw : ∀ j ∈ Spec.window n i, (if 0 < u j then 1 / u j ^ 2 else 0) = 1 / u j ^ 2 := fun j hj =>
    if_pos (hu j (mem_range.mp (mem_filter.mp hj).1))
  have hpos : ∀ j ∈ Spec.window n i, 0 < 1 / u j ^ 2 := fun j hj =>
    div_pos one_pos (pow_pos (hu j (mem_range.mp (mem_filter.mp hj).1)) 2)
  have hmem : i ∈ Spec.window n i := by simp [Spec.window, hi]
  have e1 : ∑ j ∈ Spec.window n i, (if 0 < u j then 1 / u j ^ 2 else 0) = ∑ j ∈ Spec.window n i, 1 / u j ^ 2 :=
    sum_congr rfl hw
  have e2 : ∑ j ∈ Spec.window n i, (if 0 < u j then 1 / u j ^ 2 else 0) * x j = ∑ j ∈ Spec.window n i, x j / u j ^ 2 :=
    sum_congr rfl (fun j hj => by rw [hw j hj]; ring)
  rw [e1, e2]
  have hs : 0 < ∑ j ∈ Spec.window n i, 1 / u j ^ 2 := sum_pos hpos ⟨i, hmem⟩
  rw [if_neg hs.ne']
  rw [show (∑ j ∈ Spec.window n i, x j / u j ^ 2) / ∑ j ∈ Spec.window n i, 1 / u j ^ 2
    = Spec.errorWeightedMean (Spec.window n i) x u from rfl]
  set m := Spec.errorWeightedMean (Spec.window n i) x u
  have e3 : ∑ j ∈ Spec.window n i, (if 0 < u j then 1 / u j ^ 2 else 0) * (x j - m) ^ 2
      = ∑ j ∈ Spec.window n i, 1 / u j ^ 2 * (x j - m) ^ 2 := sum_congr rfl (fun j hj => by rw [hw j hj])
  have hd : 0 < ∑ j ∈ Spec.window n i, 1 / u j ^ 2 * (x j - m) ^ 2 := by
    obtain ⟨j, hj, k, hk, hjk⟩ := hvar
    have : ∃ l ∈ Spec.window n i, x l ≠ m := by
      by_cases h : x j = m
      · exact ⟨k, hk, fun hc => hjk (h.trans hc.symm)⟩
      · exact ⟨j, hj, h⟩
    obtain ⟨l, hl, hxl⟩ := this
    apply sum_pos'
    · intro j hj
      exact mul_nonneg (hpos j hj).le (sq_nonneg _)
    · exact ⟨l, hl, mul_pos (hpos l hl)
        (lt_of_le_of_ne (sq_nonneg _) (fun h => hxl (sub_eq_zero.mp (pow_eq_zero_iff two_ne_zero |>.mp h.symm))))⟩
  rw [e3, if_neg hd.ne', hw i hmem]
  refine ⟨_, rfl, ?_⟩
  exact average_between _ _ _ _ (hpos i hmem).le (div_pos hs hd).le (add_pos_of_pos_of_nonneg (hpos i hmem) (div_pos hs hd).le)

/-- **C33** fails for the sliding window when a bin and its neighbours have the same value: the result is NaN. -/
theorem C33_neighbors_nan (n : ℕ) (hn : 3 ≤ n) (x u : ℕ → K) (hu : ∀ i < n, 0 < u i) (i : ℕ) (hi : i < n)
    (hvar : ∀ j ∈ Spec.window n i, x j = x i) : regularizeToMeanNeighbors n x u i = .nan := by
  unfold regularizeToMeanNeighbors windowSum
  rw [if_neg (by omega)]
  simp only [window_eq]
  have hw : ∀ j ∈ Spec.window n i, (if 0 < u j then 1 / u j ^ 2 else 0) = 1 / u j ^ 2 := fun j hj =>
    if_pos (hu j (mem_range.mp (mem_filter.mp hj).1))
  have hpos : ∀ j ∈ Spec.window n i, 0 < 1 / u j ^ 2 := fun j hj =>
    div_pos one_pos (pow_pos (hu j (mem_range.mp (mem_filter.mp hj).1)) 2)
  have hmem : i ∈ Spec.window n i := by simp [Spec.window, hi]
  have hs : 0 < ∑ j ∈ Spec.window n i, (if 0 < u j then 1 / u j ^ 2 else 0) :=
    sum_pos (fun j hj => by rw [hw j hj]; exact hpos j hj) ⟨i, hmem⟩
  rw [if_neg hs.ne']
  have hm : (∑ j ∈ Spec.window n i, (if 0 < u j then 1 / u j ^ 2 else 0) * x j)
      / ∑ j ∈ Spec.window n i, (if 0 < u j then 1 / u j ^ 2 else 0) = x i := by
    rw [div_eq_iff hs.ne', mul_sum]
    exact sum_congr rfl (fun j hj => by rw [hvar j hj]; ring)
  rw [hm, if_pos]
  exact sum_eq_zero (fun j hj => by rw [hvar j hj]; ring)

end

/-- Witnesses for C33. -/
example : (regularizeToMean 3 (fun i => (i : ℚ)) (fun _ => 1) none) 0 = 3 / 5 ∧
    (regularizeToMean 3 (fun i => (i : ℚ)) (fun _ => 1) none) 2 = 7 / 5 := by decide +kernel

example : regularizeToMeanNeighbors 4 (fun i => if i = 3 then (1 : ℚ) else 0) (fun _ => 1) 2 = .fin (3 / 11) ∧
    regularizeToMeanNeighbors 4 (fun i => if i = 3 then (1 : ℚ) else 0) (fun _ => 1) 1 = .nan := by decide +kernel

/-! ### Prior expectation -/

/-- **C34**: a value within `threshold` sigmas of the prior is replaced by the prior. -/
theorem C34_insignificant (v u p t : ℝ) (hu : 0 < u) (h : |v - p| ≤ t * u) : regularizeToPrior v u p t = p := by
  have : |(v - p) / u| ≤ t := by rw [abs_div, abs_of_pos hu, div_le_iff₀ hu]; exact h
  unfold regularizeToPrior
  simp only [gt_iff_lt, not_lt.mpr this, if_false, mul_zero, add_zero]

/-- The value returned for a significant deviation. -/
theorem regularizeToPrior_significant (v u p t : ℝ) (hu : 0 < u) (h : t * u < |v - p|) (ht : 0 ≤ t) :
    regularizeToPrior v u p t = p + Real.sign (v - p) * Real.sqrt ((v - p) ^ 2 - (t * u) ^ 2) := by
  have h1 : t < |(v - p) / u| := by rw [abs_div, abs_of_pos hu, lt_div_iff₀ hu]; exact h
  unfold regularizeToPrior
  simp only [gt_iff_lt, h1, if_true]
  have h2 : Real.sign ((v - p) / u) = Real.sign (v - p) := by
    rcases lt_trichotomy (v - p) 0 with h3 | h3 | h3
    · rw [Real.sign_of_neg h3, Real.sign_of_neg (div_neg_of_neg_of_pos h3 hu)]
    · rw [h3, zero_div]
    · rw [Real.sign_of_pos h3, Real.sign_of_pos (div_pos h3 hu)]
  have h3 : 0 ≤ ((v - p) / u) ^ 2 - t ^ 2 := by
    have := pow_le_pow_left₀ ht h1.le 2
    rw [sq_abs] at this
    linarith
  rw [h2, abs_of_nonneg h3]
  have h4 : (v - p) ^ 2 - (t * u) ^ 2 = u ^ 2 * (((v - p) / u) ^ 2 - t ^ 2) := by field_simp
  rw [h4, Real.sqrt_mul (sq_nonneg u), Real.sqrt_sq hu.le]
  ring

/-- **C34**: the squared distance of the result from the prior is the squared distance of the value minus that of the
threshold (or 0), and the result is on the side of the value. -/
theorem C34_formula (v u p t : ℝ) (hu : 0 < u) (ht : 0 ≤ t) :
    (regularizeToPrior v u p t - p) ^ 2 = max 0 ((v - p) ^ 2 - (t * u) ^ 2) ∧
      0 ≤ (regularizeToPrior v u p t - p) * (v - p) := by
  rcases le_or_gt (|v - p|) (t * u) with h | h
  · rw [C34_insignificant v u p t hu h]
    have : (v - p) ^ 2 ≤ (t * u) ^ 2 := by rw [← sq_abs]; exact pow_le_pow_left₀ (abs_nonneg _) h 2
    rw [max_eq_left (by linarith)]
    constructor <;> simp
  · rw [regularizeToPrior_significant v u p t hu h ht]
    have htu : 0 ≤ t * u := mul_nonneg ht hu.le
    have h0 : 0 < (v - p) ^ 2 - (t * u) ^ 2 := by
      have := pow_lt_pow_left₀ h htu two_ne_zero
      rw [sq_abs] at this; linarith
    rw [max_eq_right h0.le]
    have hne : v - p ≠ 0 := by intro hc; rw [hc, abs_zero] at h; linarith
    rcases lt_or_gt_of_ne hne with h3 | h3
    · rw [Real.sign_of_neg h3]
      constructor
      · rw [show p + -1 * √((v - p) ^ 2 - (t * u) ^ 2) - p = -√((v - p) ^ 2 - (t * u) ^ 2) by ring, neg_sq, Real.sq_sqrt h0.le]
      · have := mul_nonneg (Real.sqrt_nonneg ((v - p) ^ 2 - (t * u) ^ 2)) (neg_nonneg.mpr h3.le)
        nlinarith [this]
    · rw [Real.sign_of_pos h3]
      constructor
      · rw [show p + 1 * √((v - p) ^ 2 - (t * u) ^ 2) - p = √((v - p) ^ 2 - (t * u) ^ 2) by ring, Real.sq_sqrt h0.le]
      · have := mul_nonneg (Real.sqrt_nonneg ((v - p) ^ 2 - (t * u) ^ 2)) h3.le
        nlinarith [this]

/-- **C34**: a significant value is moved towards the prior but not onto it: the result lies strictly between the prior and
the value for a positive threshold. -/
theorem C34_strictly_between (v u p t : ℝ) (hu : 0 < u) (ht : 0 < t) (h : t * u < |v - p|) :
    (p < v → p < regularizeToPrior v u p t ∧ regularizeToPrior v u p t < v) ∧
    (v < p → v < regularizeToPrior v u p t ∧ regularizeToPrior v u p t < p) := by
  have htu : 0 < t * u := mul_pos ht hu
  have h0 : 0 < (v - p) ^ 2 - (t * u) ^ 2 := by
    have := pow_lt_pow_left₀ h htu.le two_ne_zero
    rw [sq_abs] at this; linarith
  have hs := Real.sqrt_pos.mpr h0
  have hlt : Real.sqrt ((v - p) ^ 2 - (t * u) ^ 2) < |v - p| := by
    rw [← Real.sqrt_sq_eq_abs]
    apply Real.sqrt_lt_sqrt h0.le
    have := pow_pos htu 2
    linarith
  rw [regularizeToPrior_significant v u p t hu h ht.le]
  constructor
  · intro hpv
    have h3 : 0 < v - p := by linarith
    rw [Real.sign_of_pos h3]
    rw [abs_of_pos h3] at hlt
    constructor <;> linarith
  · intro hpv
    have h3 : v - p < 0 := by linarith
    rw [Real.sign_of_neg h3]
    rw [abs_of_neg h3] at hlt
    constructor <;> linarith

/-- The result as a function of the deviation on the positive side. -/
theorem regularizeToPrior_upper (v u p t : ℝ) (hu : 0 < u) (ht : 0 ≤ t) (hv : p ≤ v) :
    regularizeToPrior v u p t = p + Real.sqrt ((v - p) ^ 2 - (t * u) ^ 2) := by
  have htu : 0 ≤ t * u := mul_nonneg ht hu.le
  rcases le_or_gt (|v - p|) (t * u) with h | h
  · rw [C34_insignificant v u p t hu h]
    have : (v - p) ^ 2 ≤ (t * u) ^ 2 := by rw [← sq_abs]; exact pow_le_pow_left₀ (abs_nonneg _) h 2
    rw [Real.sqrt_eq_zero_of_nonpos (by linarith), add_zero]
  · rw [regularizeToPrior_significant v u p t hu h ht]
    have : 0 < v - p := by
      rcases (sub_nonneg.mpr hv).eq_or_lt with h3 | h3
      · rw [← h3, abs_zero] at h; linarith
      · exact h3
    rw [Real.sign_of_pos this, one_mul]

/-- The result as a function of the deviation on the negative side. -/
theorem regularizeToPrior_lower (v u p t : ℝ) (hu : 0 < u) (ht : 0 ≤ t) (hv : v ≤ p) :
    regularizeToPrior v u p t = p - Real.sqrt ((v - p) ^ 2 - (t * u) ^ 2) := by
  have htu : 0 ≤ t * u := mul_nonneg ht hu.le
  rcases le_or_gt (|v - p|) (t * u) with h | h
  · rw [C34_insignificant v u p t hu h]
    have : (v - p) ^ 2 ≤ (t * u) ^ 2 := by rw [← sq_abs]; exact pow_le_pow_left₀ (abs_nonneg _) h 2
    rw [Real.sqrt_eq_zero_of_nonpos (by linarith), sub_zero]
  · rw [regularizeToPrior_significant v u p t hu h ht]
    have : v - p < 0 := by
      rcases (sub_nonpos.mpr hv).eq_or_lt with h3 | h3
      · rw [h3, abs_zero] at h; linarith
      · exact h3
    rw [Real.sign_of_neg this]; ring

/-- **C34**: the result is monotone in the measured value. -/
theorem C34_monotone (u p t : ℝ) (hu : 0 < u) (ht : 0 ≤ t) (v w : ℝ) (h : v ≤ w) :
    regularizeToPrior v u p t ≤ regularizeToPrior w u p t := by
  rcases le_total v p with h1 | h1
  · rcases le_total w p with h2 | h2
    · rw [regularizeToPrior_lower v u p t hu ht h1, regularizeToPrior_lower w u p t hu ht h2]
      have : Real.sqrt ((w - p) ^ 2 - (t * u) ^ 2) ≤ Real.sqrt ((v - p) ^ 2 - (t * u) ^ 2) := by
        apply Real.sqrt_le_sqrt
        nlinarith
      linarith
    · rw [regularizeToPrior_lower v u p t hu ht h1, regularizeToPrior_upper w u p t hu ht h2]
      have := Real.sqrt_nonneg ((v - p) ^ 2 - (t * u) ^ 2)
      have := Real.sqrt_nonneg ((w - p) ^ 2 - (t * u) ^ 2)
      linarith
  · have h2 : p ≤ w := le_trans h1 h
    rw [regularizeToPrior_upper v u p t hu ht h1, regularizeToPrior_upper w u p t hu ht h2]
    have : Real.sqrt ((v - p) ^ 2 - (t * u) ^ 2) ≤ Real.sqrt ((w - p) ^ 2 - (t * u) ^ 2) := by
      apply Real.sqrt_le_sqrt
      nlinarith
    linarith

/-- Witness for C34: the value 6 with uncertainty 1, prior 1 and threshold 3 is moved to 5. -/
example : (3 : ℝ) * 1 < |6 - 1| ∧ regularizeToPrior 6 1 1 3 = 5 := by
  have h : (3 : ℝ) * 1 < |6 - 1| := by norm_num
  refine ⟨h, ?_⟩
  rw [regularizeToPrior_significant 6 1 1 3 one_pos h (by norm_num), Real.sign_of_pos (by norm_num),
    show ((6 : ℝ) - 1) ^ 2 - (3 * 1) ^ 2 = 4 ^ 2 by norm_num, Real.sqrt_sq (by norm_num)]
  norm_num

end CB
