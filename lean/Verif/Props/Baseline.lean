import Verif.Model.Baseline
import Verif.Spec.Baseline
import Verif.Props.Link
import Mathlib.Tactic.Linarith
import Mathlib.Tactic.FieldSimp
import Mathlib.Tactic.Positivity
import Mathlib.Tactic.Ring
import Mathlib.Tactic.IntervalCases
import Mathlib.Algebra.BigOperators.Ring.Finset
import Mathlib.Algebra.BigOperators.Field
import Mathlib.Algebra.Order.BigOperators.Ring.Finset

/-!
# C75: the baseline before any feature is used
-/

set_option autoImplicit false

namespace CB
open Finset

open Spec

theorem scaleArg (kind : LinkKind) (n : ℕ) (y w : ℕ → ℝ) (hw : ∑ i ∈ range n, w i ≠ 0) :
    globalScaleLink kind n y w = linkFlt kind (.fin (wmean n y w + 1 / 1000)) := by
  unfold globalScaleLink quotientFlt wmean
  rw [if_neg hw]
  simp only [mul_comm, Flt.addFin]

theorem wmean_nonneg (n : ℕ) (y w : ℕ → ℝ) (hy : ∀ i < n, 0 ≤ y i) (hw : ∀ i < n, 0 ≤ w i) : 0 ≤ wmean n y w := by
  unfold wmean
  apply div_nonneg
  · exact sum_nonneg fun i hi => mul_nonneg (hw i (mem_range.mp hi)) (hy i (mem_range.mp hi))
  · exact sum_nonneg fun i hi => hw i (mem_range.mp hi)

/-- **C75, log link.** For a target without negative values and weights that are not negative and not all zero, the global
scale is defined, and the prediction of a model without any feature is the weighted mean of the target plus 0.001. -/
theorem C75_log (n : ℕ) (y w : ℕ → ℝ) (hy : ∀ i < n, 0 ≤ y i) (hw : ∀ i < n, 0 ≤ w i) (hs : ∑ i ∈ range n, w i ≠ 0) :
    ∃ l, globalScaleLink .log n y w = .fin l ∧ logLink.unlink l = wmean n y w + 1 / 1000 := by
  have h0 := wmean_nonneg n y w hy hw
  refine ⟨Real.log (wmean n y w + 1 / 1000), ?_, Real.exp_log (by linarith)⟩
  rw [scaleArg .log n y w hs]
  simp only [linkFlt]
  rw [if_pos (by linarith)]

/-- **C75, identity link.** -/
theorem C75_identity (n : ℕ) (y w : ℕ → ℝ) (hs : ∑ i ∈ range n, w i ≠ 0) :
    ∃ l, globalScaleLink .identity n y w = .fin l ∧ identityLink.unlink l = wmean n y w + 1 / 1000 :=
  ⟨_, by rw [scaleArg .identity n y w hs]; rfl, rfl⟩

/-- **C75, logit link.** For a target of zeros and ones the global scale is defined exactly if the weighted share of ones is
below 0.999; then the prediction of a model without any feature is this share plus 0.001. -/
theorem C75_logit (n : ℕ) (y w : ℕ → ℝ) (hy : ∀ i < n, y i = 0 ∨ y i = 1) (hw : ∀ i < n, 0 ≤ w i)
    (hs : ∑ i ∈ range n, w i ≠ 0) :
    (wmean n y w < 999 / 1000 →
      ∃ l, globalScaleLink .logit n y w = .fin l ∧ logitLink.unlink l = wmean n y w + 1 / 1000) ∧
    (999 / 1000 ≤ wmean n y w → globalScaleLink .logit n y w = .pinf ∨ globalScaleLink .logit n y w = .nan) := by
  have h0 := wmean_nonneg n y w (fun i hi => by rcases hy i hi with h | h <;> rw [h]; exact zero_le_one) hw
  rw [scaleArg .logit n y w hs]
  set m := wmean n y w
  constructor
  · intro hm
    have h1 : 0 < (m + 1 / 1000) / (1 - (m + 1 / 1000)) := div_pos (by linarith) (by linarith)
    refine ⟨Real.log ((m + 1 / 1000) / (1 - (m + 1 / 1000))), ?_, C16_logit.1 _ (by linarith) (by linarith)⟩
    simp only [linkFlt]
    rw [if_neg (by intro h; linarith), if_pos h1]
  · intro hm
    simp only [linkFlt]
    by_cases h1 : m + 1 / 1000 = 1
    · left; rw [if_pos h1]
    · right
      have h2 : 1 - (m + 1 / 1000) < 0 := by
        rcases lt_or_eq_of_le hm with h | h
        · linarith
        · exact absurd (by linarith) h1
      have h3 : (m + 1 / 1000) / (1 - (m + 1 / 1000)) < 0 := div_neg_of_pos_of_neg (by linarith) h2
      rw [if_neg h1, if_neg (by linarith), if_neg h3.ne]

/-- **C75, counterexample for the classifier.** If all targets are 1, the global scale is NaN whatever the weights are. -/
theorem C75_classifier_all_ones (n : ℕ) (y w : ℕ → ℝ) (hy : ∀ i < n, y i = 1)
    (hs : ∑ i ∈ range n, w i ≠ 0) : globalScaleLink .logit n y w = .nan := by
  rw [scaleArg .logit n y w hs]
  have hm : wmean n y w = 1 := by
    unfold wmean
    rw [sum_congr rfl fun i hi => by rw [hy i (mem_range.mp hi), mul_one], div_self hs]
  rw [hm]
  simp only [linkFlt]
  rw [if_neg (by norm_num), if_neg (by norm_num), if_neg (by norm_num)]

/-! ### With a prior prediction column -/

/-- The weighted sum over the samples that have a prior prediction. -/
theorem finite_sums (n : ℕ) (q : ℕ → ℝ) (w : ℕ → ℝ) :
    priorPredMean n (fun i => .fin (q i)) w = quotientFlt (∑ i ∈ range n, w i * q i) (∑ i ∈ range n, w i) := by
  unfold priorPredMean
  simp only [Flt.isFinite, Flt.getFin, if_true, mul_comm]

/-- **C75, prior predictions with log link.** If every sample has a positive prior prediction `q`, the baseline of each sample
is the prior prediction times one common factor, and the weighted mean of the baseline over the training sample is the
weighted mean of the target plus 0.001. -/
theorem C75_prior_log (n : ℕ) (y w q : ℕ → ℝ) (hy : ∀ i < n, 0 ≤ y i) (hw : ∀ i < n, 0 ≤ w i)
    (hs : ∑ i ∈ range n, w i ≠ 0) (hq : ∀ i < n, 0 < q i) :
    ∃ (c : ℝ) (base : ℕ → ℝ), 0 < c ∧
      (∀ i, 0 < q i → ∃ l, priorPrediction .log (globalScaleLink .log n y w)
        (priorOffset .log n (fun i => .fin (q i)) y w) (some fun i => .fin (q i)) i = .fin l ∧
        logLink.unlink l = base i ∧ base i = c * q i) ∧
      wmean n base w = wmean n y w + 1 / 1000 := by
  have h0 := wmean_nonneg n y w hy hw
  have hspos : 0 < ∑ i ∈ range n, w i :=
    lt_of_le_of_ne (sum_nonneg fun i hi => hw i (mem_range.mp hi)) (Ne.symm hs)
  have hqpos : 0 < ∑ i ∈ range n, w i * q i := by
    obtain ⟨i, hi, hwi⟩ := exists_ne_zero_of_sum_ne_zero hs
    refine sum_pos' (fun j hj => mul_nonneg (hw j (mem_range.mp hj)) (hq j (mem_range.mp hj)).le) ⟨i, hi, ?_⟩
    exact mul_pos (lt_of_le_of_ne (hw i (mem_range.mp hi)) (Ne.symm hwi)) (hq i (mem_range.mp hi))
  have hm : 0 < wmean n q w := div_pos hqpos hspos
  have hscale : globalScaleLink .log n y w = .fin (Real.log (wmean n y w + 1 / 1000)) := by
    rw [scaleArg .log n y w hs]; simp only [linkFlt]; rw [if_pos (by linarith)]
  have hoff : priorOffset .log n (fun i => .fin (q i)) y w
      = .fin (Real.log (wmean n y w + 1 / 1000) - Real.log (wmean n q w)) := by
    unfold priorOffset priorOffsetFrom
    rw [finite_sums, hscale]
    unfold quotientFlt
    rw [if_neg hs]
    have : (∑ i ∈ range n, w i * q i) / ∑ i ∈ range n, w i = wmean n q w := rfl
    rw [this]
    have hl : linkFlt .log (.fin (wmean n q w)) = .fin (Real.log (wmean n q w)) := by
      simp only [linkFlt]; rw [if_pos hm]
    simp only [hl, Flt.isFinite, if_true, Flt.sub]
  refine ⟨(wmean n y w + 1 / 1000) / wmean n q w, fun i => (wmean n y w + 1 / 1000) / wmean n q w * q i,
    div_pos (by linarith) hm, ?_, ?_⟩
  · intro i hqi
    refine ⟨Real.log (q i) + (Real.log (wmean n y w + 1 / 1000) - Real.log (wmean n q w)), ?_, ?_, rfl⟩
    · unfold priorPrediction
      have hl : linkFlt .log (.fin (q i)) = .fin (Real.log (q i)) := by simp only [linkFlt]; rw [if_pos hqi]
      simp only [hoff, hl, Flt.add, Flt.isFinite, if_true]
    · show Real.exp _ = _
      rw [Real.exp_add, Real.exp_sub, Real.exp_log hqi, Real.exp_log (by linarith), Real.exp_log hm]
      ring
  · have : wmean n (fun i => (wmean n y w + 1 / 1000) / wmean n q w * q i) w
        = (wmean n y w + 1 / 1000) / wmean n q w * wmean n q w := by
      generalize (wmean n y w + 1 / 1000) / wmean n q w = k
      unfold wmean
      rw [mul_div_assoc', mul_sum]
      congr 1
      exact sum_congr rfl fun i _ => by ring
    rw [this, div_mul_cancel₀ _ hm.ne']

/-- **C75, prior predictions with identity link.** If every sample has a prior prediction `q`, the baseline of each sample is
the prior prediction plus one common summand, and the weighted mean of the baseline over the training sample is the
weighted mean of the target plus 0.001. -/
theorem C75_prior_identity (n : ℕ) (y w q : ℕ → ℝ) (hs : ∑ i ∈ range n, w i ≠ 0) :
    ∃ (c : ℝ) (base : ℕ → ℝ),
      (∀ i, ∃ l, priorPrediction .identity (globalScaleLink .identity n y w)
        (priorOffset .identity n (fun i => .fin (q i)) y w) (some fun i => .fin (q i)) i = .fin l ∧
        identityLink.unlink l = base i ∧ base i = q i + c) ∧
      wmean n base w = wmean n y w + 1 / 1000 := by
  have hscale : globalScaleLink .identity n y w = .fin (wmean n y w + 1 / 1000) := scaleArg .identity n y w hs
  have hoff : priorOffset .identity n (fun i => .fin (q i)) y w = .fin (wmean n y w + 1 / 1000 - wmean n q w) := by
    unfold priorOffset priorOffsetFrom
    rw [finite_sums, hscale]
    unfold quotientFlt
    rw [if_neg hs]
    rfl
  refine ⟨wmean n y w + 1 / 1000 - wmean n q w, fun i => q i + (wmean n y w + 1 / 1000 - wmean n q w), ?_, ?_⟩
  · intro i
    refine ⟨q i + (wmean n y w + 1 / 1000 - wmean n q w), ?_, rfl, rfl⟩
    unfold priorPrediction
    simp only [hoff, linkFlt, Flt.add, Flt.isFinite, if_true]
  · generalize hk : wmean n y w + 1 / 1000 - wmean n q w = k
    have : wmean n (fun i => q i + k) w = wmean n q w + k := by
      unfold wmean
      rw [← sub_eq_iff_eq_add', ← sub_div, ← sum_sub_distrib, sum_congr rfl fun i _ => (by ring : w i * (q i + k) - w i * q i = w i * k),
        ← sum_mul, mul_div_right_comm, div_self hs, one_mul]
    rw [this, ← hk]; ring

/-- **C75, missing prior predictions.** A sample whose prior prediction is missing, infinite or outside the open range of the link
(not positive for log, not strictly between 0 and 1 for logit) gets the global scale. -/
theorem C75_prior_missing (kind : LinkKind) (scale offset : Flt ℝ) (prior : ℕ → Flt ℝ) (i : ℕ)
    (h : prior i = .nan ∨ prior i = .pinf ∨ prior i = .ninf ∨ kind = .log ∧ (∃ x ≤ 0, prior i = .fin x) ∨
      kind = .logit ∧ ∃ x, (x ≤ 0 ∨ 1 ≤ x) ∧ prior i = .fin x) :
    priorPrediction kind scale offset (some prior) i = scale := by
  have hl : (linkFlt kind (prior i)).isFinite = false := by
    rcases h with h | h | h | ⟨rfl, x, hx, h⟩ | ⟨rfl, x, hx, h⟩
    · rw [h]; cases kind <;> rfl
    · rw [h]; cases kind <;> rfl
    · rw [h]; cases kind <;> rfl
    · rw [h]
      simp only [linkFlt]
      rw [if_neg (by linarith)]
      split <;> rfl
    · rw [h]
      simp only [linkFlt]
      by_cases h1 : x = 1
      · rw [if_pos h1]; rfl
      · have h2 : ¬ 0 < x / (1 - x) := by
          rcases hx with hx | hx
          · exact not_lt.mpr (div_nonpos_of_nonpos_of_nonneg hx (by linarith))
          · exact not_lt.mpr (div_nonpos_of_nonneg_of_nonpos (by linarith) (by linarith))
        rw [if_neg h1, if_neg h2]
        split <;> rfl
  unfold priorPrediction
  simp only
  have : ((linkFlt kind (prior i)).add offset).isFinite = false := by
    cases hlk : linkFlt kind (prior i) with
    | fin x => rw [hlk] at hl; cases hl
    | nan => cases offset <;> rfl
    | pinf => cases offset <;> rfl
    | ninf => cases offset <;> rfl
  rw [this]
  rfl

/-- **C75, prior predictions outside the range of the link.** If no prior prediction of the training sample is finite, a positive
prior prediction `q` at prediction time is multiplied by the whole global scale (log link): it is not ignored. -/
theorem C75_prior_all_missing (n : ℕ) (y w : ℕ → ℝ) (prior new : ℕ → Flt ℝ) (hy : ∀ i < n, 0 ≤ y i)
    (hw : ∀ i < n, 0 ≤ w i) (hs : ∑ i ∈ range n, w i ≠ 0) (hp : ∀ i < n, (prior i).isFinite = false)
    (i : ℕ) (q : ℝ) (hq : 0 < q) (hi : new i = .fin q) :
    ∃ l, priorPrediction .log (globalScaleLink .log n y w) (priorOffset .log n prior y w) (some new) i = .fin l ∧
      logLink.unlink l = q * (wmean n y w + 1 / 1000) := by
  have h0 := wmean_nonneg n y w hy hw
  have hscale : globalScaleLink .log n y w = .fin (Real.log (wmean n y w + 1 / 1000)) := by
    rw [scaleArg .log n y w hs]; simp only [linkFlt]; rw [if_pos (by linarith)]
  have hmean : priorPredMean n prior w = .nan := by
    unfold priorPredMean quotientFlt
    rw [if_pos]
    exact sum_eq_zero fun j hj => by rw [hp j (mem_range.mp hj)]; rfl
  have hoff : priorOffset .log n prior y w = .fin (Real.log (wmean n y w + 1 / 1000)) := by
    unfold priorOffset priorOffsetFrom
    rw [hmean, hscale]
    rfl
  refine ⟨Real.log q + Real.log (wmean n y w + 1 / 1000), ?_, ?_⟩
  · unfold priorPrediction
    have hl : linkFlt .log (.fin q) = .fin (Real.log q) := by simp only [linkFlt]; rw [if_pos hq]
    simp only [hoff, hi, hl, Flt.add, Flt.isFinite, if_true]
  · show Real.exp _ = _
    rw [Real.exp_add, Real.exp_log hq, Real.exp_log (by linarith)]

/-- Witness for C75: three samples, the last without weight; the target mean is 2. -/
example : (∀ i < 3, (0 : ℝ) ≤ [1, 3, 100].getD i 0) ∧ (∀ i < 3, (0 : ℝ) ≤ [1, 1, 0].getD i 0) ∧
    ∑ i ∈ range 3, ([1, 1, 0] : List ℝ).getD i 0 ≠ 0 ∧
    wmean 3 (fun i => ([1, 3, 100] : List ℝ).getD i 0) (fun i => ([1, 1, 0] : List ℝ).getD i 0) = 2 := by
  refine ⟨?_, ?_, ?_, ?_⟩
  · intro i hi; interval_cases i <;> norm_num
  · intro i hi; interval_cases i <;> norm_num
  · norm_num [sum_range_succ]
  · norm_num [wmean, sum_range_succ]

end CB
