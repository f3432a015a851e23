import Verif.Model.Gbs
import Verif.Props.Estimators

/-!
# C46: the ridge estimate of the background-subtraction regressor
-/

set_option autoImplicit false
set_option linter.unusedSectionVars false

namespace CB

open Finset

section
variable {K : Type*} [Field K] [LinearOrder K] [IsStrictOrderedRing K]

namespace Spec

/-- Ridge objective for the summand `s` of bin `b`: weighted squared residuals
after the update, plus a penalty of strength `regalpha` times the weight of the
bin plus one. -/
def ridge (regalpha : K) (n : ℕ) (codes : ℕ → ℕ) (y pred w : ℕ → K) (b : ℕ) (s : K) : K :=
  ∑ i ∈ (range n).filter (fun i => codes i = b), w i * (y i - (pred i + s)) ^ 2
    + (regalpha * ∑ i ∈ (range n).filter (fun i => codes i = b), w i + 1) * s ^ 2

end Spec

theorem gbs_sumD_pos (regalpha : K) (ha : 0 ≤ regalpha) (n : ℕ) (codes : ℕ → ℕ) (w : ℕ → K)
    (hw : ∀ i < n, 0 ≤ w i) (b : ℕ) :
    0 < binSum n codes (fun i => w i * (1 + regalpha)) b + 1 := by
  have := binSum_nonneg n codes (fun i => w i * (1 + regalpha))
    (fun i hi => mul_nonneg (hw i hi) (by linarith)) b
  linarith

theorem ridge_excess (regalpha : K) (ha : 0 ≤ regalpha) (n : ℕ) (codes : ℕ → ℕ)
    (y pred w : ℕ → K) (hw : ∀ i < n, 0 ≤ w i) (b : ℕ) (s : K) :
    Spec.ridge regalpha n codes y pred w b s
      = Spec.ridge regalpha n codes y pred w b (gbsSummand regalpha n codes y pred w b)
        + (binSum n codes (fun i => w i * (1 + regalpha)) b + 1)
          * (s - gbsSummand regalpha n codes y pred w b) ^ 2 := by
  have hpos := gbs_sumD_pos regalpha ha n codes w hw b
  have hm : (binSum n codes (fun i => w i * (1 + regalpha)) b + 1)
      * gbsSummand regalpha n codes y pred w b
      = binSum n codes (fun i => (y i - pred i) * w i) b := by
    unfold gbsSummand
    dsimp only
    rw [mul_div_cancel₀ _ hpos.ne']
  set m := gbsSummand regalpha n codes y pred w b
  rw [binSum_filter] at hm ⊢
  rw [binSum_filter] at hm
  unfold Spec.ridge
  set S := (range n).filter (fun i => codes i = b)
  rw [← sum_mul] at hm ⊢
  have exp : ∀ u : K, ∑ i ∈ S, w i * (y i - (pred i + u)) ^ 2
      = ∑ i ∈ S, w i * (y i - pred i) ^ 2 - 2 * u * ∑ i ∈ S, (y i - pred i) * w i
        + u ^ 2 * ∑ i ∈ S, w i := by
    intro u
    rw [mul_sum, mul_sum, ← sum_sub_distrib, ← sum_add_distrib]
    exact sum_congr rfl (fun i _ => by ring)
  rw [exp s, exp m, ← hm]
  ring

/-- **C46.**  The summand of each bin is the unique minimiser of the ridge
objective. -/
theorem C46_ridge_minimiser (regalpha : K) (ha : 0 ≤ regalpha) (n : ℕ) (codes : ℕ → ℕ)
    (y pred w : ℕ → K) (hw : ∀ i < n, 0 ≤ w i) (b : ℕ) (s : K)
    (hs : s ≠ gbsSummand regalpha n codes y pred w b) :
    Spec.ridge regalpha n codes y pred w b (gbsSummand regalpha n codes y pred w b)
      < Spec.ridge regalpha n codes y pred w b s := by
  rw [ridge_excess regalpha ha n codes y pred w hw b s]
  have hpos := gbs_sumD_pos regalpha ha n codes w hw b
  have := mul_pos hpos (pow_pos (abs_pos.mpr (sub_ne_zero.mpr hs)) 2)
  rw [sq_abs] at this
  linarith

/-- **C46.**  The summand shrinks towards 0 when the regularisation grows, and keeps
its sign. -/
theorem C46_shrinks (a1 a2 : K) (h1 : 0 ≤ a1) (h12 : a1 ≤ a2) (n : ℕ) (codes : ℕ → ℕ)
    (y pred w : ℕ → K) (hw : ∀ i < n, 0 ≤ w i) (b : ℕ) :
    |gbsSummand a2 n codes y pred w b| ≤ |gbsSummand a1 n codes y pred w b| ∧
    0 ≤ gbsSummand a2 n codes y pred w b * gbsSummand a1 n codes y pred w b := by
  have p1 := gbs_sumD_pos a1 h1 n codes w hw b
  have p2 := gbs_sumD_pos a2 (le_trans h1 h12) n codes w hw b
  have hle : binSum n codes (fun i => w i * (1 + a1)) b + 1
      ≤ binSum n codes (fun i => w i * (1 + a2)) b + 1 := by
    have : binSum n codes (fun i => w i * (1 + a1)) b
        ≤ binSum n codes (fun i => w i * (1 + a2)) b := by
      rw [binSum_filter, binSum_filter]
      apply sum_le_sum
      intro i hi
      exact mul_le_mul_of_nonneg_left (by linarith) (hw i (mem_range.mp (mem_filter.mp hi).1))
    linarith
  unfold gbsSummand
  dsimp only
  constructor
  · rw [abs_div, abs_div, abs_of_pos p1, abs_of_pos p2]
    exact div_le_div_of_nonneg_left (abs_nonneg _) p1 hle
  · rw [div_mul_div_comm]
    exact div_nonneg (mul_self_nonneg _) (mul_pos p2 p1).le

/-- The update never exceeds the weighted mean residual of the bin:
`|summand| * Σ w <= |Σ w (y - pred)|`. -/
theorem C46_at_most_residual (regalpha : K) (ha : 0 ≤ regalpha) (n : ℕ) (codes : ℕ → ℕ)
    (y pred w : ℕ → K) (hw : ∀ i < n, 0 ≤ w i) (b : ℕ) :
    |gbsSummand regalpha n codes y pred w b| * binSum n codes w b
      ≤ |binSum n codes (fun i => (y i - pred i) * w i) b| := by
  have p := gbs_sumD_pos regalpha ha n codes w hw b
  have hle : binSum n codes w b ≤ binSum n codes (fun i => w i * (1 + regalpha)) b + 1 := by
    have : binSum n codes w b ≤ binSum n codes (fun i => w i * (1 + regalpha)) b := by
      rw [binSum_filter, binSum_filter]
      apply sum_le_sum
      intro i hi
      have := mul_nonneg (hw i (mem_range.mp (mem_filter.mp hi).1)) ha
      linarith
    linarith
  unfold gbsSummand
  dsimp only
  rw [abs_div, abs_of_pos p, div_mul_eq_mul_div, div_le_iff₀ p]
  exact mul_le_mul_of_nonneg_left hle (abs_nonneg _)

/-- **C46, variance.**  The variance estimate is a sum of squares over the bin: it is
never negative, so the uncertainty is well defined. -/
theorem C46_variance (regalpha : K) (n : ℕ) (codes : ℕ → ℕ) (y pred w : ℕ → K) (b : ℕ) :
    0 ≤ gbsVariance regalpha n codes y pred w b := by
  unfold gbsVariance
  dsimp only
  set N := binSum n codes (fun i => (y i - pred i) * w i) b
  generalize hD : binSum n codes (fun i => w i * (1 + regalpha)) b + 1 = D
  have e : D ^ 2 * binSum n codes (fun i => (y i - pred i) * w i * ((y i - pred i) * w i)) b
      - 2 * N * D * binSum n codes (fun i => (y i - pred i) * w i * (w i * (1 + regalpha))) b
      + N ^ 2 * (binSum n codes (fun i => w i * (1 + regalpha) * (w i * (1 + regalpha))) b + 1 ^ 2)
      = ∑ i ∈ (range n).filter (fun i => codes i = b),
          (D * ((y i - pred i) * w i) - N * (w i * (1 + regalpha))) ^ 2 + N ^ 2 := by
    rw [binSum_filter, binSum_filter, binSum_filter, mul_sum, mul_sum, one_pow, mul_add,
      mul_sum, mul_one, ← add_assoc, ← sum_sub_distrib, ← sum_add_distrib]
    congr 1
    exact sum_congr rfl (fun i _ => by ring)
  rw [e]
  have h4 : (0 : K) ≤ D ^ 4 := by
    have := mul_self_nonneg (D ^ 2)
    have e2 : D ^ 4 = D ^ 2 * D ^ 2 := by ring
    rw [e2]; exact this
  exact div_nonneg (add_nonneg (sum_nonneg fun i _ => sq_nonneg _) (sq_nonneg _)) h4

/-- A bin without samples has summand 0 and variance 0. -/
theorem C46_empty_bin (regalpha : K) (n : ℕ) (codes : ℕ → ℕ) (y pred w : ℕ → K) (b : ℕ)
    (hb : ∀ i < n, codes i ≠ b) :
    gbsSummand regalpha n codes y pred w b = 0 ∧ gbsVariance regalpha n codes y pred w b = 0 := by
  have h : ∀ u : ℕ → K, binSum n codes u b = 0 := by
    intro u
    unfold binSum
    exact sum_eq_zero (fun i hi => if_neg (hb i (mem_range.mp hi)))
  constructor
  · unfold gbsSummand
    dsimp only
    rw [h, zero_div]
  · unfold gbsVariance
    simp only [h]
    ring

/-- The start value minimises the weighted squared error among constants. -/
theorem C46_global_scale (n : ℕ) (y w : ℕ → K) (hw : 0 < ∑ i ∈ range n, w i) (c : K) :
    ∑ i ∈ range n, w i * (gbsGlobalScale n y w - y i) ^ 2
      ≤ ∑ i ∈ range n, w i * (c - y i) ^ 2 := by
  have hm : (∑ i ∈ range n, w i) * gbsGlobalScale n y w = ∑ i ∈ range n, y i * w i := by
    unfold gbsGlobalScale
    rw [mul_div_cancel₀ _ hw.ne']
  set m := gbsGlobalScale n y w
  have exp : ∀ u : K, ∑ i ∈ range n, w i * (u - y i) ^ 2
      = u ^ 2 * ∑ i ∈ range n, w i - 2 * u * ∑ i ∈ range n, y i * w i
        + ∑ i ∈ range n, w i * y i ^ 2 := by
    intro u
    rw [mul_sum, mul_sum, ← sum_sub_distrib, ← sum_add_distrib]
    exact sum_congr rfl (fun i _ => by ring)
  rw [exp m, exp c, ← hm]
  have : 0 ≤ (∑ i ∈ range n, w i) * (c - m) ^ 2 := mul_nonneg hw.le (sq_nonneg _)
  linarith

/-- **C46.**  Among all constant predictions the global scale has the smallest training loss. -/
theorem C46_scale_minimises_loss [DecidableEq K] (n : ℕ) (y w : ℕ → K) (hw : ∀ i < n, 0 ≤ w i)
    (hpos : 0 < ∑ i ∈ range n, w i) (c : K) :
    (gbsLoss n (fun _ => gbsGlobalScale n y w) y w).1 / (gbsLoss n (fun _ => gbsGlobalScale n y w) y w).2
      ≤ (gbsLoss n (fun _ => c) y w).1 / (gbsLoss n (fun _ => c) y w).2 := by
  have h := C46_global_scale n y w hpos c
  unfold gbsLoss
  dsimp only
  apply div_le_div_of_nonneg_right h
  apply sum_nonneg
  intro i hi
  apply mul_nonneg
  · split_ifs <;> norm_num
  · exact hw i (mem_range.mp hi)

/-- The denominator of the training loss is the weight of the non-zero targets: it
vanishes, and the loss is a division by zero, exactly when no target with positive
weight differs from 0. -/
theorem C46_loss_denominator (n : ℕ) (pred y w : ℕ → K) (hw : ∀ i < n, 0 ≤ w i) :
    (gbsLoss n pred y w).2 = 0 ↔ ∀ i < n, y i = 0 ∨ w i = 0 := by
  unfold gbsLoss
  dsimp only
  rw [sum_eq_zero_iff_of_nonneg]
  · constructor
    · intro h i hi
      have := h i (mem_range.mpr hi)
      by_cases hy : y i = 0
      · exact Or.inl hy
      · right; simpa [hy] using this
    · intro h i hi
      rcases h i (mem_range.mp hi) with h1 | h1 <;> simp [h1]
  · intro i hi
    have := hw i (mem_range.mp hi)
    split_ifs <;> simp [this]

end

/-- Witness: two samples in one bin. -/
example : gbsSummand (1 : ℚ) 2 (fun _ => 0) (fun i => if i = 0 then 3 else -1) (fun _ => 0)
    (fun _ => 1) 0 = 2 / 5 := by decide +kernel

example : gbsVariance (0 : ℚ) 2 (fun _ => 0) (fun i => if i = 0 then 3 else -1) (fun _ => 0)
    (fun _ => 1) 0 = 26 / 27 := by decide +kernel

end CB
