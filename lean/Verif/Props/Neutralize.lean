import Verif.Model.Neutralize
import Mathlib.Algebra.BigOperators.Ring.Finset
import Mathlib.Algebra.BigOperators.Field
import Mathlib.Algebra.Order.BigOperators.Ring.Finset
import Mathlib.Tactic.Linarith
import Mathlib.Tactic.Ring
import Mathlib.Tactic.NormNum
import Mathlib.Tactic.FieldSimp
import Mathlib.Algebra.Order.Field.Rat

/-!
# C52: neutralisation of one-dimensional influence
-/

set_option autoImplicit false
set_option linter.unusedSectionVars false

open Finset

namespace CB

section
variable {K : Type*} [Field K] [LinearOrder K] [IsStrictOrderedRing K]

/-- An invariant of every pass holds for the result. -/
theorem neutralLoop_invariant (n m : ℕ) (u : ℕ → ℕ → K) (P : (ℕ → ℕ → K) → Prop)
    (hstep : ∀ v, P v → P (neutralStep n m u (rowSum m u v) v)) :
    ∀ (fuel : ℕ) (d : K) (v : ℕ → ℕ → K), P v → P (neutralLoop n m u fuel d (rowSum m u v) v)
  | 0, _, _, h => h
  | fuel + 1, d, v, h => by
    unfold neutralLoop
    split_ifs
    · exact neutralLoop_invariant n m u P hstep fuel _ _ (hstep v h)
    · exact h

/-- What holds after every pass holds for the result. -/
theorem neutralize_after_step (n m : ℕ) (u : ℕ → ℕ → K) (P : (ℕ → ℕ → K) → Prop)
    (hstep : ∀ v, P (neutralStep n m u (rowSum m u v) v)) (v : ℕ → ℕ → K) :
    P (neutralizeOneDim n m v u) := by
  unfold neutralizeOneDim neutralLoop
  rw [if_pos (by norm_num)]
  exact neutralLoop_invariant n m u P (fun v _ => hstep v) 3 _ _ (hstep v)

theorem colSum_step (n m : ℕ) (u : ℕ → ℕ → K) (s0 : ℕ → K) (v : ℕ → ℕ → K) (j : ℕ)
    (hu : ∑ i ∈ range n, u i j ≠ 0) : colSum n u (neutralStep n m u s0 v) j = 0 := by
  have key : ∀ v1 : ℕ → ℕ → K,
      colSum n u (fun i j => v1 i j - colSum n u v1 j / ∑ i ∈ range n, u i j) j = 0 := by
    intro v1
    unfold colSum
    simp only [sub_mul, sum_sub_distrib]
    rw [← mul_sum, div_mul_cancel₀ _ hu, sub_self]
  exact key _

/-- **C52.**  In the result, the weighted sum of every column is zero (with positive weights). -/
theorem C52_columns_zero (n m : ℕ) (v u : ℕ → ℕ → K) (hn : 0 < n)
    (hu : ∀ i < n, ∀ j < m, 0 < u i j) (j : ℕ) (hj : j < m) :
    ∑ i ∈ range n, neutralizeOneDim n m v u i j * u i j = 0 :=
  neutralize_after_step n m u (fun v => colSum n u v j = 0)
    (fun v => colSum_step n m u _ v j
      (sum_pos (fun i hi => hu i (mem_range.mp hi) j hj) ⟨0, mem_range.mpr hn⟩).ne') v

/-- **C52.**  The mixed differences of the table are unchanged, whatever the weights: only a
function of the row and a function of the column have been subtracted. -/
theorem C52_mixed_differences (n m : ℕ) (v u : ℕ → ℕ → K) (i i' j j' : ℕ) :
    let r := neutralizeOneDim n m v u
    r i j - r i j' - r i' j + r i' j' = v i j - v i j' - v i' j + v i' j' := by
  intro r
  have := neutralLoop_invariant n m u
    (fun w => w i j - w i j' - w i' j + w i' j' = v i j - v i j' - v i' j + v i' j')
    (fun w hw => by
      rw [← hw]
      unfold neutralStep
      dsimp only
      ring) 4 100 v rfl
  exact this

/-- One pass as the specification sees it: subtract the weighted mean of each row, then the weighted mean of each column. -/
def Spec.neutralPass (n m : ℕ) (u v : ℕ → ℕ → K) : ℕ → ℕ → K :=
  let r := fun i j => v i j - (∑ j ∈ range m, v i j * u i j) / ∑ j ∈ range m, u i j
  fun i j => r i j - (∑ i ∈ range n, r i j * u i j) / ∑ i ∈ range n, u i j

/-- What remains: the sum of the absolute weighted row sums and column sums. -/
def Spec.neutralRest (n m : ℕ) (u v : ℕ → ℕ → K) : K :=
  (∑ i ∈ range n, |∑ j ∈ range m, v i j * u i j|) + ∑ j ∈ range m, |∑ i ∈ range n, v i j * u i j|

/-- **C52.**  The result is that of one to four passes, each of which subtracts the weighted row means and then the weighted
column means; passes stop as soon as the sum of the absolute weighted row and column sums is at most 1/100, and not before,
unless four have been made. -/
theorem C52_passes (n m : ℕ) (v u : ℕ → ℕ → K) :
    ∃ k, 1 ≤ k ∧ k ≤ 4 ∧ neutralizeOneDim n m v u = (Spec.neutralPass n m u)^[k] v ∧
      (∀ i, 1 ≤ i → i < k → 1 / 100 < Spec.neutralRest n m u ((Spec.neutralPass n m u)^[i] v)) ∧
      (k < 4 → Spec.neutralRest n m u (neutralizeOneDim n m v u) ≤ 1 / 100) := by
  have hpass : ∀ w : ℕ → ℕ → K, neutralStep n m u (rowSum m u w) w = Spec.neutralPass n m u w := fun _ => rfl
  have hrest : ∀ w : ℕ → ℕ → K, neutralDeviation n m u w = Spec.neutralRest n m u w := fun _ => rfl
  have gen : ∀ (fuel j : ℕ), 
      ∃ k, j ≤ k ∧ k ≤ j + fuel ∧
        neutralLoop n m u fuel (Spec.neutralRest n m u ((Spec.neutralPass n m u)^[j] v))
          (rowSum m u ((Spec.neutralPass n m u)^[j] v)) ((Spec.neutralPass n m u)^[j] v)
          = (Spec.neutralPass n m u)^[k] v ∧
        (∀ i, j ≤ i → i < k → 1 / 100 < Spec.neutralRest n m u ((Spec.neutralPass n m u)^[i] v)) ∧
        (k < j + fuel → Spec.neutralRest n m u ((Spec.neutralPass n m u)^[k] v) ≤ 1 / 100) := by
    intro fuel
    induction fuel with
    | zero => intro j; exact ⟨j, le_rfl, le_rfl, rfl, fun i h1 h2 => absurd h2 (not_lt.mpr h1), fun h => absurd h (by omega)⟩
    | succ fuel ih =>
      intro j
      by_cases hd : 1 / 100 < Spec.neutralRest n m u ((Spec.neutralPass n m u)^[j] v)
      · obtain ⟨k, h1, h2, h3, h4, h5⟩ := ih (j + 1)
        refine ⟨k, by omega, by omega, ?_, ?_, fun h => h5 (by omega)⟩
        · unfold neutralLoop
          rw [if_pos hd]
          simp only [hpass, hrest, ← Function.iterate_succ_apply' (Spec.neutralPass n m u)]
          exact h3
        · intro i hi hik
          rcases Nat.eq_or_lt_of_le hi with h | h
          · subst h; exact hd
          · exact h4 i h hik
      · refine ⟨j, le_rfl, by omega, ?_, fun i h1 h2 => absurd h2 (not_lt.mpr h1), fun _ => not_lt.mp hd⟩
        unfold neutralLoop
        rw [if_neg hd]
  obtain ⟨k, h1, h2, h3, h4, h5⟩ := gen 3 1
  have he : neutralizeOneDim n m v u = (Spec.neutralPass n m u)^[k] v := by
    unfold neutralizeOneDim neutralLoop
    rw [if_pos (by norm_num)]
    exact h3
  exact ⟨k, h1, by omega, he, h4, fun h => by rw [he]; exact h5 (by omega)⟩

/-- **C52.**  A table without one-dimensional influence is returned unchanged. -/
theorem C52_fixed_point (n m : ℕ) (v u : ℕ → ℕ → K)
    (hrow : ∀ i < n, ∑ j ∈ range m, v i j * u i j = 0)
    (hcol : ∀ j < m, ∑ i ∈ range n, v i j * u i j = 0) (i j : ℕ) (hi : i < n) (hj : j < m) :
    neutralizeOneDim n m v u i j = v i j := by
  have hstep : ∀ w : ℕ → ℕ → K, (∀ a < n, ∀ b < m, w a b = v a b) →
      ∀ a < n, ∀ b < m, neutralStep n m u (rowSum m u w) w a b = v a b := by
    intro w hw a ha b hb
    have h0 : ∀ a < n, rowSum m u w a = 0 := by
      intro a ha
      rw [← hrow a ha]
      unfold rowSum
      exact sum_congr rfl fun c hc => by rw [hw a ha c (mem_range.mp hc)]
    unfold neutralStep
    dsimp only
    have h1 : colSum n u (fun i j => w i j - rowSum m u w i / ∑ j ∈ range m, u i j) b = 0 := by
      rw [← hcol b hb]
      unfold colSum
      refine sum_congr rfl fun c hc => ?_
      beta_reduce
      rw [h0 c (mem_range.mp hc), zero_div, sub_zero, hw c (mem_range.mp hc) b hb]
    rw [h1, h0 a ha, zero_div, zero_div, sub_zero, sub_zero, hw a ha b hb]
  exact neutralLoop_invariant n m u (fun w => ∀ a < n, ∀ b < m, w a b = v a b) hstep 4 100 v
    (fun _ _ _ _ => rfl) i hi j hj

/-- **C52.**  For weights that are a product of row weights and column weights (for example equal
weights), the weighted sum of every row is zero as well. -/
theorem C52_rows_zero (n m : ℕ) (v u : ℕ → ℕ → K) (a b : ℕ → K) (ha : ∀ i, 0 < a i) (hb : ∀ j, 0 < b j)
    (hn : 0 < n) (hm : 0 < m) (hu : ∀ i < n, ∀ j < m, u i j = a i * b j) (i : ℕ) (hi : i < n) :
    ∑ j ∈ range m, neutralizeOneDim n m v u i j * u i j = 0 := by
  have hA : 0 < ∑ i ∈ range n, a i := sum_pos (fun i _ => ha i) ⟨0, mem_range.mpr hn⟩
  have hB : 0 < ∑ j ∈ range m, b j := sum_pos (fun j _ => hb j) ⟨0, mem_range.mpr hm⟩
  have hT0 : ∀ i < n, ∑ j ∈ range m, u i j = a i * ∑ j ∈ range m, b j := by
    intro i hi
    rw [mul_sum]
    exact sum_congr rfl fun j hj => hu i hi j (mem_range.mp hj)
  have hT1 : ∀ j < m, ∑ i ∈ range n, u i j = (∑ i ∈ range n, a i) * b j := by
    intro j hj
    rw [sum_mul]
    exact sum_congr rfl fun i hi => hu i (mem_range.mp hi) j hj
  refine neutralize_after_step n m u (fun v => rowSum m u v i = 0) (fun v => ?_) v
  -- after the row correction every row sum is zero
  set v1 : ℕ → ℕ → K := fun i j => v i j - rowSum m u v i / ∑ j ∈ range m, u i j with hv1
  have hrow1 : ∀ k < n, rowSum m u v1 k = 0 := by
    intro k hk
    unfold rowSum
    simp only [hv1, sub_mul, sum_sub_distrib]
    rw [← mul_sum, hT0 k hk]
    have : a k * ∑ j ∈ range m, b j ≠ 0 := (mul_pos (ha k) hB).ne'
    rw [div_mul_cancel₀ _ this]
    unfold rowSum
    rw [sub_self]
  have hrow1' : ∀ k < n, ∑ j ∈ range m, v1 k j * b j = 0 := by
    intro k hk
    have h := hrow1 k hk
    unfold rowSum at h
    have e : ∑ j ∈ range m, v1 k j * u k j = a k * ∑ j ∈ range m, v1 k j * b j := by
      rw [mul_sum]
      refine sum_congr rfl fun j hj => ?_
      rw [hu k hk j (mem_range.mp hj)]; ring
    rw [e] at h
    exact (mul_eq_zero.mp h).resolve_left (ha k).ne'
  -- the column corrections, weighted with the column weights, cancel
  have hcorr : ∑ j ∈ range m, colSum n u v1 j / (∑ i ∈ range n, u i j) * b j = 0 := by
    have e : ∀ j ∈ range m, colSum n u v1 j / (∑ i ∈ range n, u i j) * b j
        = (∑ k ∈ range n, a k * (v1 k j * b j)) / ∑ i ∈ range n, a i := by
      intro j hj
      have hjm := mem_range.mp hj
      rw [hT1 j hjm]
      have ec : colSum n u v1 j = ∑ k ∈ range n, a k * (v1 k j * b j) := by
        unfold colSum
        refine sum_congr rfl fun k hk => ?_
        rw [hu k (mem_range.mp hk) j hjm]; ring
      rw [ec]
      have := (hb j).ne'
      have := hA.ne'
      rw [div_mul_eq_mul_div, mul_comm _ (b j), mul_comm _ (b j), mul_div_mul_left _ _ (hb j).ne']
    rw [sum_congr rfl e, ← sum_div, sum_comm]
    have : ∑ k ∈ range n, ∑ j ∈ range m, a k * (v1 k j * b j) = 0 := by
      refine sum_eq_zero fun k hk => ?_
      rw [← mul_sum, hrow1' k (mem_range.mp hk), mul_zero]
    rw [this, zero_div]
  have hfin : rowSum m u (neutralStep n m u (rowSum m u v) v) i
      = rowSum m u v1 i - a i * ∑ j ∈ range m, colSum n u v1 j / (∑ i ∈ range n, u i j) * b j := by
    unfold rowSum neutralStep
    dsimp only
    rw [mul_sum, ← sum_sub_distrib]
    refine sum_congr rfl fun j hj => ?_
    have h := hu i hi j (mem_range.mp hj)
    simp only [hv1, rowSum]
    rw [sub_mul _ _ (u i j)]
    congr 1
    rw [h]; ring
  rw [hfin, hrow1 i hi, hcorr, mul_zero, sub_zero]

end

/-! ### Witnesses -/

/-- A table of rank one plus an interaction, with equal weights. -/
example : (List.range 2).map (fun i => (List.range 2).map (neutralizeOneDim (K := ℚ) 2 2
    (fun i j => if i = 1 ∧ j = 1 then 7 else i + 2 * j) (fun _ _ => 1) i))
    = [[1, -1], [-1, 1]] := by decide +kernel

/-- With weights that are no product, the row sums are only small. -/
example :
    let u : ℕ → ℕ → ℚ := fun i j => if i = 1 ∧ j = 1 then 3 else 1
    let v : ℕ → ℕ → ℚ := fun i j => i + 2 * j + (if i = 0 ∧ j = 0 then 1 else 0)
    let r := neutralizeOneDim 2 2 v u
    r 0 0 * u 0 0 + r 1 0 * u 1 0 = 0 ∧ r 0 0 * u 0 0 + r 0 1 * u 0 1 ≠ 0 := by decide +kernel

end CB
