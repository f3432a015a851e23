import Mathlib.Probability.ProbabilityMassFunction.Basic
import Mathlib.Probability.ProbabilityMassFunction.Constructions
import Mathlib.MeasureTheory.Measure.Lebesgue.Basic
import Mathlib.MeasureTheory.Measure.Prod
import Mathlib.MeasureTheory.Constructions.BorelSpace.Order
import Mathlib.MeasureTheory.Integral.Lebesgue.Countable
import Mathlib.Topology.Algebra.InfiniteSum.Real
import Mathlib.Tactic.Linarith
import Mathlib.Tactic.FieldSimp
import Mathlib.Tactic.NormNum
import Verif.Model.Pit

set_option autoImplicit false

/-!
C102: smeared values of a discrete distribution function are uniformly distributed.
-/
namespace CB
open MeasureTheory Set
open scoped ENNReal

/-- **C102**: the smeared value lies between the values of the distribution function below and at the target. -/
theorem C102_bounds (cdf : ℤ → ℝ) (y : ℕ) (u : ℝ) (h0 : 0 ≤ u) (h1 : u ≤ 1) (hm : ∀ z : ℤ, 0 ≤ cdf z ∧ cdf z ≤ cdf (z + 1)) :
    (if y = 0 then 0 else cdf ((y : ℤ) - 1)) ≤ smearDiscreteCdftruth cdf y u ∧ smearDiscreteCdftruth cdf y u ≤ cdf y := by
  unfold smearDiscreteCdftruth
  rcases Nat.eq_zero_or_pos y with rfl | hy
  · have := (hm 0).1
    simp only [Nat.cast_zero]
    norm_num
    exact ⟨mul_nonneg h0 this, by nlinarith⟩
  · have h := (hm ((y : ℤ) - 1)).2
    rw [sub_add_cancel] at h
    simp only [ge_iff_le, show (1 : ℤ) ≤ y from by exact_mod_cast hy, if_true, show y ≠ 0 from by omega, if_false]
    constructor <;> nlinarith

theorem smear_inner (lo p a : ℝ) (hp : 0 ≤ p) :
    ENNReal.ofReal p * (volume.restrict (Icc (0 : ℝ) 1)) {u | lo + u * p ≤ a} = ENNReal.ofReal (min p (a - lo)) := by
  have hms : MeasurableSet {u : ℝ | lo + u * p ≤ a} := measurableSet_le (by fun_prop) (by fun_prop)
  rw [Measure.restrict_apply hms]
  rcases hp.lt_or_eq with hp | hp
  · have hset : {u : ℝ | lo + u * p ≤ a} ∩ Icc 0 1 = Icc 0 (min 1 ((a - lo) / p)) := by
      ext u
      simp only [mem_inter_iff, mem_ofPred_eq, mem_Icc, le_min_iff, le_div_iff₀ hp]
      constructor
      · rintro ⟨h1, h2, h3⟩; exact ⟨h2, h3, by linarith⟩
      · rintro ⟨h2, h3, h4⟩; exact ⟨by linarith, h2, h3⟩
    rw [hset, Real.volume_Icc, ← ENNReal.ofReal_mul hp.le, sub_zero]
    congr 1
    rw [mul_min_of_nonneg _ _ hp.le, mul_one, mul_div_cancel₀ _ hp.ne']
  · rw [← hp]
    simp only [ENNReal.ofReal_zero, zero_mul]
    rw [ENNReal.ofReal_of_nonpos (min_le_left _ _)]

/-- Probability of a value of at most `a`, summed over the targets. -/
theorem smear_hasSum (p : ℕ → ℝ) (hp : ∀ y, 0 ≤ p y) (hsum : HasSum p 1) (a : ℝ) :
    HasSum (fun y : ℕ => max 0 (min (p y) (a - ∑ k ∈ Finset.range y, p k))) (max 0 (min 1 a)) := by
  have hS : ∀ y, 0 ≤ ∑ k ∈ Finset.range y, p k := fun y => Finset.sum_nonneg (fun k _ => hp k)
  set G : ℕ → ℝ := fun y => min (max a 0) (∑ k ∈ Finset.range y, p k) with hG
  have hterm : ∀ y, max 0 (min (p y) (a - ∑ k ∈ Finset.range y, p k)) = G (y + 1) - G y := by
    intro y
    have h1 := hS y
    have h2 := hp y
    simp only [hG, Finset.sum_range_succ]
    rcases le_total a 0 with ha | ha
    · have e : min (p y) (a - ∑ k ∈ Finset.range y, p k) ≤ 0 := le_trans (min_le_right _ _) (by linarith)
      rw [max_eq_right ha, max_eq_left e, min_eq_left (by linarith : (0 : ℝ) ≤ ∑ k ∈ Finset.range y, p k + p y), min_eq_left h1]
      ring
    · rw [max_eq_left ha]
      rcases le_total a (∑ k ∈ Finset.range y, p k) with h | h
      · have e : min (p y) (a - ∑ k ∈ Finset.range y, p k) ≤ 0 := le_trans (min_le_right _ _) (by linarith)
        rw [max_eq_left e, min_eq_left h, min_eq_left (by linarith : a ≤ ∑ k ∈ Finset.range y, p k + p y)]
        ring
      · rw [min_eq_right h, max_eq_right (le_min h2 (by linarith))]
        rcases le_total a (∑ k ∈ Finset.range y, p k + p y) with h' | h'
        · rw [min_eq_left h', min_eq_right (by linarith)]
        · rw [min_eq_right h', min_eq_left (by linarith)]
          ring
  rw [hasSum_iff_tendsto_nat_of_nonneg (fun y => le_max_left _ _)]
  simp only [hterm, Finset.sum_range_sub]
  have hG0 : G 0 = 0 := by simp [hG]
  rw [hG0]
  simp only [sub_zero]
  have hlim : Filter.Tendsto (fun n => ∑ k ∈ Finset.range n, p k) Filter.atTop (nhds 1) := hsum.tendsto_sum_nat
  have hlim2 : Filter.Tendsto G Filter.atTop (nhds (min (max a 0) 1)) := tendsto_const_nhds.min hlim
  have e : min (max a 0) 1 = max 0 (min 1 a) := by
    rcases le_total a 0 with h | h <;> rcases le_total a 1 with h' | h' <;> simp [h, h']
    all_goals linarith
  rwa [e] at hlim2

/-- **C102**: if the targets are distributed with the distribution function that is evaluated, the smeared values are uniformly
distributed on [0, 1]: their histogram is flat. The target is a natural number with the probabilities `p`, the random number is
uniformly distributed and independent of it. -/
theorem C102_uniform (p : PMF ℕ) (cdf : ℤ → ℝ) (hcdf : ∀ y : ℕ, cdf (y : ℤ) = ∑ k ∈ Finset.range (y + 1), (p k).toReal) :
    (p.toMeasure.prod (volume.restrict (Icc (0 : ℝ) 1))).map (fun q : ℕ × ℝ => smearDiscreteCdftruth cdf (q.1 : ℤ) q.2)
      = volume.restrict (Icc (0 : ℝ) 1) := by
  have hmeas : Measurable (fun q : ℕ × ℝ => smearDiscreteCdftruth cdf (q.1 : ℤ) q.2) := by
    refine measurable_from_prod_countable_right (fun y => ?_)
    have h : ∀ c d : ℝ, Measurable (fun u : ℝ => c + u * d) := by intro c d; fun_prop
    exact h (if (y : ℤ) ≥ 1 then cdf ((y : ℤ) - 1) else 0) (cdf (y : ℤ) - if (y : ℤ) ≥ 1 then cdf ((y : ℤ) - 1) else 0)
  have hp0 : ∀ y, 0 ≤ (p y).toReal := fun y => ENNReal.toReal_nonneg
  have hsum : HasSum (fun y => (p y).toReal) 1 := by
    have h := p.tsum_coe
    have h2 : Summable (fun y => (p y).toReal) := ENNReal.summable_toReal (by rw [h]; exact ENNReal.one_ne_top)
    have h3 := ENNReal.tsum_toReal_eq (fun y => p.apply_ne_top y)
    rw [h, ENNReal.toReal_one] at h3
    rw [h3]
    exact h2.hasSum
  have hlow : ∀ y : ℕ, (if (y : ℤ) ≥ 1 then cdf ((y : ℤ) - 1) else 0) = ∑ k ∈ Finset.range y, (p k).toReal := by
    intro y
    cases y with
    | zero => simp
    | succ y =>
      rw [if_pos (by push_cast; omega), show ((y + 1 : ℕ) : ℤ) - 1 = (y : ℤ) from by push_cast; ring, hcdf]
  refine Measure.ext_of_Iic _ _ (fun a => ?_)
  rw [Measure.map_apply hmeas measurableSet_Iic, Measure.prod_apply (hmeas measurableSet_Iic), lintegral_countable']
  have hterm : ∀ y : ℕ, (volume.restrict (Icc (0 : ℝ) 1))
      (Prod.mk y ⁻¹' ((fun q : ℕ × ℝ => smearDiscreteCdftruth cdf (q.1 : ℤ) q.2) ⁻¹' Iic a)) * p.toMeasure {y}
      = ENNReal.ofReal (max 0 (min (p y).toReal (a - ∑ k ∈ Finset.range y, (p k).toReal))) := by
    intro y
    rw [PMF.toMeasure_apply_singleton _ _ (measurableSet_singleton y), mul_comm]
    have hset : (Prod.mk y ⁻¹' ((fun q : ℕ × ℝ => smearDiscreteCdftruth cdf (q.1 : ℤ) q.2) ⁻¹' Iic a))
        = {u | ∑ k ∈ Finset.range y, (p k).toReal + u * (p y).toReal ≤ a} := by
      ext u
      simp only [mem_preimage, mem_Iic, mem_ofPred_eq, smearDiscreteCdftruth, hlow y, hcdf y, Finset.sum_range_succ]
      rw [add_sub_cancel_left]
    have hpy : p y = ENNReal.ofReal (p y).toReal := (ENNReal.ofReal_toReal (p.apply_ne_top y)).symm
    rw [hset]
    conv_lhs => rw [hpy]
    rw [ENNReal.toReal_ofReal (hp0 y), smear_inner _ _ _ (hp0 y)]
    rw [max_comm, ENNReal.ofReal_max, ENNReal.ofReal_zero, max_eq_left (zero_le)]
  simp only [hterm]
  have hs := smear_hasSum (fun y => (p y).toReal) hp0 hsum a
  rw [← ENNReal.ofReal_tsum_of_nonneg (fun y => le_max_left _ _) hs.summable, hs.tsum_eq,
    Measure.restrict_apply measurableSet_Iic]
  have hset : Iic a ∩ Icc (0 : ℝ) 1 = Icc 0 (min 1 a) := by
    ext u
    simp only [mem_inter_iff, mem_Iic, mem_Icc, le_min_iff]
    tauto
  rw [hset, Real.volume_Icc, sub_zero, max_comm, ENNReal.ofReal_max, ENNReal.ofReal_zero, max_eq_left (zero_le)]

/-- **C102**: the array version smears each sample with its own distribution. -/
theorem C102_qpd (cdf : ℕ → ℝ → ℝ) (y u : ℕ → ℝ) (s n : ℕ) (hy : y s = (n : ℝ)) :
    smearDiscreteCdftruthQpd cdf y u s = smearDiscreteCdftruth (fun z => cdf s (z : ℝ)) (n : ℤ) (u s) := by
  unfold smearDiscreteCdftruthQpd smearDiscreteCdftruth
  rw [hy]
  have e : ((n : ℝ) ≥ 1) ↔ ((n : ℤ) ≥ 1) := by
    constructor
    · intro h; have : (1 : ℕ) ≤ n := by exact_mod_cast h
      omega
    · intro h; have : (1 : ℕ) ≤ n := by omega
      exact_mod_cast this
  simp only [e]
  push_cast
  rfl

/-- **C102** needs targets that are not negative: for the fair choice between -1 and 0, half of the values would have to lie above 1/2,
but with the random number `u ≤ 1/2` no value does. -/
theorem C102_negative (cdf : ℤ → ℝ) (h1 : cdf (-1) = 1 / 2) (h2 : cdf 0 = 1) (u : ℝ) (hu : u ≤ 1 / 2) :
    smearDiscreteCdftruth cdf (-1) u ≤ 1 / 2 ∧ smearDiscreteCdftruth cdf 0 u ≤ 1 / 2 := by
  unfold smearDiscreteCdftruth
  rw [h1, h2]
  constructor
  · norm_num; linarith
  · norm_num; linarith

/-- The hypotheses of `C102_uniform` are met: a fair coin. -/
example : ∃ (p : PMF ℕ) (cdf : ℤ → ℝ), (∀ y : ℕ, cdf (y : ℤ) = ∑ k ∈ Finset.range (y + 1), (p k).toReal) ∧ cdf 0 = 1 / 2 ∧ cdf 1 = 1 := by
  let p : PMF ℕ := PMF.ofFinset (fun k => if k < 2 then 1 / 2 else 0) {0, 1} (by
    rw [Finset.sum_pair (by norm_num)]; norm_num; exact ENNReal.inv_two_add_inv_two) (by
    intro k hk
    simp only [Finset.mem_insert, Finset.mem_singleton] at hk
    rw [if_neg (by omega)])
  refine ⟨p, fun z => ∑ k ∈ Finset.range (z.toNat + 1), (p k).toReal, fun y => by simp, ?_, ?_⟩
  · simp [p, PMF.ofFinset_apply]
  · simp [p, PMF.ofFinset_apply, Finset.sum_range_succ]
    norm_num

end CB
