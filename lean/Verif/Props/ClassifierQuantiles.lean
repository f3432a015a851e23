import Verif.Spec.ClassifierQuantiles
import Verif.Props.QpdNormal
import Verif.Props.SwapClasses
import Verif.Props.Classifier
import Mathlib.Analysis.SpecialFunctions.Gamma.Beta
import Mathlib.MeasureTheory.Integral.IntervalIntegral.FundThmCalculus

/-!
# The quantile functions of the classifier

The theorems about the classifier assume monotony and symmetry of two quantile functions. Here both are proved of the quantiles of
the beta and of the normal distribution themselves.
-/

set_option autoImplicit false
set_option linter.unusedSectionVars false

namespace CB
open Spec MeasureTheory Set

noncomputable section

/-- The density of the beta distribution, up to its constant. -/
def betaKernel (a b t : ℝ) : ℝ := t ^ (a - 1) * (1 - t) ^ (b - 1)

theorem betaKernel_pos (a b : ℝ) {t : ℝ} (h0 : 0 < t) (h1 : t < 1) : 0 < betaKernel a b t :=
  mul_pos (Real.rpow_pos_of_pos h0 _) (Real.rpow_pos_of_pos (by linarith) _)

theorem betaKernel_interval {a b : ℝ} (ha : 0 < a) (hb : 0 < b) : IntervalIntegrable (betaKernel a b) volume 0 1 := by
  have h := (Complex.betaIntegral_convergent (u := (a : ℂ)) (v := (b : ℂ)) (by simpa using ha) (by simpa using hb)).norm
  refine h.congr_ae ?_
  rw [uIoc_of_le zero_le_one]
  have hne : ∀ᵐ t : ℝ ∂(volume.restrict (Ioc (0 : ℝ) 1)), t ≠ 1 := ae_restrict_of_ae (Measure.ae_ne volume 1)
  filter_upwards [ae_restrict_mem measurableSet_Ioc, hne] with t ht hn
  have h1 : t < 1 := lt_of_le_of_ne ht.2 hn
  have e : (1 - (t : ℂ)) = ((1 - t : ℝ) : ℂ) := by push_cast; ring
  rw [norm_mul, e, Complex.norm_cpow_eq_rpow_re_of_pos ht.1, Complex.norm_cpow_eq_rpow_re_of_pos (by linarith)]
  simp [betaKernel]

theorem betaKernel_sub {a b x y : ℝ} (ha : 0 < a) (hb : 0 < b) (hx : 0 ≤ x) (hxy : x ≤ y) (hy : y ≤ 1) :
    IntervalIntegrable (betaKernel a b) volume x y := by
  refine (betaKernel_interval ha hb).mono_set ?_
  rw [uIcc_of_le hxy, uIcc_of_le zero_le_one]
  exact Icc_subset_Icc hx hy

theorem betaArea_strict {a b x y : ℝ} (ha : 0 < a) (hb : 0 < b) (hx : 0 ≤ x) (hxy : x < y) (hy : y ≤ 1) :
    ∫ t in (0 : ℝ)..x, betaKernel a b t < ∫ t in (0 : ℝ)..y, betaKernel a b t := by
  have e : (∫ t in (0 : ℝ)..x, betaKernel a b t) + ∫ t in x..y, betaKernel a b t = ∫ t in (0 : ℝ)..y, betaKernel a b t :=
    intervalIntegral.integral_add_adjacent_intervals (betaKernel_sub ha hb le_rfl hx (hxy.le.trans hy)) (betaKernel_sub ha hb hx hxy.le hy)
  have : 0 < ∫ t in x..y, betaKernel a b t :=
    intervalIntegral.intervalIntegral_pos_of_pos_on (betaKernel_sub ha hb hx hxy.le hy)
      (fun t ht => betaKernel_pos a b (lt_of_le_of_lt hx ht.1) (lt_of_lt_of_le ht.2 hy)) hxy
  linarith

theorem betaArea_pos {a b : ℝ} (ha : 0 < a) (hb : 0 < b) : 0 < ∫ t in (0 : ℝ)..1, betaKernel a b t := by
  have := betaArea_strict ha hb le_rfl zero_lt_one le_rfl
  rwa [intervalIntegral.integral_same] at this

/-- Quantiles at larger levels are larger. -/
theorem betaQuantile_strict {a b p q x y : ℝ} (ha : 0 < a) (hb : 0 < b) (hx : IsBetaQuantile a b p x) (hy : IsBetaQuantile a b q y)
    (h : p < q) : x < y := by
  by_contra hc
  have hp := betaArea_pos ha hb
  have h1 : ∫ t in (0 : ℝ)..x, betaKernel a b t = p * ∫ t in (0 : ℝ)..1, betaKernel a b t := hx.2.2
  have h2 : ∫ t in (0 : ℝ)..y, betaKernel a b t = q * ∫ t in (0 : ℝ)..1, betaKernel a b t := hy.2.2
  rcases (not_lt.mp hc).eq_or_lt with e | e
  · rw [e] at h2
    rw [h1] at h2
    nlinarith
  · have := betaArea_strict ha hb hy.1.le e hx.2.1.le
    rw [h1, h2] at this
    nlinarith

/-- There is only one quantile at each level. -/
theorem betaQuantile_unique {a b p x y : ℝ} (ha : 0 < a) (hb : 0 < b) (hx : IsBetaQuantile a b p x) (hy : IsBetaQuantile a b p y) : x = y := by
  have h1 : ∫ t in (0 : ℝ)..x, betaKernel a b t = p * ∫ t in (0 : ℝ)..1, betaKernel a b t := hx.2.2
  have h2 : ∫ t in (0 : ℝ)..y, betaKernel a b t = p * ∫ t in (0 : ℝ)..1, betaKernel a b t := hy.2.2
  rcases lt_trichotomy x y with h | h | h
  · exact absurd (betaArea_strict ha hb hx.1.le h hy.2.1.le) (by rw [h1, h2]; exact lt_irrefl _)
  · exact h
  · exact absurd (betaArea_strict ha hb hy.1.le h hx.2.1.le) (by rw [h1, h2]; exact lt_irrefl _)

theorem betaArea_mirror (a b x y : ℝ) : ∫ t in x..y, betaKernel b a t = ∫ t in (1 - y)..(1 - x), betaKernel a b t := by
  rw [← intervalIntegral.integral_comp_sub_left (fun t => betaKernel a b t) 1]
  refine intervalIntegral.integral_congr fun t _ => ?_
  simp only [betaKernel, sub_sub_cancel]
  rw [mul_comm]

/-- Exchanging the parameters mirrors the quantiles. -/
theorem betaQuantile_mirror {a b p q : ℝ} (ha : 0 < a) (hb : 0 < b) (h : IsBetaQuantile a b p q) : IsBetaQuantile b a (1 - p) (1 - q) := by
  refine ⟨by linarith [h.2.1], by linarith [h.1], ?_⟩
  show ∫ t in (0 : ℝ)..(1 - q), betaKernel b a t = (1 - p) * ∫ t in (0 : ℝ)..1, betaKernel b a t
  rw [betaArea_mirror a b, betaArea_mirror a b, sub_sub_cancel, sub_zero, sub_self]
  have e : (∫ t in (0 : ℝ)..q, betaKernel a b t) + ∫ t in q..1, betaKernel a b t = ∫ t in (0 : ℝ)..1, betaKernel a b t :=
    intervalIntegral.integral_add_adjacent_intervals (betaKernel_sub ha hb le_rfl h.1.le h.2.1.le) (betaKernel_sub ha hb h.1.le h.2.1.le le_rfl)
  have h1 : ∫ t in (0 : ℝ)..q, betaKernel a b t = p * ∫ t in (0 : ℝ)..1, betaKernel a b t := h.2.2
  linarith

theorem betaQuantile_exists {a b p : ℝ} (ha : 0 < a) (hb : 0 < b) (h0 : 0 < p) (h1 : p < 1) : ∃ q, IsBetaQuantile a b p q := by
  have hp := betaArea_pos ha hb
  have hc : ContinuousOn (fun x => ∫ t in (0 : ℝ)..x, betaKernel a b t) (Icc 0 1) := by
    have hi : IntegrableOn (betaKernel a b) (uIcc 0 1) volume := by
      have := (betaKernel_interval ha hb).1
      rwa [uIcc_of_le zero_le_one, integrableOn_Icc_iff_integrableOn_Ioc]
    have := intervalIntegral.continuousOn_primitive_interval (μ := volume) hi
    rwa [uIcc_of_le zero_le_one] at this
  obtain ⟨q, hq, he⟩ := intermediate_value_Icc zero_le_one hc
    (show p * (∫ t in (0 : ℝ)..1, betaKernel a b t) ∈ Icc (∫ t in (0 : ℝ)..0, betaKernel a b t) (∫ t in (0 : ℝ)..1, betaKernel a b t) from
      ⟨by rw [intervalIntegral.integral_same]; positivity, by nlinarith⟩)
  have he : ∫ t in (0 : ℝ)..q, betaKernel a b t = p * ∫ t in (0 : ℝ)..1, betaKernel a b t := he
  refine ⟨q, lt_of_le_of_ne hq.1 ?_, lt_of_le_of_ne hq.2 ?_, he⟩
  · rintro rfl
    rw [intervalIntegral.integral_same] at he
    have := mul_pos h0 hp
    linarith
  · rintro rfl
    nlinarith

theorem normalQuantile_eq {p z : ℝ} (h : IsNormalQuantile p z) : z = normalBase.ppf p := by
  have h' : normalBase.cdf z = p := h
  rw [← h', C58_normal.ppf_cdf]

theorem normalQuantile_ppf {p : ℝ} (h0 : 0 < p) (h1 : p < 1) : IsNormalQuantile p (normalBase.ppf p) := C58_normal.cdf_ppf p h0 h1

/-- **C35, C120.** The quantiles of the beta and of the normal distribution meet what the theorems about the classifier assume of the two
quantile functions: those of the beta distribution lie between 0 and 1, both increase strictly with the level, and both have the symmetries. -/
theorem C120_quantiles {betaPpf : ℝ → ℝ → ℝ → ℝ} {normalPpf : ℝ → ℝ} (h : ActualQuantiles betaPpf normalPpf) :
    SymmetricQuantiles betaPpf normalPpf ∧
      ∀ a b p q, 0 < a → 0 < b → 0 < p → p < q → q < 1 → betaPpf a b p < betaPpf a b q := by
  have hn : ∀ p, 0 < p → p < 1 → normalPpf p = normalBase.ppf p := fun p h0 h1 => normalQuantile_eq (h.normal p h0 h1)
  refine ⟨⟨?_, ?_, ?_, ?_⟩, ?_⟩
  · intro a b p ha hb h0 h1
    exact ⟨(h.beta a b p ha hb h0 h1).1, (h.beta a b p ha hb h0 h1).2.1⟩
  · intro a b p ha hb h0 h1
    exact betaQuantile_unique hb ha (h.beta b a (1 - p) hb ha (by linarith) (by linarith)) (betaQuantile_mirror ha hb (h.beta a b p ha hb h0 h1))
  · intro p h0 h1
    rw [hn p h0 h1, hn (1 - p) (by linarith) (by linarith)]
    exact C58_normal.symm p h0 h1
  · intro p q h0 hpq h1
    rw [hn p h0 (hpq.trans h1), hn q (h0.trans hpq) h1]
    exact C58_normal.mono p q h0 hpq h1
  · intro a b p q ha hb h0 hpq h1
    exact betaQuantile_strict ha hb (h.beta a b p ha hb h0 (hpq.trans h1)) (h.beta a b q ha hb (h0.trans hpq) h1) hpq

/-- **C35** with the quantiles of the beta and of the normal distribution: in each bin the estimated uncertainty is positive, and a bin
without samples is neutral. -/
theorem C35_actual_quantiles (betaPpf : ℝ → ℝ → ℝ → ℝ) (normalPpf : ℝ → ℝ) (h : ActualQuantiles betaPpf normalPpf)
    (n : ℕ) (codes : ℕ → ℕ) (y weights predLink : ℕ → ℝ) (hy : classifierCheckY n y) (hw : ∀ i < n, 0 ≤ weights i) (b : ℕ) :
    0 < (classifierCalcParameters betaPpf normalPpf n codes y weights predLink b).2 ∧
      ((∀ i < n, codes i ≠ b) → (classifierCalcParameters betaPpf normalPpf n codes y weights predLink b).1 = 0) := by
  obtain ⟨hs, hm⟩ := C120_quantiles h
  refine ⟨C35_uncertainty_pos betaPpf normalPpf hs.inside hm hs.normalStrict n codes y weights predLink hy hw b, fun hb => ?_⟩
  exact C35_empty_bin_neutral betaPpf normalPpf (fun a p ha => hs.inside a a p ha ha) (fun a p ha => hs.beta a a p ha ha) hs.normal
    (hs.normalStrict _ _ (by norm_num) (by norm_num) (by norm_num)) n codes y weights predLink b hb

open Classical in
/-- The quantiles of the beta distributions. -/
def actualBetaPpf (a b p : ℝ) : ℝ := if h : ∃ q, IsBetaQuantile a b p q then h.choose else 0

/-- Witness: there are such quantile functions. -/
theorem actualQuantiles : ActualQuantiles actualBetaPpf normalBase.ppf where
  beta a b p ha hb h0 h1 := by
    have h := betaQuantile_exists ha hb h0 h1
    unfold actualBetaPpf
    rw [dif_pos h]
    exact h.choose_spec
  normal _ h0 h1 := normalQuantile_ppf h0 h1

/-- Witness for `C35_actual_quantiles`: two samples of weight 1, one of each class, in bin 0; bin 1 is empty. -/
example : 0 < (classifierCalcParameters actualBetaPpf normalBase.ppf 2 (fun _ => 0) (fun i => if i = 0 then 0 else 1) (fun _ => 1) (fun _ => 0) 0).2 ∧
    (classifierCalcParameters actualBetaPpf normalBase.ppf 2 (fun _ => 0) (fun i => if i = 0 then 0 else 1) (fun _ => 1) (fun _ => 0) 1).1 = 0 := by
  have h := C35_actual_quantiles _ _ actualQuantiles 2 (fun _ => 0) (fun i => if i = 0 then 0 else 1) (fun _ => 1) (fun _ => 0)
    (by intro i _; by_cases h : i = 0 <;> simp [h]) (fun _ _ => zero_le_one)
  exact ⟨(h 0).1, (h 1).2 fun _ _ => by norm_num⟩

end

end CB
