import Verif.Lemmas.QuantileMatching
import Mathlib.Analysis.SpecialFunctions.ExpDeriv
import Mathlib.Analysis.SpecialFunctions.Trigonometric.DerivHyp

/-!
# C43 (transformations) and C58 (base distributions)
-/

set_option autoImplicit false
set_option linter.unusedSectionVars false

namespace CB

open Spec

/-! ## C43 -/

theorem expit_pos (z : ℝ) : 0 < 1 / (1 + Real.exp (-z)) := by positivity

theorem expit_lt_one (z : ℝ) : 1 / (1 + Real.exp (-z)) < 1 := by
  rw [div_lt_one (by positivity)]
  have := Real.exp_pos (-z); linarith

theorem expit_odds (z : ℝ) :
    1 / (1 + Real.exp (-z)) / (1 - 1 / (1 + Real.exp (-z))) = Real.exp z := by
  have := Real.exp_pos (-z)
  have e : (1 : ℝ) - 1 / (1 + Real.exp (-z)) = Real.exp (-z) / (1 + Real.exp (-z)) := by
    field_simp; ring
  rw [e, Real.exp_neg]
  have := Real.exp_pos z
  field_simp

theorem expit_logit {t : ℝ} (h0 : 0 < t) (h1 : t < 1) :
    1 / (1 + Real.exp (-Real.log (t / (1 - t)))) = t := by
  have : 0 < 1 - t := by linarith
  rw [Real.exp_neg, Real.exp_log (div_pos h0 this)]
  field_simp
  ring

theorem expit_lt {z w : ℝ} (h : z < w) :
    1 / (1 + Real.exp (-z)) < 1 / (1 + Real.exp (-w)) := by
  have := Real.exp_lt_exp.mpr (neg_lt_neg h)
  have := Real.exp_pos (-w)
  exact one_div_lt_one_div_of_lt (by linarith) (by linarith)

/-- **C43, bounded range.**  For all bounds `l < u`: a value strictly inside the
bounds is recovered by transforming it and transforming back, every real number
is sent strictly inside the bounds and is recovered by transforming again, and
the order is preserved. -/
theorem C43_bounded (l u : ℝ) (hlu : l < u) :
    (∀ x, l < x → x < u → backTransformInBounds (transformFromBounds x l u) l u = x) ∧
    (∀ z, l < backTransformInBounds z l u ∧ backTransformInBounds z l u < u) ∧
    (∀ z, transformFromBounds (backTransformInBounds z l u) l u = z) ∧
    (∀ z w, z < w → backTransformInBounds z l u < backTransformInBounds w l u) := by
  have hw : 0 < u - l := by linarith
  refine ⟨fun x h0 h1 => ?_, fun z => ⟨?_, ?_⟩, fun z => ?_, fun z w h => ?_⟩
  · have t0 : 0 < (x - l) / (u - l) := div_pos (by linarith) hw
    have t1 : (x - l) / (u - l) < 1 := by rw [div_lt_one hw]; linarith
    have odds : 0 < (x - l) / (u - l) / (1 - (x - l) / (u - l)) := div_pos t0 (by linarith)
    unfold backTransformInBounds transformFromBounds nudgeZero
    simp only [if_neg odds.ne', expit_logit t0 t1]
    field_simp; ring
  · have := mul_pos hw (expit_pos z)
    unfold backTransformInBounds; linarith
  · have := mul_lt_mul_of_pos_left (expit_lt_one z) hw
    unfold backTransformInBounds; linarith
  · unfold backTransformInBounds transformFromBounds nudgeZero
    have e : (l + (u - l) * (1 / (1 + Real.exp (-z))) - l) / (u - l)
        = 1 / (1 + Real.exp (-z)) := by field_simp; ring
    simp only [e, expit_odds, if_neg (Real.exp_pos z).ne', Real.log_exp]
  · have := mul_lt_mul_of_pos_left (expit_lt h) hw
    unfold backTransformInBounds; linarith

/-- **C43, range bounded below.** -/
theorem C43_semibound_lower (l : ℝ) :
    (∀ x, l < x → backTransformInSemiboundLower (transformFromSemiboundLower x l) l = x) ∧
    (∀ z, l < backTransformInSemiboundLower z l) ∧
    (∀ z, transformFromSemiboundLower (backTransformInSemiboundLower z l) l = z) ∧
    (∀ z w, z < w → backTransformInSemiboundLower z l < backTransformInSemiboundLower w l) := by
  unfold backTransformInSemiboundLower transformFromSemiboundLower nudgeZero
  refine ⟨fun x h => ?_, fun z => ?_, fun z => ?_, fun z w h => ?_⟩
  · have : 0 < x - l := by linarith
    rw [if_neg this.ne', Real.exp_log this]; ring
  · have := Real.exp_pos z; linarith
  · rw [add_sub_cancel_left, if_neg (Real.exp_pos z).ne', Real.log_exp]
  · have := Real.exp_lt_exp.mpr h; linarith

/-- **C43, range bounded above.**  Here the transformation reverses the order. -/
theorem C43_semibound_upper (u : ℝ) :
    (∀ x, x < u → backTransformInSemiboundUpper (transformFromSemiboundUpper x u) u = x) ∧
    (∀ z, backTransformInSemiboundUpper z u < u) ∧
    (∀ z, transformFromSemiboundUpper (backTransformInSemiboundUpper z u) u = z) ∧
    (∀ z w, z < w → backTransformInSemiboundUpper w u < backTransformInSemiboundUpper z u) := by
  unfold backTransformInSemiboundUpper transformFromSemiboundUpper nudgeZero
  refine ⟨fun x h => ?_, fun z => ?_, fun z => ?_, fun z w h => ?_⟩
  · have : 0 < u - x := by linarith
    rw [if_neg this.ne', Real.exp_log this]; ring
  · have := Real.exp_pos z; linarith
  · rw [sub_sub_cancel, if_neg (Real.exp_pos z).ne', Real.log_exp]
  · have := Real.exp_lt_exp.mpr h; linarith

/-- **C43, at the lower bound.**  A value exactly on the lower bound is moved
inside by a relative amount of less than `1e-12` (bounded range) and by exactly
`1e-12` (semi-bounded range) instead of being lost. -/
theorem C43_at_the_bound (l u : ℝ) (hlu : l < u) :
    l < backTransformInBounds (transformFromBounds l l u) l u ∧
    backTransformInBounds (transformFromBounds l l u) l u < l + (u - l) * 1e-12 ∧
    backTransformInSemiboundLower (transformFromSemiboundLower l l) l = l + 1e-12 := by
  have hw : 0 < u - l := by linarith
  refine ⟨((C43_bounded l u hlu).2.1 _).1, ?_, ?_⟩
  · unfold backTransformInBounds transformFromBounds nudgeZero
    simp only [sub_self, zero_div, if_true]
    rw [Real.exp_neg, Real.exp_log (by norm_num)]
    have : (1 : ℝ) / (1 + (1e-12)⁻¹) < 1e-12 := by norm_num
    have := mul_lt_mul_of_pos_left this hw
    linarith
  · unfold backTransformInSemiboundLower transformFromSemiboundLower nudgeZero
    simp only [sub_self, if_true]
    rw [Real.exp_log (by norm_num)]

/-! ## C58: the base distributions written in the code -/

theorem logit_lt {p q : ℝ} (h0 : 0 < p) (h : p < q) (h1 : q < 1) :
    Real.log (p / (1 - p)) < Real.log (q / (1 - q)) := by
  apply Real.log_lt_log (div_pos h0 (by linarith))
  rw [div_lt_div_iff₀ (by linarith) (by linarith)]
  nlinarith

theorem logit_symm (p : ℝ) :
    Real.log ((1 - p) / (1 - (1 - p))) = -Real.log (p / (1 - p)) := by
  rw [← Real.log_inv, inv_div, sub_sub_cancel]

/-- The logistic distribution is a symmetric base distribution. -/
theorem C58_logistic : SymmetricBase logisticBase where
  cdf_ppf p h0 h1 := expit_logit h0 h1
  ppf_cdf x := by
    unfold logisticBase; simp only [expit_odds, Real.log_exp]
  cdf_pos x := expit_pos x
  cdf_lt_one x := expit_lt_one x
  mono p q h0 h h1 := logit_lt h0 h h1
  symm p _ _ := logit_symm p

/-- **C58.**  For every shape parameter, negative, zero or positive,
`SinhLogistic` is a symmetric base distribution: its quantile function is
strictly increasing and odd around 1/2, and its distribution function inverts it
on both sides. -/
theorem C58_sinhlogistic (shape : ℝ) : SymmetricBase (sinhLogistic shape) := by
  -- the inner scaling `f` and its inverse `g`
  let f : ℝ → ℝ := fun t => if shape > 0 then Real.arsinh (shape * t) / shape
    else if shape < 0 then Real.sinh (shape * t) / shape else t
  let g : ℝ → ℝ := fun x => if shape > 0 then Real.sinh (shape * x) / shape
    else if shape < 0 then Real.arsinh (shape * x) / shape else x
  have hp : ∀ p, (sinhLogistic shape).ppf p = f (0.25 * Real.log (p / (1 - p))) := fun _ => rfl
  have hc : ∀ x, (sinhLogistic shape).cdf x = 1 / (1 + Real.exp (-(4 * g x))) := by
    intro x
    show 1 / (1 + Real.exp (-4 * g x)) = _
    rw [neg_mul]
  have gf : ∀ t, g (f t) = t := by
    intro t
    rcases lt_trichotomy shape 0 with hs | hs | hs
    · simp only [f, g, if_neg (not_lt.mpr hs.le), gt_iff_lt, if_pos hs]
      rw [mul_div_cancel₀ _ hs.ne, Real.arsinh_sinh, mul_div_cancel_left₀ _ hs.ne]
    · simp [f, g, hs]
    · simp only [f, g, gt_iff_lt, if_pos hs]
      rw [mul_div_cancel₀ _ hs.ne', Real.sinh_arsinh, mul_div_cancel_left₀ _ hs.ne']
  have fg : ∀ t, f (g t) = t := by
    intro t
    rcases lt_trichotomy shape 0 with hs | hs | hs
    · simp only [f, g, if_neg (not_lt.mpr hs.le), gt_iff_lt, if_pos hs]
      rw [mul_div_cancel₀ _ hs.ne, Real.sinh_arsinh, mul_div_cancel_left₀ _ hs.ne]
    · simp [f, g, hs]
    · simp only [f, g, gt_iff_lt, if_pos hs]
      rw [mul_div_cancel₀ _ hs.ne', Real.arsinh_sinh, mul_div_cancel_left₀ _ hs.ne']
  have fmono : ∀ s t, s < t → f s < f t := by
    intro s t hst
    rcases lt_trichotomy shape 0 with hs | hs | hs
    · simp only [f, if_neg (not_lt.mpr hs.le), gt_iff_lt, if_pos hs]
      exact (div_lt_div_right_of_neg hs).mpr (Real.sinh_lt_sinh.mpr (mul_lt_mul_of_neg_left hst hs))
    · simpa [f, hs] using hst
    · simp only [f, gt_iff_lt, if_pos hs]
      exact div_lt_div_of_pos_right (Real.arsinh_lt_arsinh.mpr (mul_lt_mul_of_pos_left hst hs)) hs
  have fodd : ∀ t, f (-t) = -f t := by
    intro t
    rcases lt_trichotomy shape 0 with hs | hs | hs
    · simp only [f, if_neg (not_lt.mpr hs.le), gt_iff_lt, if_pos hs]
      rw [mul_neg, Real.sinh_neg, neg_div]
    · simp [f, hs]
    · simp only [f, gt_iff_lt, if_pos hs]
      rw [mul_neg, Real.arsinh_neg, neg_div]
  refine ⟨fun p h0 h1 => ?_, fun x => ?_, fun x => ?_, fun x => ?_, fun p q h0 h h1 => ?_,
    fun p h0 h1 => ?_⟩
  · rw [hp, hc, gf, show (4 : ℝ) * (0.25 * Real.log (p / (1 - p))) = Real.log (p / (1 - p)) by
      ring, expit_logit h0 h1]
  · rw [hp, hc, expit_odds, Real.log_exp, show (0.25 : ℝ) * (4 * g x) = g x by ring, fg]
  · rw [hc]; exact expit_pos _
  · rw [hc]; exact expit_lt_one _
  · rw [hp, hp]
    apply fmono
    have := logit_lt h0 h h1
    linarith
  · rw [hp, hp, logit_symm p, mul_neg, fodd]

/-- The scaled base distribution has its `1 - alpha` quantile at 1, its `alpha`
quantile at -1 and is again a symmetric base distribution. -/
theorem C58_basedist (phi : Base) (h : SymmetricBase phi) (alpha : ℝ) (ha0 : 0 < alpha)
    (ha1 : alpha < 1 / 2) :
    SymmetricBase (baseDist phi alpha) ∧ (baseDist phi alpha).ppf (1 - alpha) = 1 ∧
      (baseDist phi alpha).ppf alpha = -1 := by
  have hc := h.ppf_upper_pos ha0 ha1
  refine ⟨⟨fun p h0 h1 => ?_, fun x => ?_, fun x => h.cdf_pos _, fun x => h.cdf_lt_one _,
    fun p q h0 hpq h1 => ?_, fun p h0 h1 => ?_⟩, ?_, ?_⟩
  · simp only [baseDist, div_mul_cancel₀ _ hc.ne', h.cdf_ppf p h0 h1]
  · simp only [baseDist, h.ppf_cdf, mul_div_cancel_right₀ _ hc.ne']
  · exact div_lt_div_of_pos_right (h.mono p q h0 hpq h1) hc
  · simp only [baseDist, h.symm p h0 h1, neg_div]
  · exact div_self hc.ne'
  · simp only [baseDist, h.ppf_lower ha0 ha1, neg_div, div_self hc.ne']

theorem hasDerivAt_expit4 {g : ℝ → ℝ} {g' x : ℝ} (hg : HasDerivAt g g' x) :
    HasDerivAt (fun x => 1 / (1 + Real.exp (-4 * g x)))
      (g' / (Real.cosh (2 * g x)) ^ 2) x := by
  have h1 : HasDerivAt (fun x => 1 + Real.exp (-4 * g x)) (Real.exp (-4 * g x) * (-4 * g')) x :=
    ((hg.const_mul (-4)).exp).const_add 1
  have hpos : (1 + Real.exp (-4 * g x)) ≠ 0 := by positivity
  have h2 := (h1.inv hpos)
  simp only [one_div]
  refine h2.congr_deriv ?_
  rw [Real.cosh_eq]
  have e1 : Real.exp (-4 * g x) = (Real.exp (2 * g x))⁻¹ * (Real.exp (2 * g x))⁻¹ := by
    rw [← Real.exp_neg, ← Real.exp_add]; congr 1; ring
  rw [e1, Real.exp_neg]
  have := Real.exp_pos (2 * g x)
  field_simp
  ring

/-- **C58, density.**  For every shape parameter `SinhLogistic.pdf` is the
derivative of `SinhLogistic.cdf`, and it is positive. -/
theorem C58_sinhlogistic_pdf (shape x : ℝ) :
    HasDerivAt (sinhLogisticCdf shape) (sinhLogisticPdf shape x) x ∧
      0 < sinhLogisticPdf shape x := by
  rcases lt_trichotomy shape 0 with hs | hs | hs
  · have e : sinhLogisticCdf shape
        = fun x => 1 / (1 + Real.exp (-4 * (Real.arsinh (shape * x) / shape))) := by
      funext t; simp only [sinhLogisticCdf, gt_iff_lt, if_neg (not_lt.mpr hs.le), if_pos hs]
    have ep : sinhLogisticPdf shape x = 1 / Real.sqrt ((shape * x) ^ 2 + 1)
        / (Real.cosh (2 / shape * Real.arsinh (shape * x))) ^ 2 := by
      simp only [sinhLogisticPdf, gt_iff_lt, if_neg (not_lt.mpr hs.le), if_pos hs]
    rw [e, ep]
    refine ⟨?_, by have := Real.cosh_pos (2 / shape * Real.arsinh (shape * x)); positivity⟩
    have hg : HasDerivAt (fun x => Real.arsinh (shape * x) / shape)
        (1 / Real.sqrt ((shape * x) ^ 2 + 1)) x := by
      have h0 : HasDerivAt (fun x : ℝ => shape * x) shape x := by
        simpa using (hasDerivAt_id x).const_mul shape
      refine ((h0.arsinh).div_const shape).congr_deriv ?_
      rw [add_comm ((shape * x) ^ 2) 1, smul_eq_mul]
      field_simp
      exact div_self hs.ne
    refine (hasDerivAt_expit4 hg).congr_deriv ?_
    rw [show 2 * (Real.arsinh (shape * x) / shape) = 2 / shape * Real.arsinh (shape * x) by ring]
  · subst hs
    have e : sinhLogisticCdf 0 = fun x => 1 / (1 + Real.exp (-4 * x)) := by
      funext t; simp [sinhLogisticCdf]
    have ep : sinhLogisticPdf 0 x = 1 / (Real.cosh (2 * x)) ^ 2 := by simp [sinhLogisticPdf]
    rw [e, ep]
    exact ⟨hasDerivAt_expit4 (hasDerivAt_id x), by have := Real.cosh_pos (2 * x); positivity⟩
  · have e : sinhLogisticCdf shape
        = fun x => 1 / (1 + Real.exp (-4 * (Real.sinh (shape * x) / shape))) := by
      funext t; simp only [sinhLogisticCdf, gt_iff_lt, if_pos hs]
    have ep : sinhLogisticPdf shape x = Real.cosh (shape * x)
        / (Real.cosh (2 / shape * Real.sinh (shape * x))) ^ 2 := by
      simp only [sinhLogisticPdf, gt_iff_lt, if_pos hs]
    rw [e, ep]
    refine ⟨?_, by
      have := Real.cosh_pos (2 / shape * Real.sinh (shape * x))
      have := Real.cosh_pos (shape * x); positivity⟩
    have hg : HasDerivAt (fun x => Real.sinh (shape * x) / shape) (Real.cosh (shape * x)) x := by
      have h0 : HasDerivAt (fun x : ℝ => shape * x) shape x := by
        simpa using (hasDerivAt_id x).const_mul shape
      refine ((h0.sinh).div_const shape).congr_deriv ?_
      field_simp
    refine (hasDerivAt_expit4 hg).congr_deriv ?_
    rw [show 2 * (Real.sinh (shape * x) / shape) = 2 / shape * Real.sinh (shape * x) by ring]

/-- The scaled density is the derivative of the scaled distribution function. -/
theorem C58_basedist_pdf (dist : Base) (pdf : ℝ → ℝ)
    (h : ∀ x, HasDerivAt dist.cdf (pdf x) x) (alpha x : ℝ) :
    HasDerivAt (baseDist dist alpha).cdf (baseDistPdf dist pdf alpha x) x := by
  have h0 : HasDerivAt (fun x : ℝ => x * dist.ppf (1 - alpha)) (dist.ppf (1 - alpha)) x := by
    simpa using (hasDerivAt_id x).mul_const (dist.ppf (1 - alpha))
  exact (h _).comp x h0

end CB
