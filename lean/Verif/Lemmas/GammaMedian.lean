import Verif.Spec.GammaMedian
import Mathlib.Analysis.SpecialFunctions.Gamma.Basic
import Mathlib.Analysis.SpecialFunctions.Integrals.Basic
import Mathlib.Analysis.SpecialFunctions.Log.Deriv
import Mathlib.Analysis.SpecialFunctions.Trigonometric.DerivHyp
import Mathlib.MeasureTheory.Integral.IntervalIntegral.FundThmCalculus
import Mathlib.MeasureTheory.Integral.IntegralEqImproper

/-!
# Bounds for the medians of the gamma distributions

The median of the gamma distribution with shape `a` is not above its mean `a` (substitution `t = a * exp u`) and, for shapes above 1,
not below `a - 1/3`: the share below `a - 1/3` grows from each shape to the next and tends to at most one half.
-/

set_option autoImplicit false
set_option linter.unusedSectionVars false

namespace CB
open MeasureTheory Set Filter Topology

/-- The density of the gamma distribution with rate 1, up to its constant. -/
noncomputable def gammaKernel (a t : ℝ) : ℝ := t ^ (a - 1) * Real.exp (-t)

theorem gammaKernel_nonneg (a : ℝ) {t : ℝ} (ht : 0 ≤ t) : 0 ≤ gammaKernel a t :=
  mul_nonneg (Real.rpow_nonneg ht _) (Real.exp_pos _).le

theorem gammaKernel_pos (a : ℝ) {t : ℝ} (ht : 0 < t) : 0 < gammaKernel a t :=
  mul_pos (Real.rpow_pos_of_pos ht _) (Real.exp_pos _)

theorem gammaKernel_integrable {a : ℝ} (ha : 0 < a) : IntegrableOn (gammaKernel a) (Ioi 0) := by
  have := Real.GammaIntegral_convergent ha
  refine this.congr_fun (fun t _ => ?_) measurableSet_Ioi
  unfold gammaKernel; ring

theorem gammaKernel_integral {a : ℝ} (ha : 0 < a) : ∫ t in Ioi (0 : ℝ), gammaKernel a t = Real.Gamma a := by
  rw [Real.Gamma_eq_integral ha]
  refine setIntegral_congr_fun measurableSet_Ioi (fun t _ => ?_)
  unfold gammaKernel; ring

theorem gammaKernel_interval {a : ℝ} (ha : 0 < a) {x y : ℝ} (hx : 0 ≤ x) (hy : 0 ≤ y) :
    IntervalIntegrable (gammaKernel a) volume x y := by
  have h0 : ∀ z : ℝ, 0 ≤ z → IntervalIntegrable (gammaKernel a) volume 0 z := fun z hz => by
    rw [intervalIntegrable_iff_integrableOn_Ioc_of_le hz]
    exact (gammaKernel_integrable ha).mono_set Ioc_subset_Ioi_self
  exact (h0 x hx).symm.trans (h0 y hy)

/-- The part of the integral above `x`. -/
theorem gammaKernel_split {a : ℝ} (ha : 0 < a) {x : ℝ} (hx : 0 ≤ x) :
    (∫ t in (0 : ℝ)..x, gammaKernel a t) + ∫ t in Ioi x, gammaKernel a t = Real.Gamma a := by
  rw [← gammaKernel_integral ha]
  exact intervalIntegral.integral_interval_add_Ioi (gammaKernel_integrable ha)
    ((gammaKernel_integrable ha).mono_set (Ioi_subset_Ioi hx))

theorem gammaKernel_mono {a : ℝ} (ha : 0 < a) {x y : ℝ} (hx : 0 ≤ x) (hxy : x < y) :
    ∫ t in (0 : ℝ)..x, gammaKernel a t < ∫ t in (0 : ℝ)..y, gammaKernel a t := by
  have e : (∫ t in (0 : ℝ)..x, gammaKernel a t) + ∫ t in x..y, gammaKernel a t = ∫ t in (0 : ℝ)..y, gammaKernel a t :=
    intervalIntegral.integral_add_adjacent_intervals (gammaKernel_interval ha le_rfl hx)
      (gammaKernel_interval ha hx (hx.trans hxy.le))
  have : 0 < ∫ t in x..y, gammaKernel a t :=
    intervalIntegral.intervalIntegral_pos_of_pos_on (gammaKernel_interval ha hx (hx.trans hxy.le))
      (fun t ht => gammaKernel_pos a (lt_of_le_of_lt hx ht.1)) hxy
  linarith

/-- A finite piece is at most the integral over the half line. -/
theorem gammaKernel_piece {a : ℝ} (ha : 0 < a) {x y : ℝ} (hx : 0 ≤ x) (hxy : x ≤ y) :
    ∫ t in x..y, gammaKernel a t ≤ ∫ t in Ioi x, gammaKernel a t := by
  rw [intervalIntegral.integral_of_le hxy]
  refine setIntegral_mono_set ((gammaKernel_integrable ha).mono_set (Ioi_subset_Ioi hx)) ?_ ?_
  · exact (ae_restrict_iff' measurableSet_Ioi).mpr (Eventually.of_forall fun t ht => gammaKernel_nonneg a (hx.trans (le_of_lt ht)))
  · exact Ioc_subset_Ioi_self.eventuallyLE

/-! ### The median lies above the mode -/

theorem two_mul_le_log_ratio {u : ℝ} (h0 : 0 ≤ u) (h1 : u < 1) : 2 * u ≤ Real.log ((1 + u) / (1 - u)) := by
  have hs := Real.hasSum_log_sub_log_of_abs_lt_one (x := u) (by rw [abs_of_nonneg h0]; exact h1)
  rw [Real.log_div (by linarith) (by linarith)]
  have := hs.summable.sum_le_tsum (Finset.range 1) (fun i _ => by positivity)
  rw [hs.tsum_eq] at this
  simpa using this

theorem gamma_mode_le_median {m : ℝ} (hm : 0 < m) :
    ∫ t in (0 : ℝ)..m, gammaKernel (m + 1) t ≤ ∫ t in Ioi m, gammaKernel (m + 1) t := by
  have ha : 0 < m + 1 := by linarith
  refine le_trans ?_ (gammaKernel_piece ha hm.le (by linarith : m ≤ 2 * m))
  have e1 : ∫ t in (0 : ℝ)..m, gammaKernel (m + 1) t = ∫ x in (0 : ℝ)..m, gammaKernel (m + 1) (m - x) := by
    rw [intervalIntegral.integral_comp_sub_left (fun t => gammaKernel (m + 1) t) m]; simp
  have e2 : ∫ t in m..(2 * m), gammaKernel (m + 1) t = ∫ x in (0 : ℝ)..m, gammaKernel (m + 1) (m + x) := by
    rw [intervalIntegral.integral_comp_add_left (fun t => gammaKernel (m + 1) t) m]; simp [two_mul]
  have hc : Continuous (gammaKernel (m + 1)) := by
    unfold gammaKernel
    refine Continuous.mul ?_ (by fun_prop)
    exact Real.continuous_rpow_const (by linarith)
  rw [e1, e2]
  refine intervalIntegral.integral_mono_on hm.le ?_ ?_ fun x hx => ?_
  · exact (hc.comp (continuous_const.sub continuous_id)).intervalIntegrable _ _
  · exact (hc.comp (continuous_const.add continuous_id)).intervalIntegrable _ _
  · rcases hx.2.lt_or_eq with h | h
    · unfold gammaKernel
      rw [add_sub_cancel_right]
      have hp : 0 < m - x := by linarith
      have hq : 0 < m + x := by linarith [hx.1]
      rw [Real.rpow_def_of_pos hp, Real.rpow_def_of_pos hq, ← Real.exp_add, ← Real.exp_add]
      apply Real.exp_le_exp.mpr
      have := two_mul_le_log_ratio (u := x / m) (div_nonneg hx.1 hm.le) ((div_lt_one hm).mpr h)
      have e : (1 + x / m) / (1 - x / m) = (m + x) / (m - x) := by field_simp
      rw [e, Real.log_div hq.ne' hp.ne'] at this
      have h3 := mul_le_mul_of_nonneg_left this hm.le
      have h4 : m * (2 * (x / m)) = 2 * x := by field_simp
      nlinarith
    · rw [h, sub_self]
      unfold gammaKernel
      rw [add_sub_cancel_right, Real.zero_rpow hm.ne', zero_mul]
      positivity


/-! ### The median lies below the mean -/

theorem gamma_median_le_mean {a : ℝ} (ha : 0 < a) :
    ∫ t in Ioi a, gammaKernel a t ≤ ∫ t in (0 : ℝ)..a, gammaKernel a t := by
  -- substitution `t = a * exp u`
  have hsub : ∀ x y : ℝ, ∫ u in x..y, gammaKernel a (a * Real.exp u) * (a * Real.exp u)
      = ∫ t in (a * Real.exp x)..(a * Real.exp y), gammaKernel a t := by
    intro x y
    have hd : ∀ u ∈ uIcc x y, HasDerivAt (fun u => a * Real.exp u) (a * Real.exp u) u := fun u _ =>
      (Real.hasDerivAt_exp u).const_mul a
    have hcont : ContinuousOn (gammaKernel a) ((fun u => a * Real.exp u) '' uIcc x y) := by
      rintro _ ⟨u, -, rfl⟩
      apply ContinuousAt.continuousWithinAt
      unfold gammaKernel
      refine ContinuousAt.mul ?_ (by fun_prop)
      exact Real.continuousAt_rpow_const _ _ (Or.inl (by positivity))
    exact intervalIntegral.integral_comp_mul_deriv' hd (by fun_prop) hcont
  have hform : ∀ u : ℝ, gammaKernel a (a * Real.exp u) * (a * Real.exp u)
      = a ^ a * Real.exp (a * (u - Real.exp u)) := by
    intro u
    have hp : 0 < a * Real.exp u := by positivity
    unfold gammaKernel
    rw [mul_right_comm, ← Real.rpow_add_one hp.ne', sub_add_cancel, Real.mul_rpow ha.le (Real.exp_pos u).le, ← Real.exp_mul,
      mul_assoc, ← Real.exp_add]
    congr 2
    ring
  have key : ∀ L : ℝ, 0 ≤ L → ∫ t in a..(a * Real.exp L), gammaKernel a t ≤ ∫ t in (0 : ℝ)..a, gammaKernel a t := by
    intro L hL
    have e1 := hsub 0 L
    have e2 := hsub (-L) 0
    rw [Real.exp_zero, mul_one] at e1 e2
    have e3 : ∫ u in (-L)..0, gammaKernel a (a * Real.exp u) * (a * Real.exp u)
        = ∫ u in (0 : ℝ)..L, gammaKernel a (a * Real.exp (-u)) * (a * Real.exp (-u)) := by
      rw [intervalIntegral.integral_comp_neg (fun u => gammaKernel a (a * Real.exp u) * (a * Real.exp u))]; simp
    have h1 : ∫ t in a..(a * Real.exp L), gammaKernel a t ≤ ∫ t in (a * Real.exp (-L))..a, gammaKernel a t := by
      rw [← e1, ← e2, e3]
      simp only [hform]
      refine intervalIntegral.integral_mono_on hL ?_ ?_ fun u hu => ?_
      · exact Continuous.intervalIntegrable (by fun_prop) _ _
      · exact Continuous.intervalIntegrable (by fun_prop) _ _
      · apply mul_le_mul_of_nonneg_left _ (Real.rpow_nonneg ha.le _)
        apply Real.exp_le_exp.mpr
        apply mul_le_mul_of_nonneg_left _ ha.le
        have := Real.self_le_sinh_iff.mpr hu.1
        rw [Real.sinh_eq] at this
        linarith
    refine h1.trans ?_
    have hp : 0 ≤ a * Real.exp (-L) := by positivity
    have e : (∫ t in (0 : ℝ)..(a * Real.exp (-L)), gammaKernel a t) + ∫ t in (a * Real.exp (-L))..a, gammaKernel a t
        = ∫ t in (0 : ℝ)..a, gammaKernel a t :=
      intervalIntegral.integral_add_adjacent_intervals (gammaKernel_interval ha le_rfl hp) (gammaKernel_interval ha hp ha.le)
    have h0 : 0 ≤ ∫ t in (0 : ℝ)..(a * Real.exp (-L)), gammaKernel a t :=
      intervalIntegral.integral_nonneg hp fun t ht => gammaKernel_nonneg a ht.1
    linarith
  have hlim := intervalIntegral_tendsto_integral_Ioi a ((gammaKernel_integrable ha).mono_set (Ioi_subset_Ioi ha.le))
    (tendsto_id (α := ℝ) (x := atTop))
  refine le_of_tendsto hlim ?_
  filter_upwards [eventually_ge_atTop a] with T hT
  have hTa : 1 ≤ T / a := (one_le_div ha).mpr hT
  have := key (Real.log (T / a)) (Real.log_nonneg hTa)
  rwa [Real.exp_log (by linarith), mul_div_cancel₀ _ ha.ne'] at this

/-! ### One step of the shape -/

theorem gammaKernel_succ {a : ℝ} (ha : 1 ≤ a) {x : ℝ} (hx : 0 ≤ x) :
    ∫ t in (0 : ℝ)..x, gammaKernel (a + 1) t = a * (∫ t in (0 : ℝ)..x, gammaKernel a t) - gammaKernel (a + 1) x := by
  have hd : ∀ t ∈ uIcc 0 x, HasDerivAt (fun t => gammaKernel (a + 1) t) (a * gammaKernel a t - gammaKernel (a + 1) t) t := by
    intro t _
    unfold gammaKernel
    rw [add_sub_cancel_right]
    have h1 := Real.hasDerivAt_rpow_const (x := t) (p := a) (Or.inr ha)
    have h2 : HasDerivAt (fun t : ℝ => Real.exp (-t)) (Real.exp (-t) * (-1)) t := (hasDerivAt_neg t).exp
    exact (h1.mul h2).congr_deriv (by ring)
  have hi1 := (gammaKernel_interval (a := a) (by linarith) le_rfl hx).const_mul a
  have hi2 := gammaKernel_interval (a := a + 1) (by linarith) le_rfl hx
  have h := intervalIntegral.integral_eq_sub_of_hasDerivAt hd (hi1.sub hi2)
  rw [intervalIntegral.integral_sub hi1 hi2, intervalIntegral.integral_const_mul] at h
  have h0 : gammaKernel (a + 1) 0 = 0 := by
    unfold gammaKernel
    rw [add_sub_cancel_right, Real.zero_rpow (by linarith), zero_mul]
  rw [h0] at h
  linarith

/-- A lower bound of the logarithm. -/
theorem log_pade {x : ℝ} (hx : 0 ≤ x) : x * (6 + 5 * x) / ((6 + 2 * x) * (1 + x)) ≤ Real.log (1 + x) := by
  have hd : ∀ t : ℝ, 0 ≤ t → HasDerivAt (fun t => Real.log (1 + t) - t * (6 + 5 * t) / ((6 + 2 * t) * (1 + t)))
      (4 * t ^ 3 / ((6 + 2 * t) ^ 2 * (1 + t) ^ 2)) t := by
    intro t ht
    have p1 : (1 + t) ≠ 0 := by positivity
    have p2 : (6 + 2 * t) ≠ 0 := by positivity
    have h1 : HasDerivAt (fun t : ℝ => Real.log (1 + t)) (1 / (1 + t)) t := ((hasDerivAt_id t).const_add 1).log p1
    have h2 : HasDerivAt (fun t : ℝ => t * (6 + 5 * t)) (1 * (6 + 5 * t) + t * (5 * 1)) t :=
      (hasDerivAt_id t).mul (((hasDerivAt_id t).const_mul 5).const_add 6)
    have h3 : HasDerivAt (fun t : ℝ => (6 + 2 * t) * (1 + t)) (2 * 1 * (1 + t) + (6 + 2 * t) * 1) t :=
      (((hasDerivAt_id t).const_mul 2).const_add 6).mul ((hasDerivAt_id t).const_add 1)
    refine (h1.sub (h2.div h3 (mul_ne_zero p2 p1))).congr_deriv ?_
    field_simp
    ring
  have hm : MonotoneOn (fun t => Real.log (1 + t) - t * (6 + 5 * t) / ((6 + 2 * t) * (1 + t))) (Ici 0) := by
    apply monotoneOn_of_deriv_nonneg (convex_Ici 0)
    · exact fun t ht => (hd t ht).continuousAt.continuousWithinAt
    · intro t ht
      rw [interior_Ici] at ht
      exact (hd t (le_of_lt ht)).differentiableAt.differentiableWithinAt
    · intro t ht
      rw [interior_Ici] at ht
      have ht' : 0 < t := ht
      rw [(hd t ht'.le).deriv]
      positivity
  have := hm (mem_Ici.mpr le_rfl) (mem_Ici.mpr hx) hx
  simp only [add_zero, Real.log_one, zero_mul, mul_zero, zero_div, sub_zero] at this
  linarith

theorem gammaKernel_average {c : ℝ} (hc : 0 < c) :
    gammaKernel (c + 1 / 3 + 1) c ≤ ∫ t in c..(c + 1), gammaKernel (c + 1 / 3 + 1) t := by
  set α := c + 1 / 3 with hα
  have hα0 : 0 < α := by positivity
  have hlog : IntervalIntegrable Real.log volume c (c + 1) := intervalIntegral.intervalIntegrable_log'
  have hpt : ∀ t ∈ Icc c (c + 1), gammaKernel (α + 1) c * (1 + α * (Real.log t - Real.log c) - (t - c)) ≤ gammaKernel (α + 1) t := by
    intro t ht
    have htp : 0 < t := lt_of_lt_of_le hc ht.1
    unfold gammaKernel
    rw [add_sub_cancel_right, Real.rpow_def_of_pos hc, Real.rpow_def_of_pos htp, ← Real.exp_add, ← Real.exp_add]
    have h1 := Real.add_one_le_exp (α * (Real.log t - Real.log c) - (t - c))
    have h2 : Real.exp (Real.log t * α + -t) = Real.exp (Real.log c * α + -c) * Real.exp (α * (Real.log t - Real.log c) - (t - c)) := by
      rw [← Real.exp_add]; congr 1; ring
    rw [h2]
    exact mul_le_mul_of_nonneg_left (by linarith) (Real.exp_pos _).le
  have hi : IntervalIntegrable (fun t => 1 + α * (Real.log t - Real.log c) - (t - c)) volume c (c + 1) := by
    refine IntervalIntegrable.sub (IntervalIntegrable.add ?_ ((hlog.sub ?_).const_mul α)) ?_
    all_goals exact Continuous.intervalIntegrable (by fun_prop) _ _
  have hmono := intervalIntegral.integral_mono_on (by linarith : c ≤ c + 1) (hi.const_mul (gammaKernel (α + 1) c))
    (gammaKernel_interval (a := α + 1) (by linarith) hc.le (by linarith)) hpt
  refine le_trans ?_ hmono
  rw [intervalIntegral.integral_const_mul]
  have hval : ∫ t in c..(c + 1), (1 + α * (Real.log t - Real.log c) - (t - c))
      = 1 / 2 + α * ((c + 1) * (Real.log (c + 1) - Real.log c) - 1) := by
    have i1 : IntervalIntegrable (fun _ : ℝ => (1 : ℝ)) volume c (c + 1) := Continuous.intervalIntegrable (by fun_prop) _ _
    have i2 : IntervalIntegrable (fun _ : ℝ => Real.log c) volume c (c + 1) := Continuous.intervalIntegrable (by fun_prop) _ _
    have i3 : IntervalIntegrable (fun t : ℝ => t - c) volume c (c + 1) := Continuous.intervalIntegrable (by fun_prop) _ _
    have i4 : IntervalIntegrable (fun t : ℝ => t) volume c (c + 1) := Continuous.intervalIntegrable (by fun_prop) _ _
    have i5 : IntervalIntegrable (fun _ : ℝ => c) volume c (c + 1) := Continuous.intervalIntegrable (by fun_prop) _ _
    rw [intervalIntegral.integral_sub (i1.add ((hlog.sub i2).const_mul α)) i3,
      intervalIntegral.integral_add i1 ((hlog.sub i2).const_mul α), intervalIntegral.integral_const_mul,
      intervalIntegral.integral_sub hlog i2, integral_log, intervalIntegral.integral_const, intervalIntegral.integral_const,
      intervalIntegral.integral_sub i4 i5, integral_id, intervalIntegral.integral_const]
    simp only [smul_eq_mul]
    ring
  rw [hval]
  have hone : 1 ≤ 1 / 2 + α * ((c + 1) * (Real.log (c + 1) - Real.log c) - 1) := by
    have h1 := log_pade (x := 1 / c) (by positivity)
    have h2 : Real.log (1 + 1 / c) = Real.log (c + 1) - Real.log c := by
      rw [← Real.log_div (by positivity) hc.ne']; congr 1; field_simp
    rw [h2] at h1
    have h3 : 1 / c * (6 + 5 * (1 / c)) / ((6 + 2 * (1 / c)) * (1 + 1 / c)) = (6 * c + 5) / ((6 * c + 2) * (c + 1)) := by
      field_simp
    rw [h3] at h1
    have h4 : (6 * c + 5) / ((6 * c + 2) * (c + 1)) * (c + 1) = (6 * c + 5) / (6 * c + 2) := by field_simp
    have h5 := mul_le_mul_of_nonneg_right h1 (by linarith : (0 : ℝ) ≤ c + 1)
    rw [h4] at h5
    have h6 : α * ((6 * c + 5) / (6 * c + 2) - 1) = 1 / 2 := by rw [hα]; field_simp; ring
    have h7 := mul_le_mul_of_nonneg_left (sub_le_sub_right h5 1) hα0.le
    rw [h6] at h7
    nlinarith
  have hk := gammaKernel_nonneg (α + 1) hc.le
  nlinarith

/-- The share of the gamma distribution with shape `a` below `x`. -/
noncomputable def gammaShare (a x : ℝ) : ℝ := (∫ t in (0 : ℝ)..x, gammaKernel a t) / Real.Gamma a

theorem gammaShare_step {a : ℝ} (ha : 1 ≤ a) : gammaShare a (a - 1 / 3) ≤ gammaShare (a + 1) (a + 1 - 1 / 3) := by
  have hc : 0 < a - 1 / 3 := by linarith
  have h1 := gammaKernel_average hc
  rw [sub_add_cancel] at h1
  have h2 := gammaKernel_succ ha hc.le
  have e : (∫ t in (0 : ℝ)..(a - 1 / 3), gammaKernel (a + 1) t) + ∫ t in (a - 1 / 3)..(a - 1 / 3 + 1), gammaKernel (a + 1) t
      = ∫ t in (0 : ℝ)..(a - 1 / 3 + 1), gammaKernel (a + 1) t :=
    intervalIntegral.integral_add_adjacent_intervals (gammaKernel_interval (by linarith) le_rfl hc.le)
      (gammaKernel_interval (by linarith) hc.le (by linarith))
  have hG := Real.Gamma_pos_of_pos (by linarith : 0 < a)
  unfold gammaShare
  rw [Real.Gamma_add_one (by linarith), show a + 1 - 1 / 3 = a - 1 / 3 + 1 by ring, div_le_div_iff₀ hG (by positivity)]
  have h3 : a * (∫ t in (0 : ℝ)..(a - 1 / 3), gammaKernel a t) ≤ ∫ t in (0 : ℝ)..(a - 1 / 3 + 1), gammaKernel (a + 1) t := by
    linarith
  nlinarith

/-- The density at the mode vanishes for large shapes. -/
theorem gamma_mode_small {m : ℝ} (hm : 0 < m) : gammaKernel (m + 1) m * Real.sqrt m ≤ Real.exp (1 / 2) * Real.Gamma (m + 1) := by
  have ha : 0 < m + 1 := by linarith
  have hs : 0 < Real.sqrt m := Real.sqrt_pos.mpr hm
  have h1 : ∫ t in m..(m + Real.sqrt m), gammaKernel (m + 1) t ≤ Real.Gamma (m + 1) := by
    have := gammaKernel_piece ha hm.le (by linarith : m ≤ m + Real.sqrt m)
    have h2 := gammaKernel_split ha hm.le
    have h3 : 0 ≤ ∫ t in (0 : ℝ)..m, gammaKernel (m + 1) t :=
      intervalIntegral.integral_nonneg hm.le fun t ht => gammaKernel_nonneg _ ht.1
    linarith
  have h2 : ∫ _ in m..(m + Real.sqrt m), gammaKernel (m + 1) m * Real.exp (-(1 / 2)) ≤ ∫ t in m..(m + Real.sqrt m), gammaKernel (m + 1) t := by
    refine intervalIntegral.integral_mono_on (by linarith) (Continuous.intervalIntegrable (by fun_prop) _ _)
      (gammaKernel_interval ha hm.le (by linarith)) fun t ht => ?_
    have htp : 0 < t := lt_of_lt_of_le hm ht.1
    unfold gammaKernel
    rw [add_sub_cancel_right, Real.rpow_def_of_pos hm, Real.rpow_def_of_pos htp, ← Real.exp_add, ← Real.exp_add, ← Real.exp_add]
    apply Real.exp_le_exp.mpr
    -- with `t = m + x`: `m * log (1 + x / m) - x ≥ - x² / (2 m)`
    have hx0 : 0 ≤ t - m := by linarith [ht.1]
    have hxs : (t - m) ^ 2 ≤ m := by
      have : t - m ≤ Real.sqrt m := by linarith [ht.2]
      calc (t - m) ^ 2 ≤ Real.sqrt m ^ 2 := pow_le_pow_left₀ hx0 this 2
        _ = m := Real.sq_sqrt hm.le
    have hl : (t - m) / m - ((t - m) / m) ^ 2 / 2 ≤ Real.log (1 + (t - m) / m) := by
      have hu : 0 ≤ (t - m) / m := div_nonneg hx0 hm.le
      refine le_trans ?_ (log_pade hu)
      set v := (t - m) / m
      rw [le_div_iff₀ (by positivity)]
      nlinarith [pow_nonneg hu 3, pow_nonneg hu 4, pow_nonneg hu 2]
    have e : 1 + (t - m) / m = t / m := by field_simp; ring
    rw [e, Real.log_div htp.ne' hm.ne'] at hl
    have h5 := mul_le_mul_of_nonneg_left hl hm.le
    have h6 : m * ((t - m) / m - ((t - m) / m) ^ 2 / 2) = (t - m) - (t - m) ^ 2 / (2 * m) := by field_simp
    have h7 : (t - m) ^ 2 / (2 * m) ≤ 1 / 2 := by rw [div_le_iff₀ (by positivity)]; linarith
    rw [h6] at h5
    nlinarith
  rw [intervalIntegral.integral_const, smul_eq_mul, add_sub_cancel_left] at h2
  have h3 : Real.exp (-(1 / 2)) * Real.exp (1 / 2) = 1 := by rw [← Real.exp_add]; simp
  have h4 := mul_le_mul_of_nonneg_right (h2.trans h1) (Real.exp_pos (1 / 2)).le
  calc gammaKernel (m + 1) m * Real.sqrt m = Real.sqrt m * (gammaKernel (m + 1) m * Real.exp (-(1 / 2))) * Real.exp (1 / 2) := by
        rw [mul_assoc, mul_assoc, h3]; ring
    _ ≤ Real.Gamma (m + 1) * Real.exp (1 / 2) := h4
    _ = _ := by ring

/-- The density is largest at the mode. -/
theorem gammaKernel_le_mode {m t : ℝ} (hm : 0 < m) (ht : 0 < t) : gammaKernel (m + 1) t ≤ gammaKernel (m + 1) m := by
  unfold gammaKernel
  rw [add_sub_cancel_right, Real.rpow_def_of_pos hm, Real.rpow_def_of_pos ht, ← Real.exp_add, ← Real.exp_add]
  apply Real.exp_le_exp.mpr
  have := Real.log_le_sub_one_of_pos (div_pos ht hm)
  rw [Real.log_div ht.ne' hm.ne'] at this
  have h2 := mul_le_mul_of_nonneg_left this hm.le
  have h3 : m * (t / m - 1) = t - m := by field_simp
  nlinarith

theorem gammaShare_third_bound {a : ℝ} (ha : 1 < a) :
    gammaShare a (a - 1 / 3) ≤ 1 / 2 + 2 / 3 * Real.exp (1 / 2) / Real.sqrt (a - 1) := by
  obtain ⟨m, rfl⟩ : ∃ m, a = m + 1 := ⟨a - 1, by ring⟩
  have hm : 0 < m := by linarith
  have ha0 : 0 < m + 1 := by linarith
  have hG := Real.Gamma_pos_of_pos ha0
  have h1 := gamma_mode_le_median hm
  have h2 := gammaKernel_split ha0 hm.le
  have e : (∫ t in (0 : ℝ)..m, gammaKernel (m + 1) t) + ∫ t in m..(m + 1 - 1 / 3), gammaKernel (m + 1) t
      = ∫ t in (0 : ℝ)..(m + 1 - 1 / 3), gammaKernel (m + 1) t :=
    intervalIntegral.integral_add_adjacent_intervals (gammaKernel_interval ha0 le_rfl hm.le)
      (gammaKernel_interval ha0 hm.le (by linarith))
  have h3 : ∫ t in m..(m + 1 - 1 / 3), gammaKernel (m + 1) t ≤ ∫ _ in m..(m + 1 - 1 / 3), gammaKernel (m + 1) m :=
    intervalIntegral.integral_mono_on (by linarith) (gammaKernel_interval ha0 hm.le (by linarith))
      (Continuous.intervalIntegrable (by fun_prop) _ _) fun t ht => gammaKernel_le_mode hm (lt_of_lt_of_le hm ht.1)
  rw [intervalIntegral.integral_const, smul_eq_mul, show m + 1 - 1 / 3 - m = 2 / 3 by ring] at h3
  have h4 := gamma_mode_small hm
  have hs : 0 < Real.sqrt m := Real.sqrt_pos.mpr hm
  rw [← le_div_iff₀ hs] at h4
  rw [add_sub_cancel_right]
  unfold gammaShare
  rw [div_le_iff₀ hG, ← e]
  have h5 : (1 / 2 + 2 / 3 * Real.exp (1 / 2) / Real.sqrt m) * Real.Gamma (m + 1)
      = Real.Gamma (m + 1) / 2 + 2 / 3 * (Real.exp (1 / 2) * Real.Gamma (m + 1) / Real.sqrt m) := by ring
  rw [h5]
  linarith

theorem gammaShare_third {a : ℝ} (ha : 1 < a) : gammaShare a (a - 1 / 3) ≤ 1 / 2 := by
  have hn : ∀ n : ℕ, gammaShare a (a - 1 / 3) ≤ gammaShare (a + n) (a + n - 1 / 3) := by
    intro n
    induction n with
    | zero => simp
    | succ n ih =>
      refine ih.trans ?_
      have := gammaShare_step (a := a + n) (by have : (0 : ℝ) ≤ n := Nat.cast_nonneg n; linarith)
      rw [Nat.cast_succ, ← add_assoc]
      exact this
  have hlim : Tendsto (fun n : ℕ => 1 / 2 + 2 / 3 * Real.exp (1 / 2) / Real.sqrt (a + n - 1)) atTop (𝓝 (1 / 2 + 0)) := by
    refine tendsto_const_nhds.add (Tendsto.const_div_atTop ?_ _)
    refine Real.tendsto_sqrt_atTop.comp ?_
    have : (fun n : ℕ => a + (n : ℝ) - 1) = fun n : ℕ => (n : ℝ) + (a - 1) := by ext n; ring
    rw [this]
    exact tendsto_atTop_add_const_right _ _ tendsto_natCast_atTop_atTop
  rw [add_zero] at hlim
  refine ge_of_tendsto' hlim fun n => (hn n).trans ?_
  exact gammaShare_third_bound (by have : (0 : ℝ) ≤ n := Nat.cast_nonneg n; linarith)

/-! ### Larger shapes have larger medians -/

theorem gammaShare_antitone {a a' x : ℝ} (ha : 0 < a) (haa : a ≤ a') (hx : 0 < x) : gammaShare a' x ≤ gammaShare a x := by
  have ha' : 0 < a' := lt_of_lt_of_le ha haa
  have hG := Real.Gamma_pos_of_pos ha
  have hG' := Real.Gamma_pos_of_pos ha'
  have hk : ∀ t : ℝ, 0 < t → gammaKernel a' t = t ^ (a' - a) * gammaKernel a t := by
    intro t ht
    unfold gammaKernel
    rw [← mul_assoc, ← Real.rpow_add ht]
    congr 2; ring
  set k := x ^ (a' - a) with hkx
  have hk0 : 0 < k := Real.rpow_pos_of_pos hx _
  have h1 : ∫ t in (0 : ℝ)..x, gammaKernel a' t ≤ k * ∫ t in (0 : ℝ)..x, gammaKernel a t := by
    rw [← intervalIntegral.integral_const_mul]
    refine intervalIntegral.integral_mono_on_of_le_Ioo hx.le (gammaKernel_interval ha' le_rfl hx.le)
      ((gammaKernel_interval ha le_rfl hx.le).const_mul k) fun t ht => ?_
    rw [hk t ht.1]
    exact mul_le_mul_of_nonneg_right (Real.rpow_le_rpow ht.1.le ht.2.le (by linarith)) (gammaKernel_nonneg a ht.1.le)
  have h2 : k * ∫ t in Ioi x, gammaKernel a t ≤ ∫ t in Ioi x, gammaKernel a' t := by
    rw [← integral_const_mul]
    refine setIntegral_mono_on (((gammaKernel_integrable ha).mono_set (Ioi_subset_Ioi hx.le)).const_mul k)
      ((gammaKernel_integrable ha').mono_set (Ioi_subset_Ioi hx.le)) measurableSet_Ioi fun t ht => ?_
    have ht' : x < t := ht
    rw [hk t (hx.trans ht')]
    exact mul_le_mul_of_nonneg_right (Real.rpow_le_rpow hx.le ht'.le (by linarith)) (gammaKernel_nonneg a (hx.trans ht').le)
  have s1 := gammaKernel_split ha hx.le
  have s2 := gammaKernel_split ha' hx.le
  have p1 : 0 ≤ ∫ t in (0 : ℝ)..x, gammaKernel a t := intervalIntegral.integral_nonneg hx.le fun t ht => gammaKernel_nonneg a ht.1
  have p2 : 0 ≤ ∫ t in Ioi x, gammaKernel a t :=
    setIntegral_nonneg measurableSet_Ioi fun t ht => gammaKernel_nonneg a (hx.trans ht).le
  have p3 : 0 ≤ ∫ t in (0 : ℝ)..x, gammaKernel a' t := intervalIntegral.integral_nonneg hx.le fun t ht => gammaKernel_nonneg a' ht.1
  unfold gammaShare
  rw [div_le_div_iff₀ hG' hG, ← s1, ← s2]
  set A := ∫ t in (0 : ℝ)..x, gammaKernel a t
  set B := ∫ t in Ioi x, gammaKernel a t
  set A' := ∫ t in (0 : ℝ)..x, gammaKernel a' t
  set B' := ∫ t in Ioi x, gammaKernel a' t
  have q1 : A' * B ≤ k * A * B := mul_le_mul_of_nonneg_right h1 p2
  have q2 : A * (k * B) ≤ A * B' := mul_le_mul_of_nonneg_left h2 p1
  nlinarith


/-! ### The median -/

theorem gammaShare_strictMono {a x y : ℝ} (ha : 0 < a) (hx : 0 ≤ x) (hxy : x < y) : gammaShare a x < gammaShare a y := by
  have hG := Real.Gamma_pos_of_pos ha
  unfold gammaShare
  rw [div_lt_div_iff_of_pos_right hG]
  have e : (∫ t in (0 : ℝ)..x, gammaKernel a t) + ∫ t in x..y, gammaKernel a t = ∫ t in (0 : ℝ)..y, gammaKernel a t :=
    intervalIntegral.integral_add_adjacent_intervals (gammaKernel_interval ha le_rfl hx) (gammaKernel_interval ha hx (hx.trans hxy.le))
  have : 0 < ∫ t in x..y, gammaKernel a t :=
    intervalIntegral.intervalIntegral_pos_of_pos_on (gammaKernel_interval ha hx (hx.trans hxy.le))
      (fun t ht => gammaKernel_pos a (lt_of_le_of_lt hx ht.1)) hxy
  linarith

theorem IsGammaMedian.share {a m : ℝ} (ha : 0 < a) (h : Spec.IsGammaMedian a m) : gammaShare a m = 1 / 2 := by
  have h1 := gammaKernel_split ha h.1.le
  have h2 : ∫ t in (0 : ℝ)..m, gammaKernel a t = ∫ t in Ioi m, gammaKernel a t := h.2
  unfold gammaShare
  rw [← h1, ← h2]
  have hp : 0 < ∫ t in (0 : ℝ)..m, gammaKernel a t :=
    intervalIntegral.intervalIntegral_pos_of_pos_on (gammaKernel_interval ha le_rfl h.1.le) (fun t ht => gammaKernel_pos a ht.1) h.1
  field_simp
  norm_num

theorem gammaShare_le_iff {a x m : ℝ} (ha : 0 < a) (hm : Spec.IsGammaMedian a m) (hx : 0 ≤ x) : gammaShare a x ≤ 1 / 2 ↔ x ≤ m := by
  rw [← IsGammaMedian.share ha hm]
  constructor
  · intro h
    by_contra hc
    exact absurd (gammaShare_strictMono ha hm.1.le (not_le.mp hc)) (not_lt.mpr h)
  · intro h
    rcases h.eq_or_lt with rfl | h
    · exact le_rfl
    · exact (gammaShare_strictMono ha hx h).le

theorem gammaShare_mean {a : ℝ} (ha : 0 < a) : 1 / 2 ≤ gammaShare a a := by
  have h1 := gammaKernel_split ha ha.le
  have h2 := gamma_median_le_mean ha
  have hG := Real.Gamma_pos_of_pos ha
  unfold gammaShare
  rw [le_div_iff₀ hG]
  linarith

/-- The medians of the gamma distributions with shape above 1 lie between `shape - 1/3` and `shape`. -/
theorem gammaMedian_bounds {a m : ℝ} (ha : 1 < a) (hm : Spec.IsGammaMedian a m) : a - 1 / 3 ≤ m ∧ m ≤ a := by
  have ha0 : 0 < a := by linarith
  refine ⟨(gammaShare_le_iff ha0 hm (by linarith)).mp (gammaShare_third ha), ?_⟩
  by_contra hc
  have := gammaShare_strictMono ha0 ha0.le (not_le.mp hc)
  rw [IsGammaMedian.share ha0 hm] at this
  exact absurd (gammaShare_mean ha0) (not_le.mpr this)

/-- Larger shapes have larger medians. -/
theorem gammaMedian_mono {a a' m m' : ℝ} (ha : 0 < a) (haa : a ≤ a') (hm : Spec.IsGammaMedian a m) (hm' : Spec.IsGammaMedian a' m') : m ≤ m' := by
  have ha' : 0 < a' := lt_of_lt_of_le ha haa
  refine (gammaShare_le_iff ha' hm' hm.1.le).mp ?_
  rw [← IsGammaMedian.share ha hm]
  exact gammaShare_antitone ha haa hm.1

/-- Every gamma distribution has a median. -/
theorem gammaMedian_exists {a : ℝ} (ha : 0 < a) : ∃ m, Spec.IsGammaMedian a m := by
  have hc : ContinuousOn (gammaShare a) (Icc 0 a) := by
    unfold gammaShare
    refine ContinuousOn.div_const ?_ _
    have := intervalIntegral.continuousOn_primitive_interval (μ := volume) (f := gammaKernel a) (a := 0) (b := a)
      ((gammaKernel_interval ha le_rfl ha.le).def'.mono_set (by intro x hx; exact hx) |> fun h => by
        rw [uIcc_of_le ha.le, integrableOn_Icc_iff_integrableOn_Ioc]; rwa [uIoc_of_le ha.le] at h)
    rwa [uIcc_of_le ha.le] at this
  have h0 : gammaShare a 0 = 0 := by simp [gammaShare]
  obtain ⟨m, hm, he⟩ := intermediate_value_Icc ha.le hc (show (1 / 2 : ℝ) ∈ Icc (gammaShare a 0) (gammaShare a a) from
    ⟨by rw [h0]; norm_num, gammaShare_mean ha⟩)
  have hm0 : 0 < m := by
    rcases hm.1.eq_or_lt with h | h
    · rw [← h, h0] at he; norm_num at he
    · exact h
  refine ⟨m, hm0, ?_⟩
  have h1 := gammaKernel_split ha hm0.le
  have hG := Real.Gamma_pos_of_pos ha
  unfold gammaShare at he
  rw [div_eq_iff hG.ne'] at he
  show ∫ t in (0 : ℝ)..m, gammaKernel a t = ∫ t in Ioi m, gammaKernel a t
  linarith

/-- The medians of the gamma distributions. -/
noncomputable def trueMedian (a : ℝ) : ℝ := if h : 0 < a then (gammaMedian_exists h).choose else 0

theorem trueMedian_ok : Spec.GammaMedian trueMedian := by
  intro a ha
  have h : 0 < a := by linarith
  unfold trueMedian
  rw [dif_pos h]
  exact (gammaMedian_exists h).choose_spec
end CB
