import Verif.Model.Link
import Mathlib.Tactic.FieldSimp
import Mathlib.Tactic.Linarith
import Mathlib.Tactic.Positivity
import Mathlib.Tactic.NormNum

set_option autoImplicit false

/-!
C16, C17: link functions and learning rates.
-/
namespace CB

/-- **C16**, log link: inverse pair between the positive numbers and the real line, strictly increasing both ways,
predictions positive. -/
theorem C16_log :
    (∀ m : ℝ, logLink.inRange m → logLink.unlink (logLink.link m) = m) ∧
      (∀ x : ℝ, logLink.link (logLink.unlink x) = x) ∧
      (∀ x : ℝ, 0 < logLink.unlink x ∧ logLink.inRange (logLink.unlink x)) ∧
      (∀ m m' : ℝ, logLink.inRange m → m < m' → logLink.link m < logLink.link m') ∧
      (∀ x x' : ℝ, x < x' → logLink.unlink x < logLink.unlink x') :=
  ⟨fun _ h => Real.exp_log h, fun x => Real.log_exp x, fun x => ⟨Real.exp_pos x, Real.exp_pos x⟩,
    fun _ _ h h' => Real.log_lt_log h h', fun _ _ h => Real.exp_lt_exp.mpr h⟩

theorem logit_unlink_bounds (x : ℝ) : 0 < logitLink.unlink x ∧ logitLink.unlink x < 1 := by
  have h := Real.exp_pos (-x)
  unfold logitLink
  simp only
  refine ⟨by positivity, ?_⟩
  rw [div_lt_one (by linarith)]
  linarith

/-- **C16**, logit link: inverse pair between the open unit interval and the real line, strictly increasing both ways,
predictions strictly between 0 and 1. The end points 0 and 1, which `is_in_range` admits, have no image on the real line
(the code returns an infinity there). -/
theorem C16_logit :
    (∀ p : ℝ, 0 < p → p < 1 → logitLink.unlink (logitLink.link p) = p) ∧
      (∀ x : ℝ, logitLink.link (logitLink.unlink x) = x) ∧
      (∀ x : ℝ, 0 < logitLink.unlink x ∧ logitLink.unlink x < 1 ∧ logitLink.inRange (logitLink.unlink x)) ∧
      (∀ p p' : ℝ, 0 < p → p < p' → p' < 1 → logitLink.link p < logitLink.link p') ∧
      (∀ x x' : ℝ, x < x' → logitLink.unlink x < logitLink.unlink x') := by
  refine ⟨?_, ?_, ?_, ?_, ?_⟩
  · intro p h0 h1
    have h1' : 0 < 1 - p := by linarith
    unfold logitLink
    simp only
    rw [Real.exp_neg, Real.exp_log (div_pos h0 h1')]
    field_simp
    ring
  · intro x
    have h := Real.exp_pos (-x)
    unfold logitLink
    simp only
    have e : 1 / (1 + Real.exp (-x)) / (1 - 1 / (1 + Real.exp (-x))) = (Real.exp (-x))⁻¹ := by
      field_simp
      ring
    rw [e, ← Real.exp_neg, neg_neg, Real.log_exp]
  · intro x
    have := logit_unlink_bounds x
    exact ⟨this.1, this.2, le_of_lt this.1, le_of_lt this.2⟩
  · intro p p' h0 h h1
    unfold logitLink
    simp only
    have a : 0 < 1 - p := by linarith
    have b : 0 < 1 - p' := by linarith
    apply Real.log_lt_log (div_pos h0 a)
    rw [div_lt_div_iff₀ a b]
    linarith
  · intro x x' h
    unfold logitLink
    simp only
    have h1 := Real.exp_pos (-x)
    have h2 := Real.exp_pos (-x')
    have h3 : Real.exp (-x') < Real.exp (-x) := Real.exp_lt_exp.mpr (by linarith)
    exact one_div_lt_one_div_of_lt (by linarith) (by linarith)

/-- **C16**, identity link. -/
theorem C16_identity :
    (∀ m : ℝ, identityLink.unlink (identityLink.link m) = m) ∧ (∀ x : ℝ, identityLink.link (identityLink.unlink x) = x) ∧
      (∀ m m' : ℝ, m < m' → identityLink.link m < identityLink.link m' ∧ identityLink.unlink m < identityLink.unlink m') :=
  ⟨fun _ => rfl, fun _ => rfl, fun _ _ h => ⟨h, h⟩⟩

example : logLink.unlink (logLink.link 3) = 3 := C16_log.1 3 (by unfold logLink; norm_num)

/-- **C17**, constant schedule. -/
theorem C17_constant (it mx : ℝ) : constantLearnRateOne it mx = 1 := rfl

/-- **C17**, linear schedule: nondecreasing, in (0, 1], 1 in the last iteration. -/
theorem C17_linear (mx : ℕ) (hmx : 1 ≤ mx) :
    (∀ it it' : ℕ, it ≤ it' → linearLearnRate it mx ≤ linearLearnRate it' mx) ∧
      (∀ it : ℕ, 1 ≤ it → it ≤ mx → 0 < linearLearnRate it mx ∧ linearLearnRate it mx ≤ 1) ∧
      linearLearnRate mx mx = 1 := by
  have hm : (0 : ℝ) < mx := by exact_mod_cast hmx
  unfold linearLearnRate
  refine ⟨?_, ?_, ?_⟩
  · intro it it' h
    have : (it : ℝ) ≤ it' := by exact_mod_cast h
    exact mul_le_mul_of_nonneg_right this (by positivity)
  · intro it h1 h2
    have a : (0 : ℝ) < it := by exact_mod_cast h1
    have b : (it : ℝ) ≤ mx := by exact_mod_cast h2
    refine ⟨by positivity, ?_⟩
    rw [mul_one_div, div_le_one hm]
    exact b
  · field_simp

/-- **C17**, half-linear schedule: nondecreasing, in (0, 1], equal to 1 from half way on, and twice the linear schedule
before. -/
theorem C17_half_linear (mx : ℕ) (hmx : 1 ≤ mx) :
    (∀ it it' : ℕ, it ≤ it' → halfLinearLearnRate it mx ≤ halfLinearLearnRate it' mx) ∧
      (∀ it : ℕ, 1 ≤ it → 0 < halfLinearLearnRate it mx ∧ halfLinearLearnRate it mx ≤ 1) ∧
      (∀ it : ℕ, mx ≤ 2 * it → halfLinearLearnRate it mx = 1) ∧
      (∀ it : ℕ, 2 * it ≤ mx → halfLinearLearnRate it mx = 2 * it / mx) := by
  have hm : (0 : ℝ) < mx := by exact_mod_cast hmx
  unfold halfLinearLearnRate linearLearnRate
  have e : ∀ it : ℕ, (it : ℝ) * (1 / ((mx : ℝ) * 0.5)) = 2 * it / mx := by
    intro it; field_simp; norm_num; ring
  simp only [e]
  refine ⟨?_, ?_, ?_, ?_⟩
  · intro it it' h
    have : (it : ℝ) ≤ it' := by exact_mod_cast h
    apply min_le_min_right
    apply div_le_div_of_nonneg_right _ hm.le
    linarith
  · intro it h1
    have a : (0 : ℝ) < it := by exact_mod_cast h1
    exact ⟨lt_min (by positivity) one_pos, min_le_right _ _⟩
  · intro it h
    have : (mx : ℝ) ≤ 2 * it := by exact_mod_cast h
    apply min_eq_right
    rw [le_div_iff₀ hm]
    linarith
  · intro it h
    have : 2 * (it : ℝ) ≤ mx := by exact_mod_cast h
    apply min_eq_left
    rw [div_le_one hm]
    exact this

/-- **C17**, logistic schedule: strictly increasing, in (0, 1), and equal to the saturation value 0.999999999 in the last
iteration. -/
theorem C17_logistic (mx : ℕ) (hmx : 1 ≤ mx) :
    (∀ it it' : ℕ, it < it' → logisticLearnRate it mx < logisticLearnRate it' mx) ∧
      (∀ it : ℕ, 1 ≤ it → 0 < logisticLearnRate it mx ∧ logisticLearnRate it mx < 1) ∧
      logisticLearnRate mx mx = 0.999999999 := by
  have hm : (0 : ℝ) < mx := by exact_mod_cast hmx
  have hq : (0 : ℝ) < (1 - saturationValue) / (1 + saturationValue) := by unfold saturationValue; norm_num
  have hq1 : (1 - saturationValue) / (1 + saturationValue) < 1 := by unfold saturationValue; norm_num
  have hlog : Real.log ((1 - saturationValue) / (1 + saturationValue)) < 0 := Real.log_neg hq hq1
  have e : ∀ it : ℝ, it / (mx / Real.log ((1 - saturationValue) / (1 + saturationValue)))
      = it / mx * Real.log ((1 - saturationValue) / (1 + saturationValue)) := by
    intro it
    have := hlog.ne
    field_simp
  unfold logisticLearnRate
  simp only [e]
  have mono : ∀ a b : ℝ, a < b →
      (1 / (1 + Real.exp (a / mx * Real.log ((1 - saturationValue) / (1 + saturationValue)))) - 0.5) * 2 <
      (1 / (1 + Real.exp (b / mx * Real.log ((1 - saturationValue) / (1 + saturationValue)))) - 0.5) * 2 := by
    intro a b h
    have h1 : a / mx < b / mx := div_lt_div_of_pos_right h hm
    have h2 : b / mx * Real.log ((1 - saturationValue) / (1 + saturationValue)) <
        a / mx * Real.log ((1 - saturationValue) / (1 + saturationValue)) := mul_lt_mul_of_neg_right h1 hlog
    have h3 := Real.exp_lt_exp.mpr h2
    have h4 := Real.exp_pos (b / mx * Real.log ((1 - saturationValue) / (1 + saturationValue)))
    have h5 := one_div_lt_one_div_of_lt (a := 1 + Real.exp (b / mx * Real.log ((1 - saturationValue) / (1 + saturationValue))))
      (by linarith) (add_lt_add_right h3 1)
    linarith
  refine ⟨?_, ?_, ?_⟩
  · intro it it' h
    exact mono it it' (by exact_mod_cast h)
  · intro it h1
    constructor
    · have := mono 0 it (by exact_mod_cast h1)
      simp only [zero_div, zero_mul, Real.exp_zero] at this
      norm_num at this ⊢
      exact this
    · have h4 := Real.exp_pos (it / mx * Real.log ((1 - saturationValue) / (1 + saturationValue)))
      have : 1 / (1 + Real.exp (it / mx * Real.log ((1 - saturationValue) / (1 + saturationValue)))) < 1 := by
        rw [div_lt_one (by linarith)]; linarith
      norm_num at this ⊢
      linarith
  · rw [div_self hm.ne', one_mul, Real.exp_log hq]
    unfold saturationValue
    norm_num

example : halfLinearLearnRate 1 4 = 1 / 2 := by
  have := (C17_half_linear 4 (by omega)).2.2.2 1 (by omega)
  norm_num at this ⊢
  exact this

end CB
