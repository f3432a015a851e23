import Verif.Model.ErrorBars
import Mathlib.Tactic.Linarith
import Mathlib.Tactic.Positivity
import Mathlib.Tactic.NormNum

/-!
# C172: error bars and curves in plots
-/

set_option autoImplicit false
set_option linter.unusedSectionVars false

namespace CB

theorem unlinkLogit_mono {a b : ℝ} (h : a ≤ b) : logitLink.unlink a ≤ logitLink.unlink b := by
  simp only [logitLink]
  apply one_div_le_one_div_of_le
  · positivity
  · have := Real.exp_le_exp.mpr (show -b ≤ -a by linarith)
    linarith

theorem unlinkLogit_bounds (a : ℝ) : 0 < logitLink.unlink a ∧ logitLink.unlink a < 1 := by
  simp only [logitLink]
  have := Real.exp_pos (-a)
  refine ⟨by positivity, ?_⟩
  rw [div_lt_one (by positivity)]
  linarith

/-- **C172**: every factor is drawn on the scale of the predictions. -/
theorem C172_value (link : LinkKind) (f u : ℝ) : (shownFactor link f u).value = link.toLink.unlink f := by
  cases link <;> rfl

/-- **C172 (partial).** For additive models and classifiers the error bar of a factor goes from the lower to the upper end of its range
`f - u`, ..., `f + u`, on the scale of the predictions. Missing for the full claim: multiplicative models (`C172_log_counterexample`). -/
theorem C172_bars_partial (link : LinkKind) (hl : link ≠ .log) (f u : ℝ) (hu : 0 ≤ u) :
    (shownFactor link f u).value - (shownFactor link f u).lower = link.toLink.unlink (f - u) ∧
    (shownFactor link f u).value + (shownFactor link f u).upper = link.toLink.unlink (f + u) := by
  cases link with
  | log => exact absurd rfl hl
  | identity => exact ⟨rfl, rfl⟩
  | logit =>
    have h1 := unlinkLogit_mono (show f - u ≤ f by linarith)
    have h2 := unlinkLogit_mono (show f ≤ f + u by linarith)
    obtain ⟨b1, b2⟩ := unlinkLogit_bounds (f + u)
    obtain ⟨b3, b4⟩ := unlinkLogit_bounds f
    have e1 : |logitLink.unlink (f - u) - logitLink.unlink f| = logitLink.unlink f - logitLink.unlink (f - u) := by
      rw [abs_of_nonpos (by linarith)]; ring
    have e2 : |logitLink.unlink (f + u) - logitLink.unlink f| = logitLink.unlink (f + u) - logitLink.unlink f :=
      abs_of_nonneg (by linarith)
    simp only [shownFactor, LinkKind.toLink, e1, e2]
    rw [if_neg (by linarith), if_neg (by linarith)]
    constructor <;> ring

/-- **C172**: the error bars of classifiers do not leave the range of probabilities. -/
theorem C172_probability (f u : ℝ) (hu : 0 ≤ u) :
    0 < (shownFactor .logit f u).value - (shownFactor .logit f u).lower ∧
    (shownFactor .logit f u).value + (shownFactor .logit f u).upper < 1 := by
  obtain ⟨h1, h2⟩ := C172_bars_partial .logit (by decide) f u hu
  rw [h1, h2]
  exact ⟨(unlinkLogit_bounds _).1, (unlinkLogit_bounds _).2⟩

/-- **C172**, multiplicative models: the factor is drawn on the scale of the predictions and its uncertainty in link space. The bar is shorter
than the range above the factor from factors of 1 on, and leaves the positive numbers if the factor is below its uncertainty. -/
theorem C172_log (f u : ℝ) (hu : 0 < u) :
    (0 ≤ f → (shownFactor .log f u).value + (shownFactor .log f u).upper < Real.exp (f + u)) ∧
    (Real.exp f < u → (shownFactor .log f u).value - (shownFactor .log f u).lower < 0) := by
  refine ⟨fun hf => ?_, fun h => ?_⟩
  · simp only [shownFactor]
    have h1 : 1 ≤ Real.exp f := Real.one_le_exp hf
    have h2 := Real.add_one_lt_exp hu.ne'
    rw [Real.exp_add]
    nlinarith
  · simp only [shownFactor]
    linarith

/-- **C172**, what does not hold: the error bar of the factor 1/10 with the uncertainty 1/2 goes down to -2/5, although all factors in its range
are positive. -/
theorem C172_log_counterexample : (shownFactor .log (Real.log (1 / 10)) (1 / 2)).value - (shownFactor .log (Real.log (1 / 10)) (1 / 2)).lower = -(2 / 5) ∧
    0 < LinkKind.log.toLink.unlink (Real.log (1 / 10) - 1 / 2) := by
  refine ⟨?_, Real.exp_pos _⟩
  simp only [shownFactor]
  rw [Real.exp_log (by norm_num)]
  norm_num

/-- **C172**: the curves have one point for every bin, without the one of missing values, if there are at least two bins, or one and the feature
shows missing values. -/
theorem C172_curve_partial {α : Type*} (showsMissing : Bool) (bins : List α) (missing : α)
    (h : 2 ≤ bins.length ∨ 1 ≤ bins.length ∧ showsMissing = true) : shownCurve showsMissing (bins ++ [missing]) = bins := by
  unfold shownCurve
  simp only [List.length_append, List.length_singleton]
  rw [if_pos, List.dropLast_concat]
  rcases h with h | ⟨h, h'⟩
  · split_ifs <;> omega
  · simp only [h', if_true]
    omega

/-- **C172**, what does not hold: with a single bin, of a feature that does not show missing values, the curve also has a point for missing values. -/
theorem C172_curve_counterexample {α : Type*} (bin missing : α) : shownCurve false ([bin] ++ [missing]) = [bin, missing] := by
  simp [shownCurve]

end CB
