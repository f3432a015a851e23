import Verif.Model.Classifier
import Verif.Props.Estimators
import Mathlib.Order.Monotone.Basic

set_option autoImplicit false
set_option linter.unusedSectionVars false

/-!
C35: the classifier.
-/
namespace CB
open Finset

/-- **C35**: `predict_proba` returns two positive numbers that sum to 1. -/
theorem C35_probabilities (l : ℝ) : 0 < (predictProba l).1 ∧ 0 < (predictProba l).2 ∧ (predictProba l).1 + (predictProba l).2 = 1 := by
  have h : 0 < Real.exp (-l) := Real.exp_pos _
  refine ⟨?_, ?_, ?_⟩
  · show 0 < 1 - 1 / (1 + Real.exp (-l))
    rw [sub_pos, div_lt_one (by linarith)]
    linarith
  · show 0 < 1 / (1 + Real.exp (-l))
    positivity
  · unfold predictProba; ring

/-- **C35**: `predict` returns 1 if the second column of `predict_proba` exceeds 0.5, which is when the link-space prediction is
positive, and 0 otherwise. -/
theorem C35_class (l : ℝ) : (predictClass l = 1 ↔ 0.5 < (predictProba l).2) ∧ (predictClass l = 1 ↔ 0 < l) ∧
    (predictClass l = 1 ∨ predictClass l = 0) := by
  have h : 0 < Real.exp (-l) := Real.exp_pos _
  have key : (0.5 : ℝ) < 1 / (1 + Real.exp (-l)) ↔ 0 < l := by
    rw [lt_div_iff₀ (by linarith)]
    constructor
    · intro hh
      have : Real.exp (-l) < 1 := by norm_num at hh; linarith
      have := Real.exp_lt_one_iff.mp this
      linarith
    · intro hh
      have : Real.exp (-l) < 1 := Real.exp_lt_one_iff.mpr (by linarith)
      norm_num; linarith
  have e1 : (predictProba l).2 = 1 / (1 + Real.exp (-l)) := rfl
  have e2 : predictClass l = if 1 / (1 + Real.exp (-l)) > 0.5 then 1 else 0 := rfl
  rw [e1, e2]
  by_cases hh : (0.5 : ℝ) < 1 / (1 + Real.exp (-l))
  · rw [if_pos hh]
    exact ⟨iff_of_true rfl hh, iff_of_true rfl (key.mp hh), Or.inl rfl⟩
  · rw [if_neg hh]
    exact ⟨iff_of_false (by norm_num) hh, iff_of_false (by norm_num) (fun h => hh (key.mpr h)), Or.inr rfl⟩

/-- **C35**: a larger link-space prediction gives a larger probability. -/
theorem C35_probability_mono (l m : ℝ) (h : l < m) : (predictProba l).2 < (predictProba m).2 := by
  show 1 / (1 + Real.exp (-l)) < 1 / (1 + Real.exp (-m))
  have h1 := Real.exp_lt_exp.mpr (neg_lt_neg h)
  have h2 := Real.exp_pos (-m)
  exact one_div_lt_one_div_of_lt (by linarith) (by linarith)

/-- **C35**: the quantile levels used for matching stay inside (0.05, 0.95), the second half a unit below the first. -/
theorem C35_levels (alpha beta : ℝ) (ha : 0 < alpha) (hb : 0 < beta) :
    0.05 < (percentiles alpha beta).2 ∧ (percentiles alpha beta).1 < 0.95 ∧
      (percentiles alpha beta).1 - (percentiles alpha beta).2 = 0.5 := by
  have h1 : 0 < alpha / (alpha + beta) := div_pos ha (by linarith)
  have h2 : alpha / (alpha + beta) < 1 := by rw [div_lt_one (by linarith)]; linarith
  unfold percentiles
  refine ⟨?_, ?_, ?_⟩
  · norm_num; linarith
  · norm_num; linarith
  · norm_num

/-- **C35**: the weights of the samples are positive and less than 1. -/
theorem C35_boost_weights (y l : ℝ) : 0 < boostWeight y (logitLink.unlink l) ∧ boostWeight y (logitLink.unlink l) < 1 := by
  have h := C35_probabilities l
  have h0 : logitLink.unlink l ≠ 0 := ne_of_gt h.2.1
  have h1 : logitLink.unlink l ≠ 1 := by
    intro hc
    have := h.1
    unfold predictProba at this
    rw [hc] at this
    norm_num at this
  have hp1 : 0 < 1 - logitLink.unlink l := h.1
  have hp2 : 0 < logitLink.unlink l := h.2.1
  unfold boostWeight
  simp only [if_neg h0, if_neg h1]
  split
  · constructor <;> linarith
  · constructor <;> linarith

/-- **C35**: for targets that pass the check and non-negative weights, both posterior parameters of each bin are at least 1.001,
and they are the weights of the positive and of the negative samples of the bin plus the prior. -/
theorem C35_posterior (n : ℕ) (codes : ℕ → ℕ) (y weights predLink : ℕ → ℝ) (hy : classifierCheckY n y)
    (hw : ∀ i < n, 0 ≤ weights i) (b : ℕ) :
    1.001 ≤ (classifierPosterior n codes y weights predLink b).1 ∧ 1.001 ≤ (classifierPosterior n codes y weights predLink b).2 ∧
    (classifierPosterior n codes y weights predLink b).1
      = (∑ i ∈ (range n).filter (fun i => codes i = b ∧ y i = 1), weights i * (predictProba (predLink i)).1) + 1.001 ∧
    (classifierPosterior n codes y weights predLink b).2
      = (∑ i ∈ (range n).filter (fun i => codes i = b ∧ y i = 0), weights i * (predictProba (predLink i)).2) + 1.001 := by
  have hbw : ∀ i, boostWeight (y i) (logitLink.unlink (predLink i))
      = if y i ≠ 0 then (predictProba (predLink i)).1 else (predictProba (predLink i)).2 := by
    intro i
    have h := C35_probabilities (predLink i)
    have h0 : logitLink.unlink (predLink i) ≠ 0 := ne_of_gt h.2.1
    have h1 : logitLink.unlink (predLink i) ≠ 1 := by
      intro hc
      have := h.1
      unfold predictProba at this
      rw [hc] at this
      norm_num at this
    unfold boostWeight predictProba
    simp only [if_neg h0, if_neg h1]
  have ea : binSum n codes (fun i => weights i * boostWeight (y i) (logitLink.unlink (predLink i)) * y i) b
      = ∑ i ∈ (range n).filter (fun i => codes i = b ∧ y i = 1), weights i * (predictProba (predLink i)).1 := by
    unfold binSum
    rw [sum_filter]
    apply sum_congr rfl
    intro i hi
    rcases hy i (mem_range.mp hi) with h | h
    · simp [h]
    · simp only [hbw]
      by_cases hc : codes i = b <;> simp [h, hc]
  have eb : binSum n codes (fun i => weights i * boostWeight (y i) (logitLink.unlink (predLink i)) * (1 - y i)) b
      = ∑ i ∈ (range n).filter (fun i => codes i = b ∧ y i = 0), weights i * (predictProba (predLink i)).2 := by
    unfold binSum
    rw [sum_filter]
    apply sum_congr rfl
    intro i hi
    rcases hy i (mem_range.mp hi) with h | h
    · simp only [hbw]
      by_cases hc : codes i = b <;> simp [h, hc]
    · simp [h]
  have na : 0 ≤ ∑ i ∈ (range n).filter (fun i => codes i = b ∧ y i = 1), weights i * (predictProba (predLink i)).1 :=
    sum_nonneg (fun i hi => mul_nonneg (hw i (mem_range.mp (mem_filter.mp hi).1)) (C35_probabilities _).1.le)
  have nb : 0 ≤ ∑ i ∈ (range n).filter (fun i => codes i = b ∧ y i = 0), weights i * (predictProba (predLink i)).2 :=
    sum_nonneg (fun i hi => mul_nonneg (hw i (mem_range.mp (mem_filter.mp hi).1)) (C35_probabilities _).2.1.le)
  unfold classifierPosterior betaPriors
  simp only [ea, eb, if_neg (not_lt.mpr na), if_neg (not_lt.mpr nb)]
  exact ⟨by linarith, by linarith, trivial, trivial⟩

/-- **C35**: the matched normal distribution has the two requested quantiles, and a positive width when the quantile functions
and the link function are strictly increasing. -/
theorem C35_matching (ppf link coef : ℝ → ℝ) (p1 p2 : ℝ) (hc : coef p2 < coef p1) :
    let r := gaussianMatching ppf link coef p1 p2
    r.1 + r.2 * coef p1 = link (ppf p1) ∧ r.1 + r.2 * coef p2 = link (ppf p2) ∧
      (link (ppf p2) < link (ppf p1) → 0 < r.2) := by
  intro r
  have hne : coef p1 - coef p2 ≠ 0 := ne_of_gt (sub_pos.mpr hc)
  refine ⟨?_, ?_, ?_⟩
  · exact sub_add_cancel _ _
  · show link (ppf p1) - (link (ppf p1) - link (ppf p2)) / (coef p1 - coef p2) * coef p1
      + (link (ppf p1) - link (ppf p2)) / (coef p1 - coef p2) * coef p2 = _
    field_simp
    ring
  · intro h
    exact div_pos (by linarith) (by linarith)

/-- The logit link is strictly increasing on (0, 1). -/
theorem logit_strictMono (p q : ℝ) (hp : 0 < p) (hq : q < 1) (h : p < q) : logitLink.link p < logitLink.link q := by
  show Real.log (p / (1 - p)) < Real.log (q / (1 - q))
  apply Real.log_lt_log
  · exact div_pos hp (by linarith)
  · rw [div_lt_div_iff₀ (by linarith) (by linarith)]
    nlinarith

/-- **C35**: in each bin the estimated uncertainty is positive, for every quantile function of the beta distribution that is
strictly increasing with values in (0, 1) and every strictly increasing normal quantile function. -/
theorem C35_uncertainty_pos (betaPpf : ℝ → ℝ → ℝ → ℝ) (coef : ℝ → ℝ)
    (hr : ∀ a b p, 0 < a → 0 < b → 0 < p → p < 1 → 0 < betaPpf a b p ∧ betaPpf a b p < 1)
    (hm : ∀ a b p q, 0 < a → 0 < b → 0 < p → p < q → q < 1 → betaPpf a b p < betaPpf a b q)
    (hc : ∀ p q, 0 < p → p < q → q < 1 → coef p < coef q)
    (n : ℕ) (codes : ℕ → ℕ) (y weights predLink : ℕ → ℝ) (hy : classifierCheckY n y) (hw : ∀ i < n, 0 ≤ weights i) (b : ℕ) :
    0 < (classifierCalcParameters betaPpf coef n codes y weights predLink b).2 := by
  have hp := C35_posterior n codes y weights predLink hy hw b
  set post := classifierPosterior n codes y weights predLink b with hpost
  have pa : 0 < post.1 := by linarith [hp.1]
  have pb : 0 < post.2 := by linarith [hp.2.1]
  have hl := C35_levels post.1 post.2 pa pb
  have p2pos : 0 < (percentiles post.1 post.2).2 := by linarith [hl.1]
  have p1lt : (percentiles post.1 post.2).1 < 1 := by linarith [hl.2.1]
  have hlt : (percentiles post.1 post.2).2 < (percentiles post.1 post.2).1 := by linarith [hl.2.2]
  have := C35_matching (betaPpf post.1 post.2) logitLink.link coef _ _ (hc _ _ p2pos hlt p1lt)
  refine this.2.2 (logit_strictMono _ _ (hr _ _ _ pa pb p2pos (by linarith)).1 (hr _ _ _ pa pb (by linarith) p1lt).2
    (hm _ _ _ _ pa pb p2pos hlt p1lt))

/-- **C35**: a bin without samples gets the neutral factor 0, if the quantile functions have the symmetry of the beta
distribution with equal parameters and of the normal distribution. -/
theorem C35_empty_bin_neutral (betaPpf : ℝ → ℝ → ℝ → ℝ) (coef : ℝ → ℝ)
    (hr : ∀ a p, 0 < a → 0 < p → p < 1 → 0 < betaPpf a a p ∧ betaPpf a a p < 1)
    (hs : ∀ a p, 0 < a → 0 < p → p < 1 → betaPpf a a (1 - p) = 1 - betaPpf a a p)
    (hc : ∀ p, 0 < p → p < 1 → coef (1 - p) = - coef p) (hc0 : coef 0.25 < coef 0.75)
    (n : ℕ) (codes : ℕ → ℕ) (y weights predLink : ℕ → ℝ) (b : ℕ) (hb : ∀ i < n, codes i ≠ b) :
    (classifierCalcParameters betaPpf coef n codes y weights predLink b).1 = 0 := by
  have hz : ∀ u : ℕ → ℝ, binSum n codes u b = 0 := by
    intro u
    unfold binSum
    exact sum_eq_zero (fun i hi => if_neg (hb i (mem_range.mp hi)))
  have hpost : classifierPosterior n codes y weights predLink b = (1.001, 1.001) := by
    unfold classifierPosterior betaPriors
    simp only [hz, lt_irrefl, if_false, zero_add]
  have hperc : percentiles 1.001 1.001 = (0.75, 0.25) := by
    unfold percentiles
    norm_num
  unfold classifierCalcParameters
  rw [hpost]
  simp only [hperc]
  have e2 : betaPpf 1.001 1.001 0.25 = 1 - betaPpf 1.001 1.001 0.75 := by
    have := hs 1.001 0.75 (by norm_num) (by norm_num) (by norm_num)
    rw [← this]; norm_num
  have r := hr 1.001 0.75 (by norm_num) (by norm_num) (by norm_num)
  set x := betaPpf 1.001 1.001 0.75
  have el : logitLink.link (1 - x) = - logitLink.link x := by
    show Real.log ((1 - x) / (1 - (1 - x))) = - Real.log (x / (1 - x))
    rw [← Real.log_inv, inv_div]
    congr 2
    ring
  have ec : coef 0.25 = - coef 0.75 := by
    have := hc 0.75 (by norm_num) (by norm_num)
    rw [← this]; norm_num
  unfold gaussianMatching
  simp only [e2, el, ec]
  have hne : coef 0.75 ≠ 0 := by
    rw [ec] at hc0
    intro h
    rw [h] at hc0
    simp at hc0
  field_simp
  ring

/-- Witness for the hypotheses of `C35_uncertainty_pos` and `C35_empty_bin_neutral`: the uniform distribution in place of the
beta distribution and the logit in place of the normal quantile function. -/
example : (∀ a b p : ℝ, 0 < a → 0 < b → 0 < p → p < 1 → 0 < (fun _ _ p => p : ℝ → ℝ → ℝ → ℝ) a b p ∧ (fun _ _ p => p : ℝ → ℝ → ℝ → ℝ) a b p < 1) ∧
    (∀ p q, 0 < p → p < q → q < 1 → logitLink.link p < logitLink.link q) ∧
    (∀ p, 0 < p → p < 1 → logitLink.link (1 - p) = - logitLink.link p) ∧ classifierCheckY 4 (fun i => if i < 2 then 0 else 1) := by
  refine ⟨fun _ _ p _ _ h1 h2 => ⟨h1, h2⟩, fun p q hp h hq => logit_strictMono p q hp hq h, ?_, ?_⟩
  · intro p _ _
    show Real.log ((1 - p) / (1 - (1 - p))) = - Real.log (p / (1 - p))
    rw [← Real.log_inv, inv_div]
    congr 2
    ring
  · intro i _
    by_cases h : i < 2 <;> simp [h]

end CB
