import Verif.Spec.QuantileMatching
import Mathlib.Tactic.Linarith
import Mathlib.Tactic.Ring
import Mathlib.Tactic.FieldSimp
import Mathlib.Tactic.NormNum
import Mathlib.Tactic.Positivity

set_option autoImplicit false

namespace CB

open Spec

namespace Spec.SymmetricBase

variable {phi : Base} (h : SymmetricBase phi)
include h

theorem ppf_half : phi.ppf (1 / 2) = 0 := by
  have := h.symm (1 / 2) (by norm_num) (by norm_num)
  norm_num at this
  norm_num
  linarith

theorem ppf_upper_pos {alpha : ℝ} (h0 : 0 < alpha) (h1 : alpha < 1 / 2) :
    0 < phi.ppf (1 - alpha) := by
  have := h.mono (1 / 2) (1 - alpha) (by norm_num) (by linarith) (by linarith)
  rw [h.ppf_half] at this
  exact this

theorem ppf_lower {alpha : ℝ} (h0 : 0 < alpha) (h1 : alpha < 1 / 2) :
    phi.ppf alpha = -phi.ppf (1 - alpha) := by
  have := h.symm alpha h0 (by linarith)
  linarith

theorem cdf_mono {x y : ℝ} (hxy : x < y) : phi.cdf x < phi.cdf y := by
  by_contra hc
  rcases lt_or_eq_of_le (not_lt.mp hc) with hlt | heq
  · have := h.mono _ _ (h.cdf_pos y) hlt (h.cdf_lt_one x)
    rw [h.ppf_cdf, h.ppf_cdf] at this
    linarith
  · have h1 := h.ppf_cdf x
    rw [← heq, h.ppf_cdf] at h1
    linarith

end Spec.SymmetricBase

/-! ### Johnson's construction -/

/-- The facts about `a = arcosh((H-L)/(2m))` used in all variants. -/
theorem arcosh_facts {w m : ℝ} (hm : 0 < m) (hw : 2 * m < w) :
    0 < Real.arcosh (w / (2 * m)) ∧ 0 < Real.sinh (Real.arcosh (w / (2 * m))) ∧
    Real.cosh (Real.arcosh (w / (2 * m))) = w / (2 * m) := by
  have h1 : 1 < w / (2 * m) := by
    rw [lt_div_iff₀ (by linarith)]; linarith
  have ha := Real.arcosh_pos h1
  exact ⟨ha, Real.sinh_pos_iff.mpr ha, Real.cosh_arcosh h1.le⟩

/-- `(w/sinh 2a) * sinh a = m`. -/
theorem johnson_half {w m : ℝ} (hm : 0 < m) (hw : 2 * m < w) :
    w / Real.sinh (2 * Real.arcosh (w / (2 * m))) * Real.sinh (Real.arcosh (w / (2 * m))) = m := by
  obtain ⟨-, hs, hc⟩ := arcosh_facts hm hw
  have hw0 : 0 < w := by linarith
  rw [Real.sinh_two_mul, hc]
  field_simp

theorem johnson_full {w m : ℝ} (hm : 0 < m) (hw : 2 * m < w) :
    w / Real.sinh (2 * Real.arcosh (w / (2 * m)))
      * Real.sinh (2 * Real.arcosh (w / (2 * m))) = w := by
  obtain ⟨ha, -, -⟩ := arcosh_facts hm hw
  have : 0 < Real.sinh (2 * Real.arcosh (w / (2 * m))) :=
    Real.sinh_pos_iff.mpr (by linarith)
  field_simp

theorem whereLt_of_lt {a b : ℝ} (h : a < b) : whereLt a b = a := if_pos h

theorem whereLt_of_gt {a b : ℝ} (h : b < a) : whereLt a b = b := if_neg (not_lt.mpr h.le)

end CB
