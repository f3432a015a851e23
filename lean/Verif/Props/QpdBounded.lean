import Verif.Lemmas.QuantileMatching

/-!
# C39: `J_QPD_B`
-/

set_option autoImplicit false
set_option linter.unusedSectionVars false

namespace CB

open Spec

/-- Argument of the outer distribution function in `J_QPD_B.ppf`. -/
noncomputable def JQPDB.arg (d : JQPDB) (z : ℝ) : ℝ :=
  d.xi + d.kappa * Real.sinh (d.delta * (z + d.n * d.c))

theorem jqpdb_arg_lt {d : JQPDB} (hk : 0 < d.kappa) (hd : 0 < d.delta) {z w : ℝ} (h : z < w) :
    d.arg z < d.arg w := by
  have h1 : d.delta * (z + d.n * d.c) < d.delta * (w + d.n * d.c) :=
    mul_lt_mul_of_pos_left (by linarith) hd
  have := mul_lt_mul_of_pos_left (Real.sinh_lt_sinh.mpr h1) hk
  unfold JQPDB.arg
  linarith

theorem unit_of_bounds {x l u : ℝ} (h0 : l < x) (h1 : x < u) :
    0 < (x - l) / (u - l) ∧ (x - l) / (u - l) < 1 := by
  have hu : 0 < u - l := by linarith
  exact ⟨div_pos (by linarith) hu, by rw [div_lt_one hu]; linarith⟩

theorem unit_lt {x y l u : ℝ} (h0 : l < u) (h1 : x < y) :
    (x - l) / (u - l) < (y - l) / (u - l) := by
  have hu : 0 < u - l := by linarith
  exact div_lt_div_of_pos_right (by linarith) hu

/-- The transformed triplet is symmetric. -/
def SymmetricOnBase (phi : Base) (low med high l u : ℝ) : Prop :=
  phi.ppf ((low - l) / (u - l)) + phi.ppf ((high - l) / (u - l))
    = 2 * phi.ppf ((med - l) / (u - l))

theorem jqpdb_mk {phi : Base} (h : SymmetricBase phi) {alpha low med high l u : ℝ}
    (ha0 : 0 < alpha) (ha1 : alpha < 1 / 2) (h0 : l < low) (h1 : low < med) (h2 : med < high)
    (h3 : high < u) (hasym : ¬ SymmetricOnBase phi low med high l u) :
    ∃ d, mkJQPDB phi alpha low med high l u = .ok d ∧ d.l = l ∧ d.u = u ∧
      d.c = phi.ppf (1 - alpha) ∧
      0 < d.delta ∧ 0 < d.kappa ∧ ¬ d.degenerate ∧
      d.arg (-d.c) = phi.ppf ((low - l) / (u - l)) ∧
      d.arg 0 = phi.ppf ((med - l) / (u - l)) ∧
      d.arg d.c = phi.ppf ((high - l) / (u - l)) := by
  have hcr : sptCrossing low med high = false := by
    simp [sptCrossing, not_lt.mpr h1.le, not_lt.mpr h2.le]
  have hc := h.ppf_upper_pos ha0 ha1
  have hlu : l < u := by linarith
  have hLB : phi.ppf ((low - l) / (u - l)) < phi.ppf ((med - l) / (u - l)) :=
    h.mono _ _ (unit_of_bounds h0 (by linarith)).1 (unit_lt hlu h1)
      (unit_of_bounds (by linarith) (by linarith)).2
  have hBH : phi.ppf ((med - l) / (u - l)) < phi.ppf ((high - l) / (u - l)) :=
    h.mono _ _ (unit_of_bounds (by linarith) (by linarith)).1 (unit_lt hlu h2)
      (unit_of_bounds (by linarith) (by linarith)).2
  have hne : phi.ppf ((low - l) / (u - l)) + phi.ppf ((high - l) / (u - l))
      - 2 * phi.ppf ((med - l) / (u - l)) ≠ 0 := fun e => hasym (by
    unfold SymmetricOnBase; linarith)
  refine ⟨_, by rw [mkJQPDB, hcr]; rfl, rfl, rfl, rfl, ?_⟩
  simp only [if_neg hne]
  set c := phi.ppf (1 - alpha) with hcdef
  set L := phi.ppf ((low - l) / (u - l))
  set B := phi.ppf ((med - l) / (u - l))
  set H := phi.ppf ((high - l) / (u - l))
  have key : ∀ m : ℝ, 0 < m → 2 * m < H - L →
      let a := Real.arcosh ((H - L) / (2 * m))
      let κ := (H - L) / Real.sinh (2 * (1 / c * a) * c)
      0 < 1 / c * a ∧ 0 < κ ∧ Real.sinh (2 * (1 / c * a) * c) ≠ 0 ∧
      κ * Real.sinh a = m ∧ κ * Real.sinh (2 * a) = H - L := by
    intro m hm hw
    obtain ⟨hapos, hs, hcosh⟩ := arcosh_facts hm hw
    have e2 : 2 * (1 / c * Real.arcosh ((H - L) / (2 * m))) * c
        = 2 * Real.arcosh ((H - L) / (2 * m)) := by field_simp
    have hs2 : 0 < Real.sinh (2 * Real.arcosh ((H - L) / (2 * m))) :=
      Real.sinh_pos_iff.mpr (by linarith)
    have hHL : 0 < H - L := by linarith
    refine ⟨by positivity, ?_, ?_, ?_, ?_⟩
    · rw [e2]; positivity
    · rw [e2]; exact hs2.ne'
    · rw [e2]; exact johnson_half hm hw
    · rw [e2]; exact johnson_full hm hw
  have dc : ∀ a : ℝ, 1 / c * a * c = a := by intro a; field_simp
  rcases lt_or_gt_of_ne hne with hneg | hpos
  · have hlt : H - B < B - L := by linarith
    have hm : 0 < H - B := by linarith
    simp only [if_neg (not_lt.mpr hneg.le), gt_iff_lt, whereLt_of_gt hlt,
      JQPDB.arg, JQPDB.degenerate]
    obtain ⟨hδ, hκ, hδc, hh, hf⟩ := key (H - B) hm (by linarith)
    refine ⟨hδ, hκ, ?_, ?_, ?_, ?_⟩
    · rintro (e | e)
      · linarith
      · exact hδc e
    · rw [show ∀ a : ℝ, 1 / c * a * (-c + -1 * c) = -(2 * (1 / c * a * c)) by intro a; ring, dc,
        Real.sinh_neg, mul_neg, hf]
      ring
    · rw [show ∀ a : ℝ, 1 / c * a * (0 + -1 * c) = -(1 / c * a * c) by intro a; ring, dc,
        Real.sinh_neg, mul_neg, hh]
      ring
    · rw [show ∀ a : ℝ, 1 / c * a * (c + -1 * c) = 0 by intro a; ring, Real.sinh_zero]
      ring
  · have hlt : B - L < H - B := by linarith
    have hm : 0 < B - L := by linarith
    simp only [if_pos hpos, gt_iff_lt, whereLt_of_lt hlt,
      JQPDB.arg, JQPDB.degenerate]
    obtain ⟨hδ, hκ, hδc, hh, hf⟩ := key (B - L) hm (by linarith)
    refine ⟨hδ, hκ, ?_, ?_, ?_, ?_⟩
    · rintro (e | e)
      · linarith
      · exact hδc e
    · rw [show ∀ a : ℝ, 1 / c * a * (-c + 1 * c) = 0 by intro a; ring, Real.sinh_zero]
      ring
    · rw [show ∀ a : ℝ, 1 / c * a * (0 + 1 * c) = 1 / c * a * c by intro a; ring, dc, hh]
      ring
    · rw [show ∀ a : ℝ, 1 / c * a * (c + 1 * c) = 2 * (1 / c * a * c) by intro a; ring, dc, hf]
      ring

/-- **C39 (partial).**  For every increasing triplet strictly inside the bounds
that is not symmetric on the scale of the base distribution, every `alpha` in
`(0, 1/2)` and every symmetric base distribution, `J_QPD_B` is accepted, its
quantile function hits the triplet, is strictly increasing with values strictly
between the bounds, and the cumulative distribution function inverts it.

Missing: exactly symmetric triplets, for which the claim is false of the code,
see `C39_symmetric_is_nan`. -/
theorem C39_jqpd_b_partial (phi : Base) (h : SymmetricBase phi) (alpha low med high l u : ℝ)
    (ha0 : 0 < alpha) (ha1 : alpha < 1 / 2) (h0 : l < low) (h1 : low < med) (h2 : med < high)
    (h3 : high < u) (hasym : ¬ SymmetricOnBase phi low med high l u) :
    ∃ d, mkJQPDB phi alpha low med high l u = .ok d ∧
      HitsTriplet (d.ppf phi) alpha low med high ∧
      QuantileFunction (d.ppf phi) (d.cdf phi) (fun x => l < x ∧ x < u) := by
  obtain ⟨d, hd, hl, hu, hc, hδ, hκ, hdeg, eL, eB, eH⟩ :=
    jqpdb_mk h ha0 ha1 h0 h1 h2 h3 hasym
  have hw : 0 < u - l := by linarith
  have hppf : ∀ p, d.ppf phi p = some (l + (u - l) * phi.cdf (d.arg (phi.ppf p))) := by
    intro p
    rw [JQPDB.ppf, if_neg hdeg, hl, hu]; rfl
  have back : ∀ x, l < x → x < u → l + (u - l) * phi.cdf (phi.ppf ((x - l) / (u - l))) = x := by
    intro x hx0 hx1
    rw [h.cdf_ppf _ (unit_of_bounds hx0 hx1).1 (unit_of_bounds hx0 hx1).2]
    field_simp; ring
  refine ⟨d, hd, ⟨?_, ?_, ?_⟩, ?_, ?_⟩
  · rw [hppf, h.ppf_lower ha0 ha1, ← hc, eL, back _ h0 (by linarith)]
  · rw [hppf, h.ppf_half, eB, back _ (by linarith) (by linarith)]
  · rw [hppf, ← hc, eH, back _ (by linarith) h3]
  · intro p hp0 hp1
    have hp := h.cdf_pos (d.arg (phi.ppf p))
    have hp' := h.cdf_lt_one (d.arg (phi.ppf p))
    refine ⟨_, hppf p, ⟨?_, ?_⟩, ?_⟩
    · have := mul_pos hw hp; linarith
    · have := mul_lt_mul_of_pos_left hp' hw; linarith
    have hq : (l + (u - l) * phi.cdf (d.arg (phi.ppf p)) - d.l) / (d.u - d.l)
        = phi.cdf (d.arg (phi.ppf p)) := by
      rw [hl, hu]; field_simp; ring
    rw [JQPDB.cdf, if_neg hdeg, hq, h.ppf_cdf, JQPDB.arg, add_sub_cancel_left,
      show ∀ k s : ℝ, 1 / k * (k * s) = (1 / k * k) * s by intro k s; ring,
      one_div_mul_cancel hκ.ne', one_mul, Real.arsinh_sinh, ← mul_assoc,
      one_div_mul_cancel hδ.ne', one_mul, add_sub_cancel_right, h.cdf_ppf p hp0 hp1]
  · intro p q x y hp hpq hq hx hy
    rw [hppf] at hx hy
    have ex := Option.some.inj hx
    have ey := Option.some.inj hy
    have := h.cdf_mono (jqpdb_arg_lt hκ hδ (h.mono p q hp hpq hq))
    have := mul_lt_mul_of_pos_left this hw
    linarith

/-- **C39, counterexample.**  For *every* increasing triplet inside the bounds
that is symmetric on the scale of the base distribution, the constructor accepts
the triplet but every quantile is `nan`. -/
theorem C39_symmetric_is_nan (phi : Base) (h : SymmetricBase phi) (alpha low med high l u : ℝ)
    (h0 : l < low) (h1 : low < med) (h2 : med < high)
    (h3 : high < u) (hsym : SymmetricOnBase phi low med high l u) :
    ∃ d, mkJQPDB phi alpha low med high l u = .ok d ∧ ∀ p, d.ppf phi p = none := by
  have hcr : sptCrossing low med high = false := by
    simp [sptCrossing, not_lt.mpr h1.le, not_lt.mpr h2.le]
  have hlu : l < u := by linarith
  have hLB : phi.ppf ((low - l) / (u - l)) < phi.ppf ((med - l) / (u - l)) :=
    h.mono _ _ (unit_of_bounds h0 (by linarith)).1 (unit_lt hlu h1)
      (unit_of_bounds (by linarith) (by linarith)).2
  unfold SymmetricOnBase at hsym
  refine ⟨_, by rw [mkJQPDB, hcr]; rfl, fun p => ?_⟩
  rw [JQPDB.ppf, if_pos]
  right
  set L := phi.ppf ((low - l) / (u - l))
  set B := phi.ppf ((med - l) / (u - l))
  set H := phi.ppf ((high - l) / (u - l))
  have hBL : H - B = B - L := by linarith
  have hm : whereLt (B - L) (H - B) = B - L := by
    rw [hBL, whereLt]; simp
  have hq : (H - L) / (2 * (B - L)) = 1 := by
    rw [div_eq_one_iff_eq (by linarith)]; linarith
  simp only [hm, hq, Real.arcosh_zero, Real.sinh_zero, mul_zero, zero_mul]

/-- The symmetric case occurs in practice: with bounds placed symmetrically
around the median, a triplet symmetric around the median is affected. -/
theorem C39_symmetric_occurs (phi : Base) (h : SymmetricBase phi) (med w s : ℝ)
    (hs : 0 < s) (hw : s < w) :
    SymmetricOnBase phi (med - s) med (med + s) (med - w) (med + w) := by
  unfold SymmetricOnBase
  have hww : 0 < w := by linarith
  have e1 : (med + s - (med - w)) / (med + w - (med - w))
      = 1 - (med - s - (med - w)) / (med + w - (med - w)) := by
    have : med + w - (med - w) ≠ 0 := by linarith
    field_simp; ring
  have e2 : (med - (med - w)) / (med + w - (med - w)) = 1 / 2 := by
    have : med + w - (med - w) ≠ 0 := by linarith
    field_simp; ring
  have hb := unit_of_bounds (x := med - s) (l := med - w) (u := med + w) (by linarith) (by linarith)
  rw [e1, e2, h.symm _ hb.1 hb.2, h.ppf_half]
  ring

end CB
