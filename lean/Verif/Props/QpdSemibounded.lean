import Verif.Lemmas.QuantileMatching

/-!
# C38: `J_QPD_S`
-/

set_option autoImplicit false
set_option linter.unusedSectionVars false

namespace CB

open Spec

/-- Exponent of the quantile function of `J_QPD_S` as a function of the base
quantile `z`. -/
noncomputable def JQPDS.expo (d : JQPDS) (z : ℝ) : ℝ :=
  d.kappa * Real.sinh (Real.arsinh (z * d.delta) + Real.arsinh (d.n * d.c * d.delta))

theorem jqpds_expo_lt {d : JQPDS} (hk : 0 < d.kappa) (hd : 0 < d.delta) {z w : ℝ} (h : z < w) :
    d.expo z < d.expo w := by
  refine mul_lt_mul_of_pos_left ?_ hk
  refine Real.sinh_lt_sinh.mpr ?_
  have : Real.arsinh (z * d.delta) < Real.arsinh (w * d.delta) :=
    Real.arsinh_lt_arsinh.mpr (mul_lt_mul_of_pos_right h hd)
  linarith

theorem jqpds_log_asym {low med high l : ℝ} (h0 : l < low) (h1 : low < med) (h2 : med < high) :
    (Real.log (low - l) + Real.log (high - l) - 2 * Real.log (med - l) = 0
      ↔ (low - l) * (high - l) = (med - l) ^ 2) := by
  have a : 0 < low - l := by linarith
  have b : 0 < high - l := by linarith
  have c : 0 < med - l := by linarith
  have e : Real.log (low - l) + Real.log (high - l) - 2 * Real.log (med - l)
      = Real.log ((low - l) * (high - l)) - Real.log ((med - l) ^ 2) := by
    rw [Real.log_mul a.ne' b.ne', Real.log_pow]; push_cast; ring
  rw [e, sub_eq_zero]
  constructor
  · intro h
    exact Real.log_injOn_pos (Set.mem_Ioi.mpr (by positivity)) (Set.mem_Ioi.mpr (by positivity)) h
  · intro h; rw [h]

/-- What the constructor establishes in the asymmetric case. -/
theorem jqpds_mk {phi : Base} (h : SymmetricBase phi) {alpha low med high l : ℝ}
    (ha0 : 0 < alpha) (ha1 : alpha < 1 / 2) (h0 : l < low) (h1 : low < med) (h2 : med < high)
    (hasym : (low - l) * (high - l) ≠ (med - l) ^ 2) :
    ∃ d, mkJQPDS phi alpha low med high l = .ok d ∧ d.l = l ∧ d.c = phi.ppf (1 - alpha) ∧
      0 < d.delta ∧ 0 < d.kappa ∧ 0 < d.theta ∧ ¬ d.degenerate ∧
      d.theta * Real.exp (d.expo (-d.c)) = low - l ∧
      d.theta * Real.exp (d.expo 0) = med - l ∧
      d.theta * Real.exp (d.expo d.c) = high - l := by
  have hcr : sptCrossing low med high = false := by
    simp [sptCrossing, not_lt.mpr h1.le, not_lt.mpr h2.le]
  have hc := h.ppf_upper_pos ha0 ha1
  have hlow : 0 < low - l := by linarith
  have hmed : 0 < med - l := by linarith
  have hhigh : 0 < high - l := by linarith
  have hne : Real.log (low - l) + Real.log (high - l) - 2 * Real.log (med - l) ≠ 0 :=
    fun e => hasym ((jqpds_log_asym h0 h1 h2).mp e)
  have hLB : Real.log (low - l) < Real.log (med - l) := Real.log_lt_log hlow (by linarith)
  have hBH : Real.log (med - l) < Real.log (high - l) := Real.log_lt_log hmed (by linarith)
  have eL := Real.exp_log hlow
  have eB := Real.exp_log hmed
  have eH := Real.exp_log hhigh
  refine ⟨_, by rw [mkJQPDS, hcr]; rfl, rfl, rfl, ?_⟩
  simp only [if_neg hne]
  set c := phi.ppf (1 - alpha) with hcdef
  set L := Real.log (low - l)
  set B := Real.log (med - l)
  set H := Real.log (high - l)
  have key : ∀ m w : ℝ, 0 < m → 2 * m < w →
      let δ := 1 / c * Real.sinh (Real.arcosh (w / (2 * m)))
      let κ := 1 / (δ * c) * m
      0 < δ ∧ 0 < κ ∧ δ * c ≠ 0 ∧ Real.arsinh (c * δ) = Real.arcosh (w / (2 * m)) ∧
      κ * Real.sinh (Real.arcosh (w / (2 * m))) = m ∧
      κ * Real.sinh (2 * Real.arcosh (w / (2 * m))) = w := by
    intro m w hm hw
    obtain ⟨hapos, hs, hcosh⟩ := arcosh_facts hm hw
    have hδ : 0 < 1 / c * Real.sinh (Real.arcosh (w / (2 * m))) := by positivity
    have hcδ : c * (1 / c * Real.sinh (Real.arcosh (w / (2 * m))))
        = Real.sinh (Real.arcosh (w / (2 * m))) := by field_simp
    refine ⟨hδ, by positivity, by positivity, ?_, ?_, ?_⟩
    · rw [hcδ, Real.arsinh_sinh]
    · rw [mul_comm _ c, hcδ]; field_simp
    · rw [mul_comm _ c, hcδ, Real.sinh_two_mul, hcosh]; field_simp
  rcases lt_or_gt_of_ne hne with hneg | hpos
  · -- H - B < B - L
    have hlt : H - B < B - L := by linarith
    have hm : 0 < H - B := by linarith
    simp only [if_neg (not_lt.mpr hneg.le), gt_iff_lt, whereLt_of_gt hlt, whereLt_of_lt hlt,
      JQPDS.expo, JQPDS.degenerate]
    obtain ⟨hδ, hκ, hδc, hars, hh, hf⟩ := key (H - B) (H - L) hm (by linarith)
    set δ := 1 / c * Real.sinh (Real.arcosh ((H - L) / (2 * (H - B))))
    have hn : Real.arsinh (-1 * c * δ) = -Real.arcosh ((H - L) / (2 * (H - B))) := by
      rw [show -1 * c * δ = -(c * δ) by ring, Real.arsinh_neg, hars]
    refine ⟨hδ, hκ, hhigh, ?_, ?_, ?_, ?_⟩
    · rintro (e | e)
      · linarith
      · exact hδc e
    · rw [show -c * δ = -(c * δ) by ring, Real.arsinh_neg, hars, hn,
        show ∀ t : ℝ, -t + -t = -(2 * t) by intro t; ring, Real.sinh_neg, mul_neg, hf,
        show (high - l) = Real.exp H from eH.symm, ← Real.exp_add, ← eL]
      congr 1; ring
    · rw [zero_mul, Real.arsinh_zero, zero_add, hn, Real.sinh_neg, mul_neg, hh,
        show (high - l) = Real.exp H from eH.symm, ← Real.exp_add, ← eB]
      congr 1; ring
    · rw [hars, hn, add_neg_cancel, Real.sinh_zero, mul_zero, Real.exp_zero, mul_one]
  · have hlt : B - L < H - B := by linarith
    have hm : 0 < B - L := by linarith
    simp only [gt_iff_lt, if_pos hpos, whereLt_of_gt hlt, whereLt_of_lt hlt,
      JQPDS.expo, JQPDS.degenerate]
    obtain ⟨hδ, hκ, hδc, hars, hh, hf⟩ := key (B - L) (H - L) hm (by linarith)
    set δ := 1 / c * Real.sinh (Real.arcosh ((H - L) / (2 * (B - L))))
    have hn : Real.arsinh (1 * c * δ) = Real.arcosh ((H - L) / (2 * (B - L))) := by
      rw [one_mul, hars]
    refine ⟨hδ, hκ, hlow, ?_, ?_, ?_, ?_⟩
    · rintro (e | e)
      · linarith
      · exact hδc e
    · rw [show -c * δ = -(c * δ) by ring, Real.arsinh_neg, hars, hn, neg_add_cancel,
        Real.sinh_zero, mul_zero, Real.exp_zero, mul_one]
    · rw [zero_mul, Real.arsinh_zero, zero_add, hn, hh,
        show (low - l) = Real.exp L from eL.symm, ← Real.exp_add, ← eB]
      congr 1; ring
    · rw [hars, hn, ← two_mul, hf,
        show (low - l) = Real.exp L from eL.symm, ← Real.exp_add, ← eH]
      congr 1; ring

/-- **C38 (partial).**  For every increasing triplet above the lower bound that
is not exactly symmetric on the logarithmic scale, every `alpha` in `(0, 1/2)`
and every symmetric base distribution, `J_QPD_S` is accepted, its quantile
function hits the triplet, is strictly increasing with values above the bound,
and the cumulative distribution function inverts it.

Missing: exactly log-symmetric triplets, for which the claim is false of the
code, see `C38_log_symmetric_is_nan`. -/
theorem C38_jqpd_s_partial (phi : Base) (h : SymmetricBase phi) (alpha low med high l : ℝ)
    (ha0 : 0 < alpha) (ha1 : alpha < 1 / 2) (h0 : l < low) (h1 : low < med) (h2 : med < high)
    (hasym : (low - l) * (high - l) ≠ (med - l) ^ 2) :
    ∃ d, mkJQPDS phi alpha low med high l = .ok d ∧
      HitsTriplet (d.ppf phi) alpha low med high ∧
      QuantileFunction (d.ppf phi) (d.cdf phi) (fun x => l < x) := by
  obtain ⟨d, hd, hl, hc, hδ, hκ, hθ, hdeg, eL, eB, eH⟩ :=
    jqpds_mk h ha0 ha1 h0 h1 h2 hasym
  have hppf : ∀ p, d.ppf phi p = some (l + d.theta * Real.exp (d.expo (phi.ppf p))) := by
    intro p
    rw [JQPDS.ppf, if_neg hdeg, hl]; rfl
  refine ⟨d, hd, ⟨?_, ?_, ?_⟩, ?_, ?_⟩
  · rw [hppf, h.ppf_lower ha0 ha1, ← hc, eL]; congr 1; ring
  · rw [hppf, h.ppf_half, eB]; congr 1; ring
  · rw [hppf, ← hc, eH]; congr 1; ring
  · intro p hp0 hp1
    have hpos : 0 < d.theta * Real.exp (d.expo (phi.ppf p)) := by positivity
    refine ⟨_, hppf p, by linarith, ?_⟩
    have hq : (l + d.theta * Real.exp (d.expo (phi.ppf p)) - d.l) / d.theta
        = Real.exp (d.expo (phi.ppf p)) := by
      rw [hl]; field_simp; ring
    rw [JQPDS.cdf, if_neg, hq, Real.log_exp, JQPDS.expo]
    · rw [show ∀ k s : ℝ, 1 / k * (k * s) = (1 / k * k) * s by intro k s; ring,
        one_div_mul_cancel hκ.ne', one_mul, Real.arsinh_sinh, add_sub_cancel_right,
        Real.sinh_arsinh, mul_comm (phi.ppf p), ← mul_assoc, one_div_mul_cancel hδ.ne', one_mul,
        h.cdf_ppf p hp0 hp1]
    · rw [hq]
      rintro (e | e)
      · exact hdeg e
      · exact absurd (Real.exp_pos _) (not_lt.mpr e)
  · intro p q x y hp hpq hq hx hy
    rw [hppf] at hx hy
    have ex := Option.some.inj hx
    have ey := Option.some.inj hy
    have := jqpds_expo_lt hκ hδ (h.mono p q hp hpq hq)
    have := mul_lt_mul_of_pos_left (Real.exp_lt_exp.mpr this) hθ
    linarith

/-- **C38, counterexample.**  For *every* increasing triplet that is exactly
symmetric on the logarithmic scale, for example 1, 2, 4 with bound 0, the
constructor accepts the triplet but every quantile is `nan`. -/
theorem C38_log_symmetric_is_nan (phi : Base) (h : SymmetricBase phi) (alpha low med high l : ℝ)
    (ha0 : 0 < alpha) (ha1 : alpha < 1 / 2) (h0 : l < low) (h1 : low < med) (h2 : med < high)
    (hsym : (low - l) * (high - l) = (med - l) ^ 2) :
    ∃ d, mkJQPDS phi alpha low med high l = .ok d ∧ ∀ p, d.ppf phi p = none := by
  have hcr : sptCrossing low med high = false := by
    simp [sptCrossing, not_lt.mpr h1.le, not_lt.mpr h2.le]
  have hc := h.ppf_upper_pos ha0 ha1
  have e := (jqpds_log_asym h0 h1 h2).mpr hsym
  have hLB : Real.log (low - l) < Real.log (med - l) := Real.log_lt_log (by linarith) (by linarith)
  refine ⟨_, by rw [mkJQPDS, hcr]; rfl, fun p => ?_⟩
  rw [JQPDS.ppf, if_pos]
  right
  have hBL : Real.log (high - l) - Real.log (med - l) = Real.log (med - l) - Real.log (low - l) := by
    linarith
  have hm : whereLt (Real.log (med - l) - Real.log (low - l))
      (Real.log (high - l) - Real.log (med - l)) = Real.log (med - l) - Real.log (low - l) := by
    rw [hBL, whereLt]; simp
  have hq : (Real.log (high - l) - Real.log (low - l)) /
      (2 * (Real.log (med - l) - Real.log (low - l))) = 1 := by
    rw [div_eq_one_iff_eq (by linarith)]; linarith
  simp only [hm, hq, Real.arcosh_zero, Real.sinh_zero, mul_zero, zero_mul]

/-- **C38, rejection.**  A crossing triplet in any row makes the constructor
fail, and only a crossing triplet does. -/
theorem C38_rejects_exactly_crossing (phi : Base) (alpha l : ℝ) (rows : List (ℝ × ℝ × ℝ)) :
    (∃ ds, mkJQPDSRows phi alpha l rows = .ok ds) ↔
      ∀ r ∈ rows, r.1 ≤ r.2.1 ∧ r.2.1 ≤ r.2.2 := by
  have hone : ∀ r : ℝ × ℝ × ℝ, (∃ d, mkJQPDS phi alpha r.1 r.2.1 r.2.2 l = .ok d) ↔
      (r.1 ≤ r.2.1 ∧ r.2.1 ≤ r.2.2) := by
    intro r
    unfold mkJQPDS
    by_cases hcr : sptCrossing r.1 r.2.1 r.2.2 = true
    · rw [if_pos hcr]
      simp only [sptCrossing, gt_iff_lt, Bool.or_eq_true, decide_eq_true_eq] at hcr
      constructor
      · rintro ⟨d, hd⟩; cases hd
      · rintro ⟨a, b⟩
        rcases hcr with hcr | hcr <;> linarith
    · rw [if_neg hcr]
      simp only [sptCrossing, gt_iff_lt, Bool.or_eq_true, decide_eq_true_eq, not_or, not_lt] at hcr
      exact ⟨fun _ => hcr, fun _ => ⟨_, rfl⟩⟩
  unfold mkJQPDSRows
  induction rows with
  | nil => simp [pure, Except.pure]
  | cons r rs ih =>
    rw [List.mapM_cons]
    simp only [List.forall_mem_cons]
    rw [← hone r]
    refine Iff.trans ?_ (and_congr Iff.rfl ih)
    cases hr : mkJQPDS phi alpha r.1 r.2.1 r.2.2 l with
    | error e =>
      simp [bind, Except.bind]
    | ok d =>
      cases hrs : rs.mapM (fun r => mkJQPDS phi alpha r.1 r.2.1 r.2.2 l) with
      | error e => simp [bind, Except.bind]
      | ok ds => simp [bind, Except.bind, pure, Except.pure]

end CB
