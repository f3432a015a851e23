import Verif.Props.QpdBase

/-!
# C40: the extended J-QPD classes
-/

set_option autoImplicit false
set_option linter.unusedSectionVars false

namespace CB

open Spec

theorem range_valid {r : Range} {x : ℝ} (h : Inside r x) :
    (∀ x, Inside r x → r.toPhysical (r.toInternal x) = x) ∧
    (∀ z, Inside r (r.toPhysical z)) ∧
    (∀ z, r.toInternal (r.toPhysical z) = z) ∧
    (∀ z w, z < w → r.toPhysical z < r.toPhysical w) := by
  cases r with
  | U => exact ⟨fun _ _ => rfl, fun _ => trivial, fun _ => rfl, fun _ _ h => h⟩
  | S l => exact C43_semibound_lower l
  | B l u =>
    have hlu : l < u := lt_trans h.1 h.2
    obtain ⟨h1, h2, h3, h4⟩ := C43_bounded l u hlu
    exact ⟨fun x hx => h1 x hx.1 hx.2, h2, h3, h4⟩

theorem toInternal_lt {r : Range} {x y : ℝ} (hx : Inside r x) (hy : Inside r y) (hxy : x < y) :
    r.toInternal x < r.toInternal y := by
  obtain ⟨h1, -, -, h4⟩ := range_valid hx
  by_contra hc
  rcases lt_or_eq_of_le (not_lt.mp hc) with hlt | heq
  · have := h4 _ _ hlt
    rw [h1 x hx, h1 y hy] at this
    linarith
  · have := h1 x hx
    rw [← heq, h1 y hy] at this
    linarith

/-- The quantile function of a Johnson transform with positive scale. -/
theorem johnson_quantileFunction {phi : Base} (h : SymmetricBase phi) {alpha : ℝ}
    (ha0 : 0 < alpha) (ha1 : alpha < 1 / 2) {r : Range} {x0 : ℝ} (hx0 : Inside r x0)
    {j : Johnson} (hk : 0 < j.kappa) (hd : 0 < j.delta) :
    QuantileFunction (fun p => some (extendedPpf r j phi alpha p))
      (fun x => some (extendedCdf r j phi alpha x)) (Inside r) := by
  obtain ⟨hb, -, -⟩ := C58_basedist phi h alpha ha0 ha1
  obtain ⟨-, hin, hinv, hmono⟩ := range_valid hx0
  refine ⟨fun p hp0 hp1 => ⟨_, rfl, hin _, ?_⟩, fun p q x y hp hpq hq hx hy => ?_⟩
  · simp only [extendedCdf, extendedPpf]
    rw [hinv, Johnson.prob, Johnson.quantile, add_sub_cancel_left,
      mul_div_cancel_left₀ _ hk.ne', Real.arsinh_sinh, mul_div_cancel₀ _ hd.ne',
      add_sub_cancel, hb.cdf_ppf p hp0 hp1]
  · have ex := Option.some.inj hx
    have ey := Option.some.inj hy
    rw [← ex, ← ey]
    apply hmono
    unfold Johnson.quantile
    have h1 := hb.mono p q hp hpq hq
    have h2 : ((baseDist phi alpha).ppf p - j.gamma) / j.delta
        < ((baseDist phi alpha).ppf q - j.gamma) / j.delta :=
      div_lt_div_of_pos_right (by linarith) hd
    have := mul_lt_mul_of_pos_left (Real.sinh_lt_sinh.mpr h2) hk
    linarith

theorem unconstrainedCalc_asym {L B H : ℝ} (hLB : L < B) (hBH : B < H) (hne : L + H ≠ 2 * B) :
    ∃ j, unconstrainedCalc L B H = some j ∧ 0 < j.kappa ∧ 0 < j.delta ∧
      j.xi + j.kappa * Real.sinh ((-1 - j.gamma) / j.delta) = L ∧
      j.xi + j.kappa * Real.sinh ((0 - j.gamma) / j.delta) = B ∧
      j.xi + j.kappa * Real.sinh ((1 - j.gamma) / j.delta) = H := by
  have hHL : 0 < H - L := by linarith
  have key : ∀ m : ℝ, 0 < m → 2 * m < H - L →
      1 / (2 * (m / (H - L))) = (H - L) / (2 * m) := by
    intro m hm _; field_simp
  have hd0 : L + H - 2 * B ≠ 0 := fun e => hne (by linarith)
  rcases lt_or_gt_of_ne hd0 with hneg | hpos
  · have hm : 0 < H - B := by linarith
    have hw : 2 * (H - B) < H - L := by linarith
    obtain ⟨hapos, hs, -⟩ := arcosh_facts hm hw
    have hh := johnson_half hm hw
    have hf := johnson_full hm hw
    have hk := key _ hm hw
    have hs2 : 0 < Real.sinh (2 * Real.arcosh ((H - L) / (2 * (H - B)))) :=
      Real.sinh_pos_iff.mpr (by linarith)
    have hth : (H - B) / (H - L) ≠ 0 := (div_pos hm hHL).ne'
    refine ⟨_, by
      simp only [unconstrainedCalc, Real.sign_of_neg hneg, neg_neg, one_ne_zero, if_false,
        not_lt.mpr zero_le_one, hth, hk]
      rfl, ?_⟩
    have hdd : 2 / (1 / Real.arcosh ((H - L) / (2 * (H - B))))
        = 2 * Real.arcosh ((H - L) / (2 * (H - B))) := by field_simp
    simp only [hdd]
    refine ⟨by positivity, by positivity, ?_, ?_, ?_⟩
    · rw [show ∀ a : ℝ, (-1 - 1) / (1 / a) = -(2 * a) by intro a; rw [div_div_eq_mul_div]; ring,
        Real.sinh_neg, mul_neg, hf]; ring
    · rw [show ∀ a : ℝ, (0 - 1) / (1 / a) = -a by intro a; rw [div_div_eq_mul_div]; ring,
        Real.sinh_neg, mul_neg, hh]; ring
    · rw [sub_self, zero_div, Real.sinh_zero]; ring
  · have hm : 0 < B - L := by linarith
    have hw : 2 * (B - L) < H - L := by linarith
    obtain ⟨hapos, hs, -⟩ := arcosh_facts hm hw
    have hh := johnson_half hm hw
    have hf := johnson_full hm hw
    have hk := key _ hm hw
    have hs2 : 0 < Real.sinh (2 * Real.arcosh ((H - L) / (2 * (B - L)))) :=
      Real.sinh_pos_iff.mpr (by linarith)
    have hth : (B - L) / (H - L) ≠ 0 := (div_pos hm hHL).ne'
    refine ⟨_, by
      simp only [unconstrainedCalc, Real.sign_of_pos hpos, neg_eq_zero, one_ne_zero, if_false,
        neg_lt_zero, zero_lt_one, if_true, hth, hk]
      rfl, ?_⟩
    have hdd : 2 / (1 / Real.arcosh ((H - L) / (2 * (B - L))))
        = 2 * Real.arcosh ((H - L) / (2 * (B - L))) := by field_simp
    simp only [hdd]
    refine ⟨by positivity, by positivity, ?_, ?_, ?_⟩
    · rw [sub_self, zero_div, Real.sinh_zero]; ring
    · rw [show ∀ a : ℝ, (0 - -1) / (1 / a) = a by intro a; rw [div_div_eq_mul_div]; ring,
        hh]; ring
    · rw [show ∀ a : ℝ, (1 - -1) / (1 / a) = 2 * a by intro a; rw [div_div_eq_mul_div]; ring,
        hf]; ring

theorem extended_accepts (r : Range) {low med high : ℝ} (h1 : low < med) (h2 : med < high) :
    mkExtended r low med high
      = .ok (unconstrainedCalc (r.toInternal low) (r.toInternal med) (r.toInternal high)) := by
  have hcr : sptCrossing low med high = false := by
    simp [sptCrossing, not_lt.mpr h1.le, not_lt.mpr h2.le]
  rw [mkExtended, hcr]; rfl

/-- **C40 (partial).**  Unbounded, semi-bounded and bounded extended classes: for
every increasing triplet strictly inside the range whose transformed values are
not exactly symmetric, every `alpha` in `(0, 1/2)` and every symmetric base
distribution, the constructor succeeds, the quantile function hits the triplet,
is strictly increasing with values strictly inside the range, and the
distribution function inverts it.

Missing: exactly symmetric triplets, where the claim is false of the code, see
`C40_symmetric_misses`. -/
theorem C40_extended_partial (phi : Base) (h : SymmetricBase phi) (r : Range)
    (alpha low med high : ℝ) (ha0 : 0 < alpha) (ha1 : alpha < 1 / 2)
    (hl : Inside r low) (hm : Inside r med) (hh : Inside r high)
    (h1 : low < med) (h2 : med < high)
    (hasym : r.toInternal low + r.toInternal high ≠ 2 * r.toInternal med) :
    ∃ j, mkExtended r low med high = .ok (some j) ∧
      HitsTriplet (fun p => some (extendedPpf r j phi alpha p)) alpha low med high ∧
      QuantileFunction (fun p => some (extendedPpf r j phi alpha p))
        (fun x => some (extendedCdf r j phi alpha x)) (Inside r) := by
  obtain ⟨j, hj, hk, hd, eL, eB, eH⟩ :=
    unconstrainedCalc_asym (toInternal_lt hl hm h1) (toInternal_lt hm hh h2) hasym
  obtain ⟨hb, hb1, hb0⟩ := C58_basedist phi h alpha ha0 ha1
  obtain ⟨hinv, -, -, -⟩ := range_valid hl
  refine ⟨j, by rw [extended_accepts r h1 h2, hj], ⟨?_, ?_, ?_⟩,
    johnson_quantileFunction h ha0 ha1 hl hk hd⟩
  · simp only [extendedPpf, Johnson.quantile, hb0, eL, hinv low hl]
  · simp only [extendedPpf, Johnson.quantile, hb.ppf_half, eB, hinv med hm]
  · simp only [extendedPpf, Johnson.quantile, hb1, eH, hinv high hh]

/-- **C40, counterexample.**  For *every* increasing triplet inside the range
whose transformed values are symmetric, the quantile function hits the median
but overshoots both outer quantiles: at `1 - alpha` it is strictly above
`qv_high`, at `alpha` strictly below `qv_low`.  (It is still a valid quantile
function inside the range.) -/
theorem C40_symmetric_misses (phi : Base) (h : SymmetricBase phi) (r : Range)
    (alpha low med high : ℝ) (ha0 : 0 < alpha) (ha1 : alpha < 1 / 2)
    (hl : Inside r low) (hm : Inside r med) (hh : Inside r high)
    (h1 : low < med) (h2 : med < high)
    (hsym : r.toInternal low + r.toInternal high = 2 * r.toInternal med) :
    ∃ j, mkExtended r low med high = .ok (some j) ∧
      extendedPpf r j phi alpha (1 / 2) = med ∧
      extendedPpf r j phi alpha (1 - alpha) > high ∧
      extendedPpf r j phi alpha alpha < low ∧
      QuantileFunction (fun p => some (extendedPpf r j phi alpha p))
        (fun x => some (extendedCdf r j phi alpha x)) (Inside r) := by
  obtain ⟨hb, hb1, hb0⟩ := C58_basedist phi h alpha ha0 ha1
  obtain ⟨hinv, -, -, hmono⟩ := range_valid hl
  have hBH := toInternal_lt hm hh h2
  have hs1 : 1 < Real.sinh 1 := Real.self_lt_sinh_iff.mpr one_pos
  refine ⟨{ gamma := 0, xi := r.toInternal med,
            kappa := r.toInternal high - r.toInternal med, delta := 1 }, ?_, ?_, ?_, ?_, ?_⟩
  · rw [extended_accepts r h1 h2]
    have e : r.toInternal low + r.toInternal high - 2 * r.toInternal med = 0 := by linarith
    simp [unconstrainedCalc, e]
  · simp only [extendedPpf, Johnson.quantile, hb.ppf_half, sub_self, zero_div, Real.sinh_zero,
      mul_zero, add_zero, hinv med hm]
  · simp only [extendedPpf, Johnson.quantile, hb1, sub_zero, div_one, gt_iff_lt]
    calc high = r.toPhysical (r.toInternal high) := (hinv high hh).symm
      _ < _ := hmono _ _ (by
        have := mul_lt_mul_of_pos_left hs1 (sub_pos.mpr hBH)
        linarith)
  · simp only [extendedPpf, Johnson.quantile, hb0, sub_zero, div_one, Real.sinh_neg]
    calc _ < r.toPhysical (r.toInternal low) := hmono _ _ (by
          have := mul_lt_mul_of_pos_left hs1 (sub_pos.mpr hBH)
          linarith)
      _ = low := hinv low hl
  · exact johnson_quantileFunction h ha0 ha1 hl (sub_pos.mpr hBH) one_pos

/-- The symmetric case is an everyday one: 1, 2, 3 without bounds, or 1, 2, 4
above 0. -/
example : (Range.U).toInternal 1 + (Range.U).toInternal 3 = 2 * (Range.U).toInternal 2 := by
  norm_num [Range.toInternal]

example : (Range.S 0).toInternal 1 + (Range.S 0).toInternal 4 = 2 * (Range.S 0).toInternal 2 := by
  simp only [Range.toInternal, transformFromSemiboundLower, nudgeZero]
  norm_num
  rw [show (4 : ℝ) = 2 ^ 2 by norm_num, Real.log_pow]
  norm_num

/-- Witness for the hypotheses of C40: 1, 2, 10 without bounds, with the
package's default base distribution. -/
example : ∃ j, mkExtended .U 1 2 10 = .ok (some j) ∧
    HitsTriplet (fun p => some (extendedPpf .U j (sinhLogistic 0.3) 0.25 p)) 0.25 1 2 10 := by
  obtain ⟨j, h1, h2, -⟩ := C40_extended_partial (sinhLogistic 0.3) (C58_sinhlogistic _) .U 0.25 1 2
    10 (by norm_num) (by norm_num) trivial trivial trivial (by norm_num) (by norm_num)
    (by norm_num [Range.toInternal])
  exact ⟨j, h1, h2⟩

/-- Version selection: every version string the classes accept yields a symmetric
base distribution, provided scipy's normal distribution is one. -/
theorem C40_versions (nrm : Base) (hn : SymmetricBase nrm) (version : String) (shape : ℝ)
    (phi : Base) (hphi : selectPhiExt nrm version shape = some phi) : SymmetricBase phi := by
  unfold selectPhiExt at hphi
  split_ifs at hphi with h1 h2 h3
  · cases hphi; exact hn
  · cases hphi; exact C58_logistic
  · cases hphi; exact C58_sinhlogistic shape

end CB
