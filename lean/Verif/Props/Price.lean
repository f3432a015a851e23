import Verif.Model.Price
import Mathlib.Analysis.SpecialFunctions.Log.Deriv
import Mathlib.Analysis.SpecialFunctions.ExpDeriv
import Mathlib.Algebra.Order.Field.Rat
import Mathlib.Tactic.Linarith
import Mathlib.Tactic.Ring
import Mathlib.Tactic.FieldSimp
import Mathlib.Tactic.NormNum
import Mathlib.Tactic.Positivity

/-!
# C44, C59, C60, C61: the price model
-/

set_option autoImplicit false
set_option linter.unusedSectionVars false

namespace CB

open Finset

section
variable {K : Type*} [Field K] [LinearOrder K] [IsStrictOrderedRing K]

/-! ## C44 -/

theorem setRightBoundLoop_bounds (n : ℕ) (jac : (ℕ → K) → ℕ → Flt K) (valid : ℕ → Bool) :
    ∀ (k : ℕ) (x : ℕ → K), (∀ b, 0 ≤ x b) → ∀ b,
      x b ≤ setRightBoundLoop n jac valid k x b ∧
      setRightBoundLoop n jac valid k x b ≤ x b * 2 ^ k ∧
      (valid b = false → setRightBoundLoop n jac valid k x b = x b)
  | 0, x, h0, b => by simp [setRightBoundLoop]
  | k + 1, x, h0, b => by
    unfold setRightBoundLoop
    dsimp only
    by_cases hany : (List.range n).any (fun b => valid b && (jac x b).ltZero) = true
    · rw [if_pos hany]
      have h0' : ∀ b, 0 ≤ (if (valid b && (jac x b).ltZero) = true then x b * 2 else x b) := by
        intro b
        have := h0 b
        split_ifs <;> linarith
      obtain ⟨h1, h2, h3⟩ := setRightBoundLoop_bounds n jac valid k _ h0' b
      have hx := h0 b
      have hp : (0 : K) < 2 ^ k := by positivity
      refine ⟨?_, ?_, ?_⟩
      · refine le_trans ?_ h1
        split_ifs <;> linarith
      · refine le_trans h2 ?_
        have e : x b * 2 ^ (k + 1) = x b * 2 * 2 ^ k := by ring
        rw [e]
        apply mul_le_mul_of_nonneg_right _ hp.le
        split_ifs <;> linarith
      · intro hv
        rw [h3 hv]
        simp [hv]
    · rw [if_neg hany]
      have hp : (1 : K) ≤ 2 ^ (k + 1) := one_le_pow₀ (by norm_num)
      refine ⟨le_refl _, ?_, fun _ => rfl⟩
      calc x b = x b * 1 := (mul_one _).symm
        _ ≤ x b * 2 ^ (k + 1) := mul_le_mul_of_nonneg_left hp (h0 b)

/-- The loop keeps every bin in its bracket, or at exactly 1 once it is invalid. -/
theorem bisectLoop_inv (n : ℕ) (step : (ℕ → K) → NewtonOut K) (eps : K) (xl0 xr0 : ℕ → K) :
    ∀ (k : ℕ) (s : BisectState K),
      (∀ b, b < n → (s.l b = 1 ∧ s.valid b = false) ∨
        (xl0 b ≤ s.xl b ∧ s.xl b ≤ s.l b ∧ s.l b ≤ s.xr b ∧ s.xr b ≤ xr0 b)) →
      ∀ b, b < n → (bisectLoop n step eps k s).1.l b = 1 ∨
        (xl0 b ≤ (bisectLoop n step eps k s).1.l b ∧ (bisectLoop n step eps k s).1.l b ≤ xr0 b)
  | 0, s, h, b, hb => by
    simp only [bisectLoop]
    rcases h b hb with h1 | ⟨h1, h2, h3, h4⟩
    · exact Or.inl h1.1
    · exact Or.inr ⟨le_trans h1 h2, le_trans h3 h4⟩
  | k + 1, s, h, b, hb => by
    unfold bisectLoop
    dsimp only
    split
    · dsimp only
      rcases h b hb with h1 | ⟨h1, h2, h3, h4⟩
      · exact Or.inl h1.1
      · exact Or.inr ⟨le_trans h1 h2, le_trans h3 h4⟩
    · apply bisectLoop_inv n step eps xl0 xr0 k _ _ b hb
      intro c hc
      dsimp only
      by_cases hv : (s.valid c && (((step s.l).jac c).isFinite && ((step s.l).hess c).isFinite
          && ((step s.l).lnew c).isFinite)) = true
      · right
        have hvs : s.valid c = true := by
          simp only [Bool.and_eq_true] at hv; exact hv.1
        rcases h c hc with ⟨-, hf⟩ | ⟨h1, h2, h3, h4⟩
        · rw [hvs] at hf; cases hf
        · simp only [hv, Bool.true_and, if_true]
          cases hj : ((step s.l).jac c).ltZero
          · simp only [Bool.false_eq_true, if_false, Bool.not_false, if_true]
            refine ⟨h1, ?_, ?_, by linarith⟩
            · split_ifs with hcond
              · linarith
              · push Not at hcond; exact hcond.2
            · split_ifs with hcond
              · linarith
              · push Not at hcond; exact hcond.1
          · simp only [if_true, Bool.not_true, Bool.false_eq_true, if_false]
            refine ⟨by linarith, ?_, ?_, h4⟩
            · split_ifs with hcond
              · linarith
              · push Not at hcond; exact hcond.2
            · split_ifs with hcond
              · linarith
              · push Not at hcond; exact hcond.1
      · left
        simp only [Bool.not_eq_true] at hv
        simp [hv]

/-- A bin that is invalid from the beginning and starts at 1 stays at 1. -/
theorem bisectLoop_invalid (n : ℕ) (step : (ℕ → K) → NewtonOut K) (eps : K) (b : ℕ) :
    ∀ (k : ℕ) (s : BisectState K), s.valid b = false → s.l b = 1 →
      (bisectLoop n step eps k s).1.l b = 1
  | 0, s, _, h => h
  | k + 1, s, hv, h => by
    unfold bisectLoop
    dsimp only
    split
    · exact h
    · apply bisectLoop_invalid n step eps b k
      · simp [hv]
      · simp [hv]

theorem bisectStart_mem (n : ℕ) (xl xr : ℕ → K) (h : ∀ b, b < n → xl b ≤ xr b)
    (start : Option (ℕ → K)) (b : ℕ) (hb : b < n) :
    xl b ≤ bisectStart n xl xr start b ∧ bisectStart n xl xr start b ≤ xr b := by
  have hh := h b hb
  cases start with
  | none => exact ⟨by simp only [bisectStart]; linarith, by simp only [bisectStart]; linarith⟩
  | some s =>
    unfold bisectStart
    dsimp only
    split_ifs with hc
    · exact ⟨by linarith, by linarith⟩
    · simp only [Bool.or_eq_true, List.any_eq_true, List.mem_range, decide_eq_true_eq, not_or,
        not_exists, not_and, not_lt, gt_iff_lt] at hc
      exact ⟨hc.1 b hb, hc.2 b hb⟩

/-- **C44.**  For every oracle of Jacobians and Hessians (including NaN and
infinite ones), every bracket `0 ≤ x_l ≤ x_r`, all start values and every number
of iterations: the returned left bounds are the given ones, the returned right
bounds are at most doubled ten times (and untouched for bins without samples),
and the result of every bin is exactly 1 or inside the returned bracket. -/
theorem C44_stays_in_bracket (n : ℕ) (jac0 : (ℕ → K) → ℕ → Flt K)
    (step : (ℕ → K) → NewtonOut K) (valid : ℕ → Bool) (xl xr : ℕ → K) (eps : K) (maxIter : ℕ)
    (start : Option (ℕ → K)) (hpos : ∀ b, 0 ≤ xr b) (hle : ∀ b, xl b ≤ xr b)
    (r : BisectResult K) (hr : newtonBisect n jac0 step valid xl xr eps maxIter start = some r) :
    (∀ b, r.xl b = xl b ∧ xr b ≤ r.xr b ∧ r.xr b ≤ xr b * 2 ^ 10 ∧
      (valid b = false → r.xr b = xr b)) ∧
    ∀ b, b < n → r.l b = 1 ∨ (r.xl b ≤ r.l b ∧ r.l b ≤ r.xr b) := by
  unfold newtonBisect at hr
  split_ifs at hr
  dsimp only at hr
  cases hr
  have hb := setRightBoundLoop_bounds n jac0 valid 10 xr hpos
  refine ⟨fun b => ⟨rfl, (hb b).1, (hb b).2.1, (hb b).2.2⟩, fun b hbn => ?_⟩
  apply bisectLoop_inv n step eps xl (setRightBound n jac0 valid xr) maxIter _ _ b hbn
  intro c hc
  right
  have hst := bisectStart_mem n xl (setRightBound n jac0 valid xr)
    (fun b _ => le_trans (hle b) (hb b).1) start c hc
  exact ⟨le_refl _, hst.1, hst.2, le_refl _⟩

/-- **C44, as used by the price model.**  Every exponent factor lies in
`[0, 2048]`, and a bin without samples gets exactly 1. -/
theorem C44_exponent_factors (n : ℕ) (step : (ℕ → K) → NewtonOut K) (binWeights : ℕ → K) :
    ∃ r, exponentBisect n step binWeights = some r ∧
      (∀ b, b < n → 0 ≤ r.l b ∧ r.l b ≤ 2048) ∧
      ∀ b, b < n → ¬ binWeights b > 0 → r.l b = 1 := by
  have hex : ∃ r, exponentBisect n step binWeights = some r := by
    unfold exponentBisect newtonBisect
    rw [if_neg (by norm_num)]
    exact ⟨_, rfl⟩
  obtain ⟨r, hr⟩ := hex
  refine ⟨r, hr, fun b hb => ?_, fun b hb hw => ?_⟩
  · obtain ⟨h1, h2⟩ := C44_stays_in_bracket n _ step _ (fun _ => 0) (fun _ => 2 * 1) _ 10 _
      (fun _ => by norm_num) (fun _ => by norm_num) r hr
    obtain ⟨e1, -, e3, -⟩ := h1 b
    have e3' : r.xr b ≤ 2048 := le_trans e3 (by norm_num)
    rcases h2 b hb with h | ⟨h, h'⟩
    · rw [h]; constructor <;> norm_num
    · rw [e1] at h; exact ⟨h, le_trans h' e3'⟩
  · unfold exponentBisect newtonBisect at hr
    rw [if_neg (by norm_num)] at hr
    cases hr
    apply bisectLoop_invalid
    · exact decide_eq_false hw
    · have hb' := setRightBoundLoop_bounds n (fun x => (step x).jac)
        (fun b => decide (binWeights b > 0)) 10 (fun _ => (2 * 1 : K)) (fun _ => by norm_num)
      unfold bisectStart
      dsimp only
      rw [if_neg]
      simp only [Bool.or_eq_true, List.any_eq_true, List.mem_range, decide_eq_true_eq, not_or,
        not_exists, not_and, not_lt, gt_iff_lt]
      refine ⟨fun _ _ => zero_le_one, fun c _ => ?_⟩
      have := (hb' c).1
      unfold setRightBound
      linarith

/-- The Hessian that enters the variance is one the oracle returned for that bin,
or 1, or (before the first iteration) undefined. -/
theorem bisectLoop_hess (n : ℕ) (step : (ℕ → K) → NewtonOut K) (eps : K) (b : ℕ) :
    ∀ (k : ℕ) (s : BisectState K),
      ((∃ l, s.hess b = (step l).hess b) ∨ s.hess b = .fin 1) ∨ 0 < k →
      (∃ l, (bisectLoop n step eps k s).1.hess b = (step l).hess b) ∨
        (bisectLoop n step eps k s).1.hess b = .fin 1
  | 0, s, h => by
    rcases h with h | h
    · exact h
    · omega
  | k + 1, s, _ => by
    unfold bisectLoop
    dsimp only
    split
    · exact Or.inl ⟨_, rfl⟩
    · apply bisectLoop_hess n step eps b k
      left
      dsimp only
      split_ifs
      · exact Or.inl ⟨_, rfl⟩
      · exact Or.inr rfl

theorem hessInv_pos (h : Flt K) (hn : h ≠ .nan) : hessInv h = .pinf ∨ ∃ v, 0 < v ∧ hessInv h = .fin v := by
  cases h with
  | nan => exact absurd rfl hn
  | pinf => exact Or.inr ⟨1, one_pos, rfl⟩
  | ninf => exact Or.inr ⟨1, one_pos, rfl⟩
  | fin x =>
    unfold hessInv
    dsimp only
    split_ifs with h1 h2
    · exact Or.inl rfl
    · exact Or.inr ⟨1, one_pos, rfl⟩
    · exact Or.inr ⟨1 / x, not_le.mp h2, rfl⟩

/-- **C44, variances.**  Whatever the oracle returns, the inverse Hessian of a bin
is positive or infinite, unless the oracle itself returned NaN as a Hessian of
that bin. -/
theorem C44_variance_positive (n : ℕ) (jac0 : (ℕ → K) → ℕ → Flt K)
    (step : (ℕ → K) → NewtonOut K) (valid : ℕ → Bool) (xl xr : ℕ → K) (eps : K) (maxIter : ℕ)
    (start : Option (ℕ → K)) (r : BisectResult K)
    (hr : newtonBisect n jac0 step valid xl xr eps maxIter start = some r) (b : ℕ)
    (hn : ∀ l, (step l).hess b ≠ .nan) :
    r.hessInv b = .pinf ∨ ∃ v, 0 < v ∧ r.hessInv b = .fin v := by
  unfold newtonBisect at hr
  split_ifs at hr with h0
  dsimp only at hr
  cases hr
  apply hessInv_pos
  rcases bisectLoop_hess n step eps b maxIter
    { l := bisectStart n xl (setRightBound n jac0 valid xr) start, xl := xl,
      xr := setRightBound n jac0 valid xr, valid := valid, hess := fun _ => .nan }
    (Or.inr (Nat.pos_of_ne_zero h0)) with ⟨l, hl⟩ | h1
  · rw [hl]; exact hn l
  · rw [h1]; exact fun h => by cases h

/-- A root of an increasing gradient is never lost: if the gradient of bin `b` is
negative below `ρ` and non-negative from `ρ` on, and `ρ` is inside the starting
bracket, then it stays inside the shrinking bracket. -/
theorem bisectLoop_root (n : ℕ) (step : (ℕ → K) → NewtonOut K) (eps : K) (b : ℕ) (ρ : K)
    (hfin : ∀ l, ∃ j, (step l).jac b = .fin j ∧ (j < 0 ↔ l b < ρ)) :
    ∀ (k : ℕ) (s : BisectState K), s.xl b ≤ ρ → ρ ≤ s.xr b →
      (bisectLoop n step eps k s).1.xl b ≤ ρ ∧ ρ ≤ (bisectLoop n step eps k s).1.xr b
  | 0, s, h1, h2 => ⟨h1, h2⟩
  | k + 1, s, h1, h2 => by
    unfold bisectLoop
    dsimp only
    split
    · exact ⟨h1, h2⟩
    · obtain ⟨j, hj, hiff⟩ := hfin s.l
      apply bisectLoop_root n step eps b ρ hfin k
      · dsimp only
        split_ifs with hc
        · rw [hj] at hc
          simp only [Flt.ltZero, Bool.and_eq_true, decide_eq_true_eq] at hc
          exact (hiff.mp hc.2).le
        · exact h1
      · dsimp only
        split_ifs with hc
        · rw [hj] at hc
          simp only [Flt.ltZero, Bool.and_eq_true, Bool.not_eq_true', decide_eq_false_iff_not]
            at hc
          exact not_lt.mp (fun h => hc.2 (hiff.mpr h))
        · exact h2

end

/-! ## C59: the Newton step differentiates the documented objective -/

section
open Real

/-- Specification: the objective documented in the comments of `newton_step`, for
one sample at parameter `t`: squared error times `s`, plus the prior terms shared
equally among the samples of the bin. -/
noncomputable def exponentObjective (d : ExpoData) (t : ℝ) (i : ℕ) : ℝ :=
  (d.y i - d.p i * exp (t * d.k i * d.logX i)) ^ 2 * d.s i
    + ((t * d.k i - d.prior i) ^ 2 + (t - 1) ^ 2 + log t ^ 2 + (log t + d.logKPrior i) ^ 2)
      / d.varL / d.count i

theorem hasDerivAt_mu (d : ExpoData) (t : ℝ) (i : ℕ) :
    HasDerivAt (fun t => d.mu t i) (d.k i * d.logX i * d.mu t i) t := by
  have h1 : HasDerivAt (fun t : ℝ => d.k i * t * d.logX i) (d.k i * d.logX i) t := by
    refine (((hasDerivAt_id t).const_mul (d.k i)).mul_const (d.logX i)).congr_deriv ?_
    simp
  refine ((h1.exp).const_mul (d.p i)).congr_deriv ?_
  unfold ExpoData.mu
  ring

theorem hasDerivAt_sample (d : ExpoData) {t : ℝ} (ht : 0 < t) (i : ℕ) :
    HasDerivAt (fun t => exponentObjective d t i) (d.jacData t i + d.jacPrior t i) t := by
  have hmu := hasDerivAt_mu d t i
  have h1 : HasDerivAt (fun t => (d.y i - d.mu t i) ^ 2 * d.s i) (d.jacData t i) t := by
    refine (((hmu.const_sub (d.y i)).pow 2).mul_const (d.s i)).congr_deriv ?_
    unfold ExpoData.jacData
    simp only [Nat.cast_ofNat, Nat.add_one_sub_one, pow_one]
    ring
  have hlog := hasDerivAt_log ht.ne'
  have h2 : HasDerivAt (fun t => ((t * d.k i - d.prior i) ^ 2 + (t - 1) ^ 2 + log t ^ 2
      + (log t + d.logKPrior i) ^ 2) / d.varL / d.count i) (d.jacPrior t i) t := by
    have a1 : HasDerivAt (fun t : ℝ => (t * d.k i - d.prior i) ^ 2)
        (2 * (t * d.k i - d.prior i) * d.k i) t := by
      refine ((((hasDerivAt_id t).mul_const (d.k i)).sub_const (d.prior i)).pow 2).congr_deriv ?_
      simp
    have a2 : HasDerivAt (fun t : ℝ => (t - 1) ^ 2) (2 * (t - 1)) t := by
      refine (((hasDerivAt_id t).sub_const (1 : ℝ)).pow 2).congr_deriv ?_
      simp
    have a3 : HasDerivAt (fun t : ℝ => log t ^ 2) (2 * log t * t⁻¹) t := by
      refine (hlog.pow 2).congr_deriv ?_
      simp
    have a4 : HasDerivAt (fun t : ℝ => (log t + d.logKPrior i) ^ 2)
        (2 * (log t + d.logKPrior i) * t⁻¹) t := by
      refine ((hlog.add_const (d.logKPrior i)).pow 2).congr_deriv ?_
      simp
    refine ((((a1.add a2).add a3).add a4).div_const d.varL |>.div_const (d.count i)).congr_deriv ?_
    unfold ExpoData.jacPrior
    congr 2
    field_simp
    ring
  refine (h1.add h2).congr_of_eventuallyEq (Filter.Eventually.of_forall fun u => ?_)
  simp only [exponentObjective, ExpoData.mu, Pi.add_apply]
  rw [show u * d.k i * d.logX i = d.k i * u * d.logX i by ring]

theorem hasDerivAt_sample2 (d : ExpoData) {t : ℝ} (ht : 0 < t) (i : ℕ) :
    HasDerivAt (fun t => d.jacData t i + d.jacPrior t i) (d.hessData t i + d.hessPrior t i) t := by
  have hmu := hasDerivAt_mu d t i
  have h1 : HasDerivAt (fun t => d.jacData t i) (d.hessData t i) t := by
    have e := (((hmu.const_mul (2 * (d.k i * d.logX i))).mul (hmu.const_sub (d.y i))).neg).mul_const
      (d.s i)
    refine e.congr_deriv ?_
    unfold ExpoData.hessData ExpoData.jacData
    ring
  have h2 : HasDerivAt (fun t => d.jacPrior t i) (d.hessPrior t i) t := by
    have hlog := hasDerivAt_log ht.ne'
    have b1 : HasDerivAt (fun t : ℝ => (d.logKPrior i + 2 * log t) / t)
        ((2 * t⁻¹ * t - (d.logKPrior i + 2 * log t) * 1) / t ^ 2) t :=
      ((hlog.const_mul 2).const_add (d.logKPrior i)).div (hasDerivAt_id t) ht.ne'
    have b2 : HasDerivAt (fun t : ℝ => d.k i * (d.k i * t - d.prior i)) (d.k i * d.k i) t := by
      refine ((((hasDerivAt_id t).const_mul (d.k i)).sub_const (d.prior i)).const_mul
        (d.k i)).congr_deriv ?_
      simp
    have b3 := ((((b2.add (hasDerivAt_id t)).sub_const (1 : ℝ)).add b1).const_mul 2).div_const
      d.varL |>.div_const (d.count i)
    refine b3.congr_deriv ?_
    unfold ExpoData.hessPrior
    congr 2
    field_simp
  exact h1.add h2

theorem hasDerivAt_binSum (n : ℕ) (codes : ℕ → ℕ) (b : ℕ) (f f' : ℝ → ℕ → ℝ) (t : ℝ)
    (h : ∀ i, HasDerivAt (fun u => f u i) (f' t i) t) :
    HasDerivAt (fun u => binSum n codes (f u) b) (binSum n codes (f' t) b) t := by
  unfold binSum
  apply HasDerivAt.fun_sum
  intro i _
  by_cases hc : codes i = b
  · simpa [hc] using h i
  · simpa [hc] using hasDerivAt_const t (0 : ℝ)

theorem jac_local (d : ExpoData) (l : ℕ → ℝ) (b : ℕ) :
    d.jac l b = binSum d.n d.codes (fun i => d.jacData (l b) i + d.jacPrior (l b) i) b := by
  unfold ExpoData.jac binSum
  apply sum_congr rfl
  intro i _
  by_cases hc : d.codes i = b
  · simp [hc]
  · simp [hc]

theorem hess_local (d : ExpoData) (l : ℕ → ℝ) (b : ℕ) :
    d.hess l b = binSum d.n d.codes (fun i => d.hessData (l b) i + d.hessPrior (l b) i) b := by
  unfold ExpoData.hess binSum
  apply sum_congr rfl
  intro i _
  by_cases hc : d.codes i = b
  · simp [hc]
  · simp [hc]

/-- **C59, gradient.**  In every bin with a positive parameter the Jacobian used by
the exponent fit is the derivative of the documented regularised squared-error
objective of that bin. -/
theorem C59_jacobian (d : ExpoData) (l : ℕ → ℝ) (b : ℕ) (hl : 0 < l b) :
    HasDerivAt (fun t => binSum d.n d.codes (exponentObjective d t) b) (d.jac l b) (l b) := by
  rw [jac_local]
  exact hasDerivAt_binSum d.n d.codes b (exponentObjective d)
    (fun t i => d.jacData t i + d.jacPrior t i) (l b) (fun i => hasDerivAt_sample d hl i)

/-- **C59, Hessian.**  The Hessian is the derivative of the Jacobian with respect to
the parameter of the bin. -/
theorem C59_hessian (d : ExpoData) (l : ℕ → ℝ) (b : ℕ) (hl : 0 < l b) :
    HasDerivAt (fun t => d.jac (Function.update l b t) b) (d.hess l b) (l b) := by
  rw [hess_local]
  have e : (fun t => d.jac (Function.update l b t) b)
      = fun t => binSum d.n d.codes (fun i => d.jacData t i + d.jacPrior t i) b := by
    funext t
    rw [jac_local]
    simp
  rw [e]
  exact hasDerivAt_binSum d.n d.codes b (fun t i => d.jacData t i + d.jacPrior t i)
    (fun t i => d.hessData t i + d.hessPrior t i) (l b) (fun i => hasDerivAt_sample2 d hl i)

/-- The step solves the linearised equation: `jac + hess*(lnew - l) = 0`. -/
theorem C59_step (d : ExpoData) (l : ℕ → ℝ) (b : ℕ) (x : ℝ) (h : (d.step l).lnew b = .fin x) :
    d.jac l b + d.hess l b * (x - l b) = 0 := by
  unfold ExpoData.step at h
  dsimp only at h
  split_ifs at h with _ hh
  cases h
  field_simp
  ring

/-- The exponent fit of the price model on real data: it never fails, all
exponent factors lie in `[0, 2048]`, bins without samples get 1, and all variances
are positive or infinite. -/
theorem C59_fit_total (d : ExpoData) (nBins : ℕ) (binWeights : ℕ → ℝ) :
    ∃ r, exponentBisect nBins d.step binWeights = some r ∧
      (∀ b, b < nBins → 0 ≤ r.l b ∧ r.l b ≤ 2048) ∧
      (∀ b, b < nBins → ¬ binWeights b > 0 → r.l b = 1) ∧
      (∀ b, r.hessInv b = .pinf ∨ ∃ v, 0 < v ∧ r.hessInv b = .fin v) := by
  obtain ⟨r, hr, h1, h2⟩ := C44_exponent_factors nBins d.step binWeights
  refine ⟨r, hr, h1, h2, fun b => ?_⟩
  exact C44_variance_positive nBins _ d.step _ _ _ _ 10 _ r hr b (fun l h => by
    unfold ExpoData.step at h
    dsimp only at h
    split_ifs at h)

/-! ## C60: predictions of the price model -/

/-- **C60, missing price and price ratio one.**  A missing price ratio and a ratio
of exactly 1 give the demand prediction alone. -/
theorem C60_neutral_price (factors priorExponent x : ℝ) (ratio : Flt ℝ)
    (h : ratio.isFinite = false ∨ ratio = .fin 1) :
    pricePredict factors priorExponent x ratio = exp factors := by
  have hb : externalBase ratio = 0 := by
    rcases h with h | h
    · cases ratio with
      | fin a => cases h
      | nan => rfl
      | pinf => rfl
      | ninf => rfl
    · rw [h]; simp [externalBase]
  unfold pricePredict priceLinkOf
  rw [hb, mul_zero, add_zero]

/-- **C60, direction.**  Whatever the features have learned, demand falls strictly
with the price ratio if the prior exponent is negative, and rises strictly if it
is positive. -/
theorem C60_price_direction (factors priorExponent x r1 r2 : ℝ) (hr : r1 < r2) :
    (priorExponent < 0 →
      pricePredict factors priorExponent x (.fin r2) < pricePredict factors priorExponent x (.fin r1))
    ∧ (0 < priorExponent →
      pricePredict factors priorExponent x (.fin r1)
        < pricePredict factors priorExponent x (.fin r2)) := by
  have he := exp_pos x
  constructor
  · intro hp
    apply exp_lt_exp.mpr
    unfold priceLinkOf priceExponent externalBase
    dsimp only
    have := mul_lt_mul_of_neg_left (show r1 - 1 < r2 - 1 by linarith)
      (mul_neg_of_neg_of_pos hp he)
    linarith
  · intro hp
    apply exp_lt_exp.mpr
    unfold priceLinkOf priceExponent externalBase
    dsimp only
    have := mul_lt_mul_of_pos_left (show r1 - 1 < r2 - 1 by linarith) (mul_pos hp he)
    linarith

/-- **C60, positivity and size of the effect.**  Predictions are positive; the ratio
of two predictions for the same features depends on the price ratios only through
the exponent. -/
theorem C60_price_effect (factors priorExponent x r1 r2 : ℝ) :
    0 < pricePredict factors priorExponent x (.fin r1) ∧
    pricePredict factors priorExponent x (.fin r2)
      = pricePredict factors priorExponent x (.fin r1)
        * exp (priorExponent * exp x * (r2 - r1)) := by
  refine ⟨exp_pos _, ?_⟩
  unfold pricePredict priceLinkOf priceExponent externalBase
  dsimp only
  rw [← exp_add]
  congr 1
  ring

/-- The exponent fit's model is the prediction's model: multiplying the exponents
by the fitted factor of the bin is the same as adding its logarithm in the
"exponents" column, and `mu` of the Newton step is the resulting prediction. -/
theorem C60_fit_matches_predict (d : ExpoData) (factors priorExponent x base t : ℝ) (ht : 0 < t)
    (i : ℕ) (hp : d.p i = exp factors) (hk : d.k i = priceExponent priorExponent x)
    (hx : d.logX i = base) :
    d.mu t i = exp (priceLinkOf factors priorExponent (x + log t) base) := by
  unfold ExpoData.mu priceLinkOf priceExponent at *
  rw [hp, hk, hx, ← exp_add, exp_add x, exp_log ht]
  congr 1
  ring

/-- **C60 for a whole fitted model.**  For every list of fitted features and every
table: changing only the external price column from `r1` to a larger `r2` lowers
the prediction of the sample if its prior exponent is negative (the default is
-1), and a missing price gives the demand prediction. -/
theorem C60_model (prior priorExponents : ℕ → ℝ) (features : List (FittedFeature ℝ))
    (X : Table ℝ) (s : ℕ) (r1 r2 : ℕ → Flt ℝ) :
    (∀ a b, r1 s = .fin a → r2 s = .fin b → a < b → priorExponents s < 0 →
      priceModelPredict prior priorExponents r2 features X s
        < priceModelPredict prior priorExponents r1 features X s) ∧
    ((r1 s).isFinite = false →
      priceModelPredict prior priorExponents r1 features X s
        = exp ((predictExtended prior features X).factors s)) := by
  refine ⟨fun a b ha hb hab hneg => ?_, fun h => ?_⟩
  · unfold priceModelPredict
    dsimp only
    rw [ha, hb]
    exact (C60_price_direction _ _ _ a b hab).1 hneg
  · exact C60_neutral_price _ _ _ _ (Or.inl h)

/-! ## C61: combination of the two feature lists -/

/-- **C61.**  The price model accepts exactly the calls with a list of standard
features in which every id is of standard type and every external id is of
external type, and then uses all of them, in order, standard ones first. -/
theorem C61_combine (sf : Option (List GroupArg)) (ef : Option (List GroupArg))
    (out : List FeatureId) :
    combineFeatureGroups sf ef = .ok out ↔
      ∃ s, sf = some s ∧
        (∀ a ∈ s, (createFeatureId .standard a).ftype = .standard) ∧
        (∀ a ∈ ef.getD [], (createFeatureId .external a).ftype = .external) ∧
        out = s.map (createFeatureId .standard) ++ (ef.getD []).map (createFeatureId .external) := by
  cases sf with
  | none => simp [combineFeatureGroups]
  | some s =>
    unfold combineFeatureGroups
    dsimp only
    by_cases h1 : (s.map (createFeatureId .standard)).any (fun f => decide (f.ftype ≠ .standard))
        = true
    · rw [if_pos h1]
      simp only [List.any_map, List.any_eq_true, Function.comp, decide_eq_true_eq] at h1
      constructor
      · intro h; cases h
      · rintro ⟨s', e, hs, -⟩
        cases e
        obtain ⟨a, ha, hne⟩ := h1
        exact absurd (hs a ha) hne
    · rw [if_neg h1]
      simp only [List.any_map, List.any_eq_true, Function.comp, decide_eq_true_eq, not_exists,
        not_and, not_not] at h1
      cases ef with
      | none =>
        simp only [Option.map_none, Except.ok.injEq, Option.getD_none, List.not_mem_nil,
          List.map_nil, List.append_nil, Option.some.injEq]
        constructor
        · intro e; exact ⟨s, rfl, h1, fun a ha => absurd ha (by simp), e.symm⟩
        · rintro ⟨s', rfl, -, -, e⟩; exact e.symm
      | some e =>
        simp only [Option.map_some, Option.getD_some, Option.some.injEq]
        by_cases h2 : (e.map (createFeatureId .external)).any
            (fun f => decide (f.ftype ≠ .external)) = true
        · rw [if_pos h2]
          simp only [List.any_map, List.any_eq_true, Function.comp, decide_eq_true_eq] at h2
          constructor
          · intro h; cases h
          · rintro ⟨s', -, -, hs, -⟩
            obtain ⟨a, ha, hne⟩ := h2
            exact absurd (hs a ha) hne
        · rw [if_neg h2]
          simp only [List.any_map, List.any_eq_true, Function.comp, decide_eq_true_eq, not_exists,
            not_and, not_not] at h2
          simp only [Except.ok.injEq]
          constructor
          · intro e'; exact ⟨s, rfl, h1, h2, e'.symm⟩
          · rintro ⟨s', rfl, -, -, e'⟩; exact e'.symm

/-- Witness: names, a tuple and an explicit id. -/
example : combineFeatureGroups (some [.name "store", .tuple ["store", "day"]])
    (some [.name "item", .id ⟨["x"], .external⟩])
    = .ok [⟨["store"], .standard⟩, ⟨["store", "day"], .standard⟩, ⟨["item"], .external⟩,
        ⟨["x"], .external⟩] := by decide

/-- Witness: an external id among the standard features is refused. -/
example : ∃ e, combineFeatureGroups (some [.id ⟨["x"], .external⟩]) none = .error e :=
  ⟨_, rfl⟩

/-- Witness for C44: a concrete oracle over the rationals whose Newton steps leave
the bracket; two bins, the second without samples. -/
def demoStep (l : ℕ → ℚ) : NewtonOut ℚ where
  lnew b := if b = 0 then .fin (l 0 - (l 0 - 3) * 10) else .nan
  jac b := .fin (if b = 0 then l 0 - 3 else 0)
  hess b := .fin (if b = 0 then 1 / 10 else 0)

example : (exponentBisect 2 demoStep (fun b => if b = 0 then 5 else 0)).map
    (fun r => (r.xr 0, r.xr 1, r.l 1)) = some (4, 2, 1) := by decide +kernel

example : ((exponentBisect 2 demoStep (fun b => if b = 0 then 5 else 0)).map
    (fun r => decide (|r.l 0 - 3| < 1 / 50))) = some true := by decide +kernel

end

end CB
