import Verif.Model.OrthoFit
import Verif.Spec.LeastSquares
import Mathlib.Tactic.Ring
import Mathlib.Tactic.Linarith
import Mathlib.Tactic.FieldSimp
import Mathlib.Tactic.LinearCombination
import Mathlib.Tactic.SplitIfs
import Mathlib.Tactic.IntervalCases
import Mathlib.Algebra.BigOperators.Ring.Finset
import Mathlib.Algebra.BigOperators.Intervals
import Mathlib.LinearAlgebra.Lagrange
import Mathlib.Algebra.Order.BigOperators.Ring.Finset

set_option autoImplicit false
set_option linter.unusedSectionVars false

/-!
# C70-C72: the orthogonal polynomial smoother
-/
namespace CB
open Finset Spec

section basis
variable (n : ℕ) (x y w : ℕ → ℝ)

/-- Weighted inner product over the supporting points. -/
def wdot (f g : ℕ → ℝ) : ℝ := ∑ j ∈ range n, w j * f j * g j

theorem wdot_comm (f g : ℕ → ℝ) : wdot n w f g = wdot n w g f :=
  sum_congr rfl fun j _ => by ring

theorem wdot_add (f g h : ℕ → ℝ) : wdot n w (fun j => f j + g j) h = wdot n w f h + wdot n w g h := by
  unfold wdot; rw [← sum_add_distrib]; exact sum_congr rfl fun j _ => by ring

theorem wdot_smul (c : ℝ) (f h : ℕ → ℝ) : wdot n w (fun j => c * f j) h = c * wdot n w f h := by
  unfold wdot; rw [mul_sum]; exact sum_congr rfl fun j _ => by ring

theorem wdot_sum {ι : Type*} (s : Finset ι) (f : ι → ℕ → ℝ) (h : ℕ → ℝ) :
    wdot n w (fun j => ∑ i ∈ s, f i j) h = ∑ i ∈ s, wdot n w (f i) h := by
  unfold wdot; rw [sum_comm]
  refine sum_congr rfl fun j _ => ?_
  rw [mul_sum, sum_mul]

theorem wdot_zero_left (f h : ℕ → ℝ) (hf : ∀ j < n, f j = 0) : wdot n w f h = 0 :=
  sum_eq_zero fun j hj => by rw [hf j (mem_range.1 hj)]; ring

theorem wdot_congr_left {f f' : ℕ → ℝ} (h : ℕ → ℝ) (hf : ∀ j < n, f j = f' j) :
    wdot n w f h = wdot n w f' h :=
  sum_congr rfl fun j hj => by rw [hf j (mem_range.1 hj)]

theorem wdot_self_nonneg (hw : ∀ j < n, 0 < w j) (f : ℕ → ℝ) : 0 ≤ wdot n w f f :=
  sum_nonneg fun j hj => by
    rw [mul_assoc]; exact mul_nonneg (hw j (mem_range.1 hj)).le (mul_self_nonneg _)

theorem wdot_self_eq_zero (hw : ∀ j < n, 0 < w j) (f : ℕ → ℝ) (h : wdot n w f f = 0) :
    ∀ j < n, f j = 0 := by
  intro j hj
  have h0 := (sum_eq_zero_iff_of_nonneg (s := range n) (f := fun j => w j * f j * f j) (fun j hj => by
    show 0 ≤ w j * f j * f j
    rw [mul_assoc]; exact mul_nonneg (hw j (mem_range.1 hj)).le (mul_self_nonneg _))).1 h j (mem_range.2 hj)
  have := hw j hj
  have h1 : w j * (f j * f j) = 0 := by rw [← mul_assoc]; exact h0
  rcases mul_eq_zero.1 h1 with h2 | h2
  · exact absurd h2 this.ne'
  · exact mul_self_eq_zero.1 h2

/-- The parameters of row `k`. -/
noncomputable abbrev prow (k : ℕ) : OrthoRow := orthoParameters n x y w k

/-- The values of the `k`-th basis polynomial at the supporting points. -/
noncomputable def pval (k : ℕ) : ℕ → ℝ :=
  (orthoRun n x y w k).2.scratch ((orthoRun n x y w k).2.ii - 1)

/-- The values of the basis polynomial before it. -/
noncomputable def pprev (k : ℕ) : ℕ → ℝ :=
  (orthoRun n x y w k).2.scratch (3 - (orthoRun n x y w k).2.ii - 1)

theorem ii_cases (k : ℕ) : (orthoRun n x y w k).2.ii = 1 ∨ (orthoRun n x y w k).2.ii = 2 := by
  induction k with
  | zero => exact Or.inl rfl
  | succ k ih =>
    have : (orthoRun n x y w (k + 1)).2.ii = 3 - (orthoRun n x y w k).2.ii := rfl
    rw [this]; rcases ih with h | h <;> rw [h] <;> simp

theorem pprev_zero : pprev n x y w 0 = fun _ => 0 := by
  funext j; simp [pprev, orthoRun, orthoInit]

theorem pval_zero (j : ℕ) : pval n x y w 0 j = orthoNormalizer (∑ j ∈ range n, w j) := by
  simp [pval, orthoRun, orthoInit]

theorem pprev_succ (k : ℕ) : pprev n x y w (k + 1) = pval n x y w k := by
  unfold pprev pval
  show Function.update (orthoRun n x y w k).2.scratch (3 - (orthoRun n x y w k).2.ii - 1) _
    (3 - (3 - (orthoRun n x y w k).2.ii) - 1) = _
  rcases ii_cases n x y w k with h | h <;> rw [h] <;> simp [Function.update]

/-- The unnormalised new basis polynomial at the supporting points. -/
noncomputable def praw (k : ℕ) : ℕ → ℝ := fun j =>
  (x j - (prow n x y w (k + 1)).alpha) * pval n x y w k j - (prow n x y w (k + 1)).beta * pprev n x y w k j

theorem step_alpha (k : ℕ) : (prow n x y w (k + 1)).alpha
    = wdot n w (fun j => x j * pval n x y w k j) (pval n x y w k) := by
  show (orthoStep n x y w (orthoRun n x y w k).2).1.alpha = _
  unfold wdot pval orthoStep
  dsimp only
  refine sum_congr rfl fun j _ => ?_
  rcases ii_cases n x y w k with h | h <;> simp only [h] <;> ring

theorem step_beta (k : ℕ) : (prow n x y w (k + 1)).beta
    = wdot n w (fun j => x j * pprev n x y w k j) (pval n x y w k) := by
  show (orthoStep n x y w (orthoRun n x y w k).2).1.beta = _
  unfold wdot pval pprev orthoStep
  dsimp only
  refine sum_congr rfl fun j _ => ?_
  rcases ii_cases n x y w k with h | h <;> simp only [h] <;> ring

theorem step_gamma (k : ℕ) : (prow n x y w (k + 1)).gamma
    = orthoNormalizer (wdot n w (praw n x y w k) (praw n x y w k)) := by
  show (orthoStep n x y w (orthoRun n x y w k).2).1.gamma = _
  unfold wdot praw pval pprev prow orthoParameters
  show orthoNormalizer _ = orthoNormalizer _
  congr 1
  refine sum_congr rfl fun j _ => ?_
  show _ = w j * ((x j - (orthoStep n x y w (orthoRun n x y w k).2).1.alpha) * _ -
    (orthoStep n x y w (orthoRun n x y w k).2).1.beta * _) * ((x j - (orthoStep n x y w (orthoRun n x y w k).2).1.alpha) * _ -
    (orthoStep n x y w (orthoRun n x y w k).2).1.beta * _)
  unfold orthoStep
  rcases ii_cases n x y w k with h | h <;> simp only [h]

theorem step_pval (k j : ℕ) : pval n x y w (k + 1) j = praw n x y w k j * (prow n x y w (k + 1)).gamma := by
  show (orthoStep n x y w (orthoRun n x y w k).2).2.scratch ((orthoStep n x y w (orthoRun n x y w k).2).2.ii - 1) j = _
  have e : ∀ j, praw n x y w k j = (x j - (orthoStep n x y w (orthoRun n x y w k).2).1.alpha) * pval n x y w k j -
    (orthoStep n x y w (orthoRun n x y w k).2).1.beta * pprev n x y w k j := fun _ => rfl
  have g : (prow n x y w (k + 1)).gamma = (orthoStep n x y w (orthoRun n x y w k).2).1.gamma := rfl
  rw [e, g]
  unfold pval pprev orthoStep
  rcases ii_cases n x y w k with h | h <;> simp only [h] <;> simp

theorem step_delta (k : ℕ) : (prow n x y w k).delta = wdot n w (pval n x y w k) y := by
  cases k with
  | zero =>
    show (∑ j ∈ range n, w j * y j) * orthoNormalizer (∑ j ∈ range n, w j) = _
    unfold wdot
    rw [sum_mul]
    refine sum_congr rfl fun j _ => ?_
    rw [pval_zero]; ring
  | succ k =>
    show (orthoStep n x y w (orthoRun n x y w k).2).1.delta = _
    unfold wdot
    have : ∀ j, pval n x y w (k + 1) j
        = (orthoStep n x y w (orthoRun n x y w k).2).2.scratch ((orthoStep n x y w (orthoRun n x y w k).2).2.ii - 1) j :=
      fun _ => rfl
    simp only [this]
    unfold orthoStep
    rcases ii_cases n x y w k with h | h <;> simp only [h] <;> simp

theorem step_chi2 (k : ℕ) : (prow n x y w (k + 1)).chi2
    = max 0 ((prow n x y w k).chi2 - (prow n x y w (k + 1)).delta * (prow n x y w (k + 1)).delta) := by
  have : (prow n x y w k).chi2 = (orthoRun n x y w k).2.sumSquared := by cases k <;> rfl
  rw [this]; rfl

theorem normalizer_mul (S : ℝ) (hS : 0 ≤ S) (h : S ≠ 0) : orthoNormalizer S * orthoNormalizer S * S = 1 := by
  unfold orthoNormalizer
  rw [if_pos h]
  have : Real.sqrt S ≠ 0 := (Real.sqrt_ne_zero hS).2 h
  have hs := Real.mul_self_sqrt hS
  field_simp
  rw [sq, hs]

theorem pval_norm (hw : ∀ j < n, 0 < w j) (k : ℕ) :
    wdot n w (pval n x y w k) (pval n x y w k) = 1 ∨ ∀ j < n, pval n x y w k j = 0 := by
  cases k with
  | zero =>
    by_cases h : (∑ j ∈ range n, w j) = 0
    · right; intro j _; rw [pval_zero, orthoNormalizer, h]; simp
    · left
      have hS : 0 ≤ ∑ j ∈ range n, w j := sum_nonneg fun j hj => (hw j (mem_range.1 hj)).le
      rw [← normalizer_mul _ hS h, mul_sum]
      unfold wdot
      refine sum_congr rfl fun j _ => ?_
      rw [pval_zero]; ring
  | succ k =>
    by_cases h : wdot n w (praw n x y w k) (praw n x y w k) = 0
    · right; intro j hj
      rw [step_pval, wdot_self_eq_zero n w hw _ h j hj, zero_mul]
    · left
      rw [← normalizer_mul _ (wdot_self_nonneg n w hw _) h, ← step_gamma]
      unfold wdot
      rw [mul_sum]
      refine sum_congr rfl fun j _ => ?_
      rw [step_pval]; ring

theorem praw_multiple (hw : ∀ j < n, 0 < w j) (k : ℕ) :
    ∃ g, ∀ j < n, praw n x y w k j = g * pval n x y w (k + 1) j := by
  by_cases h : wdot n w (praw n x y w k) (praw n x y w k) = 0
  · exact ⟨0, fun j hj => by rw [wdot_self_eq_zero n w hw _ h j hj, zero_mul]⟩
  · refine ⟨Real.sqrt (wdot n w (praw n x y w k) (praw n x y w k)), fun j _ => ?_⟩
    rw [step_pval, step_gamma, orthoNormalizer, if_pos h]
    have : Real.sqrt (wdot n w (praw n x y w k) (praw n x y w k)) ≠ 0 :=
      (Real.sqrt_ne_zero (wdot_self_nonneg n w hw _)).2 h
    field_simp

/-- `x · p_k` at the supporting points, in terms of the basis. -/
theorem x_pval (hw : ∀ j < n, 0 < w j) (k : ℕ) :
    ∃ g, ∀ j < n, x j * pval n x y w k j = g * pval n x y w (k + 1) j +
      ((prow n x y w (k + 1)).alpha * pval n x y w k j + (prow n x y w (k + 1)).beta * pprev n x y w k j) := by
  obtain ⟨g, hg⟩ := praw_multiple n x y w hw k
  refine ⟨g, fun j hj => ?_⟩
  rw [← hg j hj, praw]; ring

theorem praw_dot (k : ℕ) (h : ℕ → ℝ) : wdot n w (praw n x y w k) h =
    wdot n w (fun j => x j * pval n x y w k j) h - (prow n x y w (k + 1)).alpha * wdot n w (pval n x y w k) h
      - (prow n x y w (k + 1)).beta * wdot n w (pprev n x y w k) h := by
  unfold wdot praw
  rw [mul_sum, mul_sum, ← sum_sub_distrib, ← sum_sub_distrib]
  exact sum_congr rfl fun j _ => by ring

theorem pval_orth (hw : ∀ j < n, 0 < w j) (k : ℕ) :
    ∀ a b, a < b → b ≤ k → wdot n w (pval n x y w a) (pval n x y w b) = 0 := by
  induction k with
  | zero => intro a b h1 h2; omega
  | succ k ih =>
    intro a b hab hb
    rcases Nat.lt_or_ge b (k + 1) with hlt | hge
    · exact ih a b hab (by omega)
    obtain rfl : b = k + 1 := by omega
    have hsc : wdot n w (pval n x y w a) (pval n x y w (k + 1))
        = (prow n x y w (k + 1)).gamma * wdot n w (praw n x y w k) (pval n x y w a) := by
      rw [wdot_comm, ← wdot_smul]
      exact wdot_congr_left n w _ fun j _ => by rw [step_pval]; ring
    rw [hsc]
    suffices hz : wdot n w (praw n x y w k) (pval n x y w a) = 0 by rw [hz, mul_zero]
    rw [praw_dot]
    have hswap : wdot n w (fun j => x j * pval n x y w k j) (pval n x y w a)
        = wdot n w (fun j => x j * pval n x y w a j) (pval n x y w k) :=
      sum_congr rfl fun j _ => by ring
    rcases Nat.lt_or_ge a k with hak | hak
    · -- a < k
      have h0 : wdot n w (pval n x y w k) (pval n x y w a) = 0 := by rw [wdot_comm]; exact ih a k hak le_rfl
      obtain ⟨g, hg⟩ := x_pval n x y w hw a
      have hx : wdot n w (fun j => x j * pval n x y w a j) (pval n x y w k)
          = g * wdot n w (pval n x y w (a + 1)) (pval n x y w k) +
            ((prow n x y w (a + 1)).alpha * wdot n w (pval n x y w a) (pval n x y w k) +
              (prow n x y w (a + 1)).beta * wdot n w (pprev n x y w a) (pval n x y w k)) := by
        rw [wdot_congr_left n w _ hg, wdot_add n w (fun j => g * pval n x y w (a + 1) j)
          (fun j => (prow n x y w (a + 1)).alpha * pval n x y w a j + (prow n x y w (a + 1)).beta * pprev n x y w a j),
          wdot_add n w (fun j => (prow n x y w (a + 1)).alpha * pval n x y w a j)
            (fun j => (prow n x y w (a + 1)).beta * pprev n x y w a j), wdot_smul, wdot_smul, wdot_smul]
      obtain ⟨k', rfl⟩ : ∃ k', k = k' + 1 := ⟨k - 1, by omega⟩
      rw [h0, hswap, pprev_succ]
      rcases Nat.lt_or_ge a k' with hak' | hak'
      · -- a < k - 1
        have h1 : wdot n w (pval n x y w (a + 1)) (pval n x y w (k' + 1)) = 0 := ih _ _ (by omega) le_rfl
        have h2 : wdot n w (pval n x y w a) (pval n x y w (k' + 1)) = 0 := ih _ _ (by omega) le_rfl
        have h3 : wdot n w (pprev n x y w a) (pval n x y w (k' + 1)) = 0 := by
          cases a with
          | zero => rw [pprev_zero]; exact wdot_zero_left n w _ _ fun _ _ => rfl
          | succ a => rw [pprev_succ]; exact ih _ _ (by omega) le_rfl
        have h4 : wdot n w (pval n x y w k') (pval n x y w a) = 0 := by rw [wdot_comm]; exact ih _ _ hak' (by omega)
        rw [hx, h1, h2, h3, h4]; ring
      · obtain rfl : a = k' := by omega
        rw [step_beta, pprev_succ]
        rcases pval_norm n x y w hw a with hN | hN
        · rw [hN]; ring
        · rw [wdot_zero_left n w (fun j => x j * pval n x y w a j) _ fun j hj => by rw [hN j hj, mul_zero]]
          ring
    · obtain rfl : a = k := by omega
      have hp : wdot n w (pprev n x y w a) (pval n x y w a) = 0 := by
        cases a with
        | zero => rw [pprev_zero]; exact wdot_zero_left n w _ _ fun _ _ => rfl
        | succ a => rw [pprev_succ]; exact ih _ _ (by omega) le_rfl
      rw [hp, step_alpha]
      rcases pval_norm n x y w hw a with hN | hN
      · rw [hN]; ring
      · rw [wdot_zero_left n w (fun j => x j * pval n x y w a j) _ fun j hj => by rw [hN j hj, mul_zero]]
        ring

/-- The fitted values with `m` parameters. -/
noncomputable def fitted (m : ℕ) : ℕ → ℝ := fun j => ∑ i ∈ range m, (prow n x y w i).delta * pval n x y w i j

theorem fitted_dot (hw : ∀ j < n, 0 < w j) (m k : ℕ) (hk : k < m) :
    wdot n w (fitted n x y w m) (pval n x y w k) = (prow n x y w k).delta := by
  unfold fitted
  rw [wdot_sum n w (range m) (fun i j => (prow n x y w i).delta * pval n x y w i j)]
  rw [sum_eq_single k]
  · rw [wdot_smul]
    rcases pval_norm n x y w hw k with hN | hN
    · rw [hN, mul_one]
    · rw [step_delta, wdot_zero_left n w _ _ hN]; ring
  · intro i _ hik
    rw [wdot_smul]
    rcases Nat.lt_or_gt_of_ne hik with h | h
    · rw [pval_orth n x y w hw k i k h le_rfl, mul_zero]
    · rw [wdot_comm, pval_orth n x y w hw i k i h le_rfl, mul_zero]
  · intro h; exact absurd (mem_range.2 hk) h

theorem wdot_sub (f g h : ℕ → ℝ) : wdot n w (fun j => f j - g j) h = wdot n w f h - wdot n w g h := by
  unfold wdot; rw [← sum_sub_distrib]; exact sum_congr rfl fun j _ => by ring

/-- The residual is orthogonal to everything spanned by the first `m` basis polynomials. -/
theorem residual_dot (hw : ∀ j < n, 0 < w j) (m : ℕ) (c : ℕ → ℝ) (f : ℕ → ℝ)
    (hf : ∀ j < n, f j = ∑ i ∈ range m, c i * pval n x y w i j) :
    wdot n w (fun j => y j - fitted n x y w m j) f = 0 := by
  rw [wdot_comm, wdot_congr_left n w _ hf, wdot_sum n w (range m) (fun i j => c i * pval n x y w i j)]
  refine sum_eq_zero fun i hi => ?_
  rw [wdot_smul, wdot_comm, wdot_sub, fitted_dot n x y w hw m i (mem_range.1 hi), step_delta,
    wdot_comm n w y]
  ring

theorem pythagoras (hw : ∀ j < n, 0 < w j) (m : ℕ) (c : ℕ → ℝ) (f : ℕ → ℝ)
    (hf : ∀ j < n, f j = ∑ i ∈ range m, c i * pval n x y w i j) :
    wdot n w (fun j => y j - f j) (fun j => y j - f j)
      = wdot n w (fun j => y j - fitted n x y w m j) (fun j => y j - fitted n x y w m j)
        + wdot n w (fun j => fitted n x y w m j - f j) (fun j => fitted n x y w m j - f j) := by
  have h1 := residual_dot n x y w hw m (fun i => (prow n x y w i).delta - c i)
    (fun j => fitted n x y w m j - f j) (fun j hj => by
      rw [hf j hj, fitted, ← sum_sub_distrib]; exact sum_congr rfl fun i _ => by ring)
  have h2 : ∀ a b : ℕ → ℝ, wdot n w (fun j => a j + b j) (fun j => a j + b j)
      = wdot n w a a + 2 * wdot n w a b + wdot n w b b := by
    intro a b
    unfold wdot; rw [mul_sum, ← sum_add_distrib, ← sum_add_distrib]
    exact sum_congr rfl fun j _ => by ring
  have h3 := h2 (fun j => y j - fitted n x y w m j) (fun j => fitted n x y w m j - f j)
  rw [h1] at h3
  have h4 : (fun j => y j - f j) = fun j => (y j - fitted n x y w m j) + (fitted n x y w m j - f j) := by
    funext j; ring
  rw [h4, h3]; ring

/-- Powers of `x` are spanned by the basis at the supporting points. -/
theorem pow_span (hw : ∀ j < n, 0 < w j) (i : ℕ) :
    ∃ c : ℕ → ℝ, ∀ j < n, x j ^ i = ∑ l ∈ range (i + 1), c l * pval n x y w l j := by
  induction i with
  | zero =>
    rcases Nat.eq_zero_or_pos n with rfl | hn
    · exact ⟨fun _ => 0, fun j hj => absurd hj (by omega)⟩
    have hpos : 0 < ∑ j ∈ range n, w j := sum_pos (fun j hj => hw j (mem_range.1 hj)) ⟨0, mem_range.2 hn⟩
    refine ⟨fun _ => Real.sqrt (∑ j ∈ range n, w j), fun j _ => ?_⟩
    rw [sum_range_one, pval_zero, orthoNormalizer, if_pos hpos.ne']
    have : Real.sqrt (∑ j ∈ range n, w j) ≠ 0 := (Real.sqrt_ne_zero hpos.le).2 hpos.ne'
    rw [pow_zero]; field_simp
  | succ i ih =>
    obtain ⟨c, hc⟩ := ih
    have hx : ∀ l, ∃ d : ℕ → ℝ, ∀ j < n, x j * pval n x y w l j = ∑ q ∈ range (l + 2), d q * pval n x y w q j := by
      intro l
      obtain ⟨g, hg⟩ := x_pval n x y w hw l
      cases l with
      | zero =>
        refine ⟨fun q => if q = 0 then (prow n x y w 1).alpha else g, fun j hj => ?_⟩
        rw [hg j hj, pprev_zero, sum_range_succ, sum_range_one]
        simp; ring
      | succ l =>
        refine ⟨fun q => if q = l + 2 then g else if q = l + 1 then (prow n x y w (l + 2)).alpha
          else if q = l then (prow n x y w (l + 2)).beta else 0, fun j hj => ?_⟩
        rw [hg j hj, pprev_succ, sum_range_succ, sum_range_succ, sum_range_succ]
        have h0 : ∑ q ∈ range l, (if q = l + 2 then g else if q = l + 1 then (prow n x y w (l + 2)).alpha
          else if q = l then (prow n x y w (l + 2)).beta else 0) * pval n x y w q j = 0 := by
          refine sum_eq_zero fun q hq => ?_
          have := mem_range.1 hq
          rw [if_neg (by omega), if_neg (by omega), if_neg (by omega), zero_mul]
        rw [h0]
        simp; ring
    choose d hd using hx
    refine ⟨fun q => ∑ l ∈ range (i + 1), if q < l + 2 then c l * d l q else 0, fun j hj => ?_⟩
    rw [pow_succ, hc j hj, sum_mul]
    have h1 : ∀ l ∈ range (i + 1), c l * pval n x y w l j * x j
        = ∑ q ∈ range (i + 2), (if q < l + 2 then c l * d l q else 0) * pval n x y w q j := by
      intro l hl
      have hl' := mem_range.1 hl
      have h2 : c l * pval n x y w l j * x j = c l * (x j * pval n x y w l j) := by ring
      rw [h2, hd l j hj, mul_sum]
      have hsub : range (l + 2) ⊆ range (i + 2) := fun q hq => mem_range.2 (by have := mem_range.1 hq; omega)
      rw [← sum_subset hsub (f := fun q => (if q < l + 2 then c l * d l q else 0) * pval n x y w q j)]
      · refine sum_congr rfl fun q hq => ?_
        rw [if_pos (mem_range.1 hq)]; ring
      · intro q _ hq
        rw [if_neg (by simpa using hq), zero_mul]
    rw [sum_congr rfl h1, sum_comm]
    refine sum_congr rfl fun q _ => ?_
    rw [sum_mul]

theorem poly_span (hw : ∀ j < n, 0 < w j) (m : ℕ) (d : ℕ → ℝ) :
    ∃ c : ℕ → ℝ, ∀ j < n, poly m d (x j) = ∑ l ∈ range m, c l * pval n x y w l j := by
  choose c hc using pow_span n x y w hw
  refine ⟨fun l => ∑ i ∈ range m, if l < i + 1 then d i * c i l else 0, fun j hj => ?_⟩
  unfold poly
  have h1 : ∀ i ∈ range m, d i * x j ^ i
      = ∑ l ∈ range m, (if l < i + 1 then d i * c i l else 0) * pval n x y w l j := by
    intro i hi
    have hi' := mem_range.1 hi
    rw [hc i j hj, mul_sum]
    have hsub : range (i + 1) ⊆ range m := fun q hq => mem_range.2 (by have := mem_range.1 hq; omega)
    rw [← sum_subset hsub (f := fun l => (if l < i + 1 then d i * c i l else 0) * pval n x y w l j)]
    · refine sum_congr rfl fun q hq => ?_
      rw [if_pos (mem_range.1 hq)]; ring
    · intro q _ hq
      rw [if_neg (by simpa using hq), zero_mul]
  rw [sum_congr rfl h1, sum_comm]
  refine sum_congr rfl fun q _ => ?_
  rw [sum_mul]

/-! ### Evaluation at any bin number -/

/-- Basis polynomial `k` and the one before it, at any `t`, from the rows of `parameters`. -/
def bpoly (p : ℕ → OrthoRow) (t : ℝ) : ℕ → ℝ × ℝ
  | 0 => ((p 0).gamma, 0)
  | k + 1 => (((t - (p (k + 1)).alpha) * (bpoly p t k).1 - (p (k + 1)).beta * (bpoly p t k).2) * (p (k + 1)).gamma,
      (bpoly p t k).1)

theorem eval_fold (p : ℕ → OrthoRow) (t : ℝ) (l : ℕ) :
    ∃ s : OrthoEval, (List.range' 1 l).foldl (orthoEvalStep p t)
        ⟨fun r => if r = 0 then (p 0).gamma else 0, 1, (p 0).gamma * (p 0).delta⟩ = s ∧
      (s.j = 1 ∨ s.j = 2) ∧ s.values (s.j - 1) = (bpoly p t l).1 ∧ s.values (2 - s.j) = (bpoly p t l).2 ∧
      s.estimate = ∑ k ∈ range (l + 1), (p k).delta * (bpoly p t k).1 := by
  induction l with
  | zero => refine ⟨_, rfl, Or.inl rfl, ?_, ?_, ?_⟩ <;> simp [bpoly]; ring
  | succ l ih =>
    obtain ⟨s, hs, hj, h1, h2, h3⟩ := ih
    refine ⟨_, rfl, ?_⟩
    rw [List.range'_concat, List.foldl_append, hs]
    simp only [List.foldl_cons, List.foldl_nil]
    have e : 1 + 1 * l = l + 1 := by ring
    rw [sum_range_succ, ← h3]
    rcases hj with h | h <;> rw [h] at h1 h2 <;> simp at h1 h2 <;>
      simp [orthoEvalStep, h, h1, h2, bpoly, Nat.add_comm 1 l]

theorem apply_eq (p : ℕ → OrthoRow) (m : ℕ) (hm : 0 < m) (t : ℝ) :
    orthoApply p m t = ∑ k ∈ range m, (p k).delta * (bpoly p t k).1 := by
  obtain ⟨s, hs, -, -, -, h⟩ := eval_fold p t (m - 1)
  unfold orthoApply
  rw [hs, h, Nat.sub_add_cancel hm]

theorem bpoly_at (k j : ℕ) :
    bpoly (orthoParameters n x y w) (x j) k = (pval n x y w k j, pprev n x y w k j) := by
  induction k with
  | zero => rw [pprev_zero, pval_zero]; rfl
  | succ k ih => rw [bpoly, ih, pprev_succ, step_pval, praw]

theorem poly_succ_X (m : ℕ) (c : ℕ → ℝ) (t : ℝ) :
    t * poly m c t = poly (m + 1) (fun i => if i = 0 then 0 else c (i - 1)) t := by
  unfold poly
  rw [sum_range_succ', mul_sum]
  simp
  exact sum_congr rfl fun i _ => by ring

theorem poly_extend (m m' : ℕ) (h : m ≤ m') (c : ℕ → ℝ) (t : ℝ) :
    poly m c t = poly m' (fun i => if i < m then c i else 0) t := by
  unfold poly
  rw [← sum_subset (range_subset_range.2 h) (f := fun i => (if i < m then c i else 0) * t ^ i)]
  · refine sum_congr rfl fun q hq => ?_
    rw [if_pos (mem_range.1 hq)]
  · intro q _ hq
    rw [if_neg (by simpa using hq), zero_mul]

theorem poly_add (m : ℕ) (c d : ℕ → ℝ) (t : ℝ) : poly m c t + poly m d t = poly m (fun i => c i + d i) t := by
  unfold poly; rw [← sum_add_distrib]; exact sum_congr rfl fun i _ => by ring

theorem poly_smul (m : ℕ) (a : ℝ) (c : ℕ → ℝ) (t : ℝ) : a * poly m c t = poly m (fun i => a * c i) t := by
  unfold poly; rw [mul_sum]; exact sum_congr rfl fun i _ => by ring

theorem bpoly_poly (p : ℕ → OrthoRow) (k : ℕ) :
    (∃ c, ∀ t, (bpoly p t k).1 = poly (k + 1) c t) ∧ (∃ c, ∀ t, (bpoly p t k).2 = poly (k + 1) c t) := by
  induction k with
  | zero =>
    exact ⟨⟨fun _ => (p 0).gamma, fun t => by simp [bpoly, poly]⟩, ⟨fun _ => 0, fun t => by simp [bpoly, poly]⟩⟩
  | succ k ih =>
    obtain ⟨⟨c, hc⟩, ⟨d, hd⟩⟩ := ih
    constructor
    · refine ⟨fun i => (p (k + 1)).gamma * (if i = 0 then 0 else c (i - 1)) +
        (if i < k + 1 then -(p (k + 1)).gamma * (p (k + 1)).alpha * c i + -(p (k + 1)).gamma * (p (k + 1)).beta * d i
          else 0), fun t => ?_⟩
      have : (bpoly p t (k + 1)).1 = (p (k + 1)).gamma * (t * (bpoly p t k).1) +
          (-(p (k + 1)).gamma * (p (k + 1)).alpha * (bpoly p t k).1 +
            -(p (k + 1)).gamma * (p (k + 1)).beta * (bpoly p t k).2) := by
        simp only [bpoly]; ring
      rw [this, hc, hd, poly_succ_X, poly_smul, poly_smul, poly_smul, poly_add,
        poly_extend (k + 1) (k + 1 + 1) (by omega), poly_add]
    · refine ⟨fun i => if i < k + 1 then c i else 0, fun t => ?_⟩
      simp only [bpoly]
      rw [hc, poly_extend (k + 1) (k + 1 + 1) (by omega)]

theorem apply_poly (p : ℕ → OrthoRow) (m : ℕ) (hm : 0 < m) : ∃ c, ∀ t, orthoApply p m t = poly m c t := by
  choose c hc using fun k => (bpoly_poly p k).1
  refine ⟨fun i => ∑ k ∈ range m, if i < k + 1 then (p k).delta * c k i else 0, fun t => ?_⟩
  rw [apply_eq p m hm]
  have : ∀ k ∈ range m, (p k).delta * (bpoly p t k).1
      = ∑ i ∈ range m, (if i < k + 1 then (p k).delta * c k i else 0) * t ^ i := by
    intro k hk
    rw [hc, poly_extend (k + 1) m (mem_range.1 hk), poly, mul_sum]
    refine sum_congr rfl fun i _ => ?_
    split_ifs <;> ring
  rw [sum_congr rfl this, sum_comm, poly]
  refine sum_congr rfl fun i _ => ?_
  rw [sum_mul]

theorem apply_at (m : ℕ) (hm : 0 < m) (j : ℕ) :
    orthoApply (orthoParameters n x y w) m (x j) = fitted n x y w m j := by
  rw [apply_eq _ m hm, fitted]
  exact sum_congr rfl fun k _ => by rw [bpoly_at]

theorem chiSquared_eq (err : ℕ → ℝ) (f : ℝ → ℝ) : chiSquared n x y err f
    = wdot n (orthoWeights err) (fun j => y j - f (x j)) (fun j => y j - f (x j)) := by
  unfold chiSquared wdot orthoWeights
  exact sum_congr rfl fun j _ => by rw [div_pow]; ring

theorem weights_pos (err : ℕ → ℝ) (he : ∀ j < n, err j ≠ 0) : ∀ j < n, 0 < orthoWeights err j :=
  fun j hj => one_div_pos.2 (mul_self_pos.2 (he j hj))

/-- Distance of a polynomial from the fitted one. -/
theorem chiSquared_split (err : ℕ → ℝ) (he : ∀ j < n, err j ≠ 0) (m : ℕ) (hm : 0 < m) (d : ℕ → ℝ) :
    chiSquared n x y err (poly m d)
      = chiSquared n x y err (orthoApply (orthoParameters n x y (orthoWeights err)) m)
        + ∑ j ∈ range n, ((orthoApply (orthoParameters n x y (orthoWeights err)) m (x j) - poly m d (x j)) / err j) ^ 2 := by
  have hw := weights_pos n err he
  obtain ⟨c, hc⟩ := poly_span n x y (orthoWeights err) hw m d
  rw [chiSquared_eq, chiSquared_eq, pythagoras n x y _ hw m c _ hc]
  simp only [apply_at n x y _ m hm]
  congr 1
  unfold wdot orthoWeights
  exact sum_congr rfl fun j _ => by rw [div_pow]; ring

theorem chiSquared_min (err : ℕ → ℝ) (he : ∀ j < n, err j ≠ 0) (m : ℕ) (hm : 0 < m) (d : ℕ → ℝ) :
    chiSquared n x y err (orthoApply (orthoParameters n x y (orthoWeights err)) m) ≤ chiSquared n x y err (poly m d) := by
  rw [chiSquared_split n x y err he m hm]
  exact le_add_of_nonneg_right (sum_nonneg fun j _ => sq_nonneg _)

/-- The stored sum of squares is the weighted sum of squared residuals of the fit with that many parameters. -/
theorem chi2_eq (hw : ∀ j < n, 0 < w j) (k : ℕ) : (prow n x y w k).chi2
    = wdot n w (fun j => y j - fitted n x y w (k + 1) j) (fun j => y j - fitted n x y w (k + 1) j) := by
  induction k with
  | zero =>
    show ∑ k ∈ range n, _ = _
    unfold wdot
    refine sum_congr rfl fun j _ => ?_
    simp only [fitted, Nat.zero_add, sum_range_one, pval_zero]
    show w j * (y j - _ * ((∑ j ∈ range n, w j * y j) * _)) * (y j - _ * ((∑ j ∈ range n, w j * y j) * _)) =
      w j * (y j - ((∑ j ∈ range n, w j * y j) * _) * _) * (y j - ((∑ j ∈ range n, w j * y j) * _) * _)
    ring
  | succ k ih =>
    have hp := pythagoras n x y w hw (k + 2) (fun i => if i < k + 1 then (prow n x y w i).delta else 0)
      (fitted n x y w (k + 1)) (fun j _ => by
        rw [sum_range_succ, if_neg (by omega), zero_mul, add_zero]
        exact sum_congr rfl fun i hi => by rw [if_pos (mem_range.1 hi)])
    have hd : wdot n w (fun j => fitted n x y w (k + 2) j - fitted n x y w (k + 1) j)
        (fun j => fitted n x y w (k + 2) j - fitted n x y w (k + 1) j)
        = (prow n x y w (k + 1)).delta * (prow n x y w (k + 1)).delta := by
      have e : (fun j => fitted n x y w (k + 2) j - fitted n x y w (k + 1) j)
          = fun j => (prow n x y w (k + 1)).delta * pval n x y w (k + 1) j := by
        funext j; unfold fitted; rw [sum_range_succ]; ring
      rw [e, wdot_smul, wdot_comm, wdot_smul]
      rcases pval_norm n x y w hw (k + 1) with hN | hN
      · rw [hN, mul_one]
      · rw [step_delta, wdot_zero_left n w _ _ hN]; ring
    rw [hd] at hp
    rw [step_chi2, ih]
    have h0 := wdot_self_nonneg n w hw (fun j => y j - fitted n x y w (k + 2) j)
    rw [max_eq_right (by linarith)]
    linarith

theorem delta_sq (hw : ∀ j < n, 0 < w j) (k : ℕ) : (prow n x y w (k + 1)).delta ^ 2
    = (prow n x y w k).chi2 - (prow n x y w (k + 1)).chi2 := by
  have h := step_chi2 n x y w k
  have hp : 0 ≤ (prow n x y w k).chi2 - (prow n x y w (k + 1)).delta * (prow n x y w (k + 1)).delta := by
    by_contra hlt
    rw [not_le] at hlt
    rw [max_eq_left hlt.le] at h
    have e1 := chi2_eq n x y w hw k
    have e2 := chi2_eq n x y w hw (k + 1)
    have hpy := pythagoras n x y w hw (k + 2) (fun i => if i < k + 1 then (prow n x y w i).delta else 0)
      (fitted n x y w (k + 1)) (fun j _ => by
        rw [sum_range_succ, if_neg (by omega), zero_mul, add_zero]
        exact sum_congr rfl fun i hi => by rw [if_pos (mem_range.1 hi)])
    have e : (fun j => fitted n x y w (k + 2) j - fitted n x y w (k + 1) j)
        = fun j => (prow n x y w (k + 1)).delta * pval n x y w (k + 1) j := by
      funext j; unfold fitted; rw [sum_range_succ]; ring
    rw [← e1, ← e2, e, wdot_smul, wdot_comm, wdot_smul, h] at hpy
    rcases pval_norm n x y w hw (k + 1) with hN | hN
    · rw [hN] at hpy; linarith
    · have hz : (prow n x y w (k + 1)).delta = 0 := by rw [step_delta, wdot_zero_left n w _ _ hN]
      rw [hz] at hpy hlt; linarith
  rw [max_eq_right hp] at h
  rw [h]; ring

end basis

/-! ### The number of parameters -/

theorem weakTerms_succ (best : ℕ → ℝ) (k : ℕ) (hk : 2 ≤ k) : weakTerms best k = weakTerms best (k - 1)
    + (if best (k - 1) - best k < 384 / 100 then 1 else 0) + (if best (k - 2) - best k < 6 then 1 else 0) := by
  have h : Icc 2 k = insert k (Icc 2 (k - 1)) := by
    ext i; simp only [mem_insert, mem_Icc]; omega
  have hn : k ∉ Icc 2 (k - 1) := by simp only [mem_Icc]; omega
  unfold weakTerms
  rw [h, filter_insert, filter_insert]
  split_ifs with h1 h2 h2
  · rw [card_insert_of_notMem (fun hm => hn (mem_filter.1 hm).1), card_insert_of_notMem (fun hm => hn (mem_filter.1 hm).1)]
    omega
  · rw [card_insert_of_notMem (fun hm => hn (mem_filter.1 hm).1)]; omega
  · rw [card_insert_of_notMem (fun hm => hn (mem_filter.1 hm).1)]; omega
  · omega

theorem significantLoop_eq (p : ℕ → OrthoRow) (n : ℕ)
    (h1 : ∀ k, (p (k + 1)).delta ^ 2 = (p k).chi2 - (p (k + 1)).chi2) (fuel : ℕ) :
    ∀ k npp K, 2 ≤ k → npp = weakTerms (fun i => (p i).chi2) (k - 1) → k ≤ K → K + 1 ≤ k + fuel →
      (∀ i, k ≤ i → i < K → ¬ sufficient (fun i => (p i).chi2) n i) →
      (sufficient (fun i => (p i).chi2) n K ∨ K + 1 = k + fuel) →
      significantLoop p n fuel k npp = K + 1 := by
  induction fuel with
  | zero => intro k npp K _ _ h2 h3 _ _; omega
  | succ fuel ih =>
    intro k npp K hk hnpp hkK hK hbefore hstop
    obtain ⟨k', rfl⟩ : ∃ k', k = k' + 2 := ⟨k - 2, by omega⟩
    have e1 : (p (k' + 2)).delta ^ 2 = (p (k' + 2 - 1)).chi2 - (p (k' + 2)).chi2 := h1 (k' + 1)
    have e2 : (p (k' + 2)).delta ^ 2 + (p (k' + 2 - 1)).delta ^ 2 = (p (k' + 2 - 2)).chi2 - (p (k' + 2)).chi2 := by
      have := h1 (k' + 1)
      have h := h1 k'
      show (p (k' + 2)).delta ^ 2 + (p (k' + 1)).delta ^ 2 = (p k').chi2 - (p (k' + 2)).chi2
      rw [h, this]; ring
    have hweak := weakTerms_succ (fun i => (p i).chi2) (k' + 2) hk
    rw [← hnpp] at hweak
    rw [significantLoop, e2, e1]
    have hnpp' : (let npp1 := if (p (k' + 2 - 1)).chi2 - (p (k' + 2)).chi2 < 384 / 100 then npp + 1 else npp
        if (p (k' + 2 - 2)).chi2 - (p (k' + 2)).chi2 < 6 then npp1 + 1 else npp1)
        = weakTerms (fun i => (p i).chi2) (k' + 2) := by
      rw [hweak]; dsimp only; split_ifs <;> omega
    dsimp only at hnpp' ⊢
    rw [hnpp']
    rcases Nat.lt_or_ge (k' + 2) K with hlt | hge
    · have hns := hbefore (k' + 2) le_rfl hlt
      unfold sufficient at hns
      rw [not_or] at hns
      rw [if_neg hns.1, if_neg hns.2]
      exact ih (k' + 2 + 1) _ K (by omega) rfl (by omega) (by omega) (fun i h2 h3 => hbefore i (by omega) h3)
        (by rcases hstop with h | h
            · exact Or.inl h
            · exact Or.inr (by omega))
    · obtain rfl : K = k' + 2 := by omega
      by_cases hc : (p (k' + 2)).chi2 < (n : ℝ) - (((k' + 2 : ℕ) : ℝ) + 1)
      · rw [if_pos hc]
      · rw [if_neg hc]
        by_cases h4 : 4 ≤ weakTerms (fun i => (p i).chi2) (k' + 2)
        · rw [if_pos h4]
        · rw [if_neg h4]
          rcases hstop with h | h
          · rcases h with h | h
            · exact absurd h hc
            · exact absurd h h4
          · obtain rfl : fuel = 0 := by omega
            rfl

theorem exists_first (P : ℕ → Prop) (a b : ℕ) (h : a ≤ b) :
    ∃ K, a ≤ K ∧ K ≤ b ∧ (∀ k, a ≤ k → k < K → ¬ P k) ∧ (P K ∨ K = b) := by
  classical
  by_cases hex : ∃ k, a ≤ k ∧ k ≤ b ∧ P k
  · have hf := Nat.find_spec hex
    refine ⟨Nat.find hex, hf.1, hf.2.1, fun k h1 h2 h3 => ?_, Or.inl hf.2.2⟩
    exact Nat.find_min hex h2 ⟨h1, le_trans h2.le hf.2.1, h3⟩
  · exact ⟨b, h, le_rfl, fun k h1 h2 h3 => hex ⟨k, h1, h2.le, h3⟩, Or.inr rfl⟩

theorem significantLoop_bounds (p : ℕ → OrthoRow) (n fuel : ℕ) :
    ∀ k npp, k ≤ significantLoop p n fuel k npp ∧ significantLoop p n fuel k npp ≤ k + fuel ∧
      (0 < fuel → k + 1 ≤ significantLoop p n fuel k npp) := by
  induction fuel with
  | zero => intro k npp; simp [significantLoop]
  | succ fuel ih =>
    intro k npp
    rw [significantLoop]
    have key : ∀ q, k ≤ (if 4 ≤ q then k + 1 else significantLoop p n fuel (k + 1) q) ∧
        (if 4 ≤ q then k + 1 else significantLoop p n fuel (k + 1) q) ≤ k + (fuel + 1) ∧
        (0 < fuel + 1 → k + 1 ≤ (if 4 ≤ q then k + 1 else significantLoop p n fuel (k + 1) q)) := by
      intro q
      have := ih (k + 1) q
      split_ifs <;> omega
    by_cases hc : (p k).chi2 < (n : ℝ) - ((k : ℝ) + 1)
    · rw [if_pos hc]; omega
    · rw [if_neg hc]; exact key _

theorem customClip_fifth (n : ℕ) (h : n ≤ 21) : customClip (n / 5) 2 orthoMaxParameters = max 2 (n / 5) := by
  unfold customClip orthoMaxParameters
  split_ifs <;> omega

theorem degrees_bounds (n : ℕ) (x y err : ℕ → ℝ) (hn : 0 < n) :
    0 < (orthoPolyFit n x y err).2 ∧ (orthoPolyFit n x y err).2 ≤ 21 ∧
      (2 ≤ n → (orthoPolyFit n x y err).2 < n) ∧ (3 ≤ n → 2 ≤ (orthoPolyFit n x y err).2) ∧
      (n < 3 → (orthoPolyFit n x y err).2 = 1) := by
  simp only [orthoPolyFit]
  generalize orthoParameters n x y (orthoWeights err) = p
  unfold reduceParameters significantParameters orthoFullDegrees
  have hb := significantLoop_bounds p n (min orthoMaxParameters n - 2) 2 0
  revert hb
  generalize significantLoop p n (min orthoMaxParameters n - 2) 2 0 = r
  intro hb
  have h21 : orthoMaxParameters = 21 := rfl
  rw [h21] at hb ⊢
  have hc : n ≤ 21 → customClip (n / 5) 2 21 = max 2 (n / 5) := customClip_fifth n
  dsimp only
  by_cases h3 : min 21 n < 3
  · simp only [if_pos h3]
    by_cases h2 : 2 < n
    · exact absurd h3 (by omega)
    · rw [if_pos (by omega), if_neg h2]; omega
  · simp only [if_neg h3]
    by_cases he : min (min 21 n) r = n
    · rw [if_pos he, if_pos (by omega), hc (by omega)]; omega
    · rw [if_neg he]; omega

/-- Best `χ²` values are the stored ones. -/
theorem chi2_best (n : ℕ) (x y err : ℕ → ℝ) (he : ∀ j < n, err j ≠ 0) (k : ℕ) (v : ℝ)
    (hv : IsBestChi n x y err (k + 1) v) : (orthoParameters n x y (orthoWeights err) k).chi2 = v := by
  have hw := weights_pos n err he
  have h1 : (orthoParameters n x y (orthoWeights err) k).chi2
      = chiSquared n x y err (orthoApply (orthoParameters n x y (orthoWeights err)) (k + 1)) := by
    have := chi2_eq n x y (orthoWeights err) hw k
    rw [chiSquared_eq]
    simp only [apply_at n x y _ (k + 1) (by omega)]
    exact this
  obtain ⟨⟨d, hd⟩, hmin⟩ := hv
  obtain ⟨c, hc⟩ := apply_poly (orthoParameters n x y (orthoWeights err)) (k + 1) (by omega)
  have h2 := chiSquared_min n x y err he (k + 1) (by omega) d
  have h3 := hmin c
  have h4 : chiSquared n x y err (poly (k + 1) c)
      = chiSquared n x y err (orthoApply (orthoParameters n x y (orthoWeights err)) (k + 1)) := by
    congr 1; funext t; exact (hc t).symm
  rw [h1]; linarith

/-! ### The theorems -/

theorem orthoFit_some {n : ℕ} {x y err : ℕ → ℝ} {s : OrthoSmoother} (h : orthoSmootherFit n x y err = some s) :
    0 < n ∧ s.params = orthoParameters n x y (orthoWeights err) ∧ s.nDegrees = (orthoPolyFit n x y err).2 ∧
      (∃ i < n, x i = s.minimal) ∧ (∀ i < n, s.minimal ≤ x i) ∧ (∃ i < n, x i = s.maximal) ∧
      (∀ i < n, x i ≤ s.maximal) := by
  unfold orthoSmootherFit at h
  split_ifs at h with hne
  obtain rfl := Option.some.inj h
  obtain ⟨i, hi⟩ := hne
  refine ⟨by have := mem_range.1 hi; omega, rfl, rfl, ?_, ?_, ?_, ?_⟩
  · obtain ⟨i, hi, he⟩ := exists_mem_eq_inf' ⟨i, hi⟩ x
    exact ⟨i, mem_range.1 hi, he.symm⟩
  · exact fun i hi => inf'_le x (mem_range.2 hi)
  · obtain ⟨i, hi, he⟩ := exists_mem_eq_sup' ⟨i, hi⟩ x
    exact ⟨i, mem_range.1 hi, he.symm⟩
  · exact fun i hi => le_sup' x (mem_range.2 hi)

theorem predict_inside {n : ℕ} {x y err : ℕ → ℝ} {s : OrthoSmoother} (h : orthoSmootherFit n x y err = some s)
    (b : ℝ) (h1 : ∃ i < n, x i ≤ b) (h2 : ∃ i < n, b ≤ x i) :
    orthoSmootherPredict s (.fin b) = .fin (orthoApply s.params s.nDegrees b) := by
  obtain ⟨-, -, -, -, hmin, -, hmax⟩ := orthoFit_some h
  obtain ⟨i, hi, hib⟩ := h1
  obtain ⟨l, hl, hlb⟩ := h2
  unfold orthoSmootherPredict
  dsimp only
  rw [if_neg (not_lt.2 ((hmin i hi).trans hib)), if_neg (not_lt.2 (hlb.trans (hmax l hl)))]

/-- **C70.** Between the smallest and the largest bin number of the fit, the smoother predicts a polynomial with
`nDegrees` coefficients, and no polynomial with that many coefficients has a smaller `χ²`. -/
theorem C70_least_squares (n : ℕ) (x y err : ℕ → ℝ) (he : ∀ j < n, err j ≠ 0) (s : OrthoSmoother)
    (h : orthoSmootherFit n x y err = some s) :
    ∃ c, (∀ b, (∃ i < n, x i ≤ b) → (∃ i < n, b ≤ x i) →
        orthoSmootherPredict s (.fin b) = .fin (poly s.nDegrees c b)) ∧
      ∀ d, chiSquared n x y err (poly s.nDegrees c) ≤ chiSquared n x y err (poly s.nDegrees d) := by
  obtain ⟨hn, hp, hm, -⟩ := orthoFit_some h
  have hpos : 0 < s.nDegrees := by rw [hm]; exact (degrees_bounds n x y err hn).1
  obtain ⟨c, hc⟩ := apply_poly s.params s.nDegrees hpos
  refine ⟨c, fun b h1 h2 => by rw [predict_inside h b h1 h2, hc], fun d => ?_⟩
  have := chiSquared_min n x y err he s.nDegrees hpos d
  rw [← hp] at this
  have e : poly s.nDegrees c = orthoApply s.params s.nDegrees := by funext t; exact (hc t).symm
  rw [e]; exact this

/-- **C70.** The optimum is unique at the bin numbers of the fit: a polynomial with as many coefficients that minimises `χ²`
has the predicted values. -/
theorem C70_unique (n : ℕ) (x y err : ℕ → ℝ) (he : ∀ j < n, err j ≠ 0) (s : OrthoSmoother)
    (h : orthoSmootherFit n x y err = some s) (d : ℕ → ℝ)
    (hd : ∀ c, chiSquared n x y err (poly s.nDegrees d) ≤ chiSquared n x y err (poly s.nDegrees c)) :
    ∀ j < n, orthoSmootherPredict s (.fin (x j)) = .fin (poly s.nDegrees d (x j)) := by
  obtain ⟨hn, hp, hm, -⟩ := orthoFit_some h
  have hpos : 0 < s.nDegrees := by rw [hm]; exact (degrees_bounds n x y err hn).1
  obtain ⟨c, hc⟩ := apply_poly s.params s.nDegrees hpos
  have e : poly s.nDegrees c = orthoApply s.params s.nDegrees := by funext t; exact (hc t).symm
  have h1 := hd c
  have h2 := chiSquared_split n x y err he s.nDegrees hpos d
  rw [← hp, ← e] at h2
  have h0 : ∑ j ∈ range n, ((poly s.nDegrees c (x j) - poly s.nDegrees d (x j)) / err j) ^ 2 = 0 :=
    le_antisymm (by linarith) (sum_nonneg fun j _ => sq_nonneg _)
  intro j hj
  rw [predict_inside h (x j) ⟨j, hj, le_rfl⟩ ⟨j, hj, le_rfl⟩, ← e]
  have h3 := (sum_eq_zero_iff_of_nonneg (fun j _ => sq_nonneg _)).1 h0 j (mem_range.2 hj)
  have h4 := pow_eq_zero_iff (two_ne_zero) |>.1 h3
  rcases div_eq_zero_iff.1 h4 with h5 | h5
  · rw [sub_eq_zero.1 h5]
  · exact absurd h5 (he j hj)

theorem poly_eq_of_roots (n m : ℕ) (hm : m ≤ n) (x : ℕ → ℝ) (hx : ∀ i < n, ∀ j < n, x i = x j → i = j) (c : ℕ → ℝ)
    (h : ∀ j < n, poly m c (x j) = 0) (t : ℝ) : poly m c t = 0 := by
  classical
  have hp : ∀ t, (∑ i ∈ range m, Polynomial.C (c i) * Polynomial.X ^ i : Polynomial ℝ).eval t = poly m c t := by
    intro t; simp [Polynomial.eval_finsetSum, poly]
  have hdeg : (∑ i ∈ range m, Polynomial.C (c i) * Polynomial.X ^ i : Polynomial ℝ).degree
      < ((range n).image x).card := by
    rw [card_image_of_injOn (fun i hi j hj he => hx i (by simpa using hi) j (by simpa using hj) he), card_range]
    refine lt_of_lt_of_le ?_ (by exact_mod_cast hm : ((m : ℕ) : WithBot ℕ) ≤ (n : ℕ))
    refine (Polynomial.degree_lt_iff_coeff_zero _ _).2 fun k hk => ?_
    simp only [Polynomial.finsetSum_coeff, Polynomial.coeff_C_mul_X_pow]
    exact sum_eq_zero fun i hi => if_neg (by have := mem_range.1 hi; omega)
  have h0 := Polynomial.eq_zero_of_degree_lt_of_eval_finset_eq_zero _ hdeg (by
    intro v hv
    obtain ⟨i, hi, rfl⟩ := mem_image.1 hv
    rw [hp]; exact h i (mem_range.1 hi))
  rw [← hp, h0, Polynomial.eval_zero]

/-- **C70.** If the bin numbers are different, a polynomial with as many coefficients that minimises `χ²` is the predicted
one everywhere between the smallest and the largest bin number. -/
theorem C70_unique_between (n : ℕ) (x y err : ℕ → ℝ) (he : ∀ j < n, err j ≠ 0)
    (hx : ∀ i < n, ∀ j < n, x i = x j → i = j) (s : OrthoSmoother)
    (h : orthoSmootherFit n x y err = some s) (d : ℕ → ℝ)
    (hd : ∀ c, chiSquared n x y err (poly s.nDegrees d) ≤ chiSquared n x y err (poly s.nDegrees c))
    (b : ℝ) (h1 : ∃ i < n, x i ≤ b) (h2 : ∃ i < n, b ≤ x i) :
    orthoSmootherPredict s (.fin b) = .fin (poly s.nDegrees d b) := by
  obtain ⟨c, hc, hmin⟩ := C70_least_squares n x y err he s h
  obtain ⟨hn, hp, hm, -⟩ := orthoFit_some h
  have hb := degrees_bounds n x y err hn
  rw [hc b h1 h2]
  have h3 : ∀ j < n, poly s.nDegrees (fun i => c i + -1 * d i) (x j) = 0 := by
    intro j hj
    have h4 := C70_unique n x y err he s h d hd j hj
    rw [hc (x j) ⟨j, hj, le_rfl⟩ ⟨j, hj, le_rfl⟩] at h4
    rw [← poly_add, ← poly_smul, Flt.fin.inj h4]; ring
  have h4 := poly_eq_of_roots n s.nDegrees (by
    rw [hm]
    rcases Nat.lt_or_ge n 2 with h5 | h5
    · have := hb.2.2.2.2 (by omega); omega
    · exact (hb.2.2.1 h5).le) x hx _ h3 b
  rw [← poly_add, ← poly_smul] at h4
  congr 1; linarith

/-- **C70.** Values that lie on a polynomial with at most as many coefficients are reproduced. -/
theorem C70_reproduces (n : ℕ) (x y err : ℕ → ℝ) (he : ∀ j < n, err j ≠ 0) (s : OrthoSmoother)
    (h : orthoSmootherFit n x y err = some s) (m : ℕ) (hm : m ≤ s.nDegrees) (d : ℕ → ℝ)
    (hy : ∀ j < n, y j = poly m d (x j)) :
    ∀ j < n, orthoSmootherPredict s (.fin (x j)) = .fin (y j) := by
  intro j hj
  have := C70_unique n x y err he s h (fun i => if i < m then d i else 0) (fun c => by
    have h0 : chiSquared n x y err (poly s.nDegrees fun i => if i < m then d i else 0) = 0 := by
      unfold chiSquared
      refine sum_eq_zero fun j hj => ?_
      rw [← poly_extend m s.nDegrees hm, hy j (mem_range.1 hj)]; simp
    rw [h0]; exact sum_nonneg fun j _ => sq_nonneg _) j hj
  rw [this, ← poly_extend m s.nDegrees hm, hy j hj]

/-- **C71.** How the number of coefficients is chosen, in terms of the best possible `χ²` of each degree: the first
sufficient degree from 2 on (at most 21 coefficients); if that would interpolate all bins, a fifth of the number of
bins, but at least two. -/
theorem C71_selection (n : ℕ) (x y err : ℕ → ℝ) (he : ∀ j < n, err j ≠ 0) (s : OrthoSmoother)
    (h : orthoSmootherFit n x y err = some s) (h3 : 3 ≤ n) (best : ℕ → ℝ)
    (hbest : ∀ k, IsBestChi n x y err (k + 1) (best k)) :
    ∃ K, 2 ≤ K ∧ K + 1 ≤ min 21 n ∧ (∀ k, 2 ≤ k → k < K → ¬ sufficient best n k) ∧
      (sufficient best n K ∨ K + 1 = min 21 n) ∧
      s.nDegrees = if K + 1 = n then max 2 (n / 5) else K + 1 := by
  obtain ⟨hn, -, hm, -⟩ := orthoFit_some h
  have hw := weights_pos n err he
  have hb : (fun k => (orthoParameters n x y (orthoWeights err) k).chi2) = best := by
    funext k; exact chi2_best n x y err he k _ (hbest k)
  obtain ⟨K, hK1, hK2, hK3, hK4⟩ := exists_first (sufficient best n) 2 (min 21 n - 1) (by omega)
  refine ⟨K, hK1, by omega, hK3, by rcases hK4 with h | h; exacts [Or.inl h, Or.inr (by omega)], ?_⟩
  have hloop := significantLoop_eq (orthoParameters n x y (orthoWeights err)) n
    (fun k => delta_sq n x y _ hw k) (min 21 n - 2) 2 0 K le_rfl
    (by unfold weakTerms; simp) hK1 (by omega)
    (by rw [hb]; exact hK3) (by rw [hb]; rcases hK4 with h | h; exacts [Or.inl h, Or.inr (by omega)])
  rw [hm]
  simp only [orthoPolyFit]
  unfold reduceParameters significantParameters orthoFullDegrees
  rw [show orthoMaxParameters = 21 from rfl, if_neg (by omega : ¬ min 21 n < 3), hloop, min_eq_right (by omega : K + 1 ≤ min 21 n)]
  dsimp only
  by_cases hKn : K + 1 = n
  · rw [if_pos hKn, if_pos hKn, if_pos (by omega)]
    exact customClip_fifth n (by omega)
  · rw [if_neg hKn, if_neg hKn]

/-- **C71.** The number of coefficients: at least one, at most 21, and fewer than there are bins (never an
interpolation) unless there is only one bin. -/
theorem C71_bounds (n : ℕ) (x y err : ℕ → ℝ) (s : OrthoSmoother) (h : orthoSmootherFit n x y err = some s) :
    1 ≤ s.nDegrees ∧ s.nDegrees ≤ 21 ∧ (2 ≤ n → s.nDegrees < n) ∧ (3 ≤ n → 2 ≤ s.nDegrees) ∧
      (n < 3 → s.nDegrees = 1) := by
  obtain ⟨hn, -, hm, -⟩ := orthoFit_some h
  rw [hm]; exact degrees_bounds n x y err hn

/-- **C72.** Outside the bin numbers of the fit the prediction is that of the nearest bin number of the fit, also for
infinite bin numbers. -/
theorem C72_clamped (n : ℕ) (x y err : ℕ → ℝ) (s : OrthoSmoother) (h : orthoSmootherFit n x y err = some s)
    (i l : ℕ) (hi : i < n) (hl : l < n) (hmin : ∀ j < n, x i ≤ x j) (hmax : ∀ j < n, x j ≤ x l) :
    (∀ b ≤ x i, orthoSmootherPredict s (.fin b) = orthoSmootherPredict s (.fin (x i))) ∧
      (∀ b, x l ≤ b → orthoSmootherPredict s (.fin b) = orthoSmootherPredict s (.fin (x l))) ∧
      orthoSmootherPredict s .ninf = orthoSmootherPredict s (.fin (x i)) ∧
      orthoSmootherPredict s .pinf = orthoSmootherPredict s (.fin (x l)) := by
  obtain ⟨-, -, -, ⟨a, ha, ha1⟩, ha2, ⟨b', hb, hb1⟩, hb2⟩ := orthoFit_some h
  have e1 : s.minimal = x i := le_antisymm (ha2 i hi) (by rw [← ha1]; exact hmin a ha)
  have e2 : s.maximal = x l := le_antisymm (by rw [← hb1]; exact hmax b' hb) (hb2 l hl)
  have hil : x i ≤ x l := hmin l hl
  refine ⟨fun b hbi => ?_, fun b hbl => ?_, ?_, ?_⟩
  · unfold orthoSmootherPredict
    dsimp only
    rw [e1, e2]
    rcases hbi.lt_or_eq with hlt | rfl
    · rw [if_pos hlt, if_neg (lt_irrefl (x i))]
    · rfl
  · unfold orthoSmootherPredict
    dsimp only
    rw [e1, e2, if_neg (not_lt.2 (hil.trans hbl)), if_neg (not_lt.2 hil), if_neg (lt_irrefl (x l))]
    rcases hbl.lt_or_eq with hlt | rfl
    · rw [if_pos hlt]
    · rw [if_neg (lt_irrefl (x l))]
  · unfold orthoSmootherPredict
    dsimp only
    rw [e1, e2, if_neg (lt_irrefl (x i)), if_neg (not_lt.2 hil)]
  · unfold orthoSmootherPredict
    dsimp only
    rw [e1, e2, if_neg (not_lt.2 hil), if_neg (lt_irrefl (x l))]

/-- `fit` works for every positive number of bins. -/
theorem C72_total (n : ℕ) (x y err : ℕ → ℝ) : (∃ s, orthoSmootherFit n x y err = some s) ↔ 0 < n := by
  constructor
  · rintro ⟨s, h⟩; exact (orthoFit_some h).1
  · intro hn
    refine ⟨_, dif_pos ⟨0, mem_range.2 hn⟩⟩

theorem poly_shift (m : ℕ) (hm : 0 < m) (d : ℕ → ℝ) (a t : ℝ) :
    poly m (fun i => if i = 0 then d 0 + a else d i) t = poly m d t + a := by
  obtain ⟨m, rfl⟩ : ∃ k, m = k + 1 := ⟨m - 1, by omega⟩
  unfold poly
  rw [sum_range_succ', sum_range_succ']
  simp; ring

theorem chiSquared_shift (n : ℕ) (x y err : ℕ → ℝ) (m : ℕ) (hm : 0 < m) (a : ℝ) (d : ℕ → ℝ) :
    chiSquared n x (fun j => y j + a) err (poly m fun i => if i = 0 then d 0 + a else d i)
      = chiSquared n x y err (poly m d) := by
  unfold chiSquared
  refine sum_congr rfl fun j _ => ?_
  rw [poly_shift m hm]
  congr 2; ring

theorem best_shift (n : ℕ) (x y err : ℕ → ℝ) (m : ℕ) (hm : 0 < m) (a v : ℝ) (h : IsBestChi n x y err m v) :
    IsBestChi n x (fun j => y j + a) err m v := by
  obtain ⟨⟨d, hd⟩, hmin⟩ := h
  refine ⟨⟨_, (chiSquared_shift n x y err m hm a d).trans hd⟩, fun d => ?_⟩
  have h1 := chiSquared_shift n x (fun j => y j + a) err m hm (-a) d
  have h2 : (fun j => y j + a + -a) = y := by funext j; ring
  rw [h2] at h1
  rw [← h1]
  exact hmin _

theorem exists_best (n : ℕ) (x y err : ℕ → ℝ) (he : ∀ j < n, err j ≠ 0) (m : ℕ) (hm : 0 < m) :
    ∃ v, IsBestChi n x y err m v := by
  obtain ⟨c, hc⟩ := apply_poly (orthoParameters n x y (orthoWeights err)) m hm
  refine ⟨_, ⟨c, rfl⟩, fun d => ?_⟩
  have e : poly m c = orthoApply (orthoParameters n x y (orthoWeights err)) m := by funext t; exact (hc t).symm
  rw [e]
  exact chiSquared_min n x y err he m hm d

/-- **C72.** Adding a constant to all bin values adds it to every prediction, and does not change the number of
coefficients. -/
theorem C72_shift (n : ℕ) (x y err : ℕ → ℝ) (he : ∀ j < n, err j ≠ 0)
    (hx : ∀ i < n, ∀ j < n, x i = x j → i = j) (a : ℝ) (s s' : OrthoSmoother)
    (h : orthoSmootherFit n x y err = some s) (h' : orthoSmootherFit n x (fun j => y j + a) err = some s') :
    s'.nDegrees = s.nDegrees ∧ ∀ b, ∃ v, orthoSmootherPredict s (.fin b) = .fin v ∧
      orthoSmootherPredict s' (.fin b) = .fin (v + a) := by
  have hb := C71_bounds n x y err s h
  have hb' := C71_bounds n x _ err s' h'
  have hdeg : s'.nDegrees = s.nDegrees := by
    rcases Nat.lt_or_ge n 3 with h3 | h3
    · rw [hb.2.2.2.2 h3, hb'.2.2.2.2 h3]
    choose best hbest using fun k => exists_best n x y err he (k + 1) (by omega)
    obtain ⟨K, k1, k2, k3, k4, k5⟩ := C71_selection n x y err he s h h3 best hbest
    obtain ⟨K', l1, l2, l3, l4, l5⟩ := C71_selection n x _ err he s' h' h3 best
      fun k => best_shift n x y err (k + 1) (by omega) a _ (hbest k)
    have : K = K' := by
      rcases Nat.lt_trichotomy K K' with hlt | heq | hgt
      · rcases k4 with h | h
        · exact absurd h (l3 K k1 hlt)
        · omega
      · exact heq
      · rcases l4 with h | h
        · exact absurd h (k3 K' l1 hgt)
        · omega
    rw [k5, l5, this]
  refine ⟨hdeg, ?_⟩
  obtain ⟨c, hc, hmin⟩ := C70_least_squares n x y err he s h
  have hins : ∀ b, (∃ i < n, x i ≤ b) → (∃ i < n, b ≤ x i) → ∃ v, orthoSmootherPredict s (.fin b) = .fin v ∧
      orthoSmootherPredict s' (.fin b) = .fin (v + a) := by
    intro b h1 h2
    refine ⟨_, hc b h1 h2, ?_⟩
    rw [C70_unique_between n x _ err he hx s' h' (fun i => if i = 0 then c 0 + a else c i) ?_ b h1 h2, hdeg,
      poly_shift _ hb.1]
    intro d
    rw [hdeg, chiSquared_shift n x y err _ hb.1]
    have h1 := chiSquared_shift n x (fun j => y j + a) err s.nDegrees hb.1 (-a) d
    have h2 : (fun j => y j + a + -a) = y := by funext j; ring
    rw [h2] at h1
    rw [← h1]
    exact hmin _
  obtain ⟨-, -, -, ⟨i, hi, hi1⟩, hi2, ⟨l, hl, hl1⟩, hl2⟩ := orthoFit_some h
  have hmin' : ∀ j < n, x i ≤ x j := fun j hj => by rw [hi1]; exact hi2 j hj
  have hmax' : ∀ j < n, x j ≤ x l := fun j hj => by rw [hl1]; exact hl2 j hj
  have cl := C72_clamped n x y err s h i l hi hl hmin' hmax'
  have cl' := C72_clamped n x _ err s' h' i l hi hl hmin' hmax'
  intro b
  rcases le_or_gt b (x i) with h1 | h1
  · rw [cl.1 b h1, cl'.1 b h1]; exact hins (x i) ⟨i, hi, le_rfl⟩ ⟨i, hi, le_rfl⟩
  rcases le_or_gt (x l) b with h2 | h2
  · rw [cl.2.1 b h2, cl'.2.1 b h2]; exact hins (x l) ⟨l, hl, le_rfl⟩ ⟨l, hl, le_rfl⟩
  · exact hins b ⟨i, hi, h1.le⟩ ⟨l, hl, h2.le⟩

/-- A case for the hypotheses: three bins with values 0, 1, 4 and equal errors give the straight line `2 x - 1/3`. -/
example : ∃ s, orthoSmootherFit 3 (fun j => (j : ℝ)) (fun j => (j : ℝ) ^ 2) (fun _ => 1) = some s ∧
    s.nDegrees = 2 ∧ orthoSmootherPredict s (.fin 1) = .fin (5 / 3) ∧ orthoSmootherPredict s (.fin 7) = .fin (11 / 3) := by
  obtain ⟨s, hs⟩ := (C72_total 3 (fun j => (j : ℝ)) (fun j => (j : ℝ) ^ 2) (fun _ => 1)).2 (by norm_num)
  have hb := C71_bounds _ _ _ _ s hs
  have hm : s.nDegrees = 2 := by omega
  have hu := C70_unique 3 (fun j => (j : ℝ)) (fun j => (j : ℝ) ^ 2) (fun _ => 1) (fun _ _ => one_ne_zero) s hs
    (fun i => if i = 0 then -1 / 3 else 2) (fun c => by
      rw [hm]
      simp only [chiSquared, poly, sum_range_succ, range_zero, sum_empty]
      norm_num
      nlinarith [sq_nonneg (c 0 + 1 / 3), sq_nonneg (c 0 + 1 / 3 + (c 1 - 2)), sq_nonneg (c 0 + 1 / 3 + (c 1 - 2) * 2)])
  have hcl := C72_clamped 3 (fun j => (j : ℝ)) (fun j => (j : ℝ) ^ 2) (fun _ => 1) s hs 0 2 (by norm_num) (by norm_num)
    (fun j _ => by simp) (fun j hj => by
      have : j ≤ 2 := by omega
      exact_mod_cast this)
  refine ⟨s, hs, hm, ?_, ?_⟩
  · have := hu 1 (by norm_num)
    rw [hm] at this
    simp only [poly, sum_range_succ, range_zero, sum_empty] at this
    norm_num at this
    rw [this]
  · have := hu 2 (by norm_num)
    rw [hm] at this
    simp only [poly, sum_range_succ, range_zero, sum_empty] at this
    have h7 := hcl.2.1 7 (by norm_num)
    rw [h7]
    norm_num at this ⊢
    exact this

end CB
