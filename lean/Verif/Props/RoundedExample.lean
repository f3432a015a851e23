import Verif.Props.Rounded
import Verif.Props.TrainingExamples
import Mathlib.Data.Int.Log
import Mathlib.Data.Real.Archimedean
import Mathlib.Algebra.Order.Round

/-!
# Witnesses for C139
-/

set_option autoImplicit false
set_option linter.unusedSectionVars false

namespace CB
open Spec

/-- Rounding of a real number to the nearest number with 53 binary digits. -/
noncomputable def round53 (x : ℝ) : ℝ :=
  round (x / (2 : ℝ) ^ (Int.log 2 |x| - 52)) * (2 : ℝ) ^ (Int.log 2 |x| - 52)

theorem round53_error (x : ℝ) : |round53 x - x| ≤ (2 : ℝ) ^ (-53 : ℤ) * |x| := by
  by_cases hx : x = 0
  · subst hx
    simp [round53]
  have hpos : 0 < |x| := abs_pos.mpr hx
  have hlog : ((2 : ℕ) : ℝ) ^ Int.log 2 |x| ≤ |x| := Int.zpow_log_le_self (by norm_num) hpos
  unfold round53
  set q : ℝ := (2 : ℝ) ^ (Int.log 2 |x| - 52) with hq
  have hq0 : 0 < q := by positivity
  have h1 := abs_sub_round (x / q)
  have h2 : round (x / q) * q - x = -((x / q - round (x / q)) * q) := by
    rw [sub_mul, div_mul_cancel₀ _ hq0.ne']
    ring
  rw [h2, abs_neg, abs_mul, abs_of_pos hq0]
  have h3 : 1 / 2 * q = (2 : ℝ) ^ (-53 : ℤ) * (2 : ℝ) ^ Int.log 2 |x| := by
    rw [hq, ← zpow_add₀ (by norm_num : (2 : ℝ) ≠ 0), show (1 / 2 : ℝ) = 2 ^ (-1 : ℤ) by norm_num,
      ← zpow_add₀ (by norm_num : (2 : ℝ) ≠ 0)]
    congr 1
    ring
  calc |x / q - round (x / q)| * q ≤ 1 / 2 * q := mul_le_mul_of_nonneg_right h1 hq0.le
    _ = (2 : ℝ) ^ (-53 : ℤ) * (2 : ℝ) ^ Int.log 2 |x| := h3
    _ ≤ (2 : ℝ) ^ (-53 : ℤ) * |x| := by
      refine mul_le_mul_of_nonneg_left ?_ (by positivity)
      simpa using hlog

/-- Witness for the arithmetic of C139: correctly rounded arithmetic with 53 binary digits (double precision without limits for the
exponent) has relative errors of at most `2 ^ (-53)`. -/
example : RoundsWithin (⟨fun a b => round53 (a + b), fun a b => round53 (a - b), fun a b => round53 (a * b), fun _ _ => 0,
    fun _ b => b⟩ : Machine ℝ) ((2 : ℝ) ^ (-53 : ℤ)) := fun a b => ⟨round53_error _, round53_error _⟩

/-- The rounding is not the identity: a third is not a number with finitely many binary digits. -/
example : round53 (1 / 3) ≠ 1 / 3 := by
  unfold round53
  intro h
  have hlog : Int.log 2 |(1 / 3 : ℝ)| = -2 := by
    have h0 : |(1 / 3 : ℝ)| = ((1 / 3 : ℚ) : ℝ) := by rw [abs_of_pos (by norm_num)]; norm_num
    rw [h0]
    refine le_antisymm ?_ ?_
    · have := (Int.lt_zpow_iff_log_lt (b := 2) (by norm_num) (r := (((1 / 3 : ℚ) : ℝ))) (x := -1) (by norm_num)).mp (by norm_num)
      omega
    · exact (Int.zpow_le_iff_le_log (b := 2) (by norm_num) (by norm_num)).mp (by norm_num)
  rw [hlog] at h
  generalize round (1 / 3 / (2 : ℝ) ^ ((-2 : ℤ) - 52)) = k at h
  have h2 : (k : ℝ) * 3 = 2 ^ 54 := by
    have : (2 : ℝ) ^ ((-2 : ℤ) - 52) = 1 / 2 ^ 54 := by norm_num
    rw [this] at h
    linarith
  have h3 : k * 3 = 2 ^ 54 := by exact_mod_cast h2
  omega

/-- An arithmetic in which every sum is too large by a thousandth. -/
def coarse : Machine ℚ := ⟨fun a b => (a + b) * (1 + 1 / 1000), fun a b => (a - b) * (1 - 1 / 1000), fun a b => a * b, factorsDeviation, CB.lossChange⟩

theorem coarse_rounds : RoundsWithin coarse (1 / 1000) := by
  intro a b
  constructor
  · show |(a + b) * (1 + 1 / 1000) - (a + b)| ≤ 1 / 1000 * |a + b|
    rw [show (a + b) * (1 + 1 / 1000) - (a + b) = 1 / 1000 * (a + b) by ring, abs_mul]
    norm_num
  · show |(a - b) * (1 - 1 / 1000) - (a - b)| ≤ 1 / 1000 * |a - b|
    rw [show (a - b) * (1 - 1 / 1000) - (a - b) = -(1 / 1000) * (a - b) by ring, abs_mul]
    norm_num

/-- With a constant loss training does not diverge. -/
theorem constant_loss_converges (m : Machine ℚ) (p : Params ℚ) (o : Oracle ℚ) (ho : ∀ q, o.loss q = .fin 1) (cfgs : List FeatureCfg)
    (prior : ℕ → ℚ) (past : List (TState ℚ)) (s : TState ℚ) (h : RTrace m p o cfgs (startState o cfgs prior) past s) :
    s.isDiverging = false ∧ s.initialLoss = .fin 1 := by
  induction h with
  | start => exact ⟨rfl, ho _⟩
  | step ht hc hit ih =>
    unfold iterateR at hit
    simp only [ho, ih.2] at hit
    have : checkConvergence (.fin 1 : Flt ℚ) (.fin 1) = fun dv => .ok (dv, false) := by
      funext dv
      unfold checkConvergence isDiverged Flt.gt Flt.twice
      norm_num
    rw [this] at hit
    simp only [Bool.false_eq_true, if_false, Except.ok.injEq] at hit
    rw [← hit]
    exact ⟨rfl, rfl⟩

/-- A training of three iterations.
-/
def coarseParams : Params ℚ := { toyParams true none with minimalLossChange := -1 }

/-- Witness for C139: a training with the coarse arithmetic meets all hypotheses with `L = 16`, it succeeds, and the rounding errors
are visible. -/
example :
    let specs : List FeatureSpec := [⟨["a"], false, false⟩, ⟨["a", "b"], false, true⟩]
    let o := toyOracle (fun it => 1 / (it + 1)) (fun _ => .fin 1)
    StaysWithin coarse coarseParams o (specs.map (fun f => f.cfg toyTable 4)) (fun _ => 1 / 2) 16 ∧
      (∀ e one, |coarseParams.consts.logMin e one| ≤ 16 ∧ |coarseParams.consts.logMax e one| ≤ 16) ∧
      ((fitMainR coarse coarseParams o (specs.map (fun f => f.cfg toyTable 4)) (fun _ => 1 / 2) 7).map fun r =>
        r.toOption.map fun r => decide
          ((predictExtendedR coarse (fun _ => 1 / 2) (fittedFeatures toyTable 4 specs r.factors) toyTable).factors 0 ≠
            r.prediction.factors 0 ∧ 1 < r.prediction.factors 0)) = some (some true) := by
  refine ⟨?_, ?_, by decide +kernel⟩
  · have := C139_clipped coarse (1 / 1000) (by norm_num) (by norm_num) coarse_rounds coarseParams rfl rfl
      (toyOracle (fun it => 1 / (it + 1)) (fun _ => .fin 1)) 8 (by decide +kernel) (by decide +kernel)
      (([⟨["a"], false, false⟩, ⟨["a", "b"], false, true⟩] : List FeatureSpec).map (fun f => f.cfg toyTable 4)) (fun _ => 1 / 2)
      fun past s h => (constant_loss_converges coarse _ _ (fun _ => rfl) _ _ past s h).1
    rw [show (2 : ℚ) * 8 = 16 by norm_num] at this
    exact this
  · decide +kernel

end CB
