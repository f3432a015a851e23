import Verif.Props.Interrupted
import Verif.Props.ConvergenceExample

/-!
# C173: what the background-subtraction regressor predicts after a long training that did not finish
-/

set_option autoImplicit false
set_option linter.unusedSectionVars false

namespace CB
open Finset Spec

theorem underway_trace {K : Type*} [Field K] [LinearOrder K] (p : Params K) (o : Oracle K) (cfgs : List FeatureCfg) (prior : ℕ → K)
    (k : ℕ) (s : TState K) (lives : List (LiveFeature K)) (h : Underway p o cfgs prior k s lives) :
    ∃ past, Trace p o cfgs (startState o cfgs prior) past s := by
  induction h with
  | start => exact ⟨[], .start⟩
  | next k s s' lives h hc hs ih =>
    obtain ⟨past, ht⟩ := ih
    exact ⟨s :: past, .step ht hc hs⟩

/-- **C173, long trainings.** While the training of the background-subtraction regressor (default `aggregate=True`, no smoothing)
approaches the best additive model (C124), what `predict` says after an interruption approaches the predictions that training started
from, at a rate that does not depend on the iteration: everything that was learned is lost, without an exception. -/
theorem C173_forgets_partial {σ : Type*} (S : Setup σ) (D : TrainSet) (ra low : ℝ) (hlow : 0 < low) (h : FreeDescent S D ra low) :
    ∃ ρ C : ℝ, 0 ≤ ρ ∧ ρ < 1 ∧ ∀ (k : ℕ) (s s' : TState ℝ) (lives : List (LiveFeature ℝ)) (rows : List ℕ),
      Underway (S.paramsFor (gbsEstimator ra)) (S.oracle (gbsEstimator ra) D) (S.cfgs D) (startingPredictions D) k s lives →
      continues (S.paramsFor (gbsEstimator ra)) s = true →
      iterate (S.paramsFor (gbsEstimator ra)) (S.oracle (gbsEstimator ra) D) (S.cfgs D) s = .ok s' →
      ∃ q, livePredict rows (S.cfgs D)
          (liveIterate (S.paramsFor (gbsEstimator ra)) (S.oracle (gbsEstimator ra) D) (S.cfgs D) s lives)
          ⟨startingPredictions D, fun _ => 0⟩ = .ok q ∧
        weightedDistance D q.factors (startingPredictions D) ≤ C * ρ ^ k := by
  have hw := h.plain.weights
  obtain ⟨ρ, h0, h1, hρ⟩ := binOperators_contract S.features (codeOf D.X D.n) (fun i => Real.sqrt (D.w i)) (denOf D.X D.n D.w ra)
    (fun f b => (denOf_ok D.X D.n D.w ra h.plain.regalpha hw f b).1) (fun f b => (denOf_ok D.X D.n D.w ra h.plain.regalpha hw f b).2)
    low hlow
  set V := designSpace S.features D.X D.n D.w with hV
  set r := residuals D (startingPredictions D) with hr
  have hvm : V.starProjection r ∈ V := Submodule.starProjection_apply_mem _ _
  have hum : r - V.starProjection r ∈ Vᗮ := Submodule.sub_starProjection_mem_orthogonal _
  generalize V.starProjection r = v at hvm hum
  refine ⟨ρ, 4 * ‖v‖ ^ 2, h0, h1, fun k s s' lives rows hu hc hs => ?_⟩
  obtain ⟨past, ht⟩ := underway_trace _ _ _ _ k s lives hu
  have ht' := Trace.step ht hc hs
  have hd0 := (C80_never_increases S D ra h.plain.aggregate h.plain.regalpha hw h.plain.learnRate
    (fun f hf => (h.plain.features f hf).1) h.plain.smoothers (startingPredictions D) _ s' ht').2.2
  have hd : s'.isDiverging = false := by
    obtain ⟨feats, pred, _, _, hcc, -⟩ := iterate_ok _ _ _ s s' hs
    unfold checkConvergence at hcc
    split_ifs at hcc
    · simp only [Except.ok.injEq, Prod.mk.injEq] at hcc
      omega
    · simp only [Except.ok.injEq, Prod.mk.injEq] at hcc
      exact hcc.2.symm
  obtain ⟨-, -, hk⟩ := underway_length _ _ _ _ k s lives hu
  obtain ⟨hk', -⟩ := iterate_parts _ _ _ s s' hs
  obtain ⟨z, -, e, b⟩ := trace_residuals S D ra low h ρ h0 hρ (startingPredictions D) v (r - v) hvm hum (by rw [← hr]; abel) past s ht
  obtain ⟨z', -, e', b'⟩ := trace_residuals S D ra low h ρ h0 hρ (startingPredictions D) v (r - v) hvm hum (by rw [← hr]; abel) _ s' ht'
  obtain ⟨q, hq, hqs⟩ := C173_last_update_partial (S.paramsFor (gbsEstimator ra)) (S.oracle (gbsEstimator ra) D) (S.cfgs D)
    (startingPredictions D) h.plain.aggregate (by simp [Setup.paramsFor, gbsEstimator])
    (fun it i fs => ((C173_estimators S D ra (fun _ _ _ => 0) (fun _ => 0) (fun _ => 0) 0 0 it i fs).1 _ (by simp)).2)
    h.plain.noHierarchy k s s' lives hu hs hd rows
  refine ⟨q, hq, ?_⟩
  have hdist : weightedDistance D q.factors (startingPredictions D) = ‖z' - z‖ ^ 2 := by
    rw [show z' - z = residuals D s'.pred.factors - residuals D s.pred.factors by rw [e, e']; abel, residuals_distance D hw]
    unfold weightedDistance
    refine Finset.sum_congr rfl fun i hi => ?_
    rw [(hqs i ?_).1]
    · ring
    · intro cfg hcfg
      obtain ⟨f, hf, rfl⟩ := List.mem_map.mp hcfg
      exact cfg_bin_le f.1 (h.plain.features f hf).1 D.X D.n i (Finset.mem_range.mp hi)
  have hpar : ‖z' - z‖ ^ 2 ≤ 2 * ‖z'‖ ^ 2 + 2 * ‖z‖ ^ 2 := by
    have := norm_sub_le z' z
    nlinarith [norm_nonneg (z' - z), norm_nonneg z, norm_nonneg z', sq_nonneg (‖z'‖ - ‖z‖)]
  rw [hk', hk, pow_succ ρ k] at b'
  rw [hk] at b
  have hp : 0 ≤ ρ ^ k * ‖v‖ ^ 2 := mul_nonneg (pow_nonneg h0 k) (sq_nonneg _)
  have hle : ρ ^ k * ρ * ‖v‖ ^ 2 ≤ ρ ^ k * ‖v‖ ^ 2 := by nlinarith
  rw [hdist, show 4 * ‖v‖ ^ 2 * ρ ^ k = 4 * (ρ ^ k * ‖v‖ ^ 2) by ring]
  linarith

/-- The two features without smoothing of C124: after the first iteration, and after all later ones, an interruption leaves an estimator
that predicts, and its predictions forget what was learned. -/
example : ∃ ρ C : ℝ, ρ < 1 ∧ ∀ (k : ℕ) (s s' : TState ℝ) (lives : List (LiveFeature ℝ)),
    Underway (twoSetup.paramsFor (gbsEstimator 0)) (twoSetup.oracle (gbsEstimator 0) twoData) (twoSetup.cfgs twoData)
      (startingPredictions twoData) k s lives →
    continues (twoSetup.paramsFor (gbsEstimator 0)) s = true →
    iterate (twoSetup.paramsFor (gbsEstimator 0)) (twoSetup.oracle (gbsEstimator 0) twoData) (twoSetup.cfgs twoData) s = .ok s' →
    ∃ q, livePredict [0, 1] (twoSetup.cfgs twoData) (liveIterate (twoSetup.paramsFor (gbsEstimator 0))
        (twoSetup.oracle (gbsEstimator 0) twoData) (twoSetup.cfgs twoData) s lives) ⟨startingPredictions twoData, fun _ => 0⟩ = .ok q ∧
      weightedDistance twoData q.factors (startingPredictions twoData) ≤ C * ρ ^ k := by
  obtain ⟨ρ, C, -, h1, h⟩ := C173_forgets_partial twoSetup twoData 0 (1 / 2) (by norm_num) twoFree
  exact ⟨ρ, C, h1, fun k s s' lives => h k s s' lives [0, 1]⟩

end CB
