import Verif.Spec.FloatEstimates
import Verif.Props.Failure
import Verif.Props.Baseline
import Verif.Props.Analysis
import Verif.Model.GenericFit

/-!
# C138: which data have no finite baseline, and what is left as a reason for a failure
-/

set_option autoImplicit false
set_option linter.unusedSectionVars false

namespace CB
open Finset Spec

section
variable {σ : Type*}

/-- **C138, baseline.** For valid targets and weights that are not negative and not all zero, the baseline of the estimators of the
package is finite, except for classifiers and quantile regressors. -/
theorem C138_baseline (E : Estimator) (hE : Modelled E ∨ Optimising E) (hlink : E.link ≠ .logit)
    (hq : ∀ b q f, E ≠ quantileEstimator b q f) (n : ℕ) (y w : ℕ → ℝ)
    (hy : ∀ i < n, E.valid (y i)) (hw : ∀ i < n, 0 ≤ w i) (hs : ∑ i ∈ range n, w i ≠ 0) :
    (E.scale n y w).isFinite = true := by
  have hlog : (∀ i < n, 0 ≤ y i) → (globalScaleLink .log n y w).isFinite = true := fun h => by
    obtain ⟨l, hl, -⟩ := C75_log n y w h hw hs
    rw [hl]; rfl
  have hid : (globalScaleLink .identity n y w).isFinite = true := by
    obtain ⟨l, hl, -⟩ := C75_identity n y w hs
    rw [hl]; rfl
  rcases hE with hE | hE
  · cases hE with
    | poisson g => exact hlog hy
    | nbinom g a c => exact hlog hy
    | classifier ppf coef => exact absurd rfl hlink
    | location => exact hid
    | locPoisson => exact hid
    | gbs ra =>
      show (quotientFlt _ _).isFinite = true
      unfold quotientFlt
      rw [if_neg hs]
      rfl
  · cases hE with
    | quantile b q f => exact absurd rfl (hq b q f)
    | generic b costs f _ =>
      cases b with
      | false => exact hid
      | true => exact hlog fun i hi => hy i hi rfl
    | classifier ppf coef costs f _ => exact absurd rfl hlink

/-- **C138, baseline of classifiers.** It is finite exactly if the weighted share of ones is below 0.999. -/
theorem C138_baseline_classifier (E : Estimator) (hE : Modelled E ∨ Optimising E) (hlink : E.link = .logit) (n : ℕ) (y w : ℕ → ℝ)
    (hy : ∀ i < n, E.valid (y i)) (hw : ∀ i < n, 0 ≤ w i) (hs : ∑ i ∈ range n, w i ≠ 0) :
    (E.scale n y w).isFinite = true ↔ wmean n y w < 999 / 1000 := by
  have key : (∀ i < n, y i = 0 ∨ y i = 1) →
      ((globalScaleLink .logit n y w).isFinite = true ↔ wmean n y w < 999 / 1000) := by
    intro hy'
    obtain ⟨h1, h2⟩ := C75_logit n y w hy' hw hs
    constructor
    · intro h
      by_contra hge
      rcases h2 (not_lt.mp hge) with h' | h' <;> rw [h'] at h <;> cases h
    · intro h
      obtain ⟨l, hl, -⟩ := h1 h
      rw [hl]; rfl
  rcases hE with hE | hE
  · cases hE with
    | classifier ppf coef => exact key hy
    | _ => cases hlink
  · cases hE with
    | classifier ppf coef costs f _ => exact key hy
    | quantile b q f => cases b <;> cases hlink
    | generic b costs f _ => cases b <;> cases hlink

/-- **C138, baseline of the additive quantile regressor.** It is finite for every table with rows. -/
theorem C138_baseline_quantile (q : ℝ) (hq : q ≤ 1) (f : (ℝ → Flt ℝ) → ℝ → ℝ) (n : ℕ) (hn : 0 < n) (y w : ℕ → ℝ)
    (hw : ∀ i < n, 0 ≤ w i) : ((quantileEstimator false q f).scale n y w).isFinite = true := by
  have hsome : (continuousQuantile q (((List.range n).map fun i => (y i, w i)).mergeSort
      fun a b => decide (a.1 ≤ b.1))).isSome = true := by
    apply continuousQuantile_isSome q hq
    · intro h
      have := (List.mergeSort_perm ((List.range n).map fun i => (y i, w i)) fun a b => decide (a.1 ≤ b.1)).length_eq
      rw [h] at this
      simp at this
      omega
    · intro s hs
      rw [List.mem_mergeSort] at hs
      obtain ⟨i, hi, rfl⟩ := List.mem_map.mp hs
      exact hw i (List.mem_range.mp hi)
  obtain ⟨v, hv⟩ := Option.isSome_iff_exists.mp hsome
  show (quantileScale .identity q n y w).isFinite = true
  unfold quantileScale
  rw [hv]
  rfl

/-- **C138, a finding.** The multiplicative quantile regressor has no finite baseline if the quantile of its targets is 0: for the
valid targets 0, 1, 2 and the quantile 0.2 the code takes the logarithm of 0. -/
theorem C138_quantile_zero_counterexample (f : (ℝ → Flt ℝ) → ℝ → ℝ) :
    (∀ i < 3, (quantileEstimator true (1 / 5) f).valid ((fun i : ℕ => (i : ℝ)) i)) ∧
      (quantileEstimator true (1 / 5) f).scale 3 (fun i => (i : ℝ)) (fun _ => 1) = .ninf := by
  refine ⟨fun i _ _ => Nat.cast_nonneg i, ?_⟩
  have hsort : ([(((0 : ℕ) : ℝ), 1), (((1 : ℕ) : ℝ), 1), (((2 : ℕ) : ℝ), 1)] : List (ℝ × ℝ)).mergeSort
      (fun a b => decide (a.1 ≤ b.1)) = [(((0 : ℕ) : ℝ), 1), (((1 : ℕ) : ℝ), 1), (((2 : ℕ) : ℝ), 1)] := by
    apply List.mergeSort_of_pairwise
    simp
  have hr : (List.range 3).map (fun i : ℕ => (((fun i : ℕ => (i : ℝ)) i), (fun _ : ℕ => (1 : ℝ)) i)) =
      [(((0 : ℕ) : ℝ), 1), (((1 : ℕ) : ℝ), 1), (((2 : ℕ) : ℝ), 1)] := rfl
  show quantileScale .log (1 / 5) 3 _ _ = _
  unfold quantileScale
  rw [hr, hsort]
  norm_num [continuousQuantile, firstReaching, linkFlt, List.range_succ]

/-- **C138, summary.** An estimator of the package (no classifier and no quantile regressor) that is given at least one row, valid
targets, weights that are not negative and not all zero, parameters and data for which no estimate divides by zero
(`EstimatesNumbers`), all columns it needs, feature groups for which smoothers can be chosen,
and stopping criteria that allow an iteration, can only fail because training diverges; without hierarchical feature groups with a
`ConvergenceError` after five diverging iterations. -/
theorem C138_only_divergence (C : Config σ) (E : Estimator) (hlink : E.link ≠ .logit)
    (hq : ∀ b q f, E ≠ quantileEstimator b q f) (o : EstimatorObject) (F : DataFrame) (y : ℕ → ℝ)
    (hE : EstimatesNumbers (o.groupsFor C F) (C.trainSet F y) E ∨ Optimising E) (hn : F.n ≠ 0)
    (hy : ∀ i < F.n, E.valid (y i)) (hw : ∀ i < F.n, 0 ≤ (C.trainSet F y).w i)
    (hs : ∑ i ∈ range F.n, (C.trainSet F y).w i ≠ 0)
    (hcols : ∀ c, C.weightColumn = some c ∨ C.priorColumn = some c ∨ (∃ g ∈ o.groupsFor C F, c ∈ g) → c ∈ F.columns)
    (hsm : ∀ g ∈ o.groupsFor C F, ∃ k, smootherForGroup C.choice C.props g = .ok k)
    (hm : 1 ≤ C.params.maximalIterations) (hf : C.params.minimalFactorChange < 100)
    (hlc : C.params.minimalLossChange < 100000000000000000000) (hh : C.params.hierarchical = none)
    (fuel : ℕ) (hfuel : C.params.maximalIterations + 4 ≤ fuel) :
    (∃ o', o.fit C E F y fuel = some (o', .ok ())) ∨
      ∃ o', o.fit C E F y fuel = some (o', .error (.training (.training .convergenceError))) := by
  have hfuel' : normalIterations C.params + 4 ≤ fuel := by
    unfold normalIterations
    rw [hh]
    exact hfuel
  obtain ⟨h1, h2⟩ := C138_fit C E o F y fuel hfuel'
  by_cases hex : ∃ e, FitFails C E o F y e
  swap
  · exact .inl (h1.mpr fun e he => hex ⟨e, he⟩)
  obtain ⟨o', e, hfit, he⟩ := h2 hex
  refine .inr ⟨o', ?_⟩
  cases he with
  | empty h => exact absurd h hn
  | target i hi h => exact absurd (hy i hi) h
  | weights c hc h => exact absurd (hcols c (.inl hc)) h
  | smoother g hg e' h =>
    obtain ⟨k, hk⟩ := hsm g hg
    rw [hk] at h
    cases h
  | prior c hc h => exact absurd (hcols c (.inr (.inl hc))) h
  | column g hg c hc h => exact absurd (hcols c (.inr (.inr ⟨g, hg, hc⟩))) h
  | scale h =>
    rw [C138_baseline E (hE.imp_left EstimatesNumbers.modelled) hlink hq F.n y _ hy hw hs] at h
    cases h
  | stopped _ h =>
    obtain ⟨-, h | h | h⟩ := h
    · omega
    · exact absurd h (not_le.mpr hf)
    · exact absurd h (not_le.mpr hlc)
  | early features _ h =>
    obtain ⟨groups, hg, -⟩ := h
    have : C.params.hierarchical = some groups := hg
    rw [hh] at this
    cases this
  | diverged features _ h => exact hfit

end

end CB
