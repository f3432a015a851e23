import Verif.Model.Pipelines
import Mathlib.Tactic.SplitIfs

/-!
# C48: the pipelines forward the arguments
-/

set_option autoImplicit false
set_option linter.unusedSectionVars false

namespace CB

open Arg

variable {V : Type*}

/-- The built pipeline, for every estimator. -/
theorem pipelineCB_some (estDefault : Est → Arg → V) (binDefault : Arg → V) (e : Est)
    (args : Arg → V) :
    pipelineCB estDefault binDefault (some e) args = some
      { binner := fun x => if x ∈ binnerArgs then
          some (if x ∈ binnerKw then args x else binDefault x) else none
        estimator := fun x => if x ∈ ctorArgs e then
          some (if x ∈ pipelineKw e then args x else estDefault e x) else none } := by
  have h1 : ((pipelineKw e).all (· ∈ ctorArgs e) && (ctorRequired e).all (· ∈ pipelineKw e))
      = true := by cases e <;> decide
  have h2 : (binnerKw.all (· ∈ binnerArgs) && ([] : List Arg).all (· ∈ binnerKw)) = true := by
    decide
  simp only [pipelineCB, callCtor, h1, h2, if_true]
  rfl

/-- **C48.**  A pipeline is built for each of the estimator classes, whatever the
arguments; anything else is rejected. -/
theorem C48_total (estDefault : Est → Arg → V) (binDefault : Arg → V) (estimator : Option Est)
    (args : Arg → V) :
    (pipelineCB estDefault binDefault estimator args).isSome ↔ estimator.isSome := by
  cases estimator with
  | none => simp [pipelineCB]
  | some e => simp [pipelineCB_some]

/-- **C48 (partial).**  Every argument of `pipeline_CB` that the constructor of the
estimator has, reaches the estimator with the passed value; except the parameters
`a` and `c` of `CBExponential`.

Missing: those two arguments, and the weight column of the binner, see
`C48_exponential_drops` and `C48_binner_ignores_weights`: the claim is false for
them. -/
theorem C48_estimator_partial (estDefault : Est → Arg → V) (binDefault : Arg → V) (e : Est)
    (args : Arg → V) (p : BuiltPipeline V)
    (hp : pipelineCB estDefault binDefault (some e) args = some p) (x : Arg)
    (hx : x ∈ pipelineArgs) (hc : x ∈ ctorArgs e)
    (hexc : ¬ (e = .exponential ∧ (x = a ∨ x = c))) :
    p.estimator x = some (args x) := by
  rw [pipelineCB_some] at hp
  cases hp
  have hk : x ∈ pipelineKw e := by
    revert hexc hc hx
    cases e <;> cases x <;> decide
  simp only [hc, hk, if_true]

/-- The parameters `a` and `c` never reach `CBExponential`: it keeps its defaults,
whatever the user passes. -/
theorem C48_exponential_drops (estDefault : Est → Arg → V) (binDefault : Arg → V)
    (args : Arg → V) (p : BuiltPipeline V)
    (hp : pipelineCB estDefault binDefault (some .exponential) args = some p) :
    p.estimator a = some (estDefault .exponential a) ∧
    p.estimator c = some (estDefault .exponential c) := by
  rw [pipelineCB_some] at hp
  cases hp
  exact ⟨rfl, rfl⟩

/-- The number of bins, the feature properties and the in-place flag reach the binner
of every pipeline. -/
theorem C48_binner (estDefault : Est → Arg → V) (binDefault : Arg → V) (e : Est) (args : Arg → V)
    (p : BuiltPipeline V) (hp : pipelineCB estDefault binDefault (some e) args = some p) :
    p.binner numberOfBins = some (args numberOfBins) ∧
    p.binner featureProperties = some (args featureProperties) ∧
    p.binner inplace = some (args inplace) := by
  rw [pipelineCB_some] at hp
  cases hp
  exact ⟨rfl, rfl, rfl⟩

/-- The binner always bins without weights: the weight column goes to the estimator
only, although the binner supports it. -/
theorem C48_binner_ignores_weights (estDefault : Est → Arg → V) (binDefault : Arg → V) (e : Est)
    (args : Arg → V) (p : BuiltPipeline V)
    (hp : pipelineCB estDefault binDefault (some e) args = some p) :
    p.binner weightColumn = some (binDefault weightColumn) ∧
    p.estimator weightColumn = some (args weightColumn) := by
  rw [pipelineCB_some] at hp
  cases hp
  refine ⟨rfl, ?_⟩
  cases e <;> rfl

/-- **C48, exactly which arguments have an effect.**  Changing one argument of
`pipeline_CB` changes nothing in the built pipeline exactly when the argument is
passed neither to the estimator nor to the binner. -/
theorem C48_effect (estDefault : Est → Arg → V) (binDefault : Arg → V) (e : Est) (x : Arg)
    (v w : V) (hvw : v ≠ w) :
    (∀ args : Arg → V,
      pipelineCB estDefault binDefault (some e) (fun z => if z = x then v else args z)
        = pipelineCB estDefault binDefault (some e) (fun z => if z = x then w else args z))
      ↔ x ∉ pipelineKw e ∧ x ∉ binnerKw := by
  have hsub : ∀ y, y ∈ pipelineKw e → y ∈ ctorArgs e := by cases e <;> decide
  have hsub2 : ∀ y, y ∈ binnerKw → y ∈ binnerArgs := by decide
  constructor
  · intro h
    have h' := h (fun _ => v)
    rw [pipelineCB_some, pipelineCB_some] at h'
    have h3 := Option.some.inj h'
    constructor
    · intro hk
      have := congrFun (congrArg BuiltPipeline.estimator h3) x
      simp only [hsub x hk, hk, if_true, Option.some.injEq] at this
      exact hvw this
    · intro hk
      have := congrFun (congrArg BuiltPipeline.binner h3) x
      simp only [hsub2 x hk, hk, if_true, Option.some.injEq] at this
      exact hvw this
  · rintro ⟨h1, h2⟩ args
    rw [pipelineCB_some, pipelineCB_some]
    congr 2
    · funext z
      by_cases hz : z = x
      · subst hz; simp only [h2, if_false]
      · simp only [hz, if_false]
    · funext z
      by_cases hz : z = x
      · subst hz; simp only [h1, if_false]
      · simp only [hz, if_false]

/-- The arguments without effect, for each estimator: the arguments for other kinds of
estimators, and

* the hierarchical feature groups and `aggregate` for `CBExponential` and `CBNBinomC`,
* `a` and `c` for `CBExponential`,
* the prior prediction column for `CBGBSRegressor`. -/
theorem C48_common_arguments (e : Est) (x : Arg)
    (hx : x ∈ [featureProperties, weightColumn, minimalLossChange, minimalFactorChange,
      maximalIterations, observers, smootherChoice, outputColumn, learnRate]) :
    x ∈ pipelineKw e ∧
    (hierarchicalFeatureGroups ∉ pipelineKw e ↔ e = .exponential ∨ e = .nbinomC) ∧
    (aggregate ∉ pipelineKw e ↔ e = .exponential ∨ e = .nbinomC) ∧
    (priorPredictionColumn ∉ pipelineKw e ↔ e = .gbs) ∧
    (featureGroups ∉ pipelineKw e ↔ e = .exponential) := by
  refine ⟨?_, ?_, ?_, ?_, ?_⟩
  · revert x; cases e <;> decide
  all_goals cases e <;> decide

/-- The helpers behave as `pipeline_CB` with their estimator, for known keywords. -/
theorem C48_helpers (estDefault : Est → Arg → V) (binDefault pipeDefault : Arg → V) (e : Est)
    (kwargs : Arg → Option V) (given : List Arg) (hgiven : ∀ x, x ∈ given ↔ (kwargs x).isSome)
    (p : BuiltPipeline V)
    (hp : pipelineHelper estDefault binDefault pipeDefault e kwargs given = some p) (x : Arg)
    (v : V) (hv : kwargs x = some v) (hc : x ∈ ctorArgs e)
    (hexc : ¬ (e = .exponential ∧ (x = a ∨ x = c))) :
    p.estimator x = some v := by
  unfold pipelineHelper at hp
  split_ifs at hp with hall
  have hx : x ∈ pipelineArgs := by
    have := List.all_eq_true.mp hall x ((hgiven x).mpr (by simp [hv]))
    simpa using this
  have := C48_estimator_partial estDefault binDefault e _ p hp x hx hc hexc
  rw [this, hv]
  rfl

/-- **C48.** Every constructor argument of an estimator can be given to the helper of its pipeline, alone and with any value, and reaches the estimator; except
the number of iterations for hierarchical features, which no pipeline accepts, and `a` and `c` of `CBExponential`. -/
theorem C48_settable (estDefault : Est → Arg → V) (binDefault pipeDefault : Arg → V) (e : Est) (x : Arg) (v : V) (hc : x ∈ ctorArgs e)
    (hexc : ¬ (e = .exponential ∧ (x = a ∨ x = c))) :
    (x ≠ trainingIterationsHierarchicalFeatures → ∃ p, pipelineHelper estDefault binDefault pipeDefault e (fun y => if y = x then some v else none) [x] = some p ∧
      p.estimator x = some v) ∧
    (x = trainingIterationsHierarchicalFeatures →
      pipelineHelper estDefault binDefault pipeDefault e (fun y => if y = x then some v else none) [x] = none) := by
  constructor
  · intro hne
    have hx : x ∈ pipelineArgs := by
      revert hne hc
      cases e <;> cases x <;> decide
    refine ⟨_, by
      unfold pipelineHelper
      rw [if_pos (by simpa using hx), pipelineCB_some], ?_⟩
    have hk : x ∈ pipelineKw e := by
      revert hexc hc hx
      cases e <;> cases x <;> decide
    simp only [hc, hk, if_true]
    rfl
  · rintro rfl
    unfold pipelineHelper
    exact if_neg (by decide)

/-- **C48.** Without a pipeline: the constructors of `CBExponential` and `CBNBinomC` raise a TypeError when they are called without arguments, all others
give their defaults. -/
theorem C48_constructor (estDefault : Est → Arg → V) (args : Arg → V) (e : Est) :
    (callCtor (ctorArgs e) (ctorRequired e) [] (estDefault e) args = none ↔ e = .exponential ∨ e = .nbinomC) ∧
    ∀ r, callCtor (ctorArgs e) (ctorRequired e) [] (estDefault e) args = some r → ∀ x ∈ ctorArgs e, r x = some (estDefault e x) := by
  constructor
  · cases e <;> simp [callCtor, ctorRequired]
  · intro r h x hx
    unfold callCtor at h
    split_ifs at h
    cases h
    simp [hx]

/-- Witness: the quantile reaches the quantile regressor, not the Poisson regressor. -/
example : (pipelineCB (fun _ _ => 0) (fun _ => 0) (some .multQuantile)
      (fun x => if x = quantile then 7 else 1)).map (fun p => p.estimator quantile)
      = some (some 7) ∧
    (pipelineCB (fun _ _ => 0) (fun _ => 0) (some .poisson)
      (fun x => if x = quantile then 7 else 1)).map (fun p => p.estimator quantile)
      = some none := by decide

end CB
