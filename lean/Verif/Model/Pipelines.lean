import Mathlib.Data.Nat.Notation

/-!
# Model of the pipeline helpers

Covers cyclic_boosting/pipelines.py: which of the arguments of `pipeline_CB` reach
the estimator and the binner.  A value of an argument is an element of an
arbitrary type `V`.
-/

set_option autoImplicit false

namespace CB

/-- The estimator classes `pipeline_CB` can be called with.
Models: cyclic_boosting/pipelines.py:1-16. -/
inductive Est
  | poisson | locPoisson | location | classifier | nbinom | exponential | nbinomC | gbs
  | multQuantile | addQuantile | multGeneric | addGeneric | genericClassifier
  deriving DecidableEq, Repr

/-- The keyword arguments of `pipeline_CB`, of the estimators and of the binner.
Models: cyclic_boosting/pipelines.py:21-52 (`pipeline_CB`),
cyclic_boosting/base.py:268-283, cyclic_boosting/binning/bin_number_transformer.py:122-130. -/
inductive Arg
  | featureGroups | hierarchicalFeatureGroups | featureProperties | weightColumn
  | priorPredictionColumn | minimalLossChange | minimalFactorChange | maximalIterations | observers
  | smootherChoice | outputColumn | learnRate | numberOfBins | aggregate | a | c | externalColname
  | standardFeatureGroups | externalFeatureGroups | varPriorExponent | priorExponentColname
  | meanPredictionColumn | gamma | bayes | nSteps | regalpha | quantile | costs | inplace
  | trainingIterationsHierarchicalFeatures | epsilon | tolerance
  deriving DecidableEq, Repr

open Arg

/-- The arguments of `pipeline_CB` (besides `estimator`).
Models: cyclic_boosting/pipelines.py:21-52. -/
def pipelineArgs : List Arg :=
  [featureGroups, hierarchicalFeatureGroups, featureProperties, weightColumn,
   priorPredictionColumn, minimalLossChange, minimalFactorChange, maximalIterations, observers,
   smootherChoice, outputColumn, learnRate, numberOfBins, aggregate, a, c, externalColname,
   standardFeatureGroups, externalFeatureGroups, varPriorExponent, priorExponentColname,
   meanPredictionColumn, gamma, bayes, nSteps, regalpha, quantile, costs, inplace]

/-- The constructor arguments of each estimator class.
Models: cyclic_boosting/base.py:268-283 (inherited by the Poisson, location and
classification estimators), cyclic_boosting/regression.py:106-123,
cyclic_boosting/price.py:218-237, cyclic_boosting/nbinom.py:64-81,
cyclic_boosting/GBSregression.py:37-52,
cyclic_boosting/generic_loss.py:426-442,487-503,625-641,690-706,754-770. -/
def ctorArgs : Est → List Arg
  | .poisson | .locPoisson | .location | .classifier =>
    [featureGroups, hierarchicalFeatureGroups, trainingIterationsHierarchicalFeatures,
     featureProperties, weightColumn, priorPredictionColumn, minimalLossChange,
     minimalFactorChange, maximalIterations, observers, smootherChoice, outputColumn, learnRate,
     aggregate]
  | .nbinom =>
    [featureGroups, hierarchicalFeatureGroups, featureProperties, weightColumn,
     priorPredictionColumn, minimalLossChange, minimalFactorChange, maximalIterations, observers,
     smootherChoice, outputColumn, learnRate, a, c, aggregate]
  | .exponential =>
    [externalColname, standardFeatureGroups, externalFeatureGroups, featureProperties,
     weightColumn, priorPredictionColumn, minimalLossChange, minimalFactorChange,
     maximalIterations, observers, varPriorExponent, smootherChoice, priorExponentColname,
     outputColumn, learnRate, a, c]
  | .nbinomC =>
    [meanPredictionColumn, featureGroups, featureProperties, weightColumn, priorPredictionColumn,
     minimalLossChange, minimalFactorChange, maximalIterations, observers, smootherChoice,
     outputColumn, learnRate, gamma, bayes, nSteps]
  | .gbs =>
    [featureGroups, hierarchicalFeatureGroups, featureProperties, weightColumn, minimalLossChange,
     minimalFactorChange, maximalIterations, observers, smootherChoice, outputColumn, learnRate,
     regalpha, aggregate]
  | .multQuantile | .addQuantile =>
    [featureGroups, hierarchicalFeatureGroups, featureProperties, weightColumn,
     priorPredictionColumn, minimalLossChange, minimalFactorChange, maximalIterations, observers,
     smootherChoice, outputColumn, learnRate, quantile, aggregate]
  | .multGeneric | .addGeneric | .genericClassifier =>
    [featureGroups, hierarchicalFeatureGroups, featureProperties, weightColumn,
     priorPredictionColumn, minimalLossChange, minimalFactorChange, maximalIterations, observers,
     smootherChoice, outputColumn, learnRate, aggregate, costs]

/-- Constructor arguments without a default.
Models: cyclic_boosting/price.py:220-222, cyclic_boosting/nbinom.py:66. -/
def ctorRequired : Est → List Arg
  | .exponential => [externalColname, standardFeatureGroups, externalFeatureGroups]
  | .nbinomC => [meanPredictionColumn]
  | _ => []

/-- The keywords with which `pipeline_CB` calls the constructor.
Models: cyclic_boosting/pipelines.py:53-166. -/
def pipelineKw : Est → List Arg
  | .poisson | .locPoisson | .location | .classifier =>
    [featureGroups, hierarchicalFeatureGroups, featureProperties, weightColumn,
     priorPredictionColumn, minimalLossChange, minimalFactorChange, maximalIterations, observers,
     smootherChoice, outputColumn, learnRate, aggregate]
  | .nbinom =>
    [featureGroups, hierarchicalFeatureGroups, featureProperties, weightColumn,
     priorPredictionColumn, minimalLossChange, minimalFactorChange, maximalIterations, observers,
     smootherChoice, outputColumn, learnRate, aggregate, a, c]
  | .exponential =>
    [externalColname, standardFeatureGroups, externalFeatureGroups, featureProperties,
     weightColumn, priorPredictionColumn, minimalLossChange, minimalFactorChange,
     maximalIterations, observers, smootherChoice, outputColumn, learnRate, varPriorExponent,
     priorExponentColname]
  | .nbinomC =>
    [meanPredictionColumn, featureGroups, featureProperties, weightColumn, priorPredictionColumn,
     minimalLossChange, minimalFactorChange, maximalIterations, observers, smootherChoice,
     outputColumn, learnRate, gamma, bayes, nSteps]
  | .gbs =>
    [featureGroups, hierarchicalFeatureGroups, featureProperties, weightColumn, minimalLossChange,
     minimalFactorChange, maximalIterations, observers, smootherChoice, outputColumn, learnRate,
     aggregate, regalpha]
  | .multQuantile | .addQuantile =>
    [featureGroups, hierarchicalFeatureGroups, featureProperties, weightColumn,
     priorPredictionColumn, minimalLossChange, minimalFactorChange, maximalIterations, observers,
     smootherChoice, outputColumn, learnRate, aggregate, quantile]
  | .multGeneric | .addGeneric | .genericClassifier =>
    [featureGroups, hierarchicalFeatureGroups, featureProperties, weightColumn,
     priorPredictionColumn, minimalLossChange, minimalFactorChange, maximalIterations, observers,
     smootherChoice, outputColumn, learnRate, aggregate, costs]

/-- Constructor arguments of the binner (`n_bins` is called `numberOfBins`).
Models: cyclic_boosting/binning/bin_number_transformer.py:122-130. -/
def binnerArgs : List Arg := [numberOfBins, featureProperties, weightColumn, epsilon, tolerance, inplace]

/-- The keywords with which `pipeline_CB` builds the binner.
Models: cyclic_boosting/pipelines.py:167. -/
def binnerKw : List Arg := [numberOfBins, featureProperties, inplace]

/-- Calling a constructor with keyword arguments: a `TypeError` (`none`) for an
unknown keyword or a missing argument, otherwise every argument of the signature
gets the passed value or its default.
Models: cyclic_boosting/pipelines.py:60-170 (the constructor calls). -/
def callCtor {V : Type*} (sig required kw : List Arg) (dflt args : Arg → V) :
    Option (Arg → Option V) :=
  if kw.all (· ∈ sig) && required.all (· ∈ kw) then
    some fun x => if x ∈ sig then some (if x ∈ kw then args x else dflt x) else none
  else none

/-- The two steps of the returned pipeline, as the arguments they were built with.
Models: cyclic_boosting/pipelines.py:177. -/
structure BuiltPipeline (V : Type*) where
  binner : Arg → Option V
  estimator : Arg → Option V

/-- `pipeline_CB(estimator, ...)`: `args` are the passed arguments (or the defaults
of `pipeline_CB`), `estDefault`, `binDefault` the defaults of the constructors.
`none` is an exception; an unknown estimator raises.
Models: cyclic_boosting/pipelines.py:21-169. -/
def pipelineCB {V : Type*} (estDefault : Est → Arg → V) (binDefault : Arg → V)
    (estimator : Option Est) (args : Arg → V) : Option (BuiltPipeline V) :=
  match estimator with
  | none => none
  | some e => do
    let est ← callCtor (ctorArgs e) (ctorRequired e) (pipelineKw e) (estDefault e) args
    let bin ← callCtor binnerArgs [] binnerKw binDefault args
    pure { binner := bin, estimator := est }

/-- `pipeline_CB<Name>(**kwargs)`: passes the keywords on; keywords that are not
given get the default of `pipeline_CB`, unknown keywords raise.
Models: cyclic_boosting/pipelines.py:172-260. -/
def pipelineHelper {V : Type*} (estDefault : Est → Arg → V) (binDefault pipeDefault : Arg → V)
    (e : Est) (kwargs : Arg → Option V) (given : List Arg) : Option (BuiltPipeline V) :=
  if given.all (· ∈ pipelineArgs) then
    pipelineCB estDefault binDefault (some e) fun x => (kwargs x).getD (pipeDefault x)
  else none

end CB
