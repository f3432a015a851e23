import Verif.Model.Api
import Verif.Model.BinnedFit
import Verif.Spec.Training

/-!
# Specification: the reasons why `fit` fails

Every reason is a condition on the arguments of `fit` and of the constructor, or on the training loss after each iteration.
-/

set_option autoImplicit false

namespace CB.Spec

section
variable {K : Type*} [Field K] [LinearOrder K]

/-- The training loss at the end of the next iteration. -/
def lossAfter (p : Params K) (o : Oracle K) (cfgs : List FeatureCfg) (s : TState K) : Flt K :=
  o.loss (featurePass p o s.iteration s.diverging s.isDiverging s.initialLoss 0 cfgs s.feats s.pred).2

/-- The stopping criteria are met before the first iteration: training starts with a change of the factors of 100 and a change of
the loss of 10^20. With hierarchical feature groups the criteria do not apply yet. -/
def StopsAtOnce (p : Params K) : Prop :=
  p.hierarchical = none ∧
    (p.maximalIterations = 0 ∨ 100 ≤ p.minimalFactorChange ∨ 100000000000000000000 ≤ p.minimalLossChange)

/-- In one of the iterations in which only the hierarchical groups are learned, the loss exceeds twice the loss of the prior
prediction, and there is a feature that is not in a hierarchical group. -/
def DivergesEarly (p : Params K) (o : Oracle K) (cfgs : List FeatureCfg) (prior : ℕ → K) : Prop :=
  ∃ groups, p.hierarchical = some groups ∧ (∃ cfg ∈ cfgs, cfg.group ∉ groups) ∧
    ∃ past s, Trace p o cfgs (startState o cfgs prior) past s ∧ past.length < p.hierarchicalIterations ∧
      LossDoubled (o.loss ⟨prior, fun _ => 0⟩) (lossAfter p o cfgs s)

/-- The loss exceeds twice the loss of the prior prediction at the end of five iterations. -/
def DivergesFiveTimes (p : Params K) (o : Oracle K) (cfgs : List FeatureCfg) (prior : ℕ → K) : Prop :=
  ∃ past s, Trace p o cfgs (startState o cfgs prior) past s ∧ continues p s = true ∧
    divergedCount (o.loss ⟨prior, fun _ => 0⟩) (s :: past).dropLast = 4 ∧
    LossDoubled (o.loss ⟨prior, fun _ => 0⟩) (lossAfter p o cfgs s)

end

variable {σ : Type*}

/-- The prediction in link space with which training starts. -/
noncomputable def startPrediction (E : Estimator) (D : TrainSet) (s : ℕ) : ℝ :=
  (priorPrediction E.link (E.scale D.n D.y D.w) (E.offset D) D.prior s).getFin

/-- The reasons for which `fit` of the estimator `o` fails, with the exception that belongs to each. -/
inductive FitFails (C : Config σ) (E : Estimator) (o : EstimatorObject) (F : DataFrame) (y : ℕ → ℝ) : ApiErr → Prop
  /-- the table has no rows -/
  | empty (h : F.n = 0) : FitFails C E o F y .valueError
  /-- a target that the estimator does not accept -/
  | target (i : ℕ) (hi : i < F.n) (h : ¬ E.valid (y i)) : FitFails C E o F y .valueError
  /-- the weight column is not in the table -/
  | weights (c : String) (hc : C.weightColumn = some c) (h : c ∉ F.columns) : FitFails C E o F y .keyError
  /-- no smoother can be chosen for a feature group -/
  | smoother (group : List String) (hg : group ∈ o.groupsFor C F) (e : String)
      (h : smootherForGroup C.choice C.props group = .error e) : FitFails C E o F y .valueError
  /-- the column of prior predictions is not in the table -/
  | prior (c : String) (hc : C.priorColumn = some c) (h : c ∉ F.columns) : FitFails C E o F y .keyError
  /-- a column of a feature group is not in the table -/
  | column (group : List String) (hg : group ∈ o.groupsFor C F) (c : String) (hc : c ∈ group) (h : c ∉ F.columns) :
      FitFails C E o F y .keyError
  /-- the mean (or quantile) of the target is not a number in link space -/
  | scale (h : (E.scale F.n y (C.trainSet F y).w).isFinite = false) : FitFails C E o F y (.training .notFinite)
  /-- no iteration is made at all -/
  | stopped (hg : o.groupsFor C F ≠ []) (h : StopsAtOnce C.params) : FitFails C E o F y (.training (.training .typeError))
  /-- training diverges while only the hierarchical groups are learned -/
  | early (features : List (FeatureSpec × SmootherKind)) (hf : createFeatures C.choice C.props (o.groupsFor C F) = .ok features)
      (h : DivergesEarly ((C.setup features).paramsFor E) ((C.setup features).oracle E (C.trainSet F y))
        ((C.setup features).cfgs (C.trainSet F y)) (startPrediction E (C.trainSet F y))) :
      FitFails C E o F y (.training (.training .typeError))
  /-- training diverges -/
  | diverged (features : List (FeatureSpec × SmootherKind)) (hf : createFeatures C.choice C.props (o.groupsFor C F) = .ok features)
      (h : DivergesFiveTimes ((C.setup features).paramsFor E) ((C.setup features).oracle E (C.trainSet F y))
        ((C.setup features).cfgs (C.trainSet F y)) (startPrediction E (C.trainSet F y))) :
      FitFails C E o F y (.training (.training .convergenceError))

/-- The column `c` cannot be binned: its feature property is inconsistent, or it is continuous, holds a number, and fewer than two bins
are asked for. Bits 0, 1 and 2 of a property say continuous, ordered and unordered; bits 11 and 12 increasing and decreasing. -/
def CannotBeBinned (B : Binner) (X : Table ℝ) (n : ℕ) (c : String) : Prop :=
  ∃ fp, B.props.lookup c = some fp ∧
    (¬ ((fp.testBit 0 = true ∧ fp.testBit 1 = false ∧ fp.testBit 2 = false ∨
        fp.testBit 0 = false ∧ fp.testBit 1 = true ∧ fp.testBit 2 = false ∨
        fp.testBit 0 = false ∧ fp.testBit 1 = false ∧ fp.testBit 2 = true) ∧
        ¬ (fp.testBit 11 = true ∧ fp.testBit 12 = true)) ∨
      fp.testBit 1 = false ∧ fp.testBit 2 = false ∧ B.nBins c < 2 ∧ ∃ s < n, ∃ v : ℝ, X s c = .fin v)

end CB.Spec
