import Verif.Model.Training

set_option autoImplicit false

/-!
Model of the calls of observers during training (`cyclic_boosting/base.py`) and of `PlottingObserver`
(`cyclic_boosting/observers.py`).

Simplifications: observers do not modify the estimator, whose state is handed to them (the observers of the package do not); the
histograms of a plotting observer are modelled in `Model/Histogram.lean`.
-/
namespace CB

variable {K : Type*} [Field K] [LinearOrder K]

/-- One call of an observer: `observe_iterations` with the number of the iteration (-1: after training), and of the estimator's state
the factors `factors_link` of the features and the loss, then the prediction and the change of the factors; or
`observe_feature_iterations` with the numbers of the iteration and of the feature, the loss and the prediction.
Models: cyclic_boosting/base.py:531-555. -/
inductive ObserverCall (K : Type*) where
  | iteration (number : ℤ) (factors : List (ℕ → K)) (loss : Flt K) (prediction : Pred K) (delta : K)
  | feature (number : ℕ) (i : ℕ) (loss : Flt K) (prediction : Pred K)

/-- The features in `get_state()["features"]`: in the iterations for hierarchical features only these. `factors` lists the
`factors_link` of all features.
Models: cyclic_boosting/base.py:541-555. -/
def stateFeatures (p : Params K) (it : ℕ) (cfgs : List FeatureCfg) (factors : List (ℕ → K)) : List (ℕ → K) :=
  ((cfgs.zip factors).filter (fun q => !skipped p it q.1)).map Prod.snd

/-- The call before an iteration.
Models: cyclic_boosting/base.py:731. -/
def iterationCall (p : Params K) (cfgs : List FeatureCfg) (s : TState K) : ObserverCall K :=
  .iteration (s.iteration : ℤ) (stateFeatures p s.iteration cfgs (s.feats.map (fun fs => fs.factors))) s.loss s.prediction s.delta

/-- The calls during an iteration: one after each feature that takes part, with the loss and the prediction from before the iteration.
`i` is the number of the first feature of the list.
Models: cyclic_boosting/base.py:734-743. -/
def featureCalls (p : Params K) (s : TState K) : ℕ → List FeatureCfg → List (ObserverCall K)
  | _, [] => []
  | i, cfg :: cfgs =>
    if skipped p s.iteration cfg then featureCalls p s (i + 1) cfgs
    else .feature s.iteration i s.loss s.prediction :: featureCalls p s (i + 1) cfgs

/-- The `while` loop of `_fit_main` together with the calls of the observers.
Models: cyclic_boosting/base.py:730-760. -/
def observedLoop (p : Params K) (o : Oracle K) (cfgs : List FeatureCfg) :
    ℕ → TState K → List (ObserverCall K) → LoopResult K × List (ObserverCall K)
  | fuel, s, calls =>
    if continues p s then
      match fuel with
      | 0 => (.outOfFuel, calls)
      | fuel + 1 =>
        let calls := calls ++ iterationCall p cfgs s :: featureCalls p s 0 cfgs
        match iterate p o cfgs s with
        | .error e => (.failed e, calls)
        | .ok s' => observedLoop p o cfgs fuel s' calls
    else (.done s, calls)

/-- `_fit_main` together with the calls of the observers.
Models: cyclic_boosting/base.py:713-776. -/
def observedFit (p : Params K) (o : Oracle K) (cfgs : List FeatureCfg) (prior : ℕ → K) (fuel : ℕ) :
    Option (Except TErr (FitResult K)) × List (ObserverCall K) :=
  match observedLoop p o cfgs fuel (startState o cfgs prior) [] with
  | (.outOfFuel, calls) => (none, calls)
  | (.failed e, calls) => (some (.error e), calls)
  | (.done s, calls) =>
    match prepareFeatures s.feats with
    | .error e => (some (.error e), calls)
    | .ok factors =>
      let calls := calls ++ [.iteration (-1) (stateFeatures p s.iteration cfgs factors) s.loss s.prediction s.delta]
      match checkConvergence s.initialLoss s.loss s.diverging with
      | .error e => (some (.error e), calls)
      | .ok _ => (some (.ok ⟨factors, s.prediction, s.iteration⟩), calls)

/-- What a plotting observer keeps of the state: the factors of the features and the prediction (from which the histograms are
computed).
Models: cyclic_boosting/observers.py:146-151. -/
structure Snapshot (K : Type*) where
  factors : List (ℕ → K)
  prediction : Pred K

/-- A `PlottingObserver`; `_fitted` is whether there is a snapshot.
Models: cyclic_boosting/observers.py:102-115. -/
structure PlottingObserver (K : Type*) where
  iteration : ℤ
  loss : List (Flt K)
  factorChange : List K
  snapshot : Option (Snapshot K)

/-- `PlottingObserver(iteration)` (`none`: ValueError).
Models: cyclic_boosting/observers.py:102-115. -/
def PlottingObserver.new (iteration : ℤ) : Option (PlottingObserver K) :=
  if iteration = 0 then none else some ⟨iteration, [], [], none⟩

/-- `observe_iterations` and `observe_feature_iterations` of a plotting observer.
Models: cyclic_boosting/observers.py:117-182. -/
def PlottingObserver.observe (obs : PlottingObserver K) : ObserverCall K → PlottingObserver K
  | .feature _ _ _ _ => obs
  | .iteration number factors loss prediction delta =>
    let obs :=
      if (number ≤ obs.iteration ∧ number ≠ -1) ∨ obs.iteration = -1 then
        { obs with
          loss := obs.loss ++ [loss]
          factorChange := if number ≠ 0 then obs.factorChange ++ [delta] else obs.factorChange }
      else obs
    if number = obs.iteration then { obs with snapshot := some ⟨factors, prediction⟩ } else obs

/-- What an observer has collected after the given calls.
Models: cyclic_boosting/base.py:531-539. -/
def PlottingObserver.afterCalls (obs : PlottingObserver K) (calls : List (ObserverCall K)) : PlottingObserver K :=
  calls.foldl PlottingObserver.observe obs

/-- `check_fitted()`: true if it does not raise.
Models: cyclic_boosting/observers.py:184-186. -/
def PlottingObserver.checkFitted (obs : PlottingObserver K) : Bool := obs.snapshot.isSome

end CB
