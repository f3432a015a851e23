import Verif.Model.Flt
import Mathlib.Algebra.Order.Field.Basic
import Mathlib.Algebra.Order.Group.Unbundled.Abs
import Mathlib.Algebra.BigOperators.Group.List.Defs
import Mathlib.Data.Nat.Notation

set_option autoImplicit false

/-!
Model of the training loop in `cyclic_boosting/base.py` (`_fit_main` and what it calls) and of `Feature.update_factors` in
`cyclic_boosting/features.py`.

Arrays over samples and over bins are functions of the index. Simplifications: exact arithmetic; the array lengths are not
tracked (every array of a feature has `n_bins` entries and every combined bin number is below `n_bins`, see C11 and C13);
logging has no effect, and observers are left out (they are modelled in Model/Observers, `C101_same_fit`).

What the concrete estimators and smoothers compute is left open: it enters through the fields of `Oracle`, and the theorems
hold for every choice of them.
-/
namespace CB

namespace Flt
variable {K : Type*} [Field K] [LinearOrder K]

/-- `a > b` for floats (false if one of them is NaN).
Models: cyclic_boosting/base.py:482. -/
def gt : Flt K → Flt K → Bool
  | fin a, fin b => decide (b < a)
  | fin _, ninf => true
  | pinf, fin _ => true
  | pinf, ninf => true
  | _, _ => false

/-- `a * 2`.
Models: cyclic_boosting/base.py:482. -/
def twice : Flt K → Flt K
  | fin a => fin (a * 2)
  | nan => nan
  | pinf => pinf
  | ninf => ninf

/-- `a - b`.
Models: cyclic_boosting/base.py:502-515. -/
def sub : Flt K → Flt K → Flt K
  | fin a, fin b => fin (a - b)
  | fin _, pinf => ninf
  | fin _, ninf => pinf
  | pinf, fin _ => pinf
  | pinf, ninf => pinf
  | ninf, fin _ => ninf
  | ninf, pinf => ninf
  | _, _ => nan

/-- `a / b` for a divisor that is not zero (the only use, `base.py` lines 512-513). -/
def div : Flt K → Flt K → Flt K
  | fin a, fin b => fin (a / b)
  | fin _, pinf => fin 0
  | fin _, ninf => fin 0
  | pinf, fin b => if 0 < b then pinf else ninf
  | ninf, fin b => if 0 < b then ninf else pinf
  | _, _ => nan

/-- `a != 0`.
Models: cyclic_boosting/base.py:502-515. -/
def neZero : Flt K → Bool
  | fin a => decide (a ≠ 0)
  | _ => true

/-- `abs(a) <= c` for a finite `c`.
Models: cyclic_boosting/base.py:880-935. -/
def absLe : Flt K → K → Bool
  | fin a, c => decide (|a| ≤ c)
  | _, _ => false

end Flt

section
variable {K : Type*} [Field K] [LinearOrder K]

/-- What is fixed about a feature during training, `features.py` lines 53-145: its group of columns, whether it is of type
"external", `n_bins_finite` (so the number of the missing bin is `nFinite`), `lex_binned_data` and `missing_not_learned`. -/
structure FeatureCfg where
  group : List String
  external : Bool
  nFinite : ℕ
  bin : ℕ → ℕ
  missingNotLearned : Bool

/-- The part of a `Feature` that training changes, `features.py` lines 53-94: `factors_link`, `factors_link_old`,
`fitted_aggregated`, `is_fitted`, and whether the smoother has been replaced by `ZeroSmoother`. -/
structure FState (K : Type*) where
  factors : ℕ → K
  factorsOld : ℕ → K
  agg : Option (ℕ → K)
  isFitted : Bool
  zeroSmoother : Bool

/-- A `Feature` as created by `create_features`; `factors_link` is `None` until the first iteration sets it.
Models: cyclic_boosting/features.py:54-101. -/
def FState.init : FState K := ⟨fun _ => 0, fun _ => 0, none, false, false⟩

/-- The columns "factors" and "exponents" of the running prediction, `base.py` lines 50-105, `price.py` lines 448-475. -/
structure Pred (K : Type*) where
  factors : ℕ → K
  exponents : ℕ → K

/-- `UpdateMixin.update_predictions` without influence categories, `base.py` lines 78-84. -/
def Pred.update (p : Pred K) (cfg : FeatureCfg) (v : ℕ → K) : Pred K :=
  if cfg.external then { p with exponents := fun s => p.exponents s + v s }
  else { p with factors := fun s => p.factors s + v s }

/-- `UpdateMixin.remove_predictions` without influence categories, `base.py` lines 86-92. -/
def Pred.remove (p : Pred K) (cfg : FeatureCfg) (v : ℕ → K) : Pred K :=
  if cfg.external then { p with exponents := fun s => p.exponents s - v s }
  else { p with factors := fun s => p.factors s - v s }

/-- `_pred_feature(X, feature, is_fit=True)`, `base.py` lines 831-833: the factor of the bin of each sample. -/
def predInSample (cfg : FeatureCfg) (fs : FState K) : ℕ → K := fun s => fs.factors (cfg.bin s)

/-- The constants of the clipping, `base.py` lines 572-587, 596 and 633-637, in link space. `logMin` and `logMax` depend on
whether the feature is external and whether it is one-dimensional. -/
structure ClipConsts (K : Type*) where
  logHalf : K
  logTwo : K
  logMin : Bool → Bool → K
  logMax : Bool → Bool → K
  logLow : K
  logHigh : K

/-- Parameters of the estimator, `base.py` lines 268-331. -/
structure Params (K : Type*) where
  aggregate : Bool
  /-- `isinstance(self, LogLinkMixin)` -/
  clip : Bool
  consts : ClipConsts K
  maximalIterations : ℕ
  minimalFactorChange : K
  minimalLossChange : K
  hierarchical : Option (List (List String))
  hierarchicalIterations : ℕ

/-- What training calls but is left open: `calc_parameters`, the smoother (fit on the bins, then predict at the bin
centers; `none` is a non-finite value; its weights and uncertainties can depend on the prediction), the learning rate, `calibrate_to_weighted_mean` and the loss of the current
prediction. The arguments are iteration and feature number, and the data the call can depend on.
Models: cyclic_boosting/base.py:348-350,502-515,589-690,1018-1090. -/
structure Oracle (K : Type*) where
  estimate : ℕ → ℕ → Pred K → FState K → ℕ → K
  smooth : ℕ → ℕ → Pred K → FState K → (ℕ → K) → ℕ → Option K
  learnRate : ℕ → K
  calibrate : ℕ → ℕ → FState K → ℕ → K
  loss : Pred K → Flt K

/-- `np.clip`.
Models: cyclic_boosting/base.py:596,602,633. -/
def clipTo (x lo hi : K) : K := min (max x lo) hi

/-- `is_diverged`, `base.py` lines 481-482. -/
def isDiverged (initialLoss loss : Flt K) : Bool := loss.gt initialLoss.twice

/-- `Feature.update_factors`, `features.py` lines 209-258, the part that is not the fit of the smoother: the previous
factors are saved and the factor of the missing bin is set. -/
def updateFactors (cfg : FeatureCfg) (fs : FState K) (unfitted : ℕ → K) (learnRate : K) : FState K :=
  { fs with
    factorsOld := fs.factors
    factors := fun b =>
      if b = cfg.nFinite then (if cfg.missingNotLearned then 0 else unfitted cfg.nFinite * learnRate)
      else fs.factors b }

/-- `_predict_factors` on the bin centers and the row of NaN for the missing bin, `base.py` lines 116-126, 664-666.
`smoothed` is what the smoother predicts at the bin centers. -/
def predictFactors (cfg : FeatureCfg) (fs : FState K) (smoothed : ℕ → Option K) (learnRate : K) : ℕ → K := fun b =>
  if b < cfg.nFinite then
    if fs.zeroSmoother then learnRate * 0
    else match smoothed b with
      | some v => learnRate * v
      | none => 0
  else fs.factors cfg.nFinite

/-- The two clips of the update, `base.py` lines 594-608. -/
def clipUpdate (c : ClipConsts K) (cfg : FeatureCfg) (fs : FState K) : ℕ → K :=
  let once : ℕ → K := fun b => clipTo (fs.factors b) c.logHalf c.logTwo
  match fs.isFitted, fs.agg with
  | true, some agg =>
    let one := cfg.group.length == 1
    fun b => clipTo (once b) (c.logMin cfg.external one - agg b) (c.logMax cfg.external one - agg b)
  | _, _ => once

/-- `visit_factors`, `base.py` lines 589-647. The nested `check_diverged` adds the contribution of the feature to the
prediction and removes it again. (The case of a diverging training with an unset `fitted_aggregated`, where the code would
fail, cannot occur: the preceding `remove_preds` would have failed.) -/
def visitFactors (p : Params K) (o : Oracle K) (cfg : FeatureCfg) (diverging : ℕ) (isDiverging : Bool)
    (initialLoss : Flt K) (unfitted : ℕ → K) (fs : FState K) (pred : Pred K) : FState K × Pred K :=
  let (fs, pred) :=
    if p.clip && p.aggregate then
      let fs := { fs with factors := clipUpdate p.consts cfg fs }
      if isDiverging then
        let contribution := predInSample cfg fs
        let tried := pred.update cfg contribution
        let diverged := isDiverged initialLoss (o.loss tried)
        let pred := tried.remove cfg contribution
        if diverged then
          if diverging > 1 then
            match fs.agg with
            | some agg => ({ fs with factors := fun b => -agg b, zeroSmoother := true }, pred)
            | none => (fs, pred)
          else
            let clipped : ℕ → K := fun b =>
              clipTo (fs.factors b) (unfitted b + p.consts.logLow) (unfitted b + p.consts.logHigh)
            ({ fs with factors := clipped }, pred)
        else (fs, pred)
      else (fs, pred)
    else (fs, pred)
  let agg := match fs.isFitted, p.aggregate, fs.agg with
    | true, true, some agg => fun b => agg b + fs.factors b
    | _, _, _ => fs.factors
  ({ fs with agg := some agg, isFitted := true }, pred)

/-- `feature_iteration`, `base.py` lines 649-675. -/
def featureIteration (p : Params K) (o : Oracle K) (it i : ℕ) (cfg : FeatureCfg) (diverging : ℕ) (isDiverging : Bool)
    (initialLoss : Flt K) (fs : FState K) (pred : Pred K) : FState K × Pred K :=
  let pred := if p.aggregate then pred else pred.remove cfg (predInSample cfg fs)
  let unfitted := o.estimate it i pred fs
  let lr := o.learnRate (it + 1)
  let fs := updateFactors cfg fs unfitted lr
  let fs := { fs with factors := predictFactors cfg fs (o.smooth it i pred fs unfitted) lr }
  let fs := { fs with factors := o.calibrate it i fs }
  let (fs, pred) := visitFactors p o cfg diverging isDiverging initialLoss unfitted fs pred
  (fs, pred.update cfg (predInSample cfg fs))

/-- The state of `_fit_main`, `base.py` lines 713-776. -/
structure TState (K : Type*) where
  iteration : ℕ
  pred : Pred K
  feats : List (FState K)
  diverging : ℕ
  isDiverging : Bool
  loss : Flt K
  initialLoss : Flt K
  lossChange : Flt K
  delta : K
  /-- the array `prediction`, here still in link space -/
  prediction : Pred K

/-- The ways training can fail.
Models: cyclic_boosting/base.py:484-500. -/
inductive TErr where
  | convergenceError
  | typeError
  deriving DecidableEq, Repr

/-- Is the feature left out in this iteration? `base.py` lines 735-741. -/
def skipped (p : Params K) (it : ℕ) (cfg : FeatureCfg) : Bool :=
  match p.hierarchical with
  | some groups => decide (it < p.hierarchicalIterations) && !groups.contains cfg.group
  | none => false

/-- One pass over the features, `base.py` lines 677-692 and 734-744. -/
def featurePass (p : Params K) (o : Oracle K) (it diverging : ℕ) (isDiverging : Bool) (initialLoss : Flt K) :
    ℕ → List FeatureCfg → List (FState K) → Pred K → List (FState K) × Pred K
  | i, cfg :: cfgs, fs :: fss, pred =>
    let fs := if it = 0 then { fs with factors := fun _ => 0 } else fs
    let (fs, pred) :=
      if skipped p it cfg then ({ fs with factorsOld := fs.factors }, pred)
      else featureIteration p o it i cfg diverging isDiverging initialLoss fs pred
    let (rest, pred) := featurePass p o it diverging isDiverging initialLoss (i + 1) cfgs fss pred
    (fs :: rest, pred)
  | _, _, _, pred => ([], pred)

/-- `remove_preds`, `base.py` lines 557-570: `fitted_aggregated` must not be `None`. -/
def removePreds : List FeatureCfg → List (FState K) → Pred K → Except TErr (List (FState K) × Pred K)
  | cfg :: cfgs, fs :: fss, pred =>
    match fs.agg with
    | none => .error .typeError
    | some agg =>
      let pred := pred.remove cfg (predInSample cfg fs)
      let fs := { fs with agg := some (fun b => agg b - fs.factors b) }
      match removePreds cfgs fss pred with
      | .error e => .error e
      | .ok (rest, pred) => .ok (fs :: rest, pred)
  | _, _, pred => .ok ([], pred)

/-- `np.mean(np.abs(factors_link - factors_link_old))`, `base.py` line 138. -/
def factorDeviation (cfg : FeatureCfg) (fs : FState K) : K :=
  ((List.range (cfg.nFinite + 1)).map (fun b => |fs.factors b - fs.factorsOld b|)).sum / ((cfg.nFinite + 1 : ℕ) : K)

/-- `_factors_deviation`, `base.py` lines 129-139 (at least one feature). -/
def factorsDeviation (cfgs : List FeatureCfg) (fss : List (FState K)) : K :=
  (List.zipWith factorDeviation cfgs fss).sum / (cfgs.length : K)

/-- `_check_stop_criteria`, `base.py` lines 880-935. -/
def checkStop (p : Params K) (it : ℕ) (delta : K) (lossChange : Flt K) : Bool :=
  let stopIterations := decide (it ≥ p.maximalIterations)
  let stopFactorChange := decide (delta ≤ p.minimalFactorChange)
  let stopLossChange := lossChange.absLe p.minimalLossChange
  let veto := decide (it ≤ p.hierarchicalIterations) && p.hierarchical.isSome
  (stopIterations || stopFactorChange || stopLossChange) && !veto

/-- The condition of the `while` loop, `base.py` line 730. -/
def continues (p : Params K) (s : TState K) : Bool :=
  !(checkStop p s.iteration s.delta s.lossChange) || s.isDiverging

/-- `_check_convergence`, `base.py` lines 484-500: the new values of `diverging` and `is_diverging`. -/
def checkConvergence (initialLoss loss : Flt K) (diverging : ℕ) : Except TErr (ℕ × Bool) :=
  if isDiverged initialLoss loss then
    if diverging + 1 ≥ 5 then .error .convergenceError else .ok (diverging + 1, true)
  else .ok (diverging, false)

/-- `loss_change` as computed by `_update_loss`, `base.py` lines 502-515. -/
def lossChange (old new : Flt K) : Flt K :=
  if old.neZero then (old.sub new).div old else old.sub new

/-- The body of the `while` loop, `base.py` lines 731-759. -/
def iterate (p : Params K) (o : Oracle K) (cfgs : List FeatureCfg) (s : TState K) : Except TErr (TState K) :=
  let (feats, pred) := featurePass p o s.iteration s.diverging s.isDiverging s.initialLoss 0 cfgs s.feats s.pred
  let loss := o.loss pred
  match checkConvergence s.initialLoss loss s.diverging with
  | .error e => .error e
  | .ok (diverging, isDiverging) =>
    let delta := factorsDeviation cfgs feats
    match (if isDiverging then removePreds cfgs feats pred else .ok (feats, pred)) with
    | .error e => .error e
    | .ok (feats', pred') =>
      .ok { s with
        iteration := s.iteration + 1
        pred := pred'
        feats := feats'
        diverging := diverging
        isDiverging := isDiverging
        loss := loss
        lossChange := lossChange s.loss loss
        delta := delta
        prediction := pred }

/-- The state before the loop, `base.py` lines 714-728, `utils.py` lines 1063-1068, for the prior prediction `prior`. -/
def startState (o : Oracle K) (cfgs : List FeatureCfg) (prior : ℕ → K) : TState K :=
  let pred : Pred K := ⟨prior, fun _ => 0⟩
  { iteration := 0
    pred := pred
    feats := cfgs.map (fun _ => FState.init)
    diverging := 0
    isDiverging := false
    loss := o.loss pred
    initialLoss := o.loss pred
    lossChange := .fin 100000000000000000000
    delta := 100
    prediction := pred }

/-- Outcome of running the `while` loop for a limited number of steps.
Models: cyclic_boosting/base.py:730. -/
inductive LoopResult (K : Type*) where
  | done (s : TState K)
  | failed (e : TErr)
  | outOfFuel

/-- The `while` loop, `base.py` lines 730-759, cut off after `fuel` iterations. -/
def loop (p : Params K) (o : Oracle K) (cfgs : List FeatureCfg) : ℕ → TState K → LoopResult K
  | fuel, s =>
    if continues p s then
      match fuel with
      | 0 => .outOfFuel
      | fuel + 1 =>
        match iterate p o cfgs s with
        | .error e => .failed e
        | .ok s' => loop p o cfgs fuel s'
    else .done s

/-- `prepare_feature` for all features, `base.py` lines 970-974, `features.py` lines 260-268: the final factors are the
aggregated ones; a feature that was never fitted has none, which fails. -/
def prepareFeatures : List (FState K) → Except TErr (List (ℕ → K))
  | [] => .ok []
  | fs :: fss =>
    match fs.agg with
    | none => .error .typeError
    | some agg =>
      match prepareFeatures fss with
      | .error e => .error e
      | .ok rest => .ok (agg :: rest)

/-- Result of `_fit_main`: final factors of each feature and the in-sample prediction (in link space).
Models: cyclic_boosting/base.py:713-776. -/
structure FitResult (K : Type*) where
  factors : List (ℕ → K)
  prediction : Pred K
  iterations : ℕ

/-- `_fit_main`, `base.py` lines 713-776. `none` means that `fuel` iterations were not enough. -/
def fitMain (p : Params K) (o : Oracle K) (cfgs : List FeatureCfg) (prior : ℕ → K) (fuel : ℕ) :
    Option (Except TErr (FitResult K)) :=
  match loop p o cfgs fuel (startState o cfgs prior) with
  | .outOfFuel => none
  | .failed e => some (.error e)
  | .done s =>
    match prepareFeatures s.feats with
    | .error e => some (.error e)
    | .ok factors =>
      match checkConvergence s.initialLoss s.loss s.diverging with
      | .error e => some (.error e)
      | .ok _ => some (.ok ⟨factors, s.prediction, s.iteration⟩)

end

end CB
