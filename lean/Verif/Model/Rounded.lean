import Verif.Model.Training
import Verif.Model.Predict

/-!
# The training loop in floating-point arithmetic

The model of `_fit_main` (Model/Training) once more, with every arithmetic operation on predictions and factors replaced by an
operation of a machine arithmetic. The estimates, the smoothers, the calibration and the loss are left open as before, so whatever
rounding happens inside them is included. With exact operations this is the model of Model/Training (`C139_exact`).

Simplification: no overflow.
-/

set_option autoImplicit false

namespace CB

section
variable {K : Type*} [Field K] [LinearOrder K]

/-- The arithmetic of the machine: addition, subtraction and multiplication of numbers, and the two derived quantities that are only
compared with the stopping criteria, the mean change of the factors and the relative change of the loss.
Models: cyclic_boosting/base.py:54-74,129-139,502-515. -/
structure Machine (K : Type*) where
  add : K → K → K
  sub : K → K → K
  mul : K → K → K
  deviation : List FeatureCfg → List (FState K) → K
  lossChange : Flt K → Flt K → Flt K

/-- Arithmetic without rounding.
Models: cyclic_boosting/base.py:54-74,129-139,502-515. -/
def Machine.exact : Machine K := ⟨fun a b => a + b, fun a b => a - b, fun a b => a * b, factorsDeviation, CB.lossChange⟩

/-- `UpdateMixin.update_predictions` without influence categories.
Models: cyclic_boosting/base.py:55-66,78-84. -/
def Pred.updateR (m : Machine K) (p : Pred K) (cfg : FeatureCfg) (v : ℕ → K) : Pred K :=
  if cfg.external then { p with exponents := fun s => m.add (p.exponents s) (v s) }
  else { p with factors := fun s => m.add (p.factors s) (v s) }

/-- `UpdateMixin.remove_predictions` without influence categories.
Models: cyclic_boosting/base.py:67-76,86-92. -/
def Pred.removeR (m : Machine K) (p : Pred K) (cfg : FeatureCfg) (v : ℕ → K) : Pred K :=
  if cfg.external then { p with exponents := fun s => m.sub (p.exponents s) (v s) }
  else { p with factors := fun s => m.sub (p.factors s) (v s) }

/-- `Feature.update_factors`.
Models: cyclic_boosting/features.py:209-258. -/
def updateFactorsR (m : Machine K) (cfg : FeatureCfg) (fs : FState K) (unfitted : ℕ → K) (learnRate : K) : FState K :=
  { fs with
    factorsOld := fs.factors
    factors := fun b =>
      if b = cfg.nFinite then (if cfg.missingNotLearned then 0 else m.mul (unfitted cfg.nFinite) learnRate)
      else fs.factors b }

/-- `_predict_factors` on the bin centers.
Models: cyclic_boosting/base.py:116-126,664-666. -/
def predictFactorsR (m : Machine K) (cfg : FeatureCfg) (fs : FState K) (smoothed : ℕ → Option K) (learnRate : K) : ℕ → K := fun b =>
  if b < cfg.nFinite then
    if fs.zeroSmoother then m.mul learnRate 0
    else match smoothed b with
      | some v => m.mul learnRate v
      | none => 0
  else fs.factors cfg.nFinite

/-- The two clips of the update.
Models: cyclic_boosting/base.py:594-608. -/
def clipUpdateR (m : Machine K) (c : ClipConsts K) (cfg : FeatureCfg) (fs : FState K) : ℕ → K :=
  let once : ℕ → K := fun b => clipTo (fs.factors b) c.logHalf c.logTwo
  match fs.isFitted, fs.agg with
  | true, some agg =>
    let one := cfg.group.length == 1
    fun b => clipTo (once b) (m.sub (c.logMin cfg.external one) (agg b)) (m.sub (c.logMax cfg.external one) (agg b))
  | _, _ => once

/-- `visit_factors`.
Models: cyclic_boosting/base.py:589-647. -/
def visitFactorsR (m : Machine K) (p : Params K) (o : Oracle K) (cfg : FeatureCfg) (diverging : ℕ) (isDiverging : Bool)
    (initialLoss : Flt K) (unfitted : ℕ → K) (fs : FState K) (pred : Pred K) : FState K × Pred K :=
  let (fs, pred) :=
    if p.clip && p.aggregate then
      let fs := { fs with factors := clipUpdateR m p.consts cfg fs }
      if isDiverging then
        let contribution := predInSample cfg fs
        let tried := pred.updateR m cfg contribution
        let diverged := isDiverged initialLoss (o.loss tried)
        let pred := tried.removeR m cfg contribution
        if diverged then
          if diverging > 1 then
            match fs.agg with
            | some agg => ({ fs with factors := fun b => -agg b, zeroSmoother := true }, pred)
            | none => (fs, pred)
          else
            let clipped : ℕ → K := fun b =>
              clipTo (fs.factors b) (m.add (unfitted b) p.consts.logLow) (m.add (unfitted b) p.consts.logHigh)
            ({ fs with factors := clipped }, pred)
        else (fs, pred)
      else (fs, pred)
    else (fs, pred)
  let agg := match fs.isFitted, p.aggregate, fs.agg with
    | true, true, some agg => fun b => m.add (agg b) (fs.factors b)
    | _, _, _ => fs.factors
  ({ fs with agg := some agg, isFitted := true }, pred)

/-- `feature_iteration`.
Models: cyclic_boosting/base.py:649-675. -/
def featureIterationR (m : Machine K) (p : Params K) (o : Oracle K) (it i : ℕ) (cfg : FeatureCfg) (diverging : ℕ)
    (isDiverging : Bool) (initialLoss : Flt K) (fs : FState K) (pred : Pred K) : FState K × Pred K :=
  let pred := if p.aggregate then pred else pred.removeR m cfg (predInSample cfg fs)
  let unfitted := o.estimate it i pred fs
  let lr := o.learnRate (it + 1)
  let fs := updateFactorsR m cfg fs unfitted lr
  let fs := { fs with factors := predictFactorsR m cfg fs (o.smooth it i pred fs unfitted) lr }
  let fs := { fs with factors := o.calibrate it i fs }
  let (fs, pred) := visitFactorsR m p o cfg diverging isDiverging initialLoss unfitted fs pred
  (fs, pred.updateR m cfg (predInSample cfg fs))

/-- One pass over the features.
Models: cyclic_boosting/base.py:677-692,734-744. -/
def featurePassR (m : Machine K) (p : Params K) (o : Oracle K) (it diverging : ℕ) (isDiverging : Bool) (initialLoss : Flt K) :
    ℕ → List FeatureCfg → List (FState K) → Pred K → List (FState K) × Pred K
  | i, cfg :: cfgs, fs :: fss, pred =>
    let fs := if it = 0 then { fs with factors := fun _ => 0 } else fs
    let (fs, pred) :=
      if skipped p it cfg then ({ fs with factorsOld := fs.factors }, pred)
      else featureIterationR m p o it i cfg diverging isDiverging initialLoss fs pred
    let (rest, pred) := featurePassR m p o it diverging isDiverging initialLoss (i + 1) cfgs fss pred
    (fs :: rest, pred)
  | _, _, _, pred => ([], pred)

/-- `remove_preds`.
Models: cyclic_boosting/base.py:557-570. -/
def removePredsR (m : Machine K) : List FeatureCfg → List (FState K) → Pred K → Except TErr (List (FState K) × Pred K)
  | cfg :: cfgs, fs :: fss, pred =>
    match fs.agg with
    | none => .error .typeError
    | some agg =>
      let pred := pred.removeR m cfg (predInSample cfg fs)
      let fs := { fs with agg := some (fun b => m.sub (agg b) (fs.factors b)) }
      match removePredsR m cfgs fss pred with
      | .error e => .error e
      | .ok (rest, pred) => .ok (fs :: rest, pred)
  | _, _, pred => .ok ([], pred)

/-- The body of the `while` loop.
Models: cyclic_boosting/base.py:731-759. -/
def iterateR (m : Machine K) (p : Params K) (o : Oracle K) (cfgs : List FeatureCfg) (s : TState K) : Except TErr (TState K) :=
  let (feats, pred) := featurePassR m p o s.iteration s.diverging s.isDiverging s.initialLoss 0 cfgs s.feats s.pred
  let loss := o.loss pred
  match checkConvergence s.initialLoss loss s.diverging with
  | .error e => .error e
  | .ok (diverging, isDiverging) =>
    let delta := m.deviation cfgs feats
    match (if isDiverging then removePredsR m cfgs feats pred else .ok (feats, pred)) with
    | .error e => .error e
    | .ok (feats', pred') =>
      .ok { s with
        iteration := s.iteration + 1
        pred := pred'
        feats := feats'
        diverging := diverging
        isDiverging := isDiverging
        loss := loss
        lossChange := m.lossChange s.loss loss
        delta := delta
        prediction := pred }

/-- The `while` loop, cut off after `fuel` iterations.
Models: cyclic_boosting/base.py:730-759. -/
def loopR (m : Machine K) (p : Params K) (o : Oracle K) (cfgs : List FeatureCfg) : ℕ → TState K → LoopResult K
  | fuel, s =>
    if continues p s then
      match fuel with
      | 0 => .outOfFuel
      | fuel + 1 =>
        match iterateR m p o cfgs s with
        | .error e => .failed e
        | .ok s' => loopR m p o cfgs fuel s'
    else .done s

/-- `_fit_main`.
Models: cyclic_boosting/base.py:713-776. -/
def fitMainR (m : Machine K) (p : Params K) (o : Oracle K) (cfgs : List FeatureCfg) (prior : ℕ → K) (fuel : ℕ) :
    Option (Except TErr (FitResult K)) :=
  match loopR m p o cfgs fuel (startState o cfgs prior) with
  | .outOfFuel => none
  | .failed e => some (.error e)
  | .done s =>
    match prepareFeatures s.feats with
    | .error e => some (.error e)
    | .ok factors =>
      match checkConvergence s.initialLoss s.loss s.diverging with
      | .error e => some (.error e)
      | .ok _ => some (.ok ⟨factors, s.prediction, s.iteration⟩)

end

section
variable {K : Type*} [Field K] [LinearOrder K] [FloorRing K]

/-- `predict_extended(X, None)`; the contribution of a feature is a stored factor (the learning rate it is multiplied with is 1).
Models: cyclic_boosting/base.py:843-856. -/
def predictExtendedR (m : Machine K) (prior : ℕ → K) (features : List (FittedFeature K)) (X : Table K) : Pred K :=
  features.foldl (fun pred f =>
    let v : ℕ → K := fun s => f.predict (X.row f.group s)
    if f.external then { pred with exponents := fun s => m.add (pred.exponents s) (v s) }
    else { pred with factors := fun s => m.add (pred.factors s) (v s) }) ⟨prior, fun _ => 0⟩

end

end CB
