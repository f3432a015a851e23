import Verif.Model.Training

/-!
# Model of `predict` after a training that did not finish

A fit can be interrupted at any point: by the user, by an observer that raises, or by a `ConvergenceError`. The estimator then
has the features of the unfinished training, and `predict` uses them as they are: the learning rate, the smoother (as fitted by
the last update) and the last entry of `factors_link` of each feature. The sum of all updates, `fitted_aggregated`, is used only
after `prepare_feature`.

Simplifications: as in Model/Training; predictions are for samples of the training table (whose rows are bin centers or have a
missing value), and the clipping of the factors together with the replacement of the smoother by `ZeroSmoother` is one step.
-/

set_option autoImplicit false

namespace CB

section
variable {K : Type*} [Field K] [LinearOrder K]

/-- The smoother of a feature: not fitted yet, fitted (with its predictions at the bin centers; `none` is a non-finite value), or
replaced by `ZeroSmoother`.
Models: cyclic_boosting/features.py:71, 248-257, base.py:622-623. -/
inductive LiveSmoother (K : Type*) where
  | unfitted
  | fitted (values : ℕ → Option K)
  | zero

/-- What `predict` uses of a feature: `learn_rate`, `smoother` and `factors_link[-1]` (`none` while `factors_link` is `None`).
Models: cyclic_boosting/features.py:54-101, base.py:116-126. -/
structure LiveFeature (K : Type*) where
  learnRate : K
  smoother : LiveSmoother K
  missing : Option K

/-- A feature as created by `create_features` at the beginning of a fit (with a smoother that was made for it).
Models: cyclic_boosting/features.py:54-101, base.py:439-444. -/
def LiveFeature.init : LiveFeature K := ⟨0, .unfitted, none⟩

/-- `predict` of a smoother that was not fitted raises a `ValueError` or an `AttributeError`; the last entry of `None` raises a
`TypeError`.
Models: cyclic_boosting/smoothing/onedim.py:42-44, base.py:120-123. -/
inductive LiveErr where
  | notFitted
  | typeError
  deriving DecidableEq, Repr

/-- `_predict_factors` for a table with the samples `rows`.
Models: cyclic_boosting/base.py:116-126, 834-837. -/
def LiveFeature.predict (cfg : FeatureCfg) (f : LiveFeature K) (rows : List ℕ) : Except LiveErr (ℕ → K) :=
  match f.smoother, rows.any (fun s => decide (cfg.bin s < cfg.nFinite)), f.missing with
  | .unfitted, true, _ => .error .notFitted
  | _, _, none => .error .typeError
  | smoother, _, some missing => .ok fun s =>
    if cfg.bin s < cfg.nFinite then
      match smoother with
      | .fitted values => match values (cfg.bin s) with
        | some v => f.learnRate * v
        | none => 0
      | _ => f.learnRate * 0
    else missing

/-- `predict_extended`: the prior prediction and the contribution of one feature after the other.
Models: cyclic_boosting/base.py:843-856. -/
def livePredict (rows : List ℕ) : List FeatureCfg → List (LiveFeature K) → Pred K → Except LiveErr (Pred K)
  | cfg :: cfgs, f :: fs, pred =>
    match f.predict cfg rows with
    | .error e => .error e
    | .ok v => livePredict rows cfgs fs (pred.update cfg v)
  | _, _, pred => .ok pred

/-- What `predict` sees of a feature in the middle of its update, after `m` steps: `bind_data` and, in the first iteration, the
neutral factors; the learning rate; the factor of the missing bin; the fit of the smoother; `calibrate_to_weighted_mean`; and the
rest of the update.
Models: cyclic_boosting/base.py:677-692, 649-675, features.py:233-257. -/
def updateSteps (p : Params K) (o : Oracle K) (it i : ℕ) (cfg : FeatureCfg) (diverging : ℕ) (isDiverging : Bool)
    (initialLoss : Flt K) (fs : FState K) (live : LiveFeature K) (pred : Pred K) : ℕ → LiveFeature K := fun m =>
  let before := if p.aggregate then pred else pred.remove cfg (predInSample cfg fs)
  let unfitted := o.estimate it i before fs
  let lr := o.learnRate (it + 1)
  let updated := updateFactors cfg fs unfitted lr
  let values := o.smooth it i before updated unfitted
  let smoothed := { updated with factors := predictFactors cfg updated values lr }
  let result := (featureIteration p o it i cfg diverging isDiverging initialLoss fs pred).1
  match m with
  | 0 => live
  | 1 => { live with missing := some (fs.factors cfg.nFinite) }
  | 2 => { live with missing := some (fs.factors cfg.nFinite), learnRate := lr }
  | 3 => { live with missing := some (updated.factors cfg.nFinite), learnRate := lr }
  | 4 => ⟨lr, if fs.zeroSmoother then .zero else .fitted values, some (updated.factors cfg.nFinite)⟩
  | 5 => ⟨lr, if fs.zeroSmoother then .zero else .fitted values, some (o.calibrate it i smoothed cfg.nFinite)⟩
  | _ => ⟨lr, if result.zeroSmoother then .zero else .fitted values, some (result.factors cfg.nFinite)⟩

/-- The features after a pass over them that was interrupted after `m` steps of the update of feature number `stop`; the pass is
complete if there is no feature with this number.
Models: cyclic_boosting/base.py:734-744. -/
def livePass (p : Params K) (o : Oracle K) (it diverging : ℕ) (isDiverging : Bool) (initialLoss : Flt K) (stop m : ℕ) :
    ℕ → List FeatureCfg → List (FState K) → List (LiveFeature K) → Pred K → List (LiveFeature K)
  | i, cfg :: cfgs, fs :: fss, live :: lives, pred =>
    let fs := if it = 0 then { fs with factors := fun _ => 0 } else fs
    if i = stop then
      (if skipped p it cfg && decide (0 < m) then { live with missing := some (fs.factors cfg.nFinite) }
        else updateSteps p o it i cfg diverging isDiverging initialLoss fs live pred m) :: lives
    else if skipped p it cfg then
      { live with missing := some (fs.factors cfg.nFinite) } ::
        livePass p o it diverging isDiverging initialLoss stop m (i + 1) cfgs fss lives pred
    else
      updateSteps p o it i cfg diverging isDiverging initialLoss fs live pred 6 ::
        livePass p o it diverging isDiverging initialLoss stop m (i + 1) cfgs fss lives
          (featureIteration p o it i cfg diverging isDiverging initialLoss fs pred).2
  | _, _, _, lives, _ => lives

/-- The features as `predict` sees them after a complete iteration; `remove_preds` and the tests of convergence do not touch what
`predict` uses.
Models: cyclic_boosting/base.py:731-759. -/
def liveIterate (p : Params K) (o : Oracle K) (cfgs : List FeatureCfg) (s : TState K) (lives : List (LiveFeature K)) :
    List (LiveFeature K) :=
  livePass p o s.iteration s.diverging s.isDiverging s.initialLoss cfgs.length 0 0 cfgs s.feats lives s.pred

/-- A training that has finished `k` iterations: its state and the features as `predict` sees them.
Models: cyclic_boosting/base.py:713-759. -/
inductive Underway (p : Params K) (o : Oracle K) (cfgs : List FeatureCfg) (prior : ℕ → K) :
    ℕ → TState K → List (LiveFeature K) → Prop where
  | start : Underway p o cfgs prior 0 (startState o cfgs prior) (cfgs.map fun _ => LiveFeature.init)
  | next (k : ℕ) (s s' : TState K) (lives : List (LiveFeature K)) (h : Underway p o cfgs prior k s lives)
      (hc : continues p s = true) (hs : iterate p o cfgs s = .ok s') :
      Underway p o cfgs prior (k + 1) s' (liveIterate p o cfgs s lives)

/-- `prepare_feature` for the first `j` features: they predict the sum of their updates.
Models: cyclic_boosting/base.py:970-974, features.py:260-268. -/
def livePrepare : ℕ → List FeatureCfg → List (FState K) → List (LiveFeature K) → List (LiveFeature K)
  | j + 1, cfg :: cfgs, fs :: fss, live :: lives =>
    (match fs.agg with
      | some agg => ⟨1, .fitted fun b => some (agg b), some (agg cfg.nFinite)⟩
      | none => live) :: livePrepare j cfgs fss lives
  | _, _, _, lives => lives

end

end CB
