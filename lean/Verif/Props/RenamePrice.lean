import Verif.Props.Rename

/-!
# C137 for the price model
-/

set_option autoImplicit false
set_option linter.unusedSectionVars false

namespace CB
open Spec

section
variable {σ : Type*} (ρ : Equiv.Perm String)

/-- The arguments of a price model with other names. -/
abbrev renamePriceArgs (A : PriceArgs) : PriceArgs :=
  { A with externalColumn := ρ A.externalColumn, exponentColumn := A.exponentColumn.map ρ }

theorem priceExponent_rename (A : PriceArgs) (X : Table ℝ) : (renamePriceArgs ρ A).exponent (renameTable ρ X) = A.exponent X := by
  funext s
  unfold PriceArgs.exponent
  cases h : A.exponentColumn with
  | none => simp [h]
  | some c => simp [h, renameTable]

theorem priceBase_rename (A : PriceArgs) (X : Table ℝ) : (renamePriceArgs ρ A).base (renameTable ρ X) = A.base X := by
  funext s
  simp [PriceArgs.base, renameTable]

theorem priceLinkOf_rename (A : PriceArgs) (X : Table ℝ) : (renamePriceArgs ρ A).linkOf (renameTable ρ X) = A.linkOf X := by
  funext pred s
  unfold PriceArgs.linkOf
  rw [priceExponent_rename, priceBase_rename]

theorem externalWeight_rename (A : PriceArgs) (D : TrainSet) :
    (renamePriceArgs ρ A).externalWeight { D with X := renameTable ρ D.X } = A.externalWeight D := by
  funext s
  simp [PriceArgs.externalWeight, renameTable]

theorem expoData_rename (A : PriceArgs) (D : TrainSet) (pred : Pred ℝ) (codes : ℕ → ℕ) :
    (renamePriceArgs ρ A).expoData { D with X := renameTable ρ D.X } pred codes = A.expoData D pred codes := by
  unfold PriceArgs.expoData
  rw [externalWeight_rename]
  dsimp only
  rw [priceExponent_rename, priceBase_rename, priceLinkOf_rename]

theorem exponentParameters_rename (A : PriceArgs) (D : TrainSet) (pred : Pred ℝ) (codes : ℕ → ℕ) (nBins b : ℕ) :
    (renamePriceArgs ρ A).exponentParameters { D with X := renameTable ρ D.X } pred codes nBins b
      = A.exponentParameters D pred codes nBins b := by
  unfold PriceArgs.exponentParameters
  rw [expoData_rename, externalWeight_rename]

theorem priceParameters_rename (A : PriceArgs) (D : TrainSet) (pred : Pred ℝ) (f : FeatureSpec × SmootherKind) (b : ℕ) :
    (renamePriceArgs ρ A).parameters { D with X := renameTable ρ D.X } pred (renameFeature ρ f).1 b = A.parameters D pred f.1 b := by
  unfold PriceArgs.parameters
  dsimp only
  rw [cfg_rename, exponentParameters_rename, priceLinkOf_rename]
  rfl

theorem priceOracle_rename (S : Setup σ) (A : PriceArgs) (D : TrainSet) :
    ({ S with features := S.features.map (renameFeature ρ), params := renameParams ρ S.params } : Setup σ).priceOracle
        (renamePriceArgs ρ A) { D with X := renameTable ρ D.X } = S.priceOracle A D := by
  unfold Setup.priceOracle
  dsimp only
  congr 1
  · funext it i pred fs b
    rw [List.getElem?_map]
    cases S.features[i]? with
    | none => rfl
    | some f =>
      dsimp only [Option.map_some]
      rw [priceParameters_rename]
  · funext it i pred fs u
    rw [List.getElem?_map]
    cases S.features[i]? with
    | none => rfl
    | some f =>
      dsimp only [Option.map_some]
      have h1 : bindData (renameTable ρ D.X) D.n (renameFeature ρ f).1.group none = bindData D.X D.n f.1.group none := bindData_rename ρ _ _ _ _
      have h2 : (renamePriceArgs ρ A).weightsFor { D with X := renameTable ρ D.X } (renameFeature ρ f).1 = A.weightsFor D f.1 := by
        unfold PriceArgs.weightsFor
        rw [externalWeight_rename]
        rfl
      simp only [priceParameters_rename, cfg_rename, h1, h2]
      rfl
  · funext pred
    rw [priceLinkOf_rename]

theorem fittedFeatures_rename (X : Table ℝ) (n : ℕ) (features : List (FeatureSpec × SmootherKind)) (factors : List (ℕ → ℝ)) :
    fittedFeatures (renameTable ρ X) n ((features.map (renameFeature ρ)).map (·.1)) factors
      = (fittedFeatures X n (features.map (·.1)) factors).map fun f => { f with group := f.group.map ρ } := by
  unfold fittedFeatures
  rw [List.map_map, List.zipWith_map_left, List.zipWith_map_left, List.map_zipWith]
  congr 1
  funext f fac
  dsimp only [Function.comp]
  have : bindData (renameTable ρ X) n (renameFeature ρ f).1.group none = bindData X n f.1.group none := bindData_rename ρ _ _ _ _
  rw [this]
  rfl

theorem cfgs_rename (S : Setup σ) (D : TrainSet) :
    ({ S with features := S.features.map (renameFeature ρ), params := renameParams ρ S.params } : Setup σ).cfgs
      { D with X := renameTable ρ D.X } = (S.cfgs D).map (renameCfg ρ) := by
  unfold Setup.cfgs
  dsimp only
  rw [List.map_map, List.map_map]
  exact List.map_congr_left fun f _ => cfg_rename ρ f D.X D.n

theorem setupPriceFit_rename (S : Setup σ) (A : PriceArgs) (D : TrainSet) (fuel : ℕ) :
    ({ S with features := S.features.map (renameFeature ρ), params := renameParams ρ S.params } : Setup σ).priceFit
        (renamePriceArgs ρ A) { D with X := renameTable ρ D.X } fuel
      = (S.priceFit A D fuel).map fun r => r.map (renameModel ρ) := by
  have hE : (renamePriceArgs ρ A).estimator = A.estimator := rfl
  have hoff : A.estimator.offset { D with X := renameTable ρ D.X } = A.estimator.offset D := rfl
  have hpar : ({ S with features := S.features.map (renameFeature ρ), params := renameParams ρ S.params } : Setup σ).paramsFor A.estimator
      = renameParams ρ (S.paramsFor A.estimator) := rfl
  have hmain : ({ S with features := S.features.map (renameFeature ρ), params := renameParams ρ S.params } : Setup σ).priceFitMain
      (renamePriceArgs ρ A) { D with X := renameTable ρ D.X } fuel = S.priceFitMain A D fuel := by
    unfold Setup.priceFitMain
    rw [hE, cfgs_rename, priceOracle_rename]
    dsimp only
    rw [hoff, hpar, fitMain_rename]
  unfold Setup.priceFit
  rw [hE, hmain]
  dsimp only
  rw [hoff]
  split
  · split
    · cases S.priceFitMain A D fuel with
      | none => rfl
      | some r =>
        cases r with
        | error e => rfl
        | ok r =>
          dsimp only [Option.map_some, Except.map]
          rw [fittedFeatures_rename]
          rfl
    · rfl
  · rfl

theorem createFeatureId_rename (t : FType) (g : GroupArg) :
    createFeatureId t (renameArg ρ g) = ⟨(createFeatureId t g).group.map ρ, (createFeatureId t g).ftype⟩ := by
  cases g <;> rfl

theorem combineFeatureGroups_rename (standard external : Option (List GroupArg)) :
    combineFeatureGroups (standard.map (List.map (renameArg ρ))) (external.map (List.map (renameArg ρ)))
      = (combineFeatureGroups standard external).map (List.map fun f => ⟨f.group.map ρ, f.ftype⟩) := by
  have hl : ∀ t (l : List GroupArg), (l.map (renameArg ρ)).map (createFeatureId t)
      = (l.map (createFeatureId t)).map fun f => ⟨f.group.map ρ, f.ftype⟩ := by
    intro t l
    rw [List.map_map, List.map_map]
    exact List.map_congr_left fun g _ => createFeatureId_rename ρ t g
  have ha : ∀ t (l : List FeatureId), (l.map fun f : FeatureId => (⟨f.group.map ρ, f.ftype⟩ : FeatureId)).any (fun f => decide (f.ftype ≠ t))
      = l.any (fun f => decide (f.ftype ≠ t)) := by
    intro t l
    rw [List.any_map]
    rfl
  unfold combineFeatureGroups
  cases standard with
  | none => rfl
  | some sf =>
    dsimp only [Option.map_some]
    rw [hl, ha]
    split
    · rfl
    · cases external with
      | none => rfl
      | some ef =>
        dsimp only [Option.map_some]
        rw [hl, ha]
        split
        · rfl
        · dsimp only [Except.map]
          rw [List.map_append]

theorem createTypedFeatures_rename (c : Choice) (props : Option (List (String × ℕ))) (ids : List FeatureId) :
    createTypedFeatures (renameChoice ρ c) (props.map fun props => props.map fun e => (ρ e.1, e.2))
        (ids.map fun f => ⟨f.group.map ρ, f.ftype⟩)
      = (createTypedFeatures c props ids).map (List.map (renameFeature ρ)) := by
  have hg : (ids.map fun f : FeatureId => (⟨f.group.map ρ, f.ftype⟩ : FeatureId)).map (fun i => i.group)
      = renameGroups ρ (ids.map fun i => i.group) := by
    unfold renameGroups
    rw [List.map_map, List.map_map]
    rfl
  unfold createTypedFeatures
  rw [hg, createFeatures_rename]
  cases createFeatures c props (ids.map fun i => i.group) with
  | error e => rfl
  | ok features =>
    dsimp only [Except.map]
    rw [List.zipWith_map_left, List.zipWith_map_right, List.map_zipWith]
    rfl

/-- C137: constructing a price model with other names for the columns. -/
theorem C137_price_construct (P : PriceConfig σ) : (renamePrice ρ P).construct = P.construct.map (renamePriceObject ρ) := by
  have hcf : ∀ ids, createTypedFeatures (renamePrice ρ P).config.choice (renamePrice ρ P).config.props
      (List.map (fun f : FeatureId => (⟨f.group.map ρ, f.ftype⟩ : FeatureId)) ids)
      = (createTypedFeatures P.config.choice P.config.props ids).map (List.map (renameFeature ρ)) := createTypedFeatures_rename ρ _ _
  have hcomb : combineFeatureGroups (renamePrice ρ P).standard (renamePrice ρ P).external
      = (combineFeatureGroups P.standard P.external).map (List.map fun f => ⟨f.group.map ρ, f.ftype⟩) := combineFeatureGroups_rename ρ _ _
  unfold PriceConfig.construct
  rw [hcomb]
  cases combineFeatureGroups P.standard P.external with
  | error e => rfl
  | ok ids =>
    dsimp only [Except.map]
    rw [hcf]
    simp only [List.map_eq_nil_iff]
    split
    · rfl
    · cases createTypedFeatures P.config.choice P.config.props ids with
      | error e => rfl
      | ok features => rfl

theorem priceInitFit_rename (o : PriceObject) (P : PriceConfig σ) (F : DataFrame) (y : ℕ → ℝ) :
    (renamePriceObject ρ o).initFit (renamePrice ρ P) (renameFrame ρ F) y
      = (renamePriceObject ρ (o.initFit P F y).1, (o.initFit P F y).2.map (List.map (renameFeature ρ))) := by
  have hn : (renameFrame ρ F).n = F.n := rfl
  have hE : (renamePrice ρ P).args.estimator = P.args.estimator := rfl
  have hw : (renamePrice ρ P).config.weightColumn.toList ++ [(renamePrice ρ P).args.externalColumn]
      = (P.config.weightColumn.toList ++ [P.args.externalColumn]).map ρ := by
    rw [List.map_append, ← toList_rename]
    rfl
  have hp : (renamePrice ρ P).config.priorColumn.toList ++ (renamePrice ρ P).args.exponentColumn.toList
      = (P.config.priorColumn.toList ++ P.args.exponentColumn.toList).map ρ := by
    rw [List.map_append, ← toList_rename, ← toList_rename]
    rfl
  have hcf : createTypedFeatures (renamePrice ρ P).config.choice (renamePrice ρ P).config.props (renamePriceObject ρ o).ids
      = (createTypedFeatures P.config.choice P.config.props o.ids).map (List.map (renameFeature ρ)) := createTypedFeatures_rename ρ _ _ _
  unfold PriceObject.initFit
  rw [hn, hE, hw, has_rename, hcf, hp]
  cases checkLenData F.n F.n with
  | error e => rfl
  | ok _ =>
    dsimp only
    split
    · rfl
    · split
      · rfl
      · cases createTypedFeatures P.config.choice P.config.props o.ids with
        | error e => rfl
        | ok features =>
          dsimp only [Except.map]
          rw [featureColumns_rename, ← List.map_append, has_rename]
          split <;> rfl

/-- C137: fitting a price model to a table with other names for the columns. -/
theorem C137_price_fit (o : PriceObject) (P : PriceConfig σ) (F : DataFrame) (y : ℕ → ℝ) (fuel : ℕ) :
    (renamePriceObject ρ o).fit (renamePrice ρ P) (renameFrame ρ F) y fuel
      = (o.fit P F y fuel).map fun r => (renamePriceObject ρ r.1, r.2) := by
  unfold PriceObject.fit
  rw [priceInitFit_rename]
  rcases o.initFit P F y with ⟨o', r⟩
  cases r with
  | error e => rfl
  | ok features =>
    dsimp only [Except.map]
    have hs : (renamePrice ρ P).config.setup (features.map (renameFeature ρ))
        = { P.config.setup features with features := (P.config.setup features).features.map (renameFeature ρ), params := renameParams ρ (P.config.setup features).params } := by
      have hr : (renameConfig ρ P.config).rate = P.config.rate := by
        funext it
        have : (renameConfig ρ P.config).params.hierarchical.isSome = P.config.params.hierarchical.isSome := by simp [renameConfig, renameParams]
        unfold Config.rate
        rw [this]
        rfl
      change (renameConfig ρ P.config).setup _ = _
      unfold Config.setup
      rw [hr]
      rfl
    have hd : (renamePrice ρ P).config.trainSet (renameFrame ρ F) y = { P.config.trainSet F y with X := renameTable ρ (P.config.trainSet F y).X } :=
      trainSet_rename ρ P.config F y
    have ha : (renamePrice ρ P).args = renamePriceArgs ρ P.args := rfl
    rw [hs, hd, ha, setupPriceFit_rename]
    cases (P.config.setup features).priceFit P.args (P.config.trainSet F y) fuel with
    | none => rfl
    | some r =>
      cases r with
      | error e => rfl
      | ok m =>
        dsimp only [Option.map_some, Except.map]
        have himp : (renamePriceObject ρ o').importances = o'.importances.map fun e => (e.1.map ρ, e.2) := rfl
        rw [modelImportances_rename, himp, setFeatureImportances_rename]
        rfl

/-- C137: predicting with a price model for a table with other names for the columns. -/
theorem C137_price_predict (o : PriceObject) (P : PriceConfig σ) (F : DataFrame) :
    (renamePriceObject ρ o).predict (renamePrice ρ P) (renameFrame ρ F) = o.predict P F := by
  unfold PriceObject.predict
  have hs : (renamePriceObject ρ o).status = renameStatus ρ o.status := rfl
  rw [hs]
  cases o.status with
  | unfitted => rfl
  | broken => rfl
  | fitted m =>
    dsimp only [renameStatus]
    have hcols : (renamePrice ρ P).predictColumns (renamePriceObject ρ o) = (P.predictColumns o).map ρ := by
      unfold PriceConfig.predictColumns
      rw [List.map_append, List.map_append, List.map_append, ← toList_rename, ← toList_rename, ← featureColumns_rename]
      rfl
    have hpred : (renamePrice ρ P).args.predict (renameModel ρ m) ((renamePrice ρ P).config.prior (renameFrame ρ F)) (renameFrame ρ F).X
        = P.args.predict m (P.config.prior F) F.X := by
      funext s
      have hp : (renamePrice ρ P).config.prior (renameFrame ρ F) = P.config.prior F := prior_rename ρ P.config F
      have he : (renamePrice ρ P).args.exponent (renameFrame ρ F).X = P.args.exponent F.X := priceExponent_rename ρ P.args F.X
      have hx : (fun s => (renameFrame ρ F).X s (renamePrice ρ P).args.externalColumn) = fun s => F.X s P.args.externalColumn := by
        funext s
        simp [renameFrame, renamePrice]
      unfold PriceArgs.predict priceModelPredict predictExtended
      rw [hp, he, hx]
      dsimp only
      have := predictExtended_rename ρ F.X m.features
        ⟨fun s => (priorPrediction m.link m.scale m.offset (P.config.prior F) s).getFin, fun _ => 0⟩
      exact congrArg (fun p : Pred ℝ => pricePredict (p.factors s) (P.args.exponent F.X s) (p.exponents s) (F.X s P.args.externalColumn)) this
    rw [hcols, has_rename, hpred]

end

end CB
