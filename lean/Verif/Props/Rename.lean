import Verif.Lemmas.Rename
import Verif.Spec.Rows
import Verif.Model.DispersionFit

/-!
# C137: the names of columns do not matter
-/

set_option autoImplicit false
set_option linter.unusedSectionVars false

namespace CB
open Spec

section
variable {σ : Type*} (ρ : Equiv.Perm String)

theorem has_rename (F : DataFrame) (columns : List String) : (renameFrame ρ F).has (columns.map ρ) = F.has columns := by
  unfold DataFrame.has renameFrame
  rw [List.all_map]
  congr 1
  funext c
  dsimp only [Function.comp]
  rw [Bool.eq_iff_iff, List.contains_iff_mem, List.contains_iff_mem, List.mem_map_of_injective ρ.injective]

theorem prior_rename (C : Config σ) (F : DataFrame) : (renameConfig ρ C).prior (renameFrame ρ F) = C.prior F := by
  unfold Config.prior renameConfig renameFrame
  cases C.priorColumn with
  | none => rfl
  | some c => simp

theorem trainSet_rename (C : Config σ) (F : DataFrame) (y : ℕ → ℝ) :
    (renameConfig ρ C).trainSet (renameFrame ρ F) y = { C.trainSet F y with X := renameTable ρ F.X } := by
  have hw : ((renameConfig ρ C).weightColumn.map fun c s => ((renameFrame ρ F).X s c).getFin)
      = C.weightColumn.map fun c s => (F.X s c).getFin := by
    unfold renameConfig renameFrame
    cases C.weightColumn with
    | none => rfl
    | some c => simp
  unfold Config.trainSet
  rw [prior_rename, hw]
  rfl

theorem defaultGroups_rename (C : Config σ) (F : DataFrame) :
    (renameConfig ρ C).defaultGroups (renameFrame ρ F) = renameGroups ρ (C.defaultGroups F) := by
  have hc : ∀ c, ((renameConfig ρ C).priorColumn.toList ++ (renameConfig ρ C).weightColumn.toList).contains (ρ c)
      = (C.priorColumn.toList ++ C.weightColumn.toList).contains c := by
    intro c
    have : (renameConfig ρ C).priorColumn.toList ++ (renameConfig ρ C).weightColumn.toList
        = (C.priorColumn.toList ++ C.weightColumn.toList).map ρ := by
      unfold renameConfig
      cases C.priorColumn <;> cases C.weightColumn <;> rfl
    rw [this, Bool.eq_iff_iff, List.contains_iff_mem, List.contains_iff_mem, List.mem_map_of_injective ρ.injective]
  unfold Config.defaultGroups renameGroups
  dsimp only
  have hF : (renameFrame ρ F).columns = F.columns.map ρ := rfl
  rw [hF, List.filter_map, List.map_map, List.map_map]
  have : ((fun c => !((renameConfig ρ C).priorColumn.toList ++ (renameConfig ρ C).weightColumn.toList).contains c) ∘ (ρ : String → String))
      = fun c => !(C.priorColumn.toList ++ C.weightColumn.toList).contains c := by
    funext c
    exact congrArg (! ·) (hc c)
  rw [this]
  rfl

theorem groupsFor_rename (o : EstimatorObject) (C : Config σ) (F : DataFrame) :
    (renameObject ρ o).groupsFor (renameConfig ρ C) (renameFrame ρ F) = renameGroups ρ (o.groupsFor C F) := by
  unfold EstimatorObject.groupsFor renameObject
  cases o.groups with
  | none => exact defaultGroups_rename ρ C F
  | some groups => rfl

theorem featureColumns_rename (features : List (FeatureSpec × SmootherKind)) :
    featureColumns (features.map (renameFeature ρ)) = (featureColumns features).map ρ := by
  unfold featureColumns
  rw [List.flatMap_map, List.map_flatMap]
  rfl

theorem toList_rename (c : Option String) : (c.map ρ).toList = c.toList.map ρ := by cases c <;> rfl

theorem initFit_rename (o : EstimatorObject) (C : Config σ) (E : Estimator) (F : DataFrame) (y : ℕ → ℝ) :
    (renameObject ρ o).initFit (renameConfig ρ C) E (renameFrame ρ F) y
      = (renameObject ρ (o.initFit C E F y).1, (o.initFit C E F y).2.map (List.map (renameFeature ρ))) := by
  unfold EstimatorObject.initFit
  have hn : (renameFrame ρ F).n = F.n := rfl
  have hw : (renameConfig ρ C).weightColumn.toList = C.weightColumn.toList.map ρ := toList_rename ρ _
  have hp : (renameConfig ρ C).priorColumn.toList = C.priorColumn.toList.map ρ := toList_rename ρ _
  have hcf : createFeatures (renameConfig ρ C).choice (renameConfig ρ C).props (renameGroups ρ (o.groupsFor C F))
      = (createFeatures C.choice C.props (o.groupsFor C F)).map (List.map (renameFeature ρ)) := createFeatures_rename ρ _ _ _
  rw [hn, hw, has_rename, groupsFor_rename, hcf, hp]
  cases checkLenData F.n F.n with
  | error e => rfl
  | ok _ =>
    dsimp only
    split
    · rfl
    · split
      · rfl
      · cases createFeatures C.choice C.props (o.groupsFor C F) with
        | error e => rfl
        | ok features =>
          dsimp only [Except.map]
          rw [featureColumns_rename, ← List.map_append, has_rename]
          split <;> rfl

/-- Training on the renamed table. -/
theorem setupFit_rename (S : Setup σ) (E : Estimator) (hE : IgnoresNames E) (D : TrainSet) (fuel : ℕ) :
    ({ S with features := S.features.map (renameFeature ρ), params := renameParams ρ S.params } : Setup σ).fit E
        { D with X := renameTable ρ D.X } fuel
      = (S.fit E D fuel).map fun r => r.map (renameModel ρ) := by
  have hcfgs : ({ S with features := S.features.map (renameFeature ρ), params := renameParams ρ S.params } : Setup σ).cfgs
      { D with X := renameTable ρ D.X } = (S.cfgs D).map (renameCfg ρ) := by
    unfold Setup.cfgs
    dsimp only
    rw [List.map_map, List.map_map]
    exact List.map_congr_left fun f _ => cfg_rename ρ f D.X D.n
  have hor : ({ S with features := S.features.map (renameFeature ρ), params := renameParams ρ S.params } : Setup σ).oracle E
      { D with X := renameTable ρ D.X } = S.oracle E D := by
    unfold Setup.oracle
    dsimp only
    congr 1
    · funext it i pred fs b
      rw [List.getElem?_map]
      cases S.features[i]? with
      | none => rfl
      | some f =>
        dsimp only [Option.map_some]
        rw [cfg_rename]
    · funext it i pred fs u
      rw [List.getElem?_map]
      cases S.features[i]? with
      | none => rfl
      | some f =>
        dsimp only [Option.map_some]
        rw [cfg_rename]
        have : bindData (renameTable ρ D.X) D.n (renameFeature ρ f).1.group none = bindData D.X D.n f.1.group none := bindData_rename ρ _ _ _ _
        rw [this]
        rfl
    · funext it i fs
      rw [List.getElem?_map]
      cases S.features[i]? with
      | none => rfl
      | some f =>
        dsimp only [Option.map_some]
        rw [cfg_rename, hE]
  have hoff : E.offset { D with X := renameTable ρ D.X } = E.offset D := rfl
  have hpar : ({ S with features := S.features.map (renameFeature ρ), params := renameParams ρ S.params } : Setup σ).paramsFor E
      = renameParams ρ (S.paramsFor E) := rfl
  have hfit : ∀ factors, fittedFeatures (renameTable ρ D.X) D.n ((S.features.map (renameFeature ρ)).map (·.1)) factors
      = (fittedFeatures D.X D.n (S.features.map (·.1)) factors).map fun f => { f with group := f.group.map ρ } := by
    intro factors
    unfold fittedFeatures
    rw [List.map_map, List.zipWith_map_left, List.zipWith_map_left, List.map_zipWith]
    congr 1
    funext f fac
    dsimp only [Function.comp]
    have : bindData (renameTable ρ D.X) D.n (renameFeature ρ f).1.group none = bindData D.X D.n f.1.group none := bindData_rename ρ _ _ _ _
    rw [this]
    rfl
  unfold Setup.fit
  rw [hcfgs, hor, hoff, hpar]
  dsimp only
  rw [fitMain_rename]
  split
  · split
    · cases fitMain (S.paramsFor E) (S.oracle E D) (S.cfgs D)
          (fun s => (priorPrediction E.link (E.scale D.n D.y D.w) (E.offset D) D.prior s).getFin) fuel with
      | none => rfl
      | some r =>
        cases r with
        | error e => rfl
        | ok r =>
          dsimp only [Option.map_some, Except.map]
          rw [hfit]
          rfl
    · rfl
  · rfl

theorem modelImportances_rename (F : DataFrame) (m : FittedModel) :
    modelImportances (renameFrame ρ F) (renameModel ρ m) = (modelImportances F m).map fun e => (e.1.map ρ, e.2) := by
  unfold modelImportances renameModel
  rw [List.map_map, List.map_map]
  refine List.map_congr_left fun f _ => ?_
  dsimp only [Function.comp]
  have : bindData (renameFrame ρ F).X (renameFrame ρ F).n (f.group.map ρ) none = bindData F.X F.n f.group none := bindData_rename ρ _ _ _ _
  rw [this]
  rfl

theorem setFeatureImportances_rename (before : List (List String × ℝ)) (features : List (List String × List ℕ × ℕ × (ℕ → ℝ))) :
    setFeatureImportances (before.map fun e => (e.1.map ρ, e.2)) (features.map fun e => (e.1.map ρ, e.2))
      = (setFeatureImportances before features).map fun e => (e.1.map ρ, e.2) := by
  unfold setFeatureImportances
  rw [List.map_append, List.map_map, List.map_map]
  rfl

/-- C137: constructing an estimator with other names for the columns. -/
theorem C137_construct (C : Config σ) : (renameConfig ρ C).construct = C.construct.map (renameObject ρ) := by
  have hg : (renameConfig ρ C).groups = some [] ↔ C.groups = some [] := by
    unfold renameConfig renameGroups
    cases C.groups with
    | none => simp
    | some groups => simp
  have hd : (renameConfig ρ C).groups.getD [] = renameGroups ρ (C.groups.getD []) := by
    unfold renameConfig
    cases C.groups <;> rfl
  have hcf : createFeatures (renameConfig ρ C).choice (renameConfig ρ C).props (renameGroups ρ (C.groups.getD []))
      = (createFeatures C.choice C.props (C.groups.getD [])).map (List.map (renameFeature ρ)) := createFeatures_rename ρ _ _ _
  unfold Config.construct
  simp only [hg, hd, hcf]
  split
  · rfl
  · cases createFeatures C.choice C.props (C.groups.getD []) with
    | error e => rfl
    | ok features => rfl

/-- C137: fitting an estimator to a table with other names for the columns. -/
theorem C137_fit (o : EstimatorObject) (C : Config σ) (E : Estimator) (hE : IgnoresNames E) (F : DataFrame) (y : ℕ → ℝ) (fuel : ℕ) :
    (renameObject ρ o).fit (renameConfig ρ C) E (renameFrame ρ F) y fuel
      = (o.fit C E F y fuel).map fun r => (renameObject ρ r.1, r.2) := by
  unfold EstimatorObject.fit
  rw [initFit_rename]
  rcases o.initFit C E F y with ⟨o', r⟩
  cases r with
  | error e => rfl
  | ok features =>
    dsimp only [Except.map]
    have hs : (renameConfig ρ C).setup (features.map (renameFeature ρ))
        = { C.setup features with features := (C.setup features).features.map (renameFeature ρ), params := renameParams ρ (C.setup features).params } := by
      have hr : (renameConfig ρ C).rate = C.rate := by
        funext it
        have : (renameConfig ρ C).params.hierarchical.isSome = C.params.hierarchical.isSome := by simp [renameConfig, renameParams]
        unfold Config.rate
        rw [this]
        rfl
      unfold Config.setup
      rw [hr]
      rfl
    rw [hs, trainSet_rename]
    have hX : renameTable ρ F.X = renameTable ρ (C.trainSet F y).X := rfl
    rw [hX, setupFit_rename ρ (C.setup features) E hE (C.trainSet F y) fuel]
    cases (C.setup features).fit E (C.trainSet F y) fuel with
    | none => rfl
    | some r =>
      cases r with
      | error e => rfl
      | ok m =>
        dsimp only [Option.map_some, Except.map]
        have himp : (renameObject ρ o').importances = o'.importances.map fun e => (e.1.map ρ, e.2) := rfl
        rw [modelImportances_rename, himp, setFeatureImportances_rename]
        rfl

theorem predictExtended_rename (X : Table ℝ) (features : List (FittedFeature ℝ)) : ∀ (p : Pred ℝ),
    (features.map fun f => { f with group := f.group.map ρ }).foldl (fun pred f =>
      let v : ℕ → ℝ := fun s => f.predict ((renameTable ρ X).row f.group s)
      if f.external then { pred with exponents := fun s => pred.exponents s + v s }
      else { pred with factors := fun s => pred.factors s + v s }) p
    = features.foldl (fun pred f =>
      let v : ℕ → ℝ := fun s => f.predict (X.row f.group s)
      if f.external then { pred with exponents := fun s => pred.exponents s + v s }
      else { pred with factors := fun s => pred.factors s + v s }) p := by
  intro p
  rw [List.foldl_map]
  congr 1
  funext pred f
  have : ∀ row, FittedFeature.predict { f with group := f.group.map ρ } row = f.predict row := by
    intro row
    unfold FittedFeature.predict FittedFeature.smoother
    simp only [List.length_map]
    rfl
  simp only [this, row_rename]

/-- C137: predicting a table with other names for the columns. -/
theorem C137_predict (o : EstimatorObject) (C : Config σ) (F : DataFrame) :
    (renameObject ρ o).predict (renameConfig ρ C) (renameFrame ρ F) = o.predict C F := by
  unfold EstimatorObject.predict
  have hc : (renameObject ρ o).checkFitted = o.checkFitted := by
    unfold EstimatorObject.checkFitted renameObject
    simp
  rw [hc]
  cases o.checkFitted with
  | error e => rfl
  | ok _ =>
    dsimp only
    have hs : (renameObject ρ o).status = renameStatus ρ o.status := rfl
    rw [hs]
    cases o.status with
    | unfitted => rfl
    | broken => rfl
    | fitted m =>
      dsimp only [renameStatus]
      have hcols : (renameConfig ρ C).priorColumn.toList ++ ((renameModel ρ m).features.flatMap fun f => f.group)
          = (C.priorColumn.toList ++ m.features.flatMap fun f => f.group).map ρ := by
        have hp : (renameConfig ρ C).priorColumn.toList = C.priorColumn.toList.map ρ := toList_rename ρ _
        rw [hp, List.map_append, List.map_flatMap]
        congr 1
        unfold renameModel
        rw [List.flatMap_map]
      have hpred : (renameModel ρ m).predict ((renameConfig ρ C).prior (renameFrame ρ F)) (renameFrame ρ F).X = m.predict (C.prior F) F.X := by
        funext s
        unfold FittedModel.predict predictExtended
        rw [prior_rename]
        have := predictExtended_rename ρ F.X m.features
          ⟨fun s => (priorPrediction m.link m.scale m.offset (C.prior F) s).getFin, fun _ => 0⟩
        exact congrArg (fun p : Pred ℝ => m.link.toLink.unlink (p.factors s)) this
      rw [hcols, has_rename, hpred]

/-- C137: adding the predictions as a column to a table with other names for the columns. -/
theorem C137_transform (hρ : ρ "" = "") (o : EstimatorObject) (C : Config σ) (F : DataFrame) :
    (renameObject ρ o).transform (renameConfig ρ C) (renameFrame ρ F)
      = (o.transform C F).map fun r => r.map (renameFrame ρ) := by
  have hadd : ∀ c v, (renameFrame ρ F).addColumn (ρ c) v = renameFrame ρ (F.addColumn c v) := by
    intro c v
    unfold DataFrame.addColumn renameFrame
    dsimp only
    rw [List.map_append, List.map_singleton]
    congr 1
    funext s d
    simp only [Equiv.symm_apply_eq]
  have hchk : (renameConfig ρ C).checkOutput (renameFrame ρ F) = (C.checkOutput F).map ρ := by
    have ho : (renameConfig ρ C).outputColumn = C.outputColumn.map ρ := rfl
    unfold Config.checkOutput
    rw [ho]
    cases C.outputColumn with
    | none => rfl
    | some c =>
      dsimp only [Option.map_some]
      have h1 : (ρ c = "" ∨ ρ c ∈ (renameFrame ρ F).columns) ↔ (c = "" ∨ c ∈ F.columns) := by
        have hm : ρ c ∈ (renameFrame ρ F).columns ↔ c ∈ F.columns := List.mem_map_of_injective ρ.injective
        rw [hm]
        refine or_congr ?_ Iff.rfl
        rw [← hρ, ρ.injective.eq_iff, hρ]
      simp only [h1]
      split <;> rfl
  unfold EstimatorObject.transform
  rw [hchk, C137_predict]
  cases C.checkOutput F with
  | error e => rfl
  | ok c =>
    dsimp only [Except.map]
    cases o.predict C F with
    | none => rfl
    | some r =>
      cases r with
      | error e => rfl
      | ok v =>
        dsimp only [Option.map_some, Except.map]
        rw [hadd]

/-- C137: none of the estimators looks at names when it calibrates. -/
theorem C137_estimators (E : Estimator) (hE : Modelled E ∨ Optimising E ∨ ∃ A mu, E = dispersionEstimator A mu) : IgnoresNames E := by
  rcases hE with hE | hE | ⟨A, mu, rfl⟩
  · cases hE <;> intro cfg group <;> rfl
  · cases hE <;> intro cfg group <;> rfl
  · intro cfg group
    rfl

/-- C137: whoever renames columns consistently, in the tables and in the arguments, gets the same predictions and the same
importances. -/
theorem C137_names (C : Config σ) (E : Estimator) (hE : Modelled E ∨ Optimising E) (F : DataFrame) (y : ℕ → ℝ) (fuel : ℕ)
    (o o' : EstimatorObject) (hc : C.construct = .ok o) (hf : o.fit C E F y fuel = some (o', .ok ())) :
    ∃ r r', (renameConfig ρ C).construct = .ok r ∧ r.fit (renameConfig ρ C) E (renameFrame ρ F) y fuel = some (r', .ok ()) ∧
      (∀ G, r'.predict (renameConfig ρ C) (renameFrame ρ G) = o'.predict C G) ∧
      r'.importances.map Prod.snd = o'.importances.map Prod.snd := by
  refine ⟨renameObject ρ o, renameObject ρ o', ?_, ?_, fun G => C137_predict ρ o' C G, ?_⟩
  · rw [C137_construct, hc]
    rfl
  · rw [C137_fit ρ o C E (C137_estimators E (hE.elim .inl fun h => .inr (.inl h))), hf]
    rfl
  · change List.map Prod.snd (o'.importances.map fun e => (e.1.map ρ, e.2)) = _
    rw [List.map_map]
    rfl

/-- C137, what the names do decide: `get_feature_importances` joins the names of a group with underscores, so after a renaming
two features can share an entry. -/
theorem C137_joined_names :
    (getFeatureImportances (K := ℚ) [(["a", "b"], 1), (["c"], 1)]).map List.length = .ok 2 ∧
      (getFeatureImportances (K := ℚ) [(["a", "b"], 1), (["a_b"], 1)]).map List.length = .ok 1 := by
  decide +kernel

end

end CB
