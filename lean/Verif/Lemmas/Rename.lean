import Verif.Spec.Rename
import Verif.Model.Training

/-!
# Training does not look at the names of columns
-/

set_option autoImplicit false
set_option linter.unusedSectionVars false

namespace CB
open Spec

/-- A bound feature with other names. -/
abbrev renameCfg (ρ : Equiv.Perm String) (cfg : FeatureCfg) : FeatureCfg := { cfg with group := cfg.group.map ρ }

variable (ρ : Equiv.Perm String)

theorem map_names_injective : Function.Injective (List.map (ρ : String → String)) := List.map_injective_iff.2 ρ.injective

theorem skipped_rename (p : Params ℝ) (it : ℕ) (cfg : FeatureCfg) :
    skipped (renameParams ρ p) it (renameCfg ρ cfg) = skipped p it cfg := by
  unfold skipped renameParams renameGroups
  cases p.hierarchical with
  | none => rfl
  | some groups =>
    dsimp only [Option.map_some]
    congr 2
    rw [Bool.eq_iff_iff, List.contains_iff_mem, List.contains_iff_mem,
      List.mem_map_of_injective (f := List.map (ρ : String → String)) (map_names_injective ρ)]

theorem featureIteration_rename (p : Params ℝ) (o : Oracle ℝ) (it k : ℕ) (cfg : FeatureCfg) (dv : ℕ) (isd : Bool) (il : Flt ℝ)
    (fs : FState ℝ) (pred : Pred ℝ) :
    featureIteration (renameParams ρ p) o it k (renameCfg ρ cfg) dv isd il fs pred = featureIteration p o it k cfg dv isd il fs pred := by
  have hc : ∀ c fs, clipUpdate c (renameCfg ρ cfg) fs = clipUpdate (K := ℝ) c cfg fs := by
    intro c fs
    unfold clipUpdate
    simp only [List.length_map]
  have hv : ∀ dv isd il u fs pred, visitFactors (renameParams ρ p) o (renameCfg ρ cfg) dv isd il u fs pred
      = visitFactors p o cfg dv isd il u fs pred := by
    intro dv isd il u fs pred
    unfold visitFactors
    simp only [hc]
    rfl
  unfold featureIteration
  simp only [hv]
  rfl

theorem featurePass_rename (p : Params ℝ) (o : Oracle ℝ) (it dv : ℕ) (isd : Bool) (il : Flt ℝ) :
    ∀ (cfgs : List FeatureCfg) (k : ℕ) (fss : List (FState ℝ)) (pred : Pred ℝ),
      featurePass (renameParams ρ p) o it dv isd il k (cfgs.map (renameCfg ρ)) fss pred = featurePass p o it dv isd il k cfgs fss pred
  | [], k, fss, pred => by simp [featurePass]
  | cfg :: cfgs, k, [], pred => by simp [featurePass]
  | cfg :: cfgs, k, fs :: fss, pred => by
    rw [List.map_cons]
    unfold featurePass
    simp only [skipped_rename, featureIteration_rename, featurePass_rename p o it dv isd il cfgs (k + 1) fss]

theorem removePreds_rename : ∀ (cfgs : List FeatureCfg) (fss : List (FState ℝ)) (pred : Pred ℝ),
    removePreds (cfgs.map (renameCfg ρ)) fss pred = removePreds cfgs fss pred
  | [], _, _ => by simp [removePreds]
  | cfg :: cfgs, [], _ => by simp [removePreds]
  | cfg :: cfgs, fs :: fss, pred => by
    rw [List.map_cons]
    unfold removePreds
    simp only [removePreds_rename cfgs fss]
    rfl

theorem factorsDeviation_rename (cfgs : List FeatureCfg) (fss : List (FState ℝ)) :
    factorsDeviation (cfgs.map (renameCfg ρ)) fss = factorsDeviation cfgs fss := by
  unfold factorsDeviation
  rw [List.length_map, List.zipWith_map_left]
  rfl

theorem iterate_rename (p : Params ℝ) (o : Oracle ℝ) (cfgs : List FeatureCfg) (s : TState ℝ) :
    iterate (renameParams ρ p) o (cfgs.map (renameCfg ρ)) s = iterate p o cfgs s := by
  unfold iterate
  simp only [featurePass_rename, removePreds_rename, factorsDeviation_rename]

theorem continues_rename (p : Params ℝ) (s : TState ℝ) : continues (renameParams ρ p) s = continues p s := by
  have : (renameParams ρ p).hierarchical.isSome = p.hierarchical.isSome := by simp [renameParams]
  unfold continues checkStop
  simp only [this]
  rfl

theorem loop_rename (p : Params ℝ) (o : Oracle ℝ) (cfgs : List FeatureCfg) : ∀ (fuel : ℕ) (s : TState ℝ),
    loop (renameParams ρ p) o (cfgs.map (renameCfg ρ)) fuel s = loop p o cfgs fuel s
  | 0, s => by unfold loop; rw [continues_rename]
  | fuel + 1, s => by
    unfold loop
    simp only [continues_rename, iterate_rename, loop_rename p o cfgs fuel]

theorem fitMain_rename (p : Params ℝ) (o : Oracle ℝ) (cfgs : List FeatureCfg) (prior : ℕ → ℝ) (fuel : ℕ) :
    fitMain (renameParams ρ p) o (cfgs.map (renameCfg ρ)) prior fuel = fitMain p o cfgs prior fuel := by
  have : startState o (cfgs.map (renameCfg ρ)) prior = startState o cfgs prior := by
    unfold startState
    rw [List.map_map]
    rfl
  unfold fitMain
  rw [this, loop_rename]

/-! ### Binning -/

/-- The table of a renamed frame. -/
abbrev renameTable (X : Table ℝ) : Table ℝ := fun s column => X s (ρ.symm column)

theorem row_rename (X : Table ℝ) (group : List String) (s : ℕ) : (renameTable ρ X).row (group.map ρ) s = X.row group s := by
  unfold Table.row renameTable
  rw [List.map_map]
  exact List.map_congr_left fun c _ => by simp

theorem bindData_rename (X : Table ℝ) (n : ℕ) (group : List String) (nBins : Option (List ℕ)) :
    bindData (renameTable ρ X) n (group.map ρ) nBins = bindData X n group nBins := by
  unfold bindData
  have : (renameTable ρ X).row (group.map ρ) = X.row group := funext fun s => row_rename ρ X group s
  rw [this, List.length_map]

theorem cfg_rename (f : FeatureSpec × SmootherKind) (X : Table ℝ) (n : ℕ) :
    (renameFeature ρ f).1.cfg (renameTable ρ X) n = renameCfg ρ (f.1.cfg X n) := by
  unfold FeatureSpec.cfg renameFeature
  simp only [bindData_rename]

/-! ### Properties and smoothers of feature groups -/

theorem lookup_rename (d : List (String × ℕ)) (c : String) : (d.map fun e => (ρ e.1, e.2)).lookup (ρ c) = d.lookup c := by
  induction d with
  | nil => rfl
  | cons e d ih =>
    rw [List.map_cons, List.lookup_cons, List.lookup_cons, ih]
    have : (ρ c == ρ e.1) = (c == e.1) := by rw [Bool.eq_iff_iff, beq_iff_eq, beq_iff_eq, ρ.injective.eq_iff]
    rw [this]

theorem readFeatureProperty_rename (props : Option (List (String × ℕ))) (group : List String) (default : ℕ) :
    readFeatureProperty (props.map fun props => props.map fun e => (ρ e.1, e.2)) (group.map ρ) default
      = readFeatureProperty props group default := by
  unfold readFeatureProperty
  rw [List.map_map]
  refine List.map_congr_left fun c _ => ?_
  cases props with
  | none => rfl
  | some d => exact congrArg (Option.getD · default) (lookup_rename ρ d c)

theorem explicitFor_rename (c : Choice) (group : List String) : (renameChoice ρ c).explicitFor (group.map ρ) = c.explicitFor group := by
  unfold Choice.explicitFor renameChoice
  dsimp only
  rw [List.find?_map, Option.map_map]
  have : ((fun p : List String × SmootherKind => decide (p.1 = group.map ρ)) ∘ fun e : List String × SmootherKind => (e.1.map ρ, e.2))
      = fun p => decide (p.1 = group) := by
    funext p
    exact decide_eq_decide.2 (map_names_injective ρ).eq_iff
  rw [this]
  rfl

theorem onedim_rename (c : Choice) (fp : ℕ) (name : String) : (renameChoice ρ c).onedim fp (ρ name) = c.onedim fp name := by
  have := explicitFor_rename ρ c [name]
  rw [List.map_singleton] at this
  unfold Choice.onedim
  rw [this]
  rfl

theorem wrap_rename (c : Choice) (s : SmootherKind) (fps : List ℕ) : (renameChoice ρ c).wrap s fps = c.wrap s fps := rfl

theorem raw_rename (c : Choice) (group : List String) (fps : List ℕ) : (renameChoice ρ c).raw (group.map ρ) fps = c.raw group fps := by
  unfold Choice.raw
  simp only [List.getLast?_map, List.head?_map, List.length_map, wrap_rename]
  have hk : (renameChoice ρ c).kind = c.kind := rfl
  rw [hk]
  cases c.kind <;> cases group.getLast? <;> cases group.head? <;> cases fps.getLast? <;> cases fps.head? <;>
    simp only [Option.map_some, Option.map_none, onedim_rename]

theorem choose_rename (c : Choice) (group : List String) (fps : List ℕ) :
    (renameChoice ρ c).choose (group.map ρ) fps = c.choose group fps := by
  unfold Choice.choose
  simp only [explicitFor_rename, raw_rename, wrap_rename, List.length_map]
  rfl

theorem smootherForGroup_rename (c : Choice) (props : Option (List (String × ℕ))) (group : List String) :
    smootherForGroup (renameChoice ρ c) (props.map fun props => props.map fun e => (ρ e.1, e.2)) (group.map ρ)
      = smootherForGroup c props group := by
  unfold smootherForGroup
  rw [readFeatureProperty_rename, choose_rename]

theorem createFeatures_rename (c : Choice) (props : Option (List (String × ℕ))) (groups : List (List String)) :
    createFeatures (renameChoice ρ c) (props.map fun props => props.map fun e => (ρ e.1, e.2)) (renameGroups ρ groups)
      = (createFeatures c props groups).map (List.map (renameFeature ρ)) := by
  induction groups with
  | nil => rfl
  | cons group groups ih =>
    have ih' := ih
    unfold renameGroups at ih' ⊢
    rw [List.map_cons]
    unfold createFeatures
    rw [smootherForGroup_rename, ih', readFeatureProperty_rename]
    cases smootherForGroup c props group with
    | error e => rfl
    | ok kind =>
      dsimp only
      cases createFeatures c props groups with
      | error e => rfl
      | ok rest => rfl

end CB
