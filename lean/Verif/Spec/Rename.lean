import Verif.Model.Api
import Verif.Model.PriceFit

/-!
# Specification: columns with other names (C137)

`ρ` gives every column its new name; different columns keep different names.
-/

set_option autoImplicit false

namespace CB.Spec

/-- The same table with other names for its columns. -/
def renameFrame (ρ : Equiv.Perm String) (F : DataFrame) : DataFrame :=
  ⟨F.columns.map ρ, fun s column => F.X s (ρ.symm column), F.n⟩

/-- The same feature groups with the new names. -/
def renameGroups (ρ : Equiv.Perm String) (groups : List (List String)) : List (List String) := groups.map fun group => group.map ρ

/-- The same explicit smoothers for the renamed feature groups. -/
def renameChoice (ρ : Equiv.Perm String) (choice : Choice) : Choice :=
  { choice with explicit := choice.explicit.map fun e => (e.1.map ρ, e.2) }

/-- The same hierarchical feature groups with the new names. -/
def renameParams (ρ : Equiv.Perm String) (p : Params ℝ) : Params ℝ :=
  { p with hierarchical := p.hierarchical.map (renameGroups ρ) }

/-- The same constructor arguments, with the new names wherever a column is named. -/
def renameConfig {σ : Type*} (ρ : Equiv.Perm String) (C : Config σ) : Config σ :=
  { C with
    groups := C.groups.map (renameGroups ρ)
    props := C.props.map fun props => props.map fun e => (ρ e.1, e.2)
    choice := renameChoice ρ C.choice
    weightColumn := C.weightColumn.map ρ
    priorColumn := C.priorColumn.map ρ
    params := renameParams ρ C.params
    outputColumn := C.outputColumn.map ρ }

/-- The same features with the new names. -/
def renameFeature (ρ : Equiv.Perm String) (f : FeatureSpec × SmootherKind) : FeatureSpec × SmootherKind :=
  ({ f.1 with group := f.1.group.map ρ }, f.2)

/-- The same fitted model with the new names: same global scale, same factors, same number of iterations. -/
def renameModel (ρ : Equiv.Perm String) (m : FittedModel) : FittedModel :=
  { m with features := m.features.map fun f => { f with group := f.group.map ρ } }

/-- The same state of training with the new names. -/
def renameStatus (ρ : Equiv.Perm String) : Status → Status
  | .unfitted => .unfitted
  | .fitted m => .fitted (renameModel ρ m)
  | .broken => .broken

/-- The same estimator object with the new names. -/
def renameObject (ρ : Equiv.Perm String) (o : EstimatorObject) : EstimatorObject :=
  ⟨o.groups.map (renameGroups ρ), o.features.map (List.map (renameFeature ρ)), renameStatus ρ o.status,
    o.importances.map fun e => (e.1.map ρ, e.2)⟩

/-- The same feature group of a price model with the new names. -/
def renameArg (ρ : Equiv.Perm String) : GroupArg → GroupArg
  | .name column => .name (ρ column)
  | .tuple group => .tuple (group.map ρ)
  | .id f => .id ⟨f.group.map ρ, f.ftype⟩

/-- The same constructor arguments of a price model, with the new names. -/
def renamePrice {σ : Type*} (ρ : Equiv.Perm String) (P : PriceConfig σ) : PriceConfig σ :=
  { standard := P.standard.map (List.map (renameArg ρ))
    external := P.external.map (List.map (renameArg ρ))
    args := { P.args with externalColumn := ρ P.args.externalColumn, exponentColumn := P.args.exponentColumn.map ρ }
    config := renameConfig ρ P.config }

/-- The same price model with the new names. -/
def renamePriceObject (ρ : Equiv.Perm String) (o : PriceObject) : PriceObject :=
  ⟨o.ids.map fun f => ⟨f.group.map ρ, f.ftype⟩, o.features.map (renameFeature ρ), renameStatus ρ o.status,
    o.importances.map fun e => (e.1.map ρ, e.2)⟩

/-- The estimator calibrates the factors of a feature without looking at the names of its columns. -/
def IgnoresNames (E : Estimator) : Prop :=
  ∀ (cfg : FeatureCfg) (group : List String), E.calibrate { cfg with group := group } = E.calibrate cfg

end CB.Spec
