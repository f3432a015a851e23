import Verif.Model.FeatureLookup

/-!
# What a name of a feature denotes
-/

set_option autoImplicit false

namespace CB
namespace Spec

/-- The columns and the type that a name of a feature stands for. -/
inductive Denotes : GroupArg → List String → FType → Prop
  | name (s : String) : Denotes (.name s) [s] .standard
  | tuple (g : List String) : Denotes (.tuple g) g .standard
  | id (f : FeatureId) : Denotes (.id f) f.group f.ftype

/-- A dictionary of explicit smoothers as the documentation asks for: the keys are tuples of strings, the values smoothers. -/
def ProperSmoothers (d : List (ExplicitKey × Option SmootherKind)) (proper : List (List String × SmootherKind)) : Prop :=
  d = proper.map fun p => (ExplicitKey.tuple (p.1.map some), some p.2)

end Spec
end CB
