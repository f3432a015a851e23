import Verif.Model.SmootherChoice

/-!
# Specification: smoothers that the user gives for feature groups
-/

set_option autoImplicit false

namespace CB.Spec

/-- The user gave no smoother for the feature group. -/
def NoExplicit (c : Choice) (group : List String) : Prop := ∀ s, (group, s) ∉ c.explicit

/-- The user gave the smoother `s` for the feature group; the groups are the keys of a dictionary, so that there is one entry per
group. -/
def IsExplicit (c : Choice) (group : List String) (s : SmootherKind) : Prop :=
  (group, s) ∈ c.explicit ∧ ∀ s', (group, s') ∈ c.explicit → s' = s

end CB.Spec
