import Verif.Spec.Explicit

set_option autoImplicit false

namespace CB
open Spec

theorem noExplicit_iff {c : Choice} {group : List String} : c.explicitFor group = none ↔ NoExplicit c group := by
  unfold Choice.explicitFor NoExplicit
  rw [Option.map_eq_none_iff, List.find?_eq_none]
  constructor
  · intro h s hs
    exact h _ hs (by simp)
  · rintro h ⟨g, s⟩ hp hg
    simp only [decide_eq_true_eq] at hg
    subst hg
    exact h s hp

theorem isExplicit_some {c : Choice} {group : List String} {s : SmootherKind} (h : IsExplicit c group s) :
    c.explicitFor group = some s := by
  cases h0 : c.explicitFor group with
  | none => exact absurd h.1 (noExplicit_iff.mp h0 s)
  | some s' =>
    unfold Choice.explicitFor at h0
    rw [Option.map_eq_some_iff] at h0
    obtain ⟨⟨g, k⟩, h1, rfl⟩ := h0
    have h2 := List.find?_some h1
    simp only [decide_eq_true_eq] at h2
    subst h2
    rw [h.2 k (List.mem_of_find?_eq_some h1)]

end CB
