import Verif.Model.ConcurrentPredict

/-!
# Specification: what a prediction gives without other threads
-/

set_option autoImplicit false

namespace CB.Spec

/-- The price minus one, 0 where the price is missing. -/
noncomputable def pricesMinusOne (prices : List (Flt ℝ)) : List (Flt ℝ) := prices.map fun x =>
  match x with
  | .fin v => .fin (v - 1)
  | _ => .fin 0

/-- The result of a thread that runs alone. -/
noncomputable def alone {R : Type*} (kind : KeeperKind) (prices : List (Flt ℝ)) (finish : Option (List (Flt ℝ)) → R) : R :=
  finish (if kind = .price then some (pricesMinusOne prices) else none)

end CB.Spec
