import Mathlib.Algebra.Order.Round
import Mathlib.Algebra.Order.Floor.Ring
import Verif.Spec.Multidim

set_option autoImplicit false

/-!
# Specification: bins without training weight
-/
namespace CB.Spec

/-- A property without interpolation: neither continuous (bit 0) nor linear (8) nor seasonal (9). -/
def IsCategorical (fp : ℕ) : Prop := fp.testBit 0 = false ∧ fp.testBit 8 = false ∧ fp.testBit 9 = false

/-- The row `x` belongs to the bin tuple `t`: a single column lies nearer to its bin number than 1/2, several columns lie
between the bin number and the next one. -/
def BelongsTo {K : Type*} [Field K] [LinearOrder K] (x : List K) (t : List ℕ) : Prop :=
  match x, t with
  | [y], [k] => 0 ≤ y ∧ |y - k| < 1 / 2
  | _, _ => InCell x t

end CB.Spec
