import Mathlib.Tactic.TypeStar
set_option autoImplicit false

/-
Special floating point values.

float64 numbers are modelled by exact elements of an ordered field `K`, plus the three special values that steer
control flow in the Python code.  Simplification: no rounding, no overflow, no signed zero.
-/
namespace CB

/-- A float64 value: a finite number or one of the IEEE special values (`np.nan`, `np.inf`, `-np.inf`).
Models: cyclic_boosting/binning/bin_number_transformer.py:148 and every other float64 array. -/
inductive Flt (K : Type*) where
  | fin (x : K)
  | nan
  | pinf
  | ninf
  deriving DecidableEq, Repr

namespace Flt
variable {K : Type*}

/-- `np.isfinite`
Models: cyclic_boosting/binning/bin_number_transformer.py:152-154. -/
def isFinite : Flt K → Bool
  | fin _ => true
  | _ => false

/-- IEEE addition of a finite number: `x + e` (special values are absorbing).
Models: cyclic_boosting/binning/_binary_search.py:117. -/
def addFin [Add K] : Flt K → K → Flt K
  | fin x, e => fin (x + e)
  | nan, _ => nan
  | pinf, _ => pinf
  | ninf, _ => ninf

/-- `a <= s` for a finite `a` (every comparison with NaN is false).
Models: cyclic_boosting/binning/_binary_search.py:33-40. -/
def leOf [LE K] [DecidableLE K] (a : K) : Flt K → Bool
  | fin b => decide (a ≤ b)
  | pinf => true
  | ninf => false
  | nan => false

/-- `a >= s` for a finite `a` (every comparison with NaN is false).
Models: cyclic_boosting/binning/_binary_search.py:76-82. -/
def geOf [LE K] [DecidableLE K] (a : K) : Flt K → Bool
  | fin b => decide (b ≤ a)
  | pinf => false
  | ninf => true
  | nan => false

/-- `x == c` for a finite constant `c`.
Models: cyclic_boosting/binning/bin_number_transformer.py:152. -/
def eqFin [DecidableEq K] : Flt K → K → Bool
  | fin x, c => decide (x = c)
  | _, _ => false

end Flt

/-- numpy/numba element access with Python's negative-index wrap-around; `none` is an out-of-bounds access.
Models: cyclic_boosting/binning/_binary_search.py:118-119. -/
def pyGet {α : Type*} (z : List α) (i : Int) : Option α :=
  if 0 ≤ i then z[i.toNat]?
  else if -(z.length : Int) ≤ i then z[(z.length + i).toNat]?
  else none

end CB
