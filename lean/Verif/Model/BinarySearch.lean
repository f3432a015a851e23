import Mathlib.Algebra.Order.Field.Basic
import Mathlib.Algebra.Order.Group.Abs
import Verif.Model.Flt

set_option autoImplicit false

/-!
Model of `cyclic_boosting/binning/_binary_search.py`.

Arrays to search in are lists of finite numbers (the fitted bin boundaries); searched values may be special values.
Simplification: exact arithmetic; a training column that contains infinities (which would put infinities into the
boundaries) is outside the model.
-/
namespace CB

section order
variable {K : Type*} [LE K] [DecidableLE K]

/-- The `while` loop of `le`, `_binary_search.py` lines 35-41. -/
def leLoop (z : List K) (s : Flt K) (iLeft iRight : Int) : Option Int :=
  if iLeft < iRight - 1 then
    let i := (iLeft + iRight) / 2
    match pyGet z i with
    | none => none
    | some zi =>
      if Flt.leOf zi s then leLoop z s i iRight
      else leLoop z s iLeft i
  else some iLeft
termination_by (iRight - iLeft).toNat

/-- `le`, `_binary_search.py` lines 10-41. `none` would be an out-of-bounds array access. -/
def le (z : List K) (s : Flt K) (inclusive : Bool) : Option Int :=
  leLoop z s (if inclusive then 0 else -1) z.length

/-- The `while` loop shared by `ge` (lines 76-82) and `ge_lim` (lines 289-295) of `_binary_search.py`.
Models: cyclic_boosting/binning/_binary_search.py:76-82,289-295. -/
def geLoop (z : List K) (s : Flt K) (iLeft iRight : Int) : Option Int :=
  if iLeft < iRight - 1 then
    let i := (iLeft + iRight) / 2
    match pyGet z i with
    | none => none
    | some zi =>
      if Flt.geOf zi s then geLoop z s iLeft i
      else geLoop z s i iRight
  else some iRight
termination_by (iRight - iLeft).toNat

/-- `ge`, `_binary_search.py` lines 45-82. -/
def ge (z : List K) (s : Flt K) (inclusive : Bool) : Option Int :=
  geLoop z s (-1) (if inclusive then (z.length : Int) - 1 else z.length)

/-- `ge_lim`, `_binary_search.py` lines 250-295. -/
def geLim (z : List K) (s : Flt K) (inclusive : Bool) (iLeft iRight : Int) : Option Int :=
  geLoop z s (iLeft - 1) (if inclusive then iRight - 1 else iRight)

end order

variable {K : Type*} [Field K] [LinearOrder K]

/-- `check_equal`, `_binary_search.py` lines 299-330, for a finite first argument. With a non-finite second argument
`abs_diff` is NaN or infinite and the right-hand side is NaN or infinite with `rtol = 0.0` giving `0.0 * inf = NaN`;
every comparison is then false. The callers only use `rtol = 0.0`. -/
def checkEqual (z1 : K) (z2 : Flt K) (atol rtol : K) : Bool :=
  match z2 with
  | .fin z2 => decide (|z1 - z2| ≤ atol + rtol * (|z1| + |z2|))
  | _ => false

/-- One element of `eq_multi`, `_binary_search.py` lines 117-122: `u[ind]` or NaN; `none` = out-of-bounds access. -/
def eqOne (z : List K) (s : Flt K) (u : List K) (eps : K) : Option (Flt K) :=
  match le z (s.addFin eps) false with
  | none => none
  | some ind =>
    match pyGet z ind with
    | none => none
    | some zi =>
      if checkEqual zi s eps 0 then
        match pyGet u ind with
        | none => none
        | some ui => some (.fin ui)
      else some .nan

/-- `le_interp`, `_binary_search.py` lines 159-206. `out_left` is the value for `z_searched < z[0]`. -/
def leInterp (z : List K) (s : Flt K) (u : List K) (outLeft eps : K) : Option (Flt K) :=
  match s with
  | .fin x =>
    if z.length = 0 then some .nan
    else
      match le z (Flt.fin (x + eps)) false with
      | none => none
      | some i =>
        match pyGet z i, pyGet u i with
        | some zFound, some u0 =>
          if i < 0 then some (.fin outLeft)
          else if i < (z.length : Int) - 1 ∧ zFound < x then
            match pyGet z (i + 1), pyGet u (i + 1) with
            | some z1, some u1 => some (.fin (u0 + (x - zFound) / (z1 - zFound) * (u1 - u0)))
            | _, _ => none
          else some (.fin u0)
        | _, _ => none
  | _ => some .nan

end CB
