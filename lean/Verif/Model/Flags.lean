import Mathlib.Data.Nat.Bitwise
import Mathlib.Data.Nat.Notation

set_option autoImplicit false

/-!
Model of `cyclic_boosting/flags.py`. A feature property is a natural number read bit by bit (flag values are unions of the
constants below, so negative Python integers do not occur).
-/
namespace CB

namespace Flags

/-- Flag constants, `flags.py` lines 7-37. -/
def IS_CONTINUOUS : ℕ := 1 <<< 0
/-- Models: cyclic_boosting/flags.py:26. -/
def IS_ORDERED : ℕ := 1 <<< 1
/-- Models: cyclic_boosting/flags.py:27. -/
def IS_UNORDERED : ℕ := 1 <<< 2
/-- Models: cyclic_boosting/flags.py:28. -/
def IS_MONOTONIC : ℕ := IS_CONTINUOUS ||| (1 <<< 3)
/-- Models: cyclic_boosting/flags.py:29. -/
def HAS_MISSING : ℕ := 1 <<< 4
/-- Models: cyclic_boosting/flags.py:30. -/
def MISSING_NOT_LEARNED : ℕ := HAS_MISSING ||| (1 <<< 5)
/-- Models: cyclic_boosting/flags.py:31. -/
def USE_ORIGINAL : ℕ := 1 <<< 6
/-- Models: cyclic_boosting/flags.py:32. -/
def CORR_TO_WIDTH : ℕ := 1 <<< 7
/-- Models: cyclic_boosting/flags.py:33. -/
def IS_LINEAR : ℕ := 1 <<< 8
/-- Models: cyclic_boosting/flags.py:34. -/
def IS_SEASONAL : ℕ := 1 <<< 9
/-- Models: cyclic_boosting/flags.py:35. -/
def HAS_MAGIC_INT_MISSING : ℕ := HAS_MISSING ||| (1 <<< 10)
/-- Models: cyclic_boosting/flags.py:36. -/
def INCREASING : ℕ := 1 <<< 11
/-- Models: cyclic_boosting/flags.py:37. -/
def DECREASING : ℕ := 1 <<< 12

/-- The predicates `is_continuous_set` ... `decreasing_set`, `flags.py` lines 53-242: `feature_prop & FLAG == FLAG`. -/
def isSet (fp flag : ℕ) : Bool := (fp &&& flag) == flag

/-- `check_flags_consistency`, `flags.py` lines 281-298. -/
def checkConsistency (fp : ℕ) : Except String Unit :=
  if (isSet fp IS_CONTINUOUS).toNat + (isSet fp IS_ORDERED).toNat + (isSet fp IS_UNORDERED).toNat ≠ 1 then
    .error "ValueError: Exactly one of IS_CONTINUOUS, IS_ORDERED, IS_UNORDERED must be set"
  else if (isSet fp INCREASING).toNat + (isSet fp DECREASING).toNat = 2 then
    .error "ValueError: One feature can either be INCREASING or DECREASING"
  else .ok ()

/-- `_FLAG_LIST`, `flags.py` lines 39-50, with the values of the named constants. -/
def flagList : List (String × ℕ) :=
  [("IS_CONTINUOUS", IS_CONTINUOUS), ("IS_ORDERED", IS_ORDERED), ("IS_UNORDERED", IS_UNORDERED),
    ("IS_MONOTONIC", IS_MONOTONIC), ("HAS_MISSING", HAS_MISSING), ("MISSING_NOT_LEARNED", MISSING_NOT_LEARNED),
    ("USE_ORIGINAL", USE_ORIGINAL), ("CORR_TO_WIDTH", CORR_TO_WIDTH), ("IS_LINEAR", IS_LINEAR),
    ("IS_SEASONAL", IS_SEASONAL)]

/-- The loop of `_convert_flags_to_string`, `flags.py` lines 387-391: `lst` and `flags1`. -/
def convertLoop (value : ℕ) : List (String × ℕ) → List String × ℕ → List String × ℕ
  | [], acc => acc
  | (name, flag) :: rest, (lst, flags1) =>
    if (flag &&& value) == flag then convertLoop value rest (lst ++ [name], Nat.ldiff flags1 flag)
    else convertLoop value rest (lst, flags1)

/-- `_convert_flags_to_string` / `flags_to_string` for one integer, `flags.py` lines 348-351 and 378-395: the list of names
that is joined with `" | "`, or a `ValueError`. -/
def toNames (value : ℕ) : Except String (List String) :=
  let (lst, flags1) := convertLoop value flagList ([], value)
  if flags1 ≠ 0 then .error "ValueError: Unknown flags found" else .ok lst

/-- `flags_to_string`, `flags.py` lines 348-351, one integer. -/
def flagsToString (value : ℕ) : Except String String :=
  (toNames value).map (String.intercalate " | ")

end Flags

end CB
