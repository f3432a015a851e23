import Mathlib.Algebra.Order.Floor.Ring
import Mathlib.Data.List.Sort
import Mathlib.Data.List.Dedup
import Verif.Model.BinarySearch

set_option autoImplicit false

/-!
Model of `cyclic_boosting/binning/ecdf_transformer.py`, `binning/_utils.py` and `binning/bin_number_transformer.py`.

Simplifications: exact arithmetic; a training column consists of finite numbers and NaN (`none`), no infinities;
weights are finite.  One column at a time: the transformers treat columns independently.
-/
namespace CB

/-- Python exceptions raised by the binning code.
Models: cyclic_boosting/binning/ecdf_transformer.py:212,454,558. -/
inductive BinErr where
  | valueError      -- explicit `raise ValueError`, or a shape mismatch in a numpy assignment
  | indexError      -- out-of-bounds access
  deriving DecidableEq, Repr

section cdf
variable {K : Type*} [Field K] [LinearOrder K]

/-- `np.unique`: the sorted distinct values.
Models: cyclic_boosting/binning/ecdf_transformer.py:561 (numpy's definition). -/
def npUnique (xs : List K) : List K := (xs.insertionSort (· ≤ ·)).dedup

/-- The non-NaN samples with their weights (`z[~np.isnan(z)]`; pandas' `groupby` drops NaN keys too).
Models: cyclic_boosting/binning/ecdf_transformer.py:560-566. -/
def validSamples (z : List (Option K)) (w : List K) : List (K × K) :=
  (z.zip w).filterMap (fun p => p.1.map (fun x => (x, p.2)))

/-- `groupby(["z"]).agg({"w": "sum"})` evaluated at one key.
Models: cyclic_boosting/binning/ecdf_transformer.py:566. -/
def weightOf (zw : List (K × K)) (v : K) : K :=
  ((zw.filter (fun p => p.1 = v)).map Prod.snd).sum

/-- `np.cumsum` with a running total.
Models: cyclic_boosting/binning/ecdf_transformer.py:569. -/
def cumsumFrom (acc : K) : List K → List K
  | [] => []
  | w :: ws => (acc + w) :: cumsumFrom (acc + w) ws

/-- `calculate_cdf_from_weighted_data`, `ecdf_transformer.py` lines 521-571; returns `(z_unique, cdf)`.
The filter `uniques["w"] != 0` (line 567) is applied to the weights but not to `z_unique` (line 561). -/
def calcCdf (z : List (Option K)) (w : List K) : Except BinErr (List K × List K) :=
  if z.length ≠ w.length then .error .valueError
  else
    let zw := validSamples z w
    let zUnique := npUnique (zw.map Prod.fst)
    let wsum := (zw.map Prod.snd).sum
    let uniquesW := (zUnique.map (weightOf zw)).filter (fun x => x ≠ 0)
    .ok (zUnique, (cumsumFrom 0 uniquesW).map (· / wsum))

/-- `minimal_difference`, `binning/_utils.py` lines 46-59. -/
def minimalDifference (values : List K) : K :=
  let widths := (List.zipWith (fun a b => b - a) values values.tail).filter (fun d => 0 < d)
  match widths with
  | [] => 1
  | d :: ds => ds.foldl min d

end cdf

section reduce
variable {K : Type*} [Field K] [LinearOrder K] [FloorRing K]

/-- Python's `%` on floats (sign of the divisor), exact arithmetic.
Models: cyclic_boosting/binning/ecdf_transformer.py:469. -/
def pyMod (a b : K) : K := a - b * (⌊a / b⌋ : ℤ)

/-- The `for` loop of `reduce_cdf_and_boundaries_to_nbins`, `ecdf_transformer.py` lines 468-485. `bs` and `cs` are the
already filled parts of `bin_boundaries` and `cdf` (length `i` when the iteration for `i` starts), the first argument
is the number of remaining iterations. -/
def reduceLoop (bx cx : List K) (share eps tol : K) :
    ℕ → Int → K → List K → List K → Except BinErr (List K × List K)
  | 0, _, _, bs, cs => .ok (bs, cs)
  | rem + 1, index, prev, bs, cs =>
    let rest := pyMod prev share
    let searched := if rest ≤ tol * share then prev + share - rest else prev + share
    if searched ≤ 1 + tol * share then
      match geLim cx (.fin (searched - eps)) true index cx.length with
      | none => .error .indexError
      | some idx =>
        match pyGet cx idx, pyGet bx idx with
        | some c, some b => reduceLoop bx cx share eps tol rem idx c (bs ++ [b]) (cs ++ [c])
        | _, _ => .error .indexError
    else
      match pyGet bx ((cx.length : Int) - 1) with
      | some b => .ok (bs.set (bs.length - 1) b, cs.set (cs.length - 1) 1)
      | none => .error .indexError

/-- `reduce_cdf_and_boundaries_to_nbins`, `ecdf_transformer.py` lines 410-486. -/
def reduceCdf (bx cx : List K) (nBins : ℕ) (eps tol : K) : Except BinErr (List K × List K) :=
  if nBins < 2 then .error .valueError
  else
    match bx with
    | [] => .error .indexError
    | b0 :: _ => reduceLoop bx cx (1 / (nBins : K)) eps tol nBins 0 0 [b0] [0]

/-- What `fit` stores for one column: the scaled epsilon and the two columns of `bins_and_cdfs`
(`None` if there is no valid sample).
Models: cyclic_boosting/binning/ecdf_transformer.py:221-250. -/
structure ColFit (K : Type*) where
  eps : K
  table : Option (List K × List K)
  deriving DecidableEq

/-- The body of the column loop of `ECdfTransformer.fit`, `ecdf_transformer.py` lines 226-251. `discrete` is
`is_ordered_set or is_unordered_set`. Lines 244-247 copy both lists into an array with `len(cdf)` rows, which fails if
the lengths differ (a list of boundaries always has at least two entries here, so broadcasting does not apply). -/
def fitColumn (discrete : Bool) (z : List (Option K)) (w : List K) (nBins : ℕ) (eps tol : K) :
    Except BinErr (ColFit K) :=
  match calcCdf z w with
  | .error e => .error e
  | .ok (bx, cx) =>
    if bx.length = 0 ∨ cx.length = 0 then .ok ⟨eps, none⟩
    else
      let res : Except BinErr (List K × List K) :=
        if discrete then
          match bx with
          | [] => .error .indexError
          | b0 :: _ => .ok (b0 :: bx, 0 :: cx)
        else reduceCdf bx cx nBins eps tol
      match res with
      | .error e => .error e
      | .ok (bs, cs) =>
        if bs.length ≠ cs.length then .error .valueError
        else .ok ⟨eps * minimalDifference bs, some (bs, cs)⟩

end reduce

section transform
variable {K : Type*} [Field K] [LinearOrder K]

/-- `MISSING_VALUE_AS_BINNO`, `bin_number_transformer.py` line 16. -/
def missingBinNo : Int := -1

/-- The inner `is_finite` of `_transform_one_feature`, `bin_number_transformer.py` lines 150-154. -/
def isFiniteMagic (magic : Bool) (x : Flt K) : Bool :=
  if magic then !(x.eqFin (-9)) && !(x.eqFin (-999)) && x.isFinite else x.isFinite

/-- The float array written back by the searches holds an index or NaN; the re-check of lines 172-174 turns NaN (and
the magic integers, were they produced) into -1, then the value is stored as an integer.
Models: cyclic_boosting/binning/bin_number_transformer.py:172-174. -/
def recheck (magic : Bool) (v : Flt Int) : Int :=
  match v with
  | .fin i => if magic && (i == -9 || i == -999) then missingBinNo else i
  | _ => missingBinNo

/-- `eq_multi` with `u = np.arange(len(z))` for one value: the position is looked up in `u` (lines 163-169).
Models: cyclic_boosting/binning/bin_number_transformer.py:163-169. -/
def eqIndex (z : List K) (s : Flt K) (eps : K) : Option (Flt Int) :=
  match le z (s.addFin eps) false with
  | none => none
  | some ind =>
    match pyGet z ind with
    | none => none
    | some zi =>
      if checkEqual zi s eps 0 then
        match pyGet (List.range z.length) ind with
        | none => none
        | some ui => some (.fin (ui : Int))
      else some .nan

/-- `BinNumberTransformer._transform_one_feature` for one value, `bin_number_transformer.py` lines 147-177.
`bounds` is the first column of `bins_and_cdfs` (`none` if nothing was fitted), of which `[1:]` is searched. -/
def binNumber (continuous magic : Bool) (eps : K) (bounds : Option (List K)) (x : Flt K) : Except BinErr Int :=
  match bounds with
  | none => .ok missingBinNo
  | some bs =>
    if isFiniteMagic magic x then
      if continuous then
        match ge bs.tail (x.addFin (-eps)) true with
        | none => .error .indexError
        | some i => .ok (recheck magic (.fin i))
      else
        match eqIndex bs.tail x eps with
        | none => .error .indexError
        | some v => .ok (recheck magic v)
    else .ok missingBinNo

/-- `ECdfTransformer.transform` for one value, `ecdf_transformer.py` lines 285-305. -/
def ecdfValue (continuous : Bool) (eps : K) (table : Option (List K × List K)) (x : Flt K) :
    Except BinErr (Flt K) :=
  match table with
  | none => .ok .nan
  | some (bs, cs) =>
    match (if continuous then leInterp bs x cs 0 eps else eqOne bs x cs eps) with
    | none => .error .indexError
    | some v => .ok v

end transform

section narrow

/-- Integer types of `_as_int_array_of_minimum_dtype`.
Models: cyclic_boosting/binning/bin_number_transformer.py:231-238. -/
inductive IntType where
  | i8 | i16 | i32 | i64
  deriving DecidableEq, Repr

/-- Number of bits of the type.
Models: cyclic_boosting/binning/bin_number_transformer.py:231-238. -/
def IntType.bits : IntType → ℕ
  | .i8 => 8 | .i16 => 16 | .i32 => 32 | .i64 => 64

/-- The choice of the dtype in `_as_int_array_of_minimum_dtype`, `bin_number_transformer.py` lines 224-238. -/
def minDtype (maximum : Int) : IntType :=
  if maximum ≤ 127 then .i8
  else if maximum ≤ 32767 then .i16
  else if maximum ≤ 2147483647 then .i32
  else .i64

/-- `np.asarray(v, dtype=...)`: two's complement wrap-around to the given width.
Models: cyclic_boosting/binning/bin_number_transformer.py:232-238. -/
def castInt (t : IntType) (v : Int) : Int :=
  Int.bmod v (2 ^ t.bits)

/-- `_as_int_array_of_minimum_dtype` for an array, lines 227-238: `max(arr.max(), abs(arr.min()))`.
Models: cyclic_boosting/binning/bin_number_transformer.py:227-238. -/
def asIntArray (arr : List Int) : IntType × List Int :=
  let maximum : Int :=
    match arr with
    | [] => 0
    | a :: as => max (as.foldl max a) |as.foldl min a|
  (minDtype maximum, arr.map (castInt (minDtype maximum)))

end narrow

end CB
