import Verif.Model.Binning

/-!
# Model of the binning of a whole column

`BinNumberTransformer._transform_one_feature` picks the finite values of a column with a mask, searches their bins all at once, writes the
results back through the mask and checks the whole column again. Simplification: the searches of whole arrays are written element by
element; that this is what they do, in memory, is `C164`.
-/

set_option autoImplicit false

namespace CB

section
variable {α : Type*}

/-- `xt[mask]`.
Models: cyclic_boosting/binning/bin_number_transformer.py:158 (indexing of numpy with a mask). -/
def maskedValues : List Bool → List α → List α
  | true :: mask, x :: xs => x :: maskedValues mask xs
  | false :: mask, _ :: xs => maskedValues mask xs
  | _, _ => []

/-- `xt[mask] = values`. `none` stands for numpy's exception for a wrong number of values.
Models: cyclic_boosting/binning/bin_number_transformer.py:171 (assignment of numpy with a mask). -/
def assignMasked : List Bool → List α → List α → Option (List α)
  | [], [], [] => some []
  | true :: mask, _ :: xs, v :: vs => (assignMasked mask xs vs).map (v :: ·)
  | false :: mask, x :: xs, vs => (assignMasked mask xs vs).map (x :: ·)
  | _, _, _ => none

end

section
variable {K : Type*} [Field K] [LinearOrder K]

/-- `np.arange(n, dtype=np.float64)`.
Models: cyclic_boosting/binning/bin_number_transformer.py:166. -/
def floatArange (n : ℕ) : List K := (List.range n).map fun i : ℕ => (i : K)

/-- The search of the bins of the finite values.
Models: cyclic_boosting/binning/bin_number_transformer.py:160-169. -/
def searchBins (continuous : Bool) (eps : K) (z : List K) (values : List (Flt K)) : Option (List (Flt K)) :=
  if continuous then (values.map fun x => x.addFin (-eps)).mapM fun s => (ge z s true).map fun i : ℤ => Flt.fin (i : K)
  else values.mapM fun s => eqOne z s (floatArange z.length) eps

/-- `_transform_one_feature`. A column without boundaries becomes -1 everywhere.
Models: cyclic_boosting/binning/bin_number_transformer.py:147-177. -/
def transformOneFeature (continuous magic : Bool) (eps : K) (bounds : Option (List K)) (xs : List (Flt K)) :
    Except BinErr (List (Flt K)) :=
  match bounds with
  | none => .ok (xs.map fun _ => .fin (missingBinNo : K))
  | some bs =>
    let mask := xs.map (isFiniteMagic magic)
    match searchBins continuous eps bs.tail (maskedValues mask xs) with
    | none => .error .indexError
    | some found =>
      match assignMasked mask xs found with
      | none => .error .valueError
      | some ys => .ok (ys.map fun y => if isFiniteMagic magic y then y else .fin (missingBinNo : K))

end

end CB
