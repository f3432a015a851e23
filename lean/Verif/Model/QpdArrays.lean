import Verif.Model.ChainFit

/-!
# Model of the array handling of `J_QPD_S` and `J_QPD_B`

`ppf` and `cdf` of both classes evaluate many distributions (one per sample) for many levels or values at once
(cyclic_boosting/quantile_matching.py:89-165, 243-285).  The number computed for one distribution and one level is an
argument here (`JQPDS.ppf`, `JQPDS.cdf`, `JQPDB.ppf`, `JQPDB.cdf`).
-/

set_option autoImplicit false

namespace CB

noncomputable section

/-- An argument or a parameter of a distribution: a number or a one-dimensional array.
Models: cyclic_boosting/quantile_matching.py:37-40,89,124 (`Union[float, np.ndarray]`). -/
inductive ScalarOrVec (α : Type) where
  | scalar (a : α)
  | vec (as : List α)

/-- The entries, as `np.outer` flattens its arguments.
Models: cyclic_boosting/quantile_matching.py:115,156,251-252. -/
def ScalarOrVec.flat {α : Type} : ScalarOrVec α → List α
  | .scalar a => [a]
  | .vec as => as

/-- A returned array: no axis, one axis or two axes.  Simplification: an array without entries has no further shape.
Models: cyclic_boosting/quantile_matching.py:118-122 (`np.squeeze`). -/
inductive Returned where
  | scalar (v : Option ℝ)
  | vec (vs : List (Option ℝ))
  | mat (rows : List (List (Option ℝ)))

/-- `np.squeeze` of a one-dimensional array: an axis of length one is dropped.
Models: cyclic_boosting/quantile_matching.py:118-120,161-163. -/
def squeezeVec (vs : List (Option ℝ)) : Returned :=
  match vs with
  | [v] => .scalar v
  | _ => .vec vs

/-- `np.squeeze` of a two-dimensional array: axes of length one are dropped.
Models: cyclic_boosting/quantile_matching.py:118-120,161-163. -/
def squeezeMat (rows : List (List (Option ℝ))) : Returned :=
  match rows with
  | [r] => squeezeVec r
  | _ => if rows.all fun r => r.length == 1 then .vec (rows.map fun r => r.headD none) else .mat rows

/-- `ppf(x)` and `cdf(x)` with `inner=False`: the rows of the result belong to the entries of `x`, the columns to the samples.
Models: cyclic_boosting/quantile_matching.py:112-122,152-165,249-259,271-285. -/
def evalOuter {D : Type} (f : D → ℝ → Option ℝ) (ds : ScalarOrVec D) (x : ScalarOrVec ℝ) : Returned :=
  squeezeMat (x.flat.map fun p => ds.flat.map fun d => f d p)

/-- `ppf(x, inner=True)` and `cdf(x, inner=True)`: numpy pairs the entries of `x` with the samples and repeats a single one.
Models: cyclic_boosting/quantile_matching.py:107-111,142-150,244-247,262-268. -/
def evalInner {D : Type} (f : D → ℝ → Option ℝ) (ds : ScalarOrVec D) (x : ScalarOrVec ℝ) : Except String Returned :=
  match ds, x with
  | .scalar d, .scalar p => .ok (.scalar (f d p))
  | .scalar d, .vec ps => .ok (squeezeVec (ps.map (f d)))
  | .vec ds, .scalar p => .ok (squeezeVec (ds.map fun d => f d p))
  | .vec ds, .vec ps =>
    if ds.length = ps.length then .ok (squeezeVec (List.zipWith f ds ps))
    else match ds, ps with
      | [d], ps => .ok (squeezeVec (ps.map (f d)))
      | ds, [p] => .ok (squeezeVec (ds.map fun d => f d p))
      | _, _ => .error "operands could not be broadcast together"

end

end CB
