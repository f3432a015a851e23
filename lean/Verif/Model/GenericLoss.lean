import Mathlib.Algebra.Order.Field.Basic
import Mathlib.Algebra.Order.Floor.Defs
import Mathlib.Algebra.BigOperators.Group.List.Defs
import Mathlib.Analysis.SpecialFunctions.Log.Basic
import Verif.Model.Link

set_option autoImplicit false

/-!
Model of `cyclic_boosting/generic_loss.py` and of the weighted quantiles of `utils.py`.
-/
namespace CB

/-! ### Distribution of the samples to the bins -/

/-- `np.unique(a, return_index=True)` for a sorted array: the values and the index of the first occurrence of each. `last` is
the value before, `k` the index.
Models: cyclic_boosting/generic_loss.py:70. -/
def npUniqueIdxAux : Option ℕ → ℕ → List ℕ → List (ℕ × ℕ)
  | _, _, [] => []
  | last, k, x :: xs => if last = some x then npUniqueIdxAux last (k + 1) xs else (x, k) :: npUniqueIdxAux (some x) (k + 1) xs

/-- `np.unique(a, return_index=True)` for a sorted array.
Models: cyclic_boosting/generic_loss.py:70. -/
def npUniqueIdx (a : List ℕ) : List (ℕ × ℕ) := npUniqueIdxAux none 0 a

/-- `np.split(a, indices)`, where the first element of `a` has the index `offset`.
Models: cyclic_boosting/generic_loss.py:73-75. -/
def npSplitAux {α : Type*} : List α → ℕ → List ℕ → List (List α)
  | a, _, [] => [a]
  | a, offset, i :: is => a.take (i - offset) :: npSplitAux (a.drop (i - offset)) i is

/-- `np.split(a, indices)`.
Models: cyclic_boosting/generic_loss.py:73-75. -/
def npSplit {α : Type*} (a : List α) (indices : List ℕ) : List (List α) := npSplitAux a 0 indices

/-- `l.insert(i, x)` for a Python list.
Models: cyclic_boosting/generic_loss.py:79-81. -/
def pyInsert {α : Type*} (l : List α) (i : ℕ) (x : α) : List α := l.take i ++ x :: l.drop i

/-- The insertion of empty bins, `generic_loss.py` lines 77-79, for a given order of the empty bins. -/
def insertEmpty {α : Type*} (parts : List (List α)) (emptyBins : List ℕ) : List (List α) :=
  emptyBins.foldl (fun l i => pyInsert l i []) parts

/-- The data per bin of `CBGenericLoss.calc_parameters`, `generic_loss.py` lines 65-79. `rows` are the triples of target,
prediction and weight; `sorting` is the result of `argsort` on the bin numbers, which need not be stable. The iteration order
of the set of empty bins is taken to be ascending, which is what CPython does for a set of the integers below `n_bins` from
which elements were removed (see `C37_order_counterexample`). -/
def binRows {α : Type*} (sorting : List ℕ) (codes : ℕ → ℕ) (rows : ℕ → α) (nBins : ℕ) : List (List α) :=
  let u := npUniqueIdx (sorting.map codes)
  let parts := npSplit (sorting.map rows) (u.map Prod.snd).tail
  insertEmpty parts ((List.range nBins).filter (fun b => decide (b ∉ u.map Prod.fst)))

/-! ### Quantile loss -/

section
variable {K : Type*} [Field K] [LinearOrder K]

/-- The cost of one sample in `quantile_costs`, `generic_loss.py` lines 348-349. -/
def pinball (quantile prediction y : K) : K :=
  (if y < prediction then 1 else 0) * (1 - quantile) * (prediction - y)
    + (if y ≥ prediction then 1 else 0) * quantile * (y - prediction)

/-- `quantile_costs`, `generic_loss.py` lines 325-354, on samples (prediction, target, weight) without NaN. -/
def quantileCosts (quantile : K) (l : List (K × K × K)) : K :=
  if 0 < l.length then (l.map (fun s => pinball quantile s.1 s.2.1 * s.2.2)).sum / (l.map (fun s => s.2.2)).sum else 0

/-- `y[cumsum >= cutoff].iloc[0]` on samples (target, weight) in the given order: the first target at which the cumulated
weight reaches the cutoff.
Models: cyclic_boosting/utils.py:593-596,614-617,1050-1052. -/
def firstReaching (cutoff : K) : K → List (K × K) → Option K
  | _, [] => none
  | acc, s :: l => if acc + s.2 ≥ cutoff then some s.1 else firstReaching cutoff (acc + s.2) l

/-- `_weighted_quantile_of_dataframe(quantile)`, `utils.py` lines 572-600, on the samples (target, weight) sorted by target. The
minimum of an empty frame fails (`none`). -/
def weightedQuantile (quantile : K) (sorted : List (K × K)) : Option K :=
  let cutoff := (sorted.map Prod.snd).sum * quantile
  match firstReaching cutoff 0 sorted with
  | some y => some y
  | none => (sorted.map Prod.fst).min?

/-- `continuous_quantile_from_discrete_pdf`, `utils.py` lines 1028-1060, on the samples (target, weight) sorted by target
(`none`: IndexError). -/
def continuousQuantile [FloorRing K] (quantile : K) (sorted : List (K × K)) : Option K :=
  let quantileIndex := (sorted.map Prod.snd).sum * quantile
  match firstReaching quantileIndex 0 sorted with
  | none => none
  | some q =>
    let ys := sorted.map Prod.fst
    let all := (List.range ys.length).filter (fun i => decide (ys[i]? = some q))
    let low := all.headD 0
    let high := all.getLastD 0
    -- `int(...)` truncates; the argument is not negative
    if high > low then some (q + ((⌊quantileIndex⌋ - (low : ℤ) : ℤ) : K) / ((high : K) - (low : K))) else some q

end

/-! ### Parameters in link space -/

/-- How a subclass of `CBGenericLoss` combines a parameter with the prediction of the other features:
`model_multiplicative` or `model_additive`, `generic_loss.py` lines 532-537. -/
noncomputable def genericModel (multiplicative : Bool) (param yhat : ℝ) : ℝ := if multiplicative then param * yhat else param + yhat

/-- The parameter stored for the bin, `generic_loss.py` lines 90-96, from the optimum found. -/
noncomputable def genericParamLink (link : Link) (param : ℝ) : ℝ :=
  if link.unlink 0 ≠ 0 then
    Real.log (if |param| < 1e-5 then 1e-5 else param)
  else param

end CB
