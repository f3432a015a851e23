import Verif.Model.KeptData
import Verif.Model.DispersionFit

/-!
# Model of the arrays a call shares with the table of the caller

`X[column].values` and `X[:, column]` are views: an operation in place changes the table. Arrays are buffers in memory; the first ones are the
columns of the caller, new arrays are added behind them. Only the columns that are read one by one are modelled: weights, prior predictions,
means, prices and prior exponents. The columns of features are read as a list of columns, which copies them. The values computed from them
are arbitrary functions.
-/

set_option autoImplicit false

namespace CB

/-- The arrays in memory.
Models: cyclic_boosting/utils.py:105-108. -/
structure SharedArrays where
  buffers : List (List (Flt ℝ))

/-- The values of an array.
Models: cyclic_boosting/utils.py:105-108. -/
def SharedArrays.read (m : SharedArrays) (a : ℕ) : List (Flt ℝ) := m.buffers.getD a []

/-- A new array.
Models: cyclic_boosting/base.py:451, cyclic_boosting/price.py:294. -/
def SharedArrays.alloc (m : SharedArrays) (xs : List (Flt ℝ)) : SharedArrays × ℕ := (⟨m.buffers ++ [xs]⟩, m.buffers.length)

/-- An operation in place.
Models: cyclic_boosting/base.py:453, cyclic_boosting/nbinom.py:147, cyclic_boosting/price.py:296. -/
def SharedArrays.overwrite (m : SharedArrays) (a : ℕ) (f : List (Flt ℝ) → List (Flt ℝ)) : SharedArrays := ⟨m.buffers.set a (f (m.read a))⟩

/-- The buffers of the columns of the table, and its number of rows.
Models: cyclic_boosting/base.py:363-367,446-455, cyclic_boosting/nbinom.py:137, cyclic_boosting/price.py:294-305. -/
structure SharedTable where
  rows : ℕ
  weight : Option ℕ
  prior : Option ℕ
  mean : ℕ
  price : ℕ
  exponent : Option ℕ

/-- What is computed from the columns: the link, the shift of prior predictions, the value for those that are not finite, the values that
replace an array that is not finite, and what training or prediction does with the running prediction.
Models: cyclic_boosting/base.py:451-453,713-776,849-858. -/
structure SharedFunctions where
  link : List (Flt ℝ) → List (Flt ℝ)
  shift : List (Flt ℝ) → List (Flt ℝ)
  minusOne : List (Flt ℝ) → List (Flt ℝ)
  repair : List (Flt ℝ) → List (Flt ℝ)
  timesWeights : List (Flt ℝ) → List (Flt ℝ) → List (Flt ℝ)
  neutral : Flt ℝ
  run : List (Flt ℝ) → List (Flt ℝ)

/-- `_init_weight_column`: new weights, or a view of the column.
Models: cyclic_boosting/base.py:363-367. -/
def SharedArrays.initWeights (m : SharedArrays) (t : SharedTable) : SharedArrays × ℕ :=
  match t.weight with
  | none => m.alloc (List.replicate t.rows (.fin 1))
  | some c => (m, c)

/-- `_get_prior_predictions` of the base class: link, shift and repair of the values that are not finite.
Models: cyclic_boosting/base.py:446-455. -/
def SharedArrays.basePrior (m : SharedArrays) (t : SharedTable) (g : SharedFunctions) : SharedArrays × ℕ :=
  match t.prior with
  | none => m.alloc (List.replicate t.rows g.neutral)
  | some c =>
    let linked := m.alloc (g.link (m.read c))
    let shifted := linked.1.alloc (g.shift (linked.1.read linked.2))
    (shifted.1.overwrite shifted.2 g.repair, shifted.2)

/-- `_get_prior_predictions` of the dispersion model: the view is clipped in place.
Models: cyclic_boosting/nbinom.py:142-152. -/
noncomputable def SharedArrays.dispersionPrior (m : SharedArrays) (t : SharedTable) (g : SharedFunctions) : SharedArrays × ℕ :=
  match t.prior with
  | none => m.alloc (List.replicate t.rows g.neutral)
  | some c =>
    let clipped := m.overwrite c fun xs => xs.map clipUnit
    let linked := clipped.alloc (g.link (clipped.read c))
    (linked.1.overwrite linked.2 g.repair, linked.2)

/-- `_init_external_column` of the price model: the price minus one is a new array, and so are its weights.
Models: cyclic_boosting/price.py:294-299. -/
def SharedArrays.initExternal (m : SharedArrays) (t : SharedTable) (g : SharedFunctions) (weights : Option ℕ) : SharedArrays × ℕ :=
  let diff := m.alloc (g.minusOne (m.read t.price))
  let repaired := diff.1.overwrite diff.2 g.repair
  match weights with
  | none => (repaired, diff.2)
  | some w =>
    let weighted := repaired.alloc (List.replicate t.rows (.fin 1))
    (weighted.1.overwrite weighted.2 (g.timesWeights (weighted.1.read w)), diff.2)

/-- The running prediction: a data frame is made from the array, which copies it, and updated in place.
Models: cyclic_boosting/base.py:95-105,713-776,849-858, cyclic_boosting/price.py:451-459. -/
def SharedArrays.runPrediction (m : SharedArrays) (g : SharedFunctions) (start : ℕ) : SharedArrays × ℕ :=
  let frame := m.alloc (m.read start)
  (frame.1.overwrite frame.2 g.run, frame.2)

/-- A call of `fit` or `predict`, as far as it touches the columns: the arrays afterwards, and the number of the one with the predictions.
Models: cyclic_boosting/base.py:701-711,818-829,839-858, cyclic_boosting/nbinom.py:136-152, cyclic_boosting/price.py:401-428. -/
noncomputable def callMemory (kind : KeeperKind) (isFit : Bool) (t : SharedTable) (g : SharedFunctions) (m : SharedArrays) : SharedArrays × ℕ :=
  let weighted := if isFit then m.initWeights t else (m, 0)
  let external := match kind with
    | .price => (weighted.1.initExternal t g (if isFit then some weighted.2 else none)).1
    | _ => weighted.1
  let prior := match kind with
    | .dispersion => external.dispersionPrior t g
    | _ => external.basePrior t g
  let exponents := match kind, t.exponent with
    | .price, some c => (prior.1.alloc (prior.1.read c)).1
    | _, _ => prior.1
  exponents.runPrediction g prior.2

/-- The arrays after a history of calls with the same table.
Models: cyclic_boosting/base.py:694-699,839-841. -/
noncomputable def memoryAfter (kind : KeeperKind) (t : SharedTable) (history : List (Bool × SharedFunctions)) (m : SharedArrays) :
    SharedArrays :=
  history.foldl (fun m c => (callMemory kind c.1 t c.2 m).1) m

end CB
