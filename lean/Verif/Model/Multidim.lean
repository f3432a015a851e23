import Mathlib.Algebra.Order.Floor.Ring
import Mathlib.Algebra.BigOperators.Group.List.Defs
import Verif.Model.Flt

set_option autoImplicit false

/-!
Model of the multi-dimensional bin numbering in `cyclic_boosting/utils.py` and of `Feature.bind_data` in
`cyclic_boosting/features.py`.

A table of bin numbers is a list of rows; an entry is a float64 (finite or special). Simplification: exact arithmetic,
no overflow of int64.
-/
namespace CB

/-- `bin_steps`, `utils.py` lines 260-294: slot `m` is the product of the numbers of bins of the dimensions `m, m+1, ...`
(the loop runs from the last slot to the first one, multiplying by `n_bins[m - 1]`). -/
def binSteps : List ℕ → List ℕ
  | [] => [1]
  | n :: ns =>
    match binSteps ns with
    | [] => []
    | s :: rest => (n * s) :: s :: rest

/-- One column of `arange_multi`, `utils.py` lines 346-354: the loop over `i` writes `binno` into `step` consecutive rows
and then advances `binno` cyclically. The first argument is the number of iterations of the loop over `i`. -/
def arangeCol (step stop : ℕ) : ℕ → ℕ → List ℕ
  | 0, _ => []
  | blocks + 1, binno =>
    List.replicate step binno ++ arangeCol step stop blocks (if binno + 1 ≥ stop then 0 else binno + 1)

/-- `arange_multi`, `utils.py` lines 298-356. `range(0, total, step)` has `ceil(total / step)` iterations; the result is
returned row by row. -/
def arangeMulti (stops : List ℕ) : List (List ℕ) :=
  let steps := binSteps stops
  let total := steps.headD 0
  let cols := List.zipWith (fun stop step => arangeCol step stop ((total + step - 1) / step) 0) stops steps.tail
  (List.range total).map (fun i => cols.map (fun col => col.getD i 0))

section
variable {K : Type*} [Field K] [LinearOrder K] [FloorRing K]

/-- A component of a row is usable: finite, not negative and below the number of bins (`utils.py` lines 240-241). -/
def validComp (b : Flt K) (n : ℕ) : Bool :=
  match b with
  | .fin x => decide (0 ≤ x) && decide (x < n)
  | _ => false

/-- `is_valid` for one row, `utils.py` lines 240-241. -/
def validRow (nBins : List ℕ) (row : List (Flt K)) : Bool :=
  (List.zipWith validComp row nBins).all id

/-- `slice_finite_semi_positive` for one row, `utils.py` lines 135-138. -/
def finiteSemiPositive (row : List (Flt K)) : Bool :=
  row.all (fun b => match b with | .fin x => decide (0 ≤ x) | _ => false)

/-- `np.floor` of a component as an integer (only used for valid components).
Models: cyclic_boosting/utils.py:248. -/
def floorComp (b : Flt K) : ℕ :=
  match b with
  | .fin x => ⌊x⌋.toNat
  | _ => 0

/-- `np.dot(np.floor(row), binsteps[1:])`, `utils.py` line 248. -/
def dotRow (row : List (Flt K)) (steps : List ℕ) : ℕ :=
  (List.zipWith (fun b s => floorComp b * s) row steps).sum

/-- `np.max(finite_bins, axis=0).astype(np.int64) + 1` for the columns of a non-empty list of rows,
`utils.py` line 235. -/
def maxPlusOne (dims : ℕ) (rows : List (List (Flt K))) : List ℕ :=
  (List.range dims).map (fun m => (rows.map (fun r => floorComp (r.getD m .nan))).foldl max 0 + 1)

/-- `n_bins` determined from the data, `utils.py` lines 230-235. -/
def inferBins (dims : ℕ) (rows : List (List (Flt K))) : List ℕ :=
  match rows.filter finiteSemiPositive with
  | [] => List.replicate dims 0
  | fs => maxPlusOne dims fs

/-- `multidim_binnos_to_lexicographic_binnos`, `utils.py` lines 167-257, with `binsteps=None`. -/
def lexBinnos (dims : ℕ) (rows : List (List (Flt K))) (nBins : Option (List ℕ)) : List ℕ × List ℕ :=
  let ns := match nBins with
    | some ns => ns
    | none => inferBins dims rows
  let steps := binSteps ns
  let fill := if rows.any (validRow ns) then ns.prod else 0
  (rows.map (fun r => if validRow ns r then dotRow r steps.tail else fill), ns)

end

section
variable {K : Type*} [AddMonoid K]

/-- `np.bincount(x, weights=w, minlength=n)`: total weight per bin number. The length is `max(n, max(x) + 1)`.
Models: cyclic_boosting/features.py:171. -/
def bincount (x : List ℕ) (w : List K) (n : ℕ) : List K :=
  (List.range (max n ((x.map (· + 1)).foldl max 0))).map
    (fun b => (((x.zip w).filter (fun p => p.1 = b)).map Prod.snd).sum)

end

end CB
