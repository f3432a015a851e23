import Mathlib.Data.Nat.Notation
import Mathlib.Analysis.SpecialFunctions.Arcosh
import Mathlib.Analysis.SpecialFunctions.Arsinh
import Mathlib.Analysis.SpecialFunctions.Log.Basic
import Mathlib.Data.Real.Sign

/-!
# Model of `cyclic_boosting/quantile_matching.py`

Quantile-parameterised distributions, the bound transformations and the
quantile regressor chain.  Reals stand for doubles.  Where the Python code
divides by zero and the resulting `inf`/`nan` provably ends in a `nan` result,
the model returns `none`.
-/

set_option autoImplicit false

namespace CB

noncomputable section

/-- A base distribution: the two methods of the (frozen scipy) distribution
object `self.phi` that the classes call.
Models: cyclic_boosting/quantile_matching.py:44-49,417-424. -/
structure Base where
  ppf : ℝ → ℝ
  cdf : ℝ → ℝ

/-- `scipy.stats.logistic()`: `ppf p = log(p/(1-p))`, `cdf x = 1/(1+exp(-x))`.
Models: cyclic_boosting/quantile_matching.py:46-47 (the imported scipy object). -/
def logisticBase : Base where
  ppf p := Real.log (p / (1 - p))
  cdf x := 1 / (1 + Real.exp (-x))

/-- `SinhLogistic.ppf`.
Models: cyclic_boosting/quantile_matching.py:303-314. -/
def sinhLogisticPpf (shape x : ℝ) : ℝ :=
  let xlog := 0.25 * Real.log (x / (1 - x))
  if shape > 0 then Real.arsinh (shape * xlog) / shape
  else if shape < 0 then Real.sinh (shape * xlog) / shape
  else xlog

/-- `SinhLogistic.cdf`.
Models: cyclic_boosting/quantile_matching.py:316-326. -/
def sinhLogisticCdf (shape x : ℝ) : ℝ :=
  let xlog :=
    if shape > 0 then Real.sinh (shape * x) / shape
    else if shape < 0 then Real.arsinh (shape * x) / shape
    else x
  1 / (1 + Real.exp (-4 * xlog))

/-- `SinhLogistic.pdf`.
Models: cyclic_boosting/quantile_matching.py:328-336. -/
def sinhLogisticPdf (shape x : ℝ) : ℝ :=
  if shape > 0 then
    Real.cosh (shape * x) / (Real.cosh (2 / shape * Real.sinh (shape * x))) ^ 2
  else if shape < 0 then
    1 / Real.sqrt ((shape * x) ^ 2 + 1)
      / (Real.cosh (2 / shape * Real.arsinh (shape * x))) ^ 2
  else 1 / (Real.cosh (2 * x)) ^ 2

/-- The object `SinhLogistic(shape)`.
Models: cyclic_boosting/quantile_matching.py:288-326. -/
def sinhLogistic (shape : ℝ) : Base where
  ppf := sinhLogisticPpf shape
  cdf := sinhLogisticCdf shape

/-- Version selection in `J_QPD_S`/`J_QPD_B`; `none` is the exception "Invalid
version.".  The normal distribution is a parameter (scipy's `norm()`).
Models: cyclic_boosting/quantile_matching.py:44-49,203-208. -/
def selectPhi (nrm : Base) (version : String) : Option Base :=
  if version = "normal" then some nrm
  else if version = "logistic" then some logisticBase
  else none

/-- Version selection in the extended classes.
Models: cyclic_boosting/quantile_matching.py:417-424,486-493,568-575. -/
def selectPhiExt (nrm : Base) (version : String) (shape : ℝ) : Option Base :=
  if version = "normal" then some nrm
  else if version = "logistic" then some logisticBase
  else if version = "sinhlogistic" then some (sinhLogistic shape)
  else none

/-- `np.where(a < b, a, b)` as written for `min(B-L, H-B)`.
Models: cyclic_boosting/quantile_matching.py:78,86,237. -/
def whereLt (a b : ℝ) : ℝ := if a < b then a else b

/-! ## Transformations -/

/-- `np.where(z == 0, 1e-12, z)`.
Models: cyclic_boosting/quantile_matching.py:619,633,645. -/
def nudgeZero (z : ℝ) : ℝ := if z = 0 then 1e-12 else z

/-- `transform_from_bounds`.
Models: cyclic_boosting/quantile_matching.py:613-620. -/
def transformFromBounds (x l u : ℝ) : ℝ :=
  let z := (x - l) / (u - l)
  let z := z / (1 - z)
  Real.log (nudgeZero z)

/-- `back_transform_in_bounds`.
Models: cyclic_boosting/quantile_matching.py:623-628. -/
def backTransformInBounds (z l u : ℝ) : ℝ :=
  let x := 1 / (1 + Real.exp (-z))
  l + (u - l) * x

/-- `transform_from_semibound_lower`.
Models: cyclic_boosting/quantile_matching.py:631-636. -/
def transformFromSemiboundLower (x l : ℝ) : ℝ := Real.log (nudgeZero (x - l))

/-- `back_transform_in_semibound_lower`.
Models: cyclic_boosting/quantile_matching.py:639-640. -/
def backTransformInSemiboundLower (z l : ℝ) : ℝ := l + Real.exp z

/-- `transform_from_semibound_upper`.
Models: cyclic_boosting/quantile_matching.py:643-648. -/
def transformFromSemiboundUpper (x u : ℝ) : ℝ := Real.log (nudgeZero (u - x))

/-- `back_transform_in_semibound_upper`.
Models: cyclic_boosting/quantile_matching.py:651-652. -/
def backTransformInSemiboundUpper (z u : ℝ) : ℝ := u - Real.exp z

/-! ## `J_QPD_S` and `J_QPD_B` -/

/-- The monotonicity check shared by all constructors; `true` means that
`ValueError` is raised.
Models: cyclic_boosting/quantile_matching.py:55-56,214-215,426-427,495-496,577-578. -/
def sptCrossing (low med high : ℝ) : Bool := decide (low > med) || decide (high < med)

/-- Attributes of `J_QPD_S` for one row.
Models: cyclic_boosting/quantile_matching.py:58-87. -/
structure JQPDS where
  l : ℝ
  c : ℝ
  L : ℝ
  H : ℝ
  B : ℝ
  n : ℝ
  theta : ℝ
  delta : ℝ
  kappa : ℝ

/-- `J_QPD_S.__init__` after version selection, for one row.
Models: cyclic_boosting/quantile_matching.py:55-87. -/
def mkJQPDS (phi : Base) (alpha low med high l : ℝ) : Except String JQPDS :=
  if sptCrossing low med high then
    .error "The SPT values need to be monotonically increasing."
  else
    let c := phi.ppf (1 - alpha)
    let L := Real.log (low - l)
    let H := Real.log (high - l)
    let B := Real.log (med - l)
    let n : ℝ := if L + H - 2 * B > 0 then 1 else -1
    let theta := if L + H - 2 * B > 0 then low - l else high - l
    let n := if L + H - 2 * B = 0 then 0 else n
    let theta := if L + H - 2 * B = 0 then med - l else theta
    let delta := 1 / c * Real.sinh (Real.arcosh ((H - L) / (2 * whereLt (B - L) (H - B))))
    let kappa := 1 / (delta * c) * whereLt (H - B) (B - L)
    .ok { l, c, L, H, B, n, theta, delta, kappa }

/-- `J_QPD_S.__init__` on arrays: one crossing row makes the whole call fail.
Models: cyclic_boosting/quantile_matching.py:55-87. -/
def mkJQPDSRows (phi : Base) (alpha l : ℝ) (rows : List (ℝ × ℝ × ℝ)) :
    Except String (List JQPDS) :=
  rows.mapM fun r => mkJQPDS phi alpha r.1 r.2.1 r.2.2 l

/-- The cases in which numpy divides by zero (`min(B-L, H-B) = 0` or
`delta*c = 0`) and every later value is `nan` (`inf*0`).
Models: cyclic_boosting/quantile_matching.py:72-87 (IEEE special values). -/
def JQPDS.degenerate (d : JQPDS) : Prop :=
  whereLt (d.B - d.L) (d.H - d.B) = 0 ∨ d.delta * d.c = 0

open Classical in
/-- `J_QPD_S.ppf` for one row and one quantile; `none` is `nan`.
Models: cyclic_boosting/quantile_matching.py:89-122 (the array reshaping of
lines 107-122 is not modelled). -/
def JQPDS.ppf (d : JQPDS) (phi : Base) (p : ℝ) : Option ℝ :=
  if d.degenerate then none
  else some (d.l + d.theta * Real.exp
    (d.kappa * Real.sinh (Real.arsinh (phi.ppf p * d.delta) + Real.arsinh (d.n * d.c * d.delta))))

open Classical in
/-- `J_QPD_S.cdf` for one row and one value; `none` is `nan` (also for values at
or below the bound, where the logarithm is undefined).
Models: cyclic_boosting/quantile_matching.py:124-165. -/
def JQPDS.cdf (d : JQPDS) (phi : Base) (x : ℝ) : Option ℝ :=
  if d.degenerate ∨ (x - d.l) / d.theta ≤ 0 then none
  else some (phi.cdf (1 / d.delta * Real.sinh
    (Real.arsinh (1 / d.kappa * Real.log ((x - d.l) / d.theta))
      - Real.arsinh (d.n * d.c * d.delta))))

/-- Attributes of `J_QPD_B` for one row.
Models: cyclic_boosting/quantile_matching.py:217-241. -/
structure JQPDB where
  l : ℝ
  u : ℝ
  c : ℝ
  L : ℝ
  H : ℝ
  B : ℝ
  n : ℝ
  xi : ℝ
  delta : ℝ
  kappa : ℝ

/-- `J_QPD_B.__init__` after version selection, for one row.
Models: cyclic_boosting/quantile_matching.py:214-241. -/
def mkJQPDB (phi : Base) (alpha low med high l u : ℝ) : Except String JQPDB :=
  if sptCrossing low med high then
    .error "The SPT values need to be monotonically increasing."
  else
    let c := phi.ppf (1 - alpha)
    let L := phi.ppf ((low - l) / (u - l))
    let H := phi.ppf ((high - l) / (u - l))
    let B := phi.ppf ((med - l) / (u - l))
    let n : ℝ := if L + H - 2 * B > 0 then 1 else -1
    let xi := if L + H - 2 * B > 0 then L else H
    let n := if L + H - 2 * B = 0 then 0 else n
    let xi := if L + H - 2 * B = 0 then B else xi
    let delta := 1 / c * Real.arcosh ((H - L) / (2 * whereLt (B - L) (H - B)))
    let kappa := (H - L) / Real.sinh (2 * delta * c)
    .ok { l, u, c, L, H, B, n, xi, delta, kappa }

/-- The cases in which numpy divides by zero and every later value is `nan`.
Models: cyclic_boosting/quantile_matching.py:232-241 (IEEE special values). -/
def JQPDB.degenerate (d : JQPDB) : Prop :=
  whereLt (d.B - d.L) (d.H - d.B) = 0 ∨ Real.sinh (2 * d.delta * d.c) = 0

open Classical in
/-- `J_QPD_B.ppf` for one row and one quantile; `none` is `nan`.
Models: cyclic_boosting/quantile_matching.py:243-259. -/
def JQPDB.ppf (d : JQPDB) (phi : Base) (p : ℝ) : Option ℝ :=
  if d.degenerate then none
  else some (d.l + (d.u - d.l) *
    phi.cdf (d.xi + d.kappa * Real.sinh (d.delta * (phi.ppf p + d.n * d.c))))

open Classical in
/-- `J_QPD_B.cdf` for one row and one value; `none` is `nan`.
Models: cyclic_boosting/quantile_matching.py:261-285. -/
def JQPDB.cdf (d : JQPDB) (phi : Base) (x : ℝ) : Option ℝ :=
  if d.degenerate then none
  else some (phi.cdf (1 / d.delta *
    Real.arsinh (1 / d.kappa * (phi.ppf ((x - d.l) / (d.u - d.l)) - d.xi)) - d.n * d.c))

/-! ## Extended classes -/

/-- `BaseDist`: the base distribution rescaled so that `ppf(1-alpha) = 1`.
Models: cyclic_boosting/quantile_matching.py:339-355. -/
def baseDist (dist : Base) (alpha : ℝ) : Base where
  ppf x := dist.ppf x / dist.ppf (1 - alpha)
  cdf x := dist.cdf (x * dist.ppf (1 - alpha))

/-- `BaseDist.pdf` for a density `pdf` of `dist`.
Models: cyclic_boosting/quantile_matching.py:357-358. -/
def baseDistPdf (dist : Base) (pdf : ℝ → ℝ) (alpha x : ℝ) : ℝ :=
  pdf (x * dist.ppf (1 - alpha)) * dist.ppf (1 - alpha)

/-- Result of `unconstrained_calc`.
Models: cyclic_boosting/quantile_matching.py:361-378. -/
structure Johnson where
  gamma : ℝ
  xi : ℝ
  kappa : ℝ
  delta : ℝ

/-- `unconstrained_calc`.  `none` stands for a zero `theta` (numpy: division by
zero, `delta = 0`, `kappa = 0`, all later values `nan`).
Models: cyclic_boosting/quantile_matching.py:361-378. -/
def unconstrainedCalc (L B H : ℝ) : Option Johnson :=
  let gamma := -Real.sign (L + H - 2 * B)
  if gamma = 0 then some { gamma, xi := B, kappa := H - B, delta := 1 }
  else
    let xi := if gamma < 0 then L else H
    let theta := if gamma < 0 then (B - L) / (H - L) else (H - B) / (H - L)
    if theta = 0 then none
    else
      let delta := 1 / Real.arcosh (1 / (2 * theta))
      let kappa := (H - L) / Real.sinh (2 / delta)
      some { gamma, xi, kappa, delta }

/-- `xi + kappa*sinh((BaseDist(phi, alpha).ppf(x) - gamma)/delta)`.
Models: cyclic_boosting/quantile_matching.py:432-437,509-512,592-595. -/
def Johnson.quantile (j : Johnson) (phi : Base) (alpha p : ℝ) : ℝ :=
  j.xi + j.kappa * Real.sinh (((baseDist phi alpha).ppf p - j.gamma) / j.delta)

/-- `BaseDist(phi, alpha).cdf(gamma + delta*arcsinh((z - xi)/kappa))`.
Models: cyclic_boosting/quantile_matching.py:439-445,521-524,604-608. -/
def Johnson.prob (j : Johnson) (phi : Base) (alpha z : ℝ) : ℝ :=
  (baseDist phi alpha).cdf (j.gamma + j.delta * Real.arsinh ((z - j.xi) / j.kappa))

/-- The three supported ranges of the extended classes.
Models: cyclic_boosting/quantile_matching.py:381,448,527. -/
inductive Range where
  | U
  | S (l : ℝ)
  | B (l u : ℝ)

/-- Transformation from physical to internal space.
Models: cyclic_boosting/quantile_matching.py:429,500-503,583-586,519,602. -/
def Range.toInternal : Range → ℝ → ℝ
  | .U, x => x
  | .S l, x => transformFromSemiboundLower x l
  | .B l u, x => transformFromBounds x l u

/-- Transformation from internal to physical space.
Models: cyclic_boosting/quantile_matching.py:436-437,514-515,597-598. -/
def Range.toPhysical : Range → ℝ → ℝ
  | .U, z => z
  | .S l, z => backTransformInSemiboundLower z l
  | .B l u, z => backTransformInBounds z l u

/-- Constructors `J_QPD_extended_U/S/B.__init__` after version selection.
Models: cyclic_boosting/quantile_matching.py:426-430,495-506,577-589. -/
def mkExtended (r : Range) (low med high : ℝ) : Except String (Option Johnson) :=
  if sptCrossing low med high then
    .error "The SPT values need to be monotonically increasing."
  else .ok (unconstrainedCalc (r.toInternal low) (r.toInternal med) (r.toInternal high))

/-- `J_QPD_extended_*.ppf`.
Models: cyclic_boosting/quantile_matching.py:432-437,508-515,591-598. -/
def extendedPpf (r : Range) (j : Johnson) (phi : Base) (alpha p : ℝ) : ℝ :=
  r.toPhysical (j.quantile phi alpha p)

/-- `J_QPD_extended_*.cdf`.
Models: cyclic_boosting/quantile_matching.py:439-445,517-524,600-610. -/
def extendedCdf (r : Range) (j : Johnson) (phi : Base) (alpha x : ℝ) : ℝ :=
  j.prob phi alpha (r.toInternal x)

/-! ## Quantile regressor chain -/

/-- The two `bound` modes of `QPD_RegressorChain`.
Models: cyclic_boosting/quantile_matching.py:771-773. -/
inductive ChainBound where
  | S
  | B
deriving DecidableEq

/-- `QPD_RegressorChain.__init__`'s check of `bound`; `none` is the exception.
Models: cyclic_boosting/quantile_matching.py:771-773. -/
def parseChainBound (s : String) : Option ChainBound :=
  if s = "S" then some .S else if s = "B" then some .B else none

/-- Median of one row from the median estimator's output.
Models: cyclic_boosting/quantile_matching.py:783-786,811,815. -/
def chainMedian (b : ChainBound) (l u z : ℝ) : ℝ :=
  match b with
  | .S => backTransformInSemiboundLower z l
  | .B => backTransformInBounds z l u

/-- Lower quantile of one row.
Models: cyclic_boosting/quantile_matching.py:795,812,816. -/
def chainLow (l med z : ℝ) : ℝ := backTransformInBounds z l med

/-- Upper quantile of one row.
Models: cyclic_boosting/quantile_matching.py:813,817. -/
def chainHigh (b : ChainBound) (u med z : ℝ) : ℝ :=
  match b with
  | .S => backTransformInSemiboundLower z med
  | .B => backTransformInBounds z med u

/-- The three predicted quantiles of one row, given the estimators' outputs.
Models: cyclic_boosting/quantile_matching.py:809-817. -/
def chainPredict (b : ChainBound) (l u zMed zLow zHigh : ℝ) : ℝ × ℝ × ℝ :=
  let med := chainMedian b l u zMed
  let low := chainLow l med zLow
  let high := chainHigh b u med zHigh
  (low, med, high)

/-- Training target of the median model for one row.
Models: cyclic_boosting/quantile_matching.py:777-780. -/
def chainMedianTarget (b : ChainBound) (l u y : ℝ) : ℝ :=
  match b with
  | .S => transformFromSemiboundLower y l
  | .B => transformFromBounds y l u

/-- Training target of the lower-quantile model for one row, `none` if the row
is masked out.
Models: cyclic_boosting/quantile_matching.py:789-792. -/
def chainLowTarget (l y med : ℝ) : Option ℝ :=
  let t := y / med
  if t < 1 then some (transformFromBounds t (l / med) 1) else none

/-- Scaled distance `(y - pred_median)/(pred_median - pred_lowq)`.
Models: cyclic_boosting/quantile_matching.py:798. -/
def chainHighScaled (y med low : ℝ) : ℝ := (y - med) / (med - low)

/-- Broadcasting of two one-dimensional arrays of lengths `a.length` and
`b.length`, as numpy does for the arithmetic in `transform_from_bounds`.
Models: cyclic_boosting/quantile_matching.py:804 (numpy's broadcasting rule). -/
def broadcast (a b : List ℝ) : Except String (List (ℝ × ℝ)) :=
  if a.length = b.length then .ok (a.zip b)
  else if a.length = 1 then .ok (b.map fun y => (a.headD 0, y))
  else if b.length = 1 then .ok (a.map fun x => (x, b.headD 0))
  else .error "operands could not be broadcast together"

/-- A training row as seen by the upper-quantile step: `(y, median, low)`.
Models: cyclic_boosting/quantile_matching.py:798. -/
structure ChainRow where
  y : ℝ
  med : ℝ
  low : ℝ

open Classical in
/-- Targets of the upper-quantile model for the selected rows.  In mode "B" the
upper bounds are taken for *all* rows, while the targets are those of the
selected rows, so numpy has to broadcast.
Models: cyclic_boosting/quantile_matching.py:797-805. -/
def chainHighTargets (b : ChainBound) (u : ℝ) (rows : List ChainRow) :
    Except String (List ℝ) :=
  let t := (rows.filter fun r => chainHighScaled r.y r.med r.low > 0).map
    fun r => chainHighScaled r.y r.med r.low
  match b with
  | .S => .ok (t.map fun x => transformFromSemiboundLower x 0)
  | .B => do
    let ps ← broadcast t (rows.map fun r => (u - r.med) / (r.med - r.low))
    .ok (ps.map fun p => transformFromBounds p.1 0 p.2)

/-- `_nbinom_cdf_mu_var`'s parameters `n` and `p`.
Models: cyclic_boosting/quantile_matching.py:924-925. -/
def nbinomParams (mu var : ℝ) : ℝ × ℝ := (mu * mu / (var - mu), mu / var)

end

end CB
