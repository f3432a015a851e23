import Verif.Model.Estimators
import Verif.Model.Baseline
import Verif.Model.Histogram
import Verif.Model.GenericFit

/-!
# Model of what an analysis shows for the bins of a feature

`prepare_plots` of `cyclic_boosting/base.py` and of the quantile regressors in `cyclic_boosting/generic_loss.py`: after training with
observers, the means of target and prediction in every bin are stored with the feature, and plotted later on.

Simplifications: exact numbers; one feature at a time.
-/

set_option autoImplicit false

namespace CB
open Finset

/-- What is stored with a feature: deviation of prediction and target, target and prediction in the bins, and their means.
Models: cyclic_boosting/features.py:92-97. -/
structure PlotData where
  meanDev : ℕ → Flt ℝ
  y : ℕ → Flt ℝ
  prediction : ℕ → Flt ℝ
  yFinite : Flt ℝ
  predictionFinite : Flt ℝ

/-- A quotient of two floats; a zero denominator gives NaN (simplification: never an infinity).
Models: cyclic_boosting/base.py:808-809. -/
noncomputable def Flt.quotient : Flt ℝ → Flt ℝ → Flt ℝ
  | .fin a, .fin b => quotientFlt a b
  | _, _ => .nan

/-- `(sum_xw + 1) / (sum_w + 1)` for one bin.
Models: cyclic_boosting/base.py:787-792,801. -/
noncomputable def binnedMean (n : ℕ) (codes : ℕ → ℕ) (w x : ℕ → ℝ) (b : ℕ) : Flt ℝ :=
  quotientFlt (binSum n codes (fun i => w i * x i) b + 1) (binSum n codes w b + 1)

/-- `np.sum(sum_xw[:-1]) / np.sum(sum_w[:-1])`, or `np.mean(x)` if there is one bin only.
Models: cyclic_boosting/base.py:794-799. -/
noncomputable def finiteMean (n nBins : ℕ) (codes : ℕ → ℕ) (w x : ℕ → ℝ) : Flt ℝ :=
  if nBins > 1 then
    quotientFlt (∑ b ∈ range (nBins - 1), binSum n codes (fun i => w i * x i) b) (∑ b ∈ range (nBins - 1), binSum n codes w b)
  else quotientFlt (∑ i ∈ range n, x i) n

/-- `np.log(a + 1e-12)`.
Models: cyclic_boosting/base.py:807-809, generic_loss.py:309-311. -/
noncomputable def logShifted (a : Flt ℝ) : Flt ℝ := linkFlt .log (a.addFin 1e-12)

/-- What is stored for the means `target` and `prediction` of the bins.
Models: cyclic_boosting/base.py:803-812, generic_loss.py:304-314. -/
noncomputable def plotDataOf (link : LinkKind) (target prediction : ℕ → Flt ℝ) (yFinite predictionFinite : Flt ℝ) : PlotData :=
  if link = .identity then
    ⟨fun b => (prediction b).sub (target b), fun b => (target b).sub yFinite, fun b => (prediction b).sub predictionFinite,
      yFinite, predictionFinite⟩
  else
    ⟨fun b => (logShifted (prediction b)).sub (logShifted (target b)), fun b => logShifted ((target b).quotient yFinite),
      fun b => logShifted ((prediction b).quotient predictionFinite), yFinite, predictionFinite⟩

/-- `prepare_plots` for a feature with `nBins` bins, the last of which holds the missing values.
Models: cyclic_boosting/base.py:778-814. -/
noncomputable def preparePlots (link : LinkKind) (n nBins : ℕ) (codes : ℕ → ℕ) (w y prediction : ℕ → ℝ) : PlotData :=
  plotDataOf link (binnedMean n codes w y) (binnedMean n codes w prediction) (finiteMean n nBins codes w y)
    (finiteMean n nBins codes w prediction)

/-! ### Quantile regressors -/

section
variable {K : Type*} [Field K] [LinearOrder K]

/-- `np.insert(l, i, 1.0)` (`none`: IndexError).
Models: cyclic_boosting/generic_loss.py:293. -/
def insertOne (l : List K) (i : ℕ) : Option (List K) := if i ≤ l.length then some (l.insertIdx i 1) else none

/-- The quantile of the targets in a bin (`groupby(...).apply(...)`).
Models: cyclic_boosting/generic_loss.py:276-285, utils.py:1028-1060. -/
def targetQuantile [FloorRing K] (quantile : K) (n : ℕ) (codes : ℕ → ℕ) (y w : ℕ → K) (b : ℕ) : Option K :=
  continuousQuantile quantile (sortByTarget ((binMembers n codes b).map fun i => (y i, w i)))

/-- The array of quantiles of the targets: those of the bins that occur, then 1 is inserted for those that do not (a set of them, which is run
through in ascending order, as CPython does for sets of integers like these).
Models: cyclic_boosting/generic_loss.py:276-285,290-293. -/
def targetBins [FloorRing K] (quantile : K) (n top : ℕ) (codes : ℕ → ℕ) (y w : ℕ → K) : Option (List K) :=
  let present := (List.range (top + 1)).filter fun b => (binMembers n codes b).length ≠ 0
  let empty := (List.range (top + 1)).filter fun b => (binMembers n codes b).length = 0
  if present.all fun b => (targetQuantile quantile n codes y w b).isSome then
    empty.foldlM insertOne (present.map fun b => (targetQuantile quantile n codes y w b).getD 0)
  else none

/-- The array of mean predictions; a quotient that is not finite is replaced by 1.
Models: cyclic_boosting/generic_loss.py:272-274,287-288. -/
def predictionBins (n top : ℕ) (codes : ℕ → ℕ) (w prediction : ℕ → K) : List K :=
  (List.range (top + 1)).map fun b =>
    if binSum n codes w b = 0 then 1 else binSum n codes (fun i => w i * prediction i) b / binSum n codes w b

/-- `np.append(l, 1.0)` if one entry is missing.
Models: cyclic_boosting/generic_loss.py:299-302. -/
def appendOne (nBins : ℕ) (l : List K) : List K := if l.length + 1 = nBins then l ++ [1] else l

/-- The arrays `mean_target_binned` and `mean_prediction_binned` of `prepare_plots` of the quantile regressors (`none`: the maximum of no samples, or a bin without quantile, raises).
Models: cyclic_boosting/generic_loss.py:263-302. -/
def quantilePlotBins [FloorRing K] (quantile : K) (n nBins : ℕ) (codes : ℕ → ℕ) (w y prediction : ℕ → K) : Option (List K × List K) :=
  match ((List.range n).map codes).max? with
  | none => none
  | some top =>
    match targetBins quantile n top codes y w with
    | none => none
    | some targets => some (appendOne nBins targets, appendOne nBins (predictionBins n top codes w prediction))

/-- `np.reshape(l[:-1], shape)` for the two-dimensional plot (`none`: ValueError because the number of entries does not fit).
Models: cyclic_boosting/plots/_2dplots.py:126-130. -/
def reshapeFinite (shape : List ℕ) (l : List K) : Option (List K) := if l.dropLast.length = shape.prod then some l.dropLast else none

end

/-- `prepare_plots` of the quantile regressors: the number of entries of the arrays, and the arrays.
Models: cyclic_boosting/generic_loss.py:263-316. -/
noncomputable def preparePlotsQuantile (link : LinkKind) (quantile : ℝ) (n nBins : ℕ) (codes : ℕ → ℕ) (w y prediction : ℕ → ℝ) :
    Option (ℕ × PlotData) :=
  match quantilePlotBins quantile n nBins codes w y prediction,
    continuousQuantile quantile (sortByTarget ((List.range n).map fun i => (y i, w i))) with
  | some (targets, predictions), some yFinite =>
    some (targets.length, plotDataOf link (fun b => .fin (targets.getD b 1)) (fun b => .fin (predictions.getD b 1)) (.fin yFinite)
      (quotientFlt (∑ i ∈ range n, w i * prediction i) (∑ i ∈ range n, w i)))
  | _, _ => none

end CB
