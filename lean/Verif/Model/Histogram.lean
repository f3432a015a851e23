import Mathlib.Data.List.Sort
import Mathlib.Data.List.Dedup
import Mathlib.Algebra.Order.Floor.Defs
import Verif.Model.GenericLoss
import Verif.Model.Flt

set_option autoImplicit false

/-!
Model of the binned statistics of `cyclic_boosting/utils.py` (linear binning, `digitize`, grouped means, medians and quantiles) and
of the histograms that a `PlottingObserver` computes from them (`cyclic_boosting/observers.py`).

Simplifications: exact numbers instead of float64; the predictions handed to the histograms are finite and the arrays one-dimensional.
-/
namespace CB

variable {K : Type*} [Field K] [LinearOrder K]

/-! ### Linear binning -/

/-- `calc_linear_bins(x, nbins)`: boundaries and centres (`none`: the minimum of an empty array fails).
Models: cyclic_boosting/utils.py:359-382. -/
def calcLinearBins (x : List K) (nbins : ℕ) : Option (List K × List K) :=
  match x.min?, x.max? with
  | some minx, some maxx =>
    let boundaries := (List.range (nbins + 1)).map (fun i : ℕ => minx + (i : K) * ((maxx - minx) / (nbins : K)))
    some (boundaries, List.zipWith (fun hi lo => 1 / 2 * (hi + lo)) (boundaries.drop 1) boundaries.dropLast)
  | _, _ => none

/-- `np.digitize(x, bins)` for increasing boundaries: the number of boundaries not above `x`; NaN is sorted behind every number.
Models: cyclic_boosting/utils.py:425. -/
def npDigitize (bins : List K) : Flt K → ℕ
  | .fin v => (bins.filter (fun b => decide (b ≤ v))).length
  | .nan => bins.length
  | .pinf => bins.length
  | .ninf => 0

/-- `x >= bins.max()` (comparisons with NaN are false; the maximum of an empty array fails, here: false).
Models: cyclic_boosting/utils.py:426. -/
def atLeastMax (bins : List K) (x : Flt K) : Bool :=
  match bins.max? with
  | none => false
  | some m => Flt.leOf m x

/-- `digitize(x, bins)` for one value and increasing boundaries.
Models: cyclic_boosting/utils.py:385-428. -/
def digitize (bins : List K) (x : Flt K) : ℕ :=
  if atLeastMax bins x then npDigitize bins x - 1 else npDigitize bins x

/-! ### Statistics of the groups -/

/-- The samples of a frame with the columns `y`, `weights`, sorted by `y` (`sort_values("y")`; the order of equal values is not
specified by the code, here it is the order of the frame).
Models: cyclic_boosting/utils.py:592,613. -/
def sortByTarget (l : List (K × K)) : List (K × K) := l.insertionSort (fun a b => a.1 ≤ b.1)

/-- `_weighted_median_of_dataframe(x)` on samples (target, weight).
Models: cyclic_boosting/utils.py:603-619. -/
def weightedMedian (l : List (K × K)) : Option K :=
  let sorted := sortByTarget l
  match firstReaching ((sorted.map Prod.snd).sum / 2) 0 sorted with
  | some y => some y
  | none => (sorted.map Prod.fst).min?

/-- `_weighted_mean_of_dataframe(x)` on samples (target, weight); 0/0 is NaN, and the only case of a vanishing sum for weights
that are not negative.
Models: cyclic_boosting/utils.py:622-634. -/
def weightedMeanFrame (l : List (K × K)) : Flt K :=
  let sumOfWeights := (l.map Prod.snd).sum
  if sumOfWeights = 0 then .nan else .fin ((l.map (fun s => s.1 * s.2)).sum / sumOfWeights)

/-- `_weighted_size_of_dataframe(x)` on samples (target, weight).
Models: cyclic_boosting/utils.py:637-647. -/
def weightedSize (l : List (K × K)) : K := (l.map Prod.snd).sum

/-- `LOWER_1_SIGMA_QUANTILE`.
Models: cyclic_boosting/utils.py:18. -/
def lower1Sigma : K := (1 - 6827 / 10000) / 2

/-- `LOWER_2_SIGMA_QUANTILE`.
Models: cyclic_boosting/utils.py:19. -/
def lower2Sigma : K := (1 - 9545 / 10000) / 2

/-- The entry of a sorted array at a position between two indices, linearly interpolated: `Series.quantile`.
Models: cyclic_boosting/utils.py:529-532. -/
def interpolatedQuantile [FloorRing K] (q : K) (sorted : List K) : K :=
  let pos := q * ((sorted.length - 1 : ℕ) : K)
  let low := ⌊pos⌋.toNat
  sorted.getD low 0 + (pos - (low : K)) * (sorted.getD (low + 1) (sorted.getD low 0) - sorted.getD low 0)

/-- `Series.median`: the middle entry, or the mean of the two middle entries.
Models: cyclic_boosting/utils.py:525. -/
def plainMedian (sorted : List K) : K :=
  if sorted.length % 2 = 1 then sorted.getD (sorted.length / 2) 0
  else (sorted.getD (sorted.length / 2 - 1) 0 + sorted.getD (sorted.length / 2) 0) / 2

/-- What `calc_means_medians` returns for one group: mean, median, count and the four errors (lower and upper for one and for two
standard deviations).
Models: cyclic_boosting/utils.py:524-537,556-569. -/
structure GroupStats (K : Type*) where
  mean : Flt K
  median : K
  count : K
  lower1 : K
  upper1 : K
  lower2 : K
  upper2 : K

/-- `_calc_means_medians_evenly_weighted` for the targets of one group.
Models: cyclic_boosting/utils.py:508-537. -/
def evenStats [FloorRing K] (ys : List K) : GroupStats K :=
  let sorted := ys.insertionSort (· ≤ ·)
  let median := plainMedian sorted
  { mean := .fin (ys.sum / (ys.length : K))
    median := median
    count := (ys.length : K)
    lower1 := interpolatedQuantile lower1Sigma sorted - median
    upper1 := interpolatedQuantile (1 - lower1Sigma) sorted - median
    lower2 := interpolatedQuantile lower2Sigma sorted - median
    upper2 := interpolatedQuantile (1 - lower2Sigma) sorted - median }

/-- `_calc_means_medians_with_weights` for the samples (target, weight) of one group (a group is never empty, so that the
quantiles exist; 0 stands for the failing minimum of an empty frame).
Models: cyclic_boosting/utils.py:540-569. -/
def weightedStats (l : List (K × K)) : GroupStats K :=
  let sorted := sortByTarget l
  let median := (weightedMedian l).getD 0
  { mean := weightedMeanFrame l
    median := median
    count := weightedSize l
    lower1 := (weightedQuantile lower1Sigma sorted).getD 0 - median
    upper1 := (weightedQuantile (1 - lower1Sigma) sorted).getD 0 - median
    lower2 := (weightedQuantile lower2Sigma sorted).getD 0 - median
    upper2 := (weightedQuantile (1 - lower2Sigma) sorted).getD 0 - median }

/-- The keys of `groupby(binnumbers)`: the bin numbers that occur, ascending.
Models: cyclic_boosting/utils.py:523,555. -/
def groupNumbers {α : Type*} (l : List (ℕ × α)) : List ℕ := ((l.map Prod.fst).dedup).insertionSort (· ≤ ·)

/-- The rows of one group.
Models: cyclic_boosting/utils.py:523,555. -/
def groupRows {α : Type*} (l : List (ℕ × α)) (b : ℕ) : List α := (l.filter (fun s => s.1 = b)).map Prod.snd

/-- `len(np.unique(weights)) == 1`: there are samples, and all weights are equal.
Models: cyclic_boosting/utils.py:497. -/
def weightsUniform (ws : List K) : Bool := decide (ws.dedup.length = 1)

/-- `calc_means_medians(binnumbers, y, weights)` on samples (bin number, target, weight): the statistics of each group.
Models: cyclic_boosting/utils.py:432-500. -/
def calcMeansMedians [FloorRing K] (l : List (ℕ × K × K)) : List (ℕ × GroupStats K) :=
  let even := weightsUniform (l.map (fun s => s.2.2))
  (groupNumbers l).map (fun b =>
    (b, if even then evenStats ((groupRows l b).map Prod.fst) else weightedStats (groupRows l b)))

/-- `calc_weighted_quantile(binnumbers, y, weights, quantile)`.
Models: cyclic_boosting/utils.py:503-505. -/
def calcWeightedQuantile (quantile : K) (l : List (ℕ × K × K)) : List (ℕ × K) :=
  (groupNumbers l).map (fun b => (b, (weightedQuantile quantile (sortByTarget (groupRows l b))).getD 0))

/-! ### Histograms of the observer -/

/-- The tuple returned by `calc_in_sample_histograms`: means by bin number, bin centres, errors by bin number (lower and upper for
one and for two standard deviations), counts by bin number.
Models: cyclic_boosting/observers.py:209-217. -/
structure Histograms (K : Type*) where
  means : List (ℕ × Flt K)
  centers : List K
  errors : Option (List (ℕ × K × K × K × K))
  counts : List (ℕ × K)

/-- `~np.isnan(means.reindex(...))` at one bin number: the bin occurs and its mean is not NaN.
Models: cyclic_boosting/observers.py:225. -/
def hasMean (means : List (ℕ × Flt K)) (b : ℕ) : Bool :=
  match means.lookup b with
  | none => false
  | some .nan => false
  | some _ => true

/-- `calc_in_sample_histograms(y, pred, weights, quantile)` with `nbins` bins (100 in the code) on samples (prediction, target,
weight) (`none`: no samples).
Models: cyclic_boosting/observers.py:190-231. -/
def inSampleHistograms [FloorRing K] (nbins : ℕ) (quantile : Option K) (l : List (K × K × K)) : Option (Histograms K) :=
  match calcLinearBins (l.map Prod.fst) nbins with
  | none => none
  | some (boundaries, centers) =>
    let binned := l.map (fun s => (digitize boundaries (.fin s.1), s.2))
    let stats := calcMeansMedians binned
    let means :=
      match quantile with
      | none => stats.map (fun g => (g.1, g.2.mean))
      | some q => (calcWeightedQuantile q binned).map (fun g => (g.1, Flt.fin g.2))
    let errors :=
      match quantile with
      | none => some (stats.map (fun g => (g.1, g.2.lower1, g.2.upper1, g.2.lower2, g.2.upper2)))
      | some _ => none
    let kept := (List.range nbins).filterMap (fun i => if hasMean means (i + 1) then centers[i]? else none)
    let binary := l.all (fun s => decide (s.2.1 = 0) || decide (s.2.1 = 1))
    some ⟨means, kept, if binary then none else errors, stats.map (fun g => (g.1, g.2.count))⟩

end CB
