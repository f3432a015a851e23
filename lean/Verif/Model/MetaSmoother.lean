import Verif.Model.Predict

/-!
# Model of the meta smoothers

Covers cyclic_boosting/smoothing/meta_smoother.py, `set_n_bins` of
cyclic_boosting/smoothing/base.py and `not_seen_events` of
cyclic_boosting/utils.py.

The sub-smoother is arbitrary: any function for `fit` and any function for
`predict`.  Bin centres are natural numbers, as `Feature._get_data_for_smoother`
passes them; values and weights of the bins are finite.
-/

set_option autoImplicit false

namespace CB

/-- One row of `X_for_smoother` in `fit`: bin centre, weight and uncertainty.
Models: cyclic_boosting/features.py:187-202 (`_get_data_for_smoother`). -/
structure FitRow (K : Type*) where
  x : List ℕ
  w : K
  unc : K

/-- A smoother: what `fit` remembers, and what `predict` makes of it.
Models: cyclic_boosting/smoothing/base.py:12-20 (`AbstractBinSmoother`). -/
structure Smoother (K : Type*) (σ : Type*) where
  fit : List (FitRow K) → List K → σ
  predict : σ → List (List (Flt K)) → List (Flt K)

section
variable {K : Type*} [Field K] [LinearOrder K] [FloorRing K]

/-! ### Normalisation -/

/-- `calc_norm`: the weighted mean of the bin values, 0 without positive weight.
Models: cyclic_boosting/smoothing/meta_smoother.py:81-108. (The test for a finite
result is always passed by finite numbers.) -/
def calcNorm (X : List (FitRow K)) (y : List K) : K :=
  let w := X.map (·.w)
  let weightsum := w.sum
  if 0 < weightsum then (List.zipWith (fun a b => a * b) y w).sum / weightsum else 0

/-- `NormalizationSmoother`.
Models: cyclic_boosting/smoothing/meta_smoother.py:110-116. -/
def normalizationSmoother {σ : Type*} (sub : Smoother K σ) : Smoother K (σ × K) where
  fit X y :=
    let norm := calcNorm X y
    (sub.fit X (y.map fun v => v - norm), norm)
  predict st rows := (sub.predict st.1 rows).map fun v => v.addFin st.2

/-! ### Regression types -/

/-- `RegressionType`.
Models: cyclic_boosting/smoothing/meta_smoother.py:18-37. -/
inductive RegType
  | discontinuous | interpolating | extrapolating
  deriving DecidableEq, Repr

/-- What `set_n_bins` remembers.
Models: cyclic_boosting/smoothing/base.py:27-38. -/
structure BinInfo (K : Type*) where
  ndim : ℕ
  binWeights : List K
  nBins : List ℕ

/-- `set_n_bins`.
Models: cyclic_boosting/smoothing/base.py:27-38.  Simplification: no exception for
tables without bin columns. -/
def setBinInfo (X : List (FitRow K)) : BinInfo K :=
  let ndim := (X.map (·.x.length)).headD 0
  { ndim := ndim
    binWeights := X.map (·.w)
    nBins := setNBins ndim (X.map (·.x)) }

/-- `np.rint(x).astype(int)`; the number for entries that are not finite is arbitrary, it is
overwritten afterwards.
Models: cyclic_boosting/utils.py:68. -/
def rintCode : Flt K → ℤ
  | .fin x => rint x
  | _ => 0

/-- The combined bin number that `not_seen_events` looks up for each row: rows of
more than one column are numbered lexicographically, single columns are rounded;
rows with missing or negative entries and numbers that are too large get the number
of the bin for missing values.
Models: cyclic_boosting/utils.py:66-74. -/
def notSeenIndex (dims : ℕ) (nBins : List ℕ) (rows : List (List (Flt K))) : List ℕ :=
  let maxLex := nBins.prod
  let codes : List ℤ :=
    if 1 < dims then ((lexBinnos dims rows (some nBins)).1).map fun (c : ℕ) => (c : ℤ)
    else rows.map fun r => rintCode (r.headD .nan)
  List.zipWith (fun r c => if ¬ finiteSemiPositive r = true ∨ (maxLex : ℤ) < c then maxLex else c.toNat)
    rows codes

/-- `not_seen_events`; `none` is an `IndexError`.
Models: cyclic_boosting/utils.py:27-77. -/
def notSeenEvents (dims : ℕ) (rows : List (List (Flt K))) (wx : List K) (nBins : List ℕ) :
    Option (List Bool) :=
  let maxLex := nBins.prod
  let notSeen := wx.map fun w => decide (w = 0)
  let notSeen := if notSeen.length = maxLex then notSeen ++ [true] else notSeen
  (notSeenIndex dims nBins rows).mapM fun i => notSeen[i]?

/-- `x < 0` and `x > c` for a float.
Models: cyclic_boosting/smoothing/meta_smoother.py:121. -/
def fltNeg : Flt K → Bool
  | .fin x => decide (x < 0)
  | .ninf => true
  | _ => false

/-- `x > c` for a float and a finite `c`.
Models: cyclic_boosting/smoothing/meta_smoother.py:123. -/
def fltGt (c : K) : Flt K → Bool
  | .fin x => decide (c < x)
  | .pinf => true
  | _ => false

/-- `np.isnan`.
Models: cyclic_boosting/smoothing/meta_smoother.py:121. -/
def fltIsNan : Flt K → Bool
  | .nan => true
  | _ => false

/-- `np.min(row) < 0`: the minimum is NaN if an entry is NaN.
Models: cyclic_boosting/smoothing/meta_smoother.py:121. -/
def minNeg (row : List (Flt K)) : Bool := !row.any fltIsNan && row.any fltNeg

/-- `_selected_events_interpolating` for one row.
Models: cyclic_boosting/smoothing/meta_smoother.py:120-124. -/
def selectedInterpolating (nBins : List ℕ) (row : List (Flt K)) : Bool :=
  minNeg row || (List.zipWith (fun (b : Flt K) (n : ℕ) => fltGt ((n : K) - 1 / 2) b) row nBins).any id

/-- `apply_cut`.
Models: cyclic_boosting/smoothing/meta_smoother.py:155-181. -/
def applyCut (regType : RegType) (info : BinInfo K) (rows : List (List (Flt K)))
    (smoothed : List (Flt K)) : Option (List (Flt K)) :=
  let cut := fun (sel : List Bool) =>
    List.zipWith (fun (s : Bool) v => if s then Flt.nan else v) sel smoothed
  match regType with
  | .discontinuous => (notSeenEvents info.ndim rows info.binWeights info.nBins).map cut
  | .interpolating => some (cut (rows.map (selectedInterpolating info.nBins)))
  | .extrapolating => some smoothed

/-- `RegressionTypeSmoother.fit`.
Models: cyclic_boosting/smoothing/meta_smoother.py:183-185. -/
def regTypeFit {σ : Type*} (sub : Smoother K σ) (X : List (FitRow K)) (y : List K) :
    σ × BinInfo K := (sub.fit X y, setBinInfo X)

/-- `RegressionTypeSmoother.predict`.
Models: cyclic_boosting/smoothing/meta_smoother.py:187-189. -/
def regTypePredict {σ : Type*} (sub : Smoother K σ) (regType : RegType) (st : σ × BinInfo K)
    (rows : List (List (Flt K))) : Option (List (Flt K)) :=
  applyCut regType st.2 rows (sub.predict st.1 rows)

/-- `NormalizationRegressionTypeSmoother.fit`.
Models: cyclic_boosting/smoothing/meta_smoother.py:220-223. -/
def normRegTypeFit {σ : Type*} (sub : Smoother K σ) (X : List (FitRow K)) (y : List K) :
    (σ × K) × BinInfo K :=
  let norm := calcNorm X y
  ((sub.fit X (y.map fun v => v - norm), norm), setBinInfo X)

/-- `NormalizationRegressionTypeSmoother.predict`.
Models: cyclic_boosting/smoothing/meta_smoother.py:225-227. -/
def normRegTypePredict {σ : Type*} (sub : Smoother K σ) (regType : RegType)
    (st : (σ × K) × BinInfo K) (rows : List (List (Flt K))) : Option (List (Flt K)) :=
  applyCut regType st.2 rows ((sub.predict st.1.1 rows).map fun v => v.addFin st.1.2)

/-! ### Two sections -/

/-- `_split_condition`: first column at most the split point (plus tolerance).
Models: cyclic_boosting/smoothing/meta_smoother.py:274-275. -/
def splitLower (split epsilon : K) (row : List (Flt K)) : Bool :=
  match row.headD .nan with
  | .fin x => decide (x ≤ split + epsilon)
  | .ninf => true
  | _ => false

/-- `_split_condition` for a row of the table in `fit`.
Models: cyclic_boosting/smoothing/meta_smoother.py:274-275. -/
def splitLowerFit (split epsilon : K) (r : FitRow K) : Bool :=
  decide (((r.x.headD 0 : ℕ) : K) ≤ split + epsilon)

/-- `SectionSmoother.fit`: each sub-smoother is fitted with its rows if there are any.
`none` is the failing assertion for an empty table.
Models: cyclic_boosting/smoothing/meta_smoother.py:275-284. -/
def sectionFit {σ τ : Type*} (lower : Smoother K σ) (upper : Smoother K τ) (split epsilon : K)
    (X : List (FitRow K)) (y : List K) : Option (Option σ × Option τ) :=
  let isLow := fun (p : FitRow K × K) => splitLowerFit split epsilon p.1
  let low := (X.zip y).filter isLow
  let up := (X.zip y).filter fun p => !isLow p
  let sl := if low.isEmpty then none else some (lower.fit (low.map (·.1)) (low.map (·.2)))
  let su := if up.isEmpty then none else some (upper.fit (up.map (·.1)) (up.map (·.2)))
  if sl.isNone && su.isNone then none else some (sl, su)

/-- Writing into the selected positions of an array, in order.
Models: cyclic_boosting/smoothing/meta_smoother.py:286-297. -/
def scatter {α : Type*} : List Bool → List α → List α → List α
  | [], _, _ => []
  | true :: m, a :: as, bs => a :: scatter m as bs
  | true :: _, [], _ => []
  | false :: m, as, b :: bs => b :: scatter m as bs
  | false :: _, _, [] => []

/-- `SectionSmoother.predict`; a section whose sub-smoother was not fitted stays NaN (the
argument `nan_representation` of the constructor is ignored).
Models: cyclic_boosting/smoothing/meta_smoother.py:286-297. -/
def sectionPredict {σ τ : Type*} (lower : Smoother K σ) (upper : Smoother K τ)
    (split epsilon : K) (st : Option σ × Option τ) (rows : List (List (Flt K))) :
    List (Flt K) :=
  let mask := rows.map (splitLower split epsilon)
  let rl := rows.filter (splitLower split epsilon)
  let ru := rows.filter fun r => !splitLower split epsilon r
  let pl := match st.1 with
    | some s => lower.predict s rl
    | none => rl.map fun _ => .nan
  let pu := match st.2 with
    | some s => upper.predict s ru
    | none => ru.map fun _ => .nan
  scatter mask pl pu

/-! ### Bin-value smoothers -/

/-- A float for the result of a look-up.
Models: cyclic_boosting/smoothing/onedim.py:42-51. -/
def ofLookup : Option K → Flt K
  | some v => .fin v
  | none => .nan

/-- `onedim.BinValuesSmoother`.
Models: cyclic_boosting/smoothing/onedim.py:39-51, 84-86. -/
def binValues1 : Smoother K (List K) where
  fit _ y := y
  predict v rows := rows.map fun r => ofLookup (predictOneDim v.length (fun k => v.getD k 0) r)

/-- `multidim.BinValuesSmoother`.
Models: cyclic_boosting/smoothing/multidim.py:41-60, 97-100. -/
def binValuesMulti : Smoother K (List ℕ × List K) where
  fit X y := ((setBinInfo X).nBins, y)
  predict st rows := rows.map fun r => ofLookup (predictMultiDim st.1 (fun k => st.2.getD k 0) r)

end

/-! ### Storing a bin-value smoother -/

section
variable {K : Type*} [Zero K] [DecidableEq K]

/-- `scipy.sparse.csr_matrix` of a one-dimensional array: its length and the non-zero
entries with their columns (NaN is different from 0).
Models: cyclic_boosting/smoothing/onedim.py:91-96, cyclic_boosting/smoothing/multidim.py:102-108
(`__getstate__`). -/
def csrOf (v : List (Flt K)) : ℕ × List (ℕ × Flt K) :=
  (v.length, (v.zipIdx.filter fun p => p.1 ≠ .fin 0).map fun p => (p.2, p.1))

/-- `toarray()[0, :]` of such a matrix.
Models: cyclic_boosting/smoothing/onedim.py:98-102, cyclic_boosting/smoothing/multidim.py:110-115
(`__setstate__`). -/
def csrToArray (m : ℕ × List (ℕ × Flt K)) : List (Flt K) :=
  (List.range m.1).map fun i => ((m.2.find? fun p => p.1 = i).map (·.2)).getD (.fin 0)

end

end CB
