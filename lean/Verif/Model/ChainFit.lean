import Verif.Model.QuantileMatching

/-!
# Model of `QPD_RegressorChain.fit` and `predict` with the three estimators as objects

The estimators are arbitrary objects with a state that `fit` changes and `predict` reads
(cyclic_boosting/quantile_matching.py:753-826).
-/

set_option autoImplicit false

namespace CB

noncomputable section

variable {R : Type}

/-- An estimator handed to the chain: `fit` changes the object and may raise (`some` message), `predict` returns one number
per row or raises.
Models: cyclic_boosting/quantile_matching.py:755-757 (`est_median`, `est_lowq`, `est_highq`). -/
structure QuantileEstimator (R S : Type) where
  fit : S → List R → List ℝ → Option String × S
  predict : S → List R → Except String (List ℝ)

/-- The three estimator objects of a chain.
Models: cyclic_boosting/quantile_matching.py:763-765. -/
structure ChainObjects (S₁ S₂ S₃ : Type) where
  median : S₁
  low : S₂
  high : S₃

/-- A training row with the prediction of the median.
Models: cyclic_boosting/quantile_matching.py:789 (`X`, `y` and `pred_median` of one row). -/
structure MedianRow (R : Type) where
  x : R
  y : ℝ
  med : ℝ

/-- Rows and targets of the lower-quantile model: `X[mask]` and the transformed `y_trans[mask]`.
Models: cyclic_boosting/quantile_matching.py:789-793. -/
def chainLowTraining (l : ℝ) (rows : List (MedianRow R)) : List (R × ℝ) :=
  rows.filterMap fun r => (chainLowTarget l r.y r.med).map fun t => (r.x, t)

open Classical in
/-- `X[mask]` of the upper-quantile model.
Models: cyclic_boosting/quantile_matching.py:798-805. -/
def chainHighFeatures (rows : List (MedianRow R)) (low : List ℝ) : List R :=
  ((rows.zip low).filter fun r => chainHighScaled r.1.y r.1.med r.2 > 0).map fun r => r.1.x

/-- `QPD_RegressorChain.fit`.  The first component is the exception, if any; the second are the estimator objects
afterwards, also when an exception was raised.  Simplification: an estimator whose `predict` returns another number of
values than there are rows is a failure (numpy would broadcast a single value).
Models: cyclic_boosting/quantile_matching.py:775-807. -/
def chainFit {S₁ S₂ S₃ : Type} (em : QuantileEstimator R S₁) (el : QuantileEstimator R S₂) (eh : QuantileEstimator R S₃)
    (b : ChainBound) (l u : ℝ) (o : ChainObjects S₁ S₂ S₃) (table : List (R × ℝ)) :
    Option String × ChainObjects S₁ S₂ S₃ :=
  let X := table.map Prod.fst
  let f₁ := em.fit o.median X (table.map fun r => chainMedianTarget b l u r.2)
  let o := { o with median := f₁.2 }
  match f₁.1 with
  | some e => (some e, o)
  | none =>
    match em.predict o.median X with
    | .error e => (some e, o)
    | .ok z =>
      if z.length ≠ table.length then (some "operands could not be broadcast together", o)
      else
        let rows := (table.zip z).map fun r => (⟨r.1.1, r.1.2, chainMedian b l u r.2⟩ : MedianRow R)
        let f₂ := el.fit o.low ((chainLowTraining l rows).map Prod.fst) ((chainLowTraining l rows).map Prod.snd)
        let o := { o with low := f₂.2 }
        match f₂.1 with
        | some e => (some e, o)
        | none =>
          match el.predict o.low X with
          | .error e => (some e, o)
          | .ok z' =>
            if z'.length ≠ table.length then (some "operands could not be broadcast together", o)
            else
              let low := (rows.zip z').map fun r => chainLow l r.1.med r.2
              match chainHighTargets b u ((rows.zip low).map fun r => ⟨r.1.y, r.1.med, r.2⟩) with
              | .error e => (some e, o)
              | .ok t =>
                let f₃ := eh.fit o.high (chainHighFeatures rows low) t
                (f₃.1, { o with high := f₃.2 })

/-- `QPD_RegressorChain.predict` without the distribution object: the three predicted quantiles of each row.
Models: cyclic_boosting/quantile_matching.py:809-817. -/
def chainPredictRows {S₁ S₂ S₃ : Type} (em : QuantileEstimator R S₁) (el : QuantileEstimator R S₂)
    (eh : QuantileEstimator R S₃) (b : ChainBound) (l u : ℝ) (o : ChainObjects S₁ S₂ S₃) (X : List R) :
    Except String (List (ℝ × ℝ × ℝ)) := do
  let zm ← em.predict o.median X
  let zl ← el.predict o.low X
  let zh ← eh.predict o.high X
  if zm.length ≠ X.length ∨ zl.length ≠ X.length ∨ zh.length ≠ X.length then
    .error "operands could not be broadcast together"
  else .ok ((zm.zip (zl.zip zh)).map fun r => chainPredict b l u r.1 r.2.1 r.2.2)

end

end CB
