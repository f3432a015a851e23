import Verif.Model.PriceFit
import Verif.Spec.Fit

/-!
# Specification: price models
-/

set_option autoImplicit false

namespace CB.Spec

/-- The table with the entry of sample `s` in a column replaced. -/
def setEntry (X : Table ℝ) (s : ℕ) (column : String) (v : Flt ℝ) : Table ℝ :=
  fun t c => if t = s ∧ c = column then v else X t c

/-- The smallest factor that a list of features can multiply the prior exponent with: 0.05 for each external feature made of one
column and 0.1 for each interaction. -/
noncomputable def lowestExponent (features : List FeatureSpec) : ℝ :=
  ((features.filter fun f => f.external).map fun f => if f.group.length = 1 then (0.05 : ℝ) else 0.1).prod

/-- The largest such factor: 20 for each external feature made of one column and 5 for each interaction. -/
noncomputable def highestExponent (features : List FeatureSpec) : ℝ :=
  ((features.filter fun f => f.external).map fun f => if f.group.length = 1 then (20 : ℝ) else 5).prod

/-- The prior exponent of a row: the entry of the column of prior exponents, and -1 if there is none. -/
noncomputable def priorExponentOf (A : PriceArgs) (X : Table ℝ) (i : ℕ) : ℝ :=
  match A.exponentColumn with
  | none => -1
  | some column => (X i column).getFin

/-- The weighted costs of sample `i` in a bin with `count` samples if the exponents of the bin are multiplied by `t`, as the comments
of the code document them: for a sample with a price ratio the squared error of the prediction with the new exponent, divided by the
variance `a * p + c * p ^ 2` at the current prediction `p`; and for every sample a penalty for leaving the prior exponent and for
changing the exponent, shared by the samples of the bin. -/
noncomputable def exponentCost (A : PriceArgs) (D : TrainSet) (pred : Pred ℝ) (count : ℝ) (t : ℝ) (i : ℕ) : ℝ :=
  let priorExponent := priorExponentOf A D.X i
  let demand := Real.exp (pred.factors i)
  let exponent := priorExponent * Real.exp (pred.exponents i)
  (match D.X i A.externalColumn with
    | .fin ratio =>
      let p := demand * Real.exp (exponent * (ratio - 1))
      D.w i * (D.y i - demand * Real.exp (t * exponent * (ratio - 1))) ^ 2 / (A.a * p + A.c * p ^ 2)
    | _ => 0) +
  ((t * exponent - priorExponent) ^ 2 + (t - 1) ^ 2 + Real.log t ^ 2 + Real.log (t * exponent / priorExponent) ^ 2) / A.varPrior / count

/-- In no iteration of the training of a price model does the loss exceed twice its initial value. -/
def PriceNeverDiverges {σ : Type*} (S : Setup σ) (A : PriceArgs) (D : TrainSet) : Prop :=
  ∀ a, A.estimator.scale D.n D.y D.w = .fin a → ∀ past s,
    Trace (S.paramsFor A.estimator) (S.priceOracle A D) (S.cfgs D)
      (startState (S.priceOracle A D) (S.cfgs D) (baseline A.estimator D a)) past s →
    s.diverging = 0

/-- Nothing is said about the price of the first `n` samples: each price ratio is 1 or missing. -/
def NoPrices (A : PriceArgs) (X : Table ℝ) (n : ℕ) : Prop :=
  ∀ s < n, X s A.externalColumn = .fin 1 ∨ (X s A.externalColumn).isFinite = false

/-- The price models that can be reached from the constructor by calls of `fit` and `fit_transform`, successful or not. -/
inductive PriceHistory {σ : Type*} (P : PriceConfig σ) : PriceObject → Prop
  | constructed (o : PriceObject) (h : P.construct = .ok o) : PriceHistory P o
  | fit (o o' : PriceObject) (h : PriceHistory P o) (F : DataFrame) (y : ℕ → ℝ) (fuel : ℕ) (r : Except ApiErr Unit)
      (hr : o.fit P F y fuel = some (o', r)) : PriceHistory P o'
  | fitTransform (o o' : PriceObject) (h : PriceHistory P o) (F : DataFrame) (y : ℕ → ℝ) (r : Except PriceErr DataFrame)
      (hr : o.fitTransform P F y = some (o', r)) : PriceHistory P o'

/-- The columns that matter to a price model: those of weights, of prior predictions, of price ratios, of prior exponents and
those of the feature groups. -/
def priceColumns {σ : Type*} (P : PriceConfig σ) (ids : List FeatureId) (c : String) : Prop :=
  P.config.weightColumn = some c ∨ P.config.priorColumn = some c ∨ P.args.externalColumn = c ∨
    P.args.exponentColumn = some c ∨ ∃ i ∈ ids, c ∈ i.group

end CB.Spec
