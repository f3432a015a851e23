import Verif.Model.Api

/-!
# Specification: histories of an estimator object, columns that matter
-/

set_option autoImplicit false

namespace CB.Spec
variable {σ : Type*}

/-- The objects that can be reached from the constructor by calls of `fit` and `fit_transform`, successful or not, on tables that
satisfy `P`. -/
inductive History (C : Config σ) (E : Estimator) (P : DataFrame → Prop) : EstimatorObject → Prop
  | constructed (o : EstimatorObject) (h : C.construct = .ok o) : History C E P o
  | fit (o o' : EstimatorObject) (h : History C E P o) (F : DataFrame) (hF : P F) (y : ℕ → ℝ) (fuel : ℕ) (r : Except ApiErr Unit)
      (hr : o.fit C E F y fuel = some (o', r)) : History C E P o'
  | fitTransform (o o' : EstimatorObject) (h : History C E P o) (F : DataFrame) (hF : P F) (y : ℕ → ℝ) (fuel : ℕ)
      (r : Except ApiErr DataFrame) (hr : o.fitTransform C E F y fuel = some (o', r)) : History C E P o'

/-- The objects all of whose fits have raised, if there were any. -/
inductive NeverFitted (C : Config σ) (E : Estimator) : EstimatorObject → Prop
  | constructed (o : EstimatorObject) (h : C.construct = .ok o) : NeverFitted C E o
  | fit (o o' : EstimatorObject) (h : NeverFitted C E o) (F : DataFrame) (y : ℕ → ℝ) (fuel : ℕ) (e : ApiErr)
      (hr : o.fit C E F y fuel = some (o', .error e)) : NeverFitted C E o'

/-- The tables have the same number of rows and agree on the columns `cols`: each column is in both tables or in neither, and has
the same entries. -/
structure SameColumns (cols : String → Prop) (F G : DataFrame) : Prop where
  rows : G.n = F.n
  present : ∀ c, cols c → (c ∈ G.columns ↔ c ∈ F.columns)
  entries : ∀ c, cols c → ∀ s < F.n, G.X s c = F.X s c

open Finset in
/-- Mean absolute contribution of a feature, in link space, to the predictions for the rows of a table. -/
noncomputable def meanContribution (F : DataFrame) (f : FittedFeature ℝ) : ℝ :=
  (∑ s ∈ range F.n, |f.predict (F.X.row f.group s)|) / F.n

end CB.Spec
