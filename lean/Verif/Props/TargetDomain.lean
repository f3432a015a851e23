import Verif.Props.Api
import Verif.Model.DispersionFit
import Verif.Model.GenericFit
import Verif.Props.ApiExample
import Verif.Model.PriceFit

/-!
# C144: every estimator refuses the targets it is not made for
-/

set_option autoImplicit false
set_option linter.unusedSectionVars false

namespace CB

/-- The targets an estimator is made for: numbers that are not negative for the models with log link, 0 and 1 for the classifiers, all
numbers for the additive models. The price model and the dispersion model are objects of their own, see below. -/
inductive Spec.MadeFor : Estimator → (ℝ → Prop) → Prop
  | poisson (g : ℝ → ℝ) : MadeFor (poissonEstimator g) fun y => 0 ≤ y
  | nbinom (g : ℝ → ℝ) (a c : ℝ) : MadeFor (nbinomEstimator g a c) fun y => 0 ≤ y
  | multiplicativeQuantile (q : ℝ) (minimize : (ℝ → Flt ℝ) → ℝ → ℝ) : MadeFor (quantileEstimator true q minimize) fun y => 0 ≤ y
  | multiplicativeGeneric (costs : List (ℝ × ℝ × ℝ) → Flt ℝ) (minimize : (ℝ → Flt ℝ) → ℝ → ℝ) :
      MadeFor (genericEstimator true costs minimize) fun y => 0 ≤ y
  | classifier (ppf : ℝ → ℝ → ℝ → ℝ) (coef : ℝ → ℝ) : MadeFor (classifierEstimator ppf coef) fun y => y = 0 ∨ y = 1
  | genericClassifier (ppf : ℝ → ℝ → ℝ → ℝ) (coef : ℝ → ℝ) (costs : List (ℝ × ℝ × ℝ) → Flt ℝ) (minimize : (ℝ → Flt ℝ) → ℝ → ℝ) :
      MadeFor (genericClassifierEstimator ppf coef costs minimize) fun y => y = 0 ∨ y = 1
  | location : MadeFor locationEstimator fun _ => True
  | locPoisson : MadeFor locPoissonEstimator fun _ => True
  | gbs (regalpha : ℝ) : MadeFor (gbsEstimator regalpha) fun _ => True
  | additiveQuantile (q : ℝ) (minimize : (ℝ → Flt ℝ) → ℝ → ℝ) : MadeFor (quantileEstimator false q minimize) fun _ => True
  | additiveGeneric (costs : List (ℝ × ℝ × ℝ) → Flt ℝ) (minimize : (ℝ → Flt ℝ) → ℝ → ℝ) :
      MadeFor (genericEstimator false costs minimize) fun _ => True

theorem madeFor_valid (E : Estimator) (T : ℝ → Prop) (h : Spec.MadeFor E T) (y : ℝ) : E.valid y ↔ T y := by
  cases h <;> simp [poissonEstimator, nbinomEstimator, quantileEstimator, genericEstimator, classifierEstimator,
    genericClassifierEstimator, locationEstimator, locPoissonEstimator, gbsEstimator]

section
variable {σ : Type*} (C : Config σ) (E : Estimator) (T : ℝ → Prop) (hT : Spec.MadeFor E T) (F : DataFrame) (y : ℕ → ℝ)

include hT in
/-- **C144.** If a target is not one the estimator is made for, `fit` raises a ValueError and leaves the estimator as it was, with everything it
had learned before. -/
theorem C144_refused (o : EstimatorObject) (i : ℕ) (hi : i < F.n) (hy : ¬ T (y i)) (fuel : ℕ) :
    o.fit C E F y fuel = some (o, .error .valueError) := by
  have hv : ¬ ∀ i < F.n, E.valid (y i) := fun h => hy ((madeFor_valid E T hT _).mp (h i hi))
  have hn : F.n ≠ 0 := by omega
  have hi : o.initFit C E F y = (o, .error .valueError) := by
    unfold EstimatorObject.initFit
    cases checkLenData F.n F.n with
    | error e => rfl
    | ok l => exact if_pos hv
  unfold EstimatorObject.fit
  rw [hi]

include hT in
/-- **C144.** After a `fit` that did not raise, all targets are of the kind the estimator is made for. -/
theorem C144_accepted (o o' : EstimatorObject) (fuel : ℕ) (h : o.fit C E F y fuel = some (o', .ok ())) (i : ℕ) (hi : i < F.n) :
    T (y i) := by
  by_contra hy
  rw [C144_refused C E T hT F y o i hi hy fuel] at h
  simp at h

include hT in
/-- **C144.** No other targets are refused: with other targets the estimator is made for, what `fit` says before it starts training is
the same. -/
theorem C144_not_refused (o : EstimatorObject) (y' : ℕ → ℝ) (hy : ∀ i < F.n, T (y i)) (hy' : ∀ i < F.n, T (y' i)) (fuel : ℕ)
    (o' : EstimatorObject) (e : ApiErr) (he : ∀ t, e ≠ .training t) (h : o.fit C E F y fuel = some (o', .error e)) :
    o.fit C E F y' fuel = some (o', .error e) := by
  have hv : ∀ z : ℕ → ℝ, (∀ i < F.n, T (z i)) → ∀ i < F.n, E.valid (z i) := fun z hz i hi => (madeFor_valid E T hT _).mpr (hz i hi)
  have hi : o.initFit C E F y' = o.initFit C E F y := by
    unfold EstimatorObject.initFit
    cases checkLenData F.n F.n with
    | error e => rfl
    | ok l =>
      dsimp only
      rw [if_neg (not_not.mpr (hv y hy)), if_neg (not_not.mpr (hv y' hy'))]
  unfold EstimatorObject.fit at h ⊢
  rw [hi]
  rcases hc : o.initFit C E F y with ⟨o1, e1 | fs⟩
  · rw [hc] at h
    exact h
  · rw [hc] at h
    dsimp only at h
    split at h
    · cases h
    · simp only [Option.some.injEq, Prod.mk.injEq, Except.error.injEq] at h
      exact absurd h.2.symm (he _)
    · simp at h

end

/-- **C144** for the price model: negative targets are refused, and the model stays as it was. -/
theorem C144_price {σ : Type*} (P : PriceConfig σ) (o : PriceObject) (F : DataFrame) (y : ℕ → ℝ) (i : ℕ) (hi : i < F.n) (hy : y i < 0)
    (fuel : ℕ) : o.fit P F y fuel = some (o, .error .valueError) := by
  have hv : ¬ ∀ i < F.n, P.args.estimator.valid (y i) := fun h => by
    have : 0 ≤ y i := h i hi
    linarith
  have hi : o.initFit P F y = (o, .error .valueError) := by
    unfold PriceObject.initFit
    cases checkLenData F.n F.n with
    | error e => rfl
    | ok l => exact if_pos hv
  unfold PriceObject.fit
  rw [hi]

/-- **C144** for the dispersion model: negative targets are refused (unless the column of the means is missing, which is a KeyError), and the
model predicts as before. -/
theorem C144_dispersion {σ : Type*} (C : Config σ) (A : DispersionArgs) (o : DispersionObject) (F : DataFrame) (y : ℕ → ℝ) (i : ℕ) (hi : i < F.n)
    (hy : y i < 0) (fuel : ℕ) : ∃ o', o.fit C A F y fuel =
      some (o', .error (.api (if A.meanColumn ∈ F.columns then .valueError else .keyError))) ∧ o'.base = o.base ∧
      ∀ G, o'.predict C G = o.predict C G := by
  have hv : ¬ ∀ i < F.n, (dispersionEstimator A (A.mean F)).valid (y i) := fun h => by
    have : 0 ≤ y i := h i hi
    linarith
  have hi : o.base.initFit C (dispersionEstimator A (A.mean F)) F y = (o.base, .error .valueError) := by
    unfold EstimatorObject.initFit
    cases checkLenData F.n F.n with
    | error e => rfl
    | ok l => exact if_pos hv
  by_cases hc : A.meanColumn ∈ F.columns
  · refine ⟨⟨o.base, some (A.mean F)⟩, ?_, rfl, fun _ => rfl⟩
    unfold DispersionObject.fit
    rw [if_neg (by simp [DataFrame.has, hc]), hi, if_pos hc]
  · refine ⟨o, ?_, rfl, fun _ => rfl⟩
    unfold DispersionObject.fit
    rw [if_pos (by simp [DataFrame.has, hc]), if_neg hc]

/-- The hypotheses are met: a fitted Poisson model stays as it is if it is fitted again with a negative target, and targets of the fit before
were accepted. -/
example : ∃ o m, apiNew.fit apiConfig (poissonEstimator id) apiFrame (fun s => 2 * s + 1) 1 = some (o, .ok ()) ∧ o.status = .fitted m ∧
    o.fit apiConfig (poissonEstimator id) apiFrame (fun s => 1 - 2 * s) 1 = some (o, .error .valueError) := by
  obtain ⟨o, m, h, hm⟩ := apiFit
  exact ⟨o, m, h, hm, C144_refused apiConfig _ _ (.poisson id) apiFrame _ o 1 (by decide) (by norm_num) 1⟩

/-- Without its weight column a table is refused whatever the targets. -/
example : ∀ y' : ℕ → ℝ, (∀ i < apiFrame.n, 0 ≤ y' i) → apiNew.fit { apiConfig with weightColumn := some "no such column" } (poissonEstimator id) apiFrame y' 1 =
    some (apiNew, .error .keyError) := by
  intro y' hy'
  refine C144_not_refused _ _ _ (.poisson id) apiFrame (fun _ => 1) apiNew y' (fun _ _ => zero_le_one) hy' 1 apiNew .keyError (by simp) ?_
  have hi : apiNew.initFit { apiConfig with weightColumn := some "no such column" } (poissonEstimator id) apiFrame (fun _ => 1) =
      (apiNew, .error .keyError) := by
    unfold EstimatorObject.initFit
    have : checkLenData apiFrame.n apiFrame.n = .ok () := by rfl
    rw [this]
    dsimp only
    have hv : ∀ i < 2, (poissonEstimator id).valid 1 := fun _ _ => show (0 : ℝ) ≤ 1 from zero_le_one
    rw [if_neg (not_not.mpr hv), if_pos (by decide)]
  unfold EstimatorObject.fit
  rw [hi]

end CB
