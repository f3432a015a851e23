import Verif.Model.DispersionFit
import Verif.Lemmas.Limits
import Verif.Props.WholeFit

/-!
# C136: the stopping criteria only say when training stops

Estimators with the same arguments apart from `maximal_iterations`, `minimal_factor_change` and `minimal_loss_change` go through the
same iterations; the criteria only decide after which of them training ends. In particular, raising a `maximal_iterations` that
was not reached changes nothing. The learning rate must not depend on `maximal_iterations`, as the default one does.
-/

set_option autoImplicit false
set_option linter.unusedSectionVars false

namespace CB
open Finset Spec

section
variable {σ : Type*} (C : Config σ) (L L' : Limits)

/-- The setup with other stopping criteria. -/
theorem setup_with (h : OwnLearnRate C) (features : List (FeatureSpec × SmootherKind)) :
    (configWith C L).setup features = { C.setup features with params := paramsWith C.params L } := by
  have : (configWith C L).rate = C.rate := by
    funext k
    unfold Config.rate
    rcases h with h | h
    · cases hl : C.learnRate with
      | none => rw [hl] at h; cases h
      | some rate => simp [configWith, paramsWith, hl, constantLearnRateOne]
    · simp [configWith, paramsWith, h, constantLearnRateOne]
  unfold Config.setup
  rw [this]
  rfl

/-! ### A fit of a training set -/

/-- What a fit makes of the outcome of training. -/
private noncomputable def wrap (S : Setup σ) (E : Estimator) (D : TrainSet) (x : Option (Except TErr (FitResult ℝ))) :
    Option (Except FitErr FittedModel) :=
  match x with
  | none => none
  | some (.error e) => some (.error (.training e))
  | some (.ok r) => some (.ok
      { link := E.link
        scale := E.scale D.n D.y D.w
        offset := E.offset D
        features := fittedFeatures D.X D.n (S.features.map (·.1)) r.factors
        iterations := r.iterations })

open Classical in
/-- What a fit makes of the outcome of training, including the checks before. -/
private noncomputable def wrapFit (S : Setup σ) (E : Estimator) (D : TrainSet) (x : Option (Except TErr (FitResult ℝ))) :
    Option (Except FitErr FittedModel) :=
  if ∀ i < D.n, E.valid (D.y i) then
    if (E.scale D.n D.y D.w).isFinite then wrap S E D x else some (.error .notFinite)
  else some (.error .target)

private theorem wrap_ok (S : Setup σ) (E : Estimator) (D : TrainSet) (x : Option (Except TErr (FitResult ℝ))) (m : FittedModel)
    (h : wrapFit S E D x = some (.ok m)) : ∃ r, x = some (.ok r) ∧ r.iterations = m.iterations := by
  unfold wrapFit at h
  by_cases h1 : ∀ i < D.n, E.valid (D.y i)
  · rw [if_pos h1] at h
    by_cases h2 : (E.scale D.n D.y D.w).isFinite = true
    · rw [if_pos h2] at h
      unfold wrap at h
      match x, h with
      | some (.ok r), h =>
        simp only [Option.some.injEq, Except.ok.injEq] at h
        exact ⟨r, rfl, by rw [← h]⟩
    · rw [if_neg h2] at h; simp at h
  · rw [if_neg h1] at h; simp at h

private theorem wrap_error (S : Setup σ) (E : Estimator) (D : TrainSet) (x : Option (Except TErr (FitResult ℝ))) (e : TErr)
    (h : wrapFit S E D x = some (.error (.training e))) : x = some (.error e) := by
  unfold wrapFit at h
  by_cases h1 : ∀ i < D.n, E.valid (D.y i)
  · rw [if_pos h1] at h
    by_cases h2 : (E.scale D.n D.y D.w).isFinite = true
    · rw [if_pos h2] at h
      unfold wrap at h
      match x, h with
      | some (.error e'), h =>
        simp only [Option.some.injEq, Except.error.injEq, FitErr.training.injEq] at h
        rw [h]
    · rw [if_neg h2] at h; simp at h
  · rw [if_neg h1] at h; simp at h

private theorem wrapped (S : Setup σ) (E : Estimator) (D : TrainSet) (p : Params ℝ) (o : Oracle ℝ) (cfgs : List FeatureCfg)
    (prior : ℕ → ℝ) :
    OnlyLimits (fun L fuel => wrapFit S E D (fitMain (paramsWith p L) o cfgs prior fuel)) (fun m => m.iterations)
      (.training .convergenceError) where
  limit L N fuel m h h1 h2 := by
    obtain ⟨r, hr, hit⟩ := wrap_ok S E D _ m h
    rw [fitMain_limit p L { L with iterations := N } o cfgs prior fuel rfl rfl r hr (by omega) (show r.iterations ≤ N by omega), ← hr]
    exact h
  failed L L' fuel hL h := by
    have hr := wrap_error S E D _ _ h
    show wrapFit S E D (fitMain (paramsWith p L') o cfgs prior fuel) = _
    rw [fitMain_failed p L L' o cfgs prior fuel hL hr, ← hr]
    exact h
  looser L L' fuel fuel' m m' hL h h' := by
    obtain ⟨r, hr, hit⟩ := wrap_ok S E D _ m h
    obtain ⟨r', hr', hit'⟩ := wrap_ok S E D _ m' h'
    have := fitMain_looser p L L' o cfgs prior fuel fuel' hL r r' hr hr'
    show m.iterations ≤ m'.iterations
    omega
  same L L' fuel fuel' m m' h h' he := by
    obtain ⟨r, hr, hit⟩ := wrap_ok S E D _ m h
    obtain ⟨r', hr', hit'⟩ := wrap_ok S E D _ m' h'
    have he' : m.iterations = m'.iterations := he
    have := fitMain_same p L L' o cfgs prior fuel fuel' r r' hr hr' (by omega)
    subst this
    rw [hr] at h
    rw [hr', h] at h'
    simpa using h'

/-- Fits of a training set. -/
theorem fit_onlyLimits (S : Setup σ) (E : Estimator) (D : TrainSet) :
    OnlyLimits (fun L fuel => ({ S with params := paramsWith S.params L } : Setup σ).fit E D fuel) (fun m => m.iterations)
      (.training .convergenceError) :=
  wrapped S E D (S.paramsFor E) (S.oracle E D) (S.cfgs D)
    (fun s => (priorPrediction E.link (E.scale D.n D.y D.w) (E.offset D) D.prior s).getFin)

/-- Fits of a price model. -/
theorem priceFit_onlyLimits (S : Setup σ) (A : PriceArgs) (D : TrainSet) :
    OnlyLimits (fun L fuel => ({ S with params := paramsWith S.params L } : Setup σ).priceFit A D fuel) (fun m => m.iterations)
      (.training .convergenceError) :=
  wrapped S A.estimator D (S.paramsFor A.estimator) (S.priceOracle A D) (S.cfgs D)
    (fun s => (priorPrediction A.estimator.link (A.estimator.scale D.n D.y D.w) (A.estimator.offset D) D.prior s).getFin)

/-- **C136** for the dispersion regressor: another `maximal_iterations` that is not reached does not matter, stricter criteria do not
rescue a training that was given up, looser criteria never lead to more iterations, and two fits with the same number of iterations
give the same model. -/
theorem C136_dispersion (S : Setup σ) (A : DispersionArgs) (mu : ℕ → ℝ) (D : TrainSet) :
    OnlyLimits (fun L fuel => dispersionFit { S with params := paramsWith S.params L } A mu D fuel) (fun m => m.iterations)
      (.training .convergenceError) :=
  fit_onlyLimits S (dispersionEstimator A mu) D.clipPrior

/-! ### Estimator objects -/

variable (h : OwnLearnRate C) (E : Estimator) (o o' o'' : EstimatorObject) (F : DataFrame) (y : ℕ → ℝ) (fuel fuel' : ℕ)

/-- `fit` with other stopping criteria does the same before training. -/
private theorem fit_with (h : OwnLearnRate C) : o.fit (configWith C L) E F y fuel =
    match o.initFit C E F y with
    | (o, .error e) => some (o, .error e)
    | (o, .ok features) =>
      match ({ C.setup features with params := paramsWith C.params L } : Setup σ).fit E (C.trainSet F y) fuel with
      | none => none
      | some (.error e) => some (o, .error (.training e))
      | some (.ok m) =>
        some ({ o with status := .fitted m, importances := setFeatureImportances o.importances (modelImportances F m) }, .ok ()) := by
  unfold EstimatorObject.fit
  rw [show o.initFit (configWith C L) E F y = o.initFit C E F y from rfl]
  rcases o.initFit C E F y with ⟨o1, e | features⟩
  · rfl
  · dsimp only
    rw [setup_with C L h]
    rfl

/-- The parts of a successful fit. -/
private theorem fit_with_ok (h : OwnLearnRate C) (m : FittedModel) (hf : o.fit (configWith C L) E F y fuel = some (o', .ok ()))
    (hm : o'.status = .fitted m) : ∃ o1 features, o.initFit C E F y = (o1, .ok features) ∧
      ({ C.setup features with params := paramsWith C.params L } : Setup σ).fit E (C.trainSet F y) fuel = some (.ok m) ∧
      o' = { o1 with status := .fitted m, importances := setFeatureImportances o1.importances (modelImportances F m) } := by
  rw [fit_with C L E o F y fuel h] at hf
  rcases hi : o.initFit C E F y with ⟨o1, e | features⟩
  · rw [hi] at hf; simp at hf
  · rw [hi] at hf
    dsimp only at hf
    refine ⟨o1, features, rfl, ?_⟩
    match hx : ({ C.setup features with params := paramsWith C.params L } : Setup σ).fit E (C.trainSet F y) fuel with
    | none => rw [hx] at hf; cases hf
    | some (.error e) => rw [hx] at hf; simp at hf
    | some (.ok m') =>
      rw [hx] at hf
      simp only [Option.some.injEq, Prod.mk.injEq, and_true] at hf
      subst hf
      simp only [Status.fitted.injEq] at hm
      subst hm
      exact ⟨rfl, rfl⟩

include h

/-- **C136**, a limit that is not reached: if training ended before `maximal_iterations`, then with any other `maximal_iterations` of
at least the number of iterations made, the same fit gives the same estimator. -/
theorem C136_larger_limit (m : FittedModel) (hf : o.fit (configWith C L) E F y fuel = some (o', .ok ())) (hm : o'.status = .fitted m)
    (h1 : m.iterations < L.iterations) (N : ℕ) (h2 : m.iterations ≤ N) :
    o.fit (configWith C { L with iterations := N }) E F y fuel = some (o', .ok ()) := by
  obtain ⟨o1, features, hi, hx, ho⟩ := fit_with_ok C L E o o' F y fuel h m hf hm
  have := (fit_onlyLimits (C.setup features) E (C.trainSet F y)).limit L N fuel m hx h1 h2
  rw [fit_with C _ E o F y fuel h, hi]
  dsimp only at this ⊢
  rw [show (C.setup features).params = C.params from rfl] at this
  rw [this, ho]

/-- **C136**, no rescue: if training was given up because the loss had grown too often, it is also given up with stricter
tolerances and more iterations. -/
theorem C136_not_converging (hL : Looser L L')
    (hf : o.fit (configWith C L) E F y fuel = some (o', .error (.training (.training .convergenceError)))) :
    o.fit (configWith C L') E F y fuel = some (o', .error (.training (.training .convergenceError))) := by
  rw [fit_with C _ E o F y fuel h] at hf ⊢
  rcases hi : o.initFit C E F y with ⟨o1, e | features⟩
  · rw [hi] at hf; exact hf
  · rw [hi] at hf
    dsimp only at hf ⊢
    match hx : ({ C.setup features with params := paramsWith C.params L } : Setup σ).fit E (C.trainSet F y) fuel with
    | none => rw [hx] at hf; cases hf
    | some (.ok m') => rw [hx] at hf; simp at hf
    | some (.error e) =>
      rw [hx] at hf
      simp only [Option.some.injEq, Prod.mk.injEq, Except.error.injEq, ApiErr.training.injEq] at hf
      obtain ⟨hf1, hf2⟩ := hf
      subst hf1 hf2
      have := (fit_onlyLimits (C.setup features) E (C.trainSet F y)).failed L L' fuel hL hx
      rw [show (C.setup features).params = C.params from rfl] at this
      rw [this]

/-- **C136**, looser criteria: larger tolerances and a smaller `maximal_iterations` never lead to more iterations. -/
theorem C136_looser (m m' : FittedModel) (hL : Looser L L') (hf : o.fit (configWith C L) E F y fuel = some (o', .ok ()))
    (hm : o'.status = .fitted m) (hf' : o.fit (configWith C L') E F y fuel' = some (o'', .ok ())) (hm' : o''.status = .fitted m') :
    m.iterations ≤ m'.iterations := by
  obtain ⟨o1, features, hi, hx, -⟩ := fit_with_ok C L E o o' F y fuel h m hf hm
  obtain ⟨o2, features', hi', hx', -⟩ := fit_with_ok C L' E o o'' F y fuel' h m' hf' hm'
  rw [hi, Prod.mk.injEq, Except.ok.injEq] at hi'
  obtain ⟨e1, e2⟩ := hi'
  subst e1 e2
  exact (fit_onlyLimits (C.setup features) E (C.trainSet F y)).looser L L' fuel fuel' m m' hL hx hx'

/-- **C136**, stages of one training: whatever the stopping criteria, two fits that end after the same number of iterations give the
same estimator. -/
theorem C136_same_number (m m' : FittedModel) (hf : o.fit (configWith C L) E F y fuel = some (o', .ok ()))
    (hm : o'.status = .fitted m) (hf' : o.fit (configWith C L') E F y fuel' = some (o'', .ok ())) (hm' : o''.status = .fitted m')
    (hit : m.iterations = m'.iterations) : o' = o'' := by
  obtain ⟨o1, features, hi, hx, ho⟩ := fit_with_ok C L E o o' F y fuel h m hf hm
  obtain ⟨o2, features', hi', hx', ho'⟩ := fit_with_ok C L' E o o'' F y fuel' h m' hf' hm'
  rw [hi, Prod.mk.injEq, Except.ok.injEq] at hi'
  obtain ⟨e1, e2⟩ := hi'
  subst e1 e2
  have := (fit_onlyLimits (C.setup features) E (C.trainSet F y)).same L L' fuel fuel' m m' hx hx' hit
  rw [ho, ho', this]

omit h

/-! ### Price models -/

private theorem priceFit_with (P : PriceConfig σ) (h : OwnLearnRate P.config) (o : PriceObject) : o.fit (priceWith P L) F y fuel =
    match o.initFit P F y with
    | (o, .error e) => some (o, .error e)
    | (o, .ok features) =>
      match ({ P.config.setup features with params := paramsWith P.config.params L } : Setup σ).priceFit P.args
          (P.config.trainSet F y) fuel with
      | none => none
      | some (.error e) => some (o, .error (.training e))
      | some (.ok m) =>
        some ({ o with status := .fitted m, importances := setFeatureImportances o.importances (modelImportances F m) }, .ok ()) := by
  unfold PriceObject.fit
  rw [show o.initFit (priceWith P L) F y = o.initFit P F y from rfl]
  rcases o.initFit P F y with ⟨o1, e | features⟩
  · rfl
  · dsimp only
    rw [show (priceWith P L).config.setup features = _ from setup_with P.config L h features]
    rfl

private theorem priceFit_with_ok (P : PriceConfig σ) (h : OwnLearnRate P.config) (o o' : PriceObject) (m : FittedModel)
    (hf : o.fit (priceWith P L) F y fuel = some (o', .ok ())) (hm : o'.status = .fitted m) :
    ∃ o1 features, o.initFit P F y = (o1, .ok features) ∧
      ({ P.config.setup features with params := paramsWith P.config.params L } : Setup σ).priceFit P.args (P.config.trainSet F y) fuel
        = some (.ok m) ∧
      o' = { o1 with status := .fitted m, importances := setFeatureImportances o1.importances (modelImportances F m) } := by
  rw [priceFit_with L F y fuel P h o] at hf
  rcases hi : o.initFit P F y with ⟨o1, e | features⟩
  · rw [hi] at hf; simp at hf
  · rw [hi] at hf
    dsimp only at hf
    refine ⟨o1, features, rfl, ?_⟩
    match hx : ({ P.config.setup features with params := paramsWith P.config.params L } : Setup σ).priceFit P.args
        (P.config.trainSet F y) fuel with
    | none => rw [hx] at hf; cases hf
    | some (.error e) => rw [hx] at hf; simp at hf
    | some (.ok m') =>
      rw [hx] at hf
      simp only [Option.some.injEq, Prod.mk.injEq, and_true] at hf
      subst hf
      simp only [Status.fitted.injEq] at hm
      subst hm
      exact ⟨rfl, rfl⟩

/-- **C136** for price models: a limit that is not reached does not matter, looser criteria never lead to more iterations, and two
fits with the same number of iterations give the same model. -/
theorem C136_price (P : PriceConfig σ) (h : OwnLearnRate P.config) (o o' : PriceObject) (m : FittedModel)
    (hf : o.fit (priceWith P L) F y fuel = some (o', .ok ())) (hm : o'.status = .fitted m) :
    (m.iterations < L.iterations → ∀ N, m.iterations ≤ N →
      o.fit (priceWith P { L with iterations := N }) F y fuel = some (o', .ok ())) ∧
    ∀ L' fuel' o'' m', o.fit (priceWith P L') F y fuel' = some (o'', .ok ()) → o''.status = .fitted m' →
      (Looser L L' → m.iterations ≤ m'.iterations) ∧ (m.iterations = m'.iterations → o' = o'') := by
  obtain ⟨o1, features, hi, hx, ho⟩ := priceFit_with_ok L F y fuel P h o o' m hf hm
  constructor
  · intro h1 N h2
    have := (priceFit_onlyLimits (P.config.setup features) P.args (P.config.trainSet F y)).limit L N fuel m hx h1 h2
    rw [priceFit_with _ F y fuel P h o, hi]
    dsimp only at this ⊢
    rw [show (P.config.setup features).params = P.config.params from rfl] at this
    rw [this, ho]
  · intro L' fuel' o'' m' hf' hm'
    obtain ⟨o2, features', hi', hx', ho'⟩ := priceFit_with_ok L' F y fuel' P h o o'' m' hf' hm'
    rw [hi, Prod.mk.injEq, Except.ok.injEq] at hi'
    obtain ⟨e1, e2⟩ := hi'
    subst e1 e2
    refine ⟨fun hL => ?_, fun hit => ?_⟩
    · exact (priceFit_onlyLimits (P.config.setup features) P.args (P.config.trainSet F y)).looser L L' fuel fuel' m m' hL hx hx'
    · have := (priceFit_onlyLimits (P.config.setup features) P.args (P.config.trainSet F y)).same L L' fuel fuel' m m' hx hx' hit
      rw [ho, ho', this]

end

end CB
