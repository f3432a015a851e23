import Verif.Model.Store
import Verif.Props.MetaSmoother
import Verif.Props.ApiExample

/-!
# C135: a model predicts the same after it was stored and loaded again
-/

set_option autoImplicit false
set_option linter.unusedSectionVars false

namespace CB
open Spec

section
variable (f : FittedFeature ℝ)

theorem reloaded_factors (b : ℕ) (hb : b ≤ f.nFinite) : f.store.load.factors b = f.factors b := by
  classical
  have e : csrToArray f.store.values = (List.range f.nFinite).map fun b => Flt.fin (f.factors b) := by
    unfold FittedFeature.store
    exact C51_store_load _
  unfold StoredFeature.load
  dsimp only
  rw [e, List.getElem?_map]
  by_cases h : b < f.nFinite
  · rw [List.getElem?_range h]
    rfl
  · rw [List.getElem?_eq_none (by simpa using h)]
    have : b = f.nFinite := by omega
    rw [this]
    rfl

/-- **C135**, for one feature: the contribution of a feature is the same for every sample, with usable values or not, in a bin that was seen in
training or not. -/
theorem C135_feature (hlen : f.nBins.length = f.group.length) (row : List (Flt ℝ)) (hrow : row.length = f.group.length) :
    f.store.load.predict row = f.predict row := by
  by_cases hf : finiteSemiPositive row = true
  · by_cases h2 : 2 ≤ f.group.length
    · rw [predict_multi f.store.load hlen h2 row hrow hf, predict_multi f hlen h2 row hrow hf]
      show (if validRow f.nBins row then _ else (0 : ℝ)) = _
      split
      · rename_i hv
        have := encode_lt _ _ (validRow_tuple f.nBins row (by omega) hv)
        exact reloaded_factors f _ (le_of_lt this)
      · rfl
    · unfold FittedFeature.predict FittedFeature.smoother
      rw [if_pos hf, if_pos hf]
      rw [show f.store.load.nFinite = f.nFinite from rfl, show f.store.load.group = f.group from rfl, if_pos (show f.group.length < 2 by omega)]
      rw [if_pos (show f.group.length < 2 by omega)]
      split_ifs with h0
      · rfl
      · dsimp only
        have : predictOneDim f.nFinite f.store.load.factors row = predictOneDim f.nFinite f.factors row := by
          unfold predictOneDim
          cases row.headD .nan with
          | fin x =>
            dsimp only
            split_ifs with h
            · rw [reloaded_factors f _ (by omega)]
            · rfl
          | nan => rfl
          | pinf => rfl
          | ninf => rfl
        rw [this]
  · unfold FittedFeature.predict
    rw [if_neg hf, if_neg hf]
    exact reloaded_factors f _ le_rfl

end

/-- **C135**, for models whose features know the numbers of bins of all their columns. -/
theorem reloaded_model (m : FittedModel) (hm : ∀ f ∈ m.features, f.nBins.length = f.group.length) (prior : Option (ℕ → Flt ℝ)) (X : Table ℝ) (s : ℕ) :
    m.store.load.predict prior X s = m.predict prior X s := by
  have h : ∀ ext, contributionSum ext m.store.load.features X s = contributionSum ext m.features X s := by
    intro ext
    unfold FittedModel.store StoredModel.load contributionSum
    dsimp only
    rw [List.map_map]
    generalize m.features = l at hm
    induction l with
    | nil => rfl
    | cons f l ih =>
      have ih' := ih fun g hg => hm g (List.mem_cons_of_mem _ hg)
      have hf := C135_feature f (hm f (List.mem_cons_self ..)) (X.row f.group s) (by simp [Table.row])
      simp only [List.map_cons, List.filter_cons, Function.comp_apply]
      rw [show f.store.load.external = f.external from rfl]
      split
      · simp only [List.map_cons, List.sum_cons]
        rw [ih', show f.store.load.group = f.group from rfl, hf]
      · exact ih'
  unfold FittedModel.predict
  rw [(C24_link_space _ _ _ _).1, (C24_link_space _ _ _ _).1, h]
  rfl

/-- The features of a trained model know the numbers of bins of all their columns. -/
theorem fit_bins {σ : Type*} (S : Setup σ) (E : Estimator) (D : TrainSet) (fuel : ℕ) (m : FittedModel) (h : S.fit E D fuel = some (.ok m)) :
    ∀ f ∈ m.features, f.nBins.length = f.group.length := by
  intro f hf
  obtain ⟨a, r, -, -, -, rfl⟩ := fit_ok S E D fuel m h
  simp only [fittedFeatures] at hf
  obtain ⟨i, hi⟩ := List.getElem?_of_mem hf
  rw [List.getElem?_zipWith] at hi
  split at hi
  · rw [Option.some.injEq] at hi
    rw [← hi]
    exact bindData_length _ _ _
  · cases hi

section
variable {σ : Type*} (C : Config σ) (E : Estimator) (o o' : EstimatorObject) (F : DataFrame) (y : ℕ → ℝ) (fuel : ℕ)

/-- **C135.** An estimator that was fitted, stored and loaded again predicts the same for every table, or raises the same exception. -/
theorem C135_estimator (h : o.fit C E F y fuel = some (o', .ok ())) (F' : DataFrame) : o'.reloaded.predict C F' = o'.predict C F' := by
  obtain ⟨fs, m, -, -, hm, rfl⟩ := fit_object_ok _ _ _ _ _ _ _ h
  unfold EstimatorObject.predict EstimatorObject.reloaded EstimatorObject.checkFitted
  dsimp only
  have hg : (m.store.load.features.flatMap fun f => f.group) = m.features.flatMap fun f => f.group := by
    unfold FittedModel.store StoredModel.load
    dsimp only
    rw [List.map_map, List.flatMap_map]
    rfl
  have hp : m.store.load.predict (C.prior F') F'.X = m.predict (C.prior F') F'.X :=
    funext fun s => reloaded_model m (fit_bins _ _ _ _ m hm) _ _ s
  rw [hg, hp]

/-- **C135.** Fitting the estimator anew after it was loaded, and the feature importances, are the same as without storing it. -/
theorem C135_state (F₂ : DataFrame) (y₂ : ℕ → ℝ) :
    o.reloaded.getImportances = o.getImportances ∧ C.requiredColumns o.reloaded = C.requiredColumns o ∧
    ∀ o₂, o.fit C E F₂ y₂ fuel = some (o₂, .ok ()) → o.reloaded.fit C E F₂ y₂ fuel = some (o₂, .ok ()) := by
  refine ⟨rfl, rfl, fun o₂ h => ?_⟩
  obtain ⟨fs, m, hi, -, -, -⟩ := fit_object_ok _ _ _ _ _ _ _ h
  have e : o.reloaded.initFit C E F₂ y₂ = o.initFit C E F₂ y₂ := by
    unfold EstimatorObject.initFit at hi ⊢
    rw [show o.reloaded.groupsFor C F₂ = o.groupsFor C F₂ from rfl]
    split at hi
    · simp at hi
    · by_cases h1 : ¬ ∀ i < F₂.n, E.valid (y₂ i)
      · rw [if_pos h1] at hi
        simp at hi
      · by_cases h2 : F₂.has C.weightColumn.toList = false
        · rw [if_neg h1, if_pos h2] at hi
          simp at hi
        · rw [if_neg h1, if_neg h2] at hi
          rw [if_neg h1, if_neg h1, if_neg h2, if_neg h2]
          split at hi
          · simp at hi
          · rfl
  rw [← h]
  unfold EstimatorObject.fit
  rw [e]

end

/-- **C135** for pipelines: binner and estimator stored and loaded together. -/
theorem C135_pipeline {σ : Type*} (B : Binner) (columns : List String) (S : Setup σ) (E : Estimator) (D : TrainSet) (fuel : ℕ) (P : FittedPipeline)
    (h : pipelineFit B columns S E D fuel = some (.ok P)) (prior : Option (ℕ → Flt ℝ)) (X : Table ℝ) (n : ℕ) :
    P.reloaded.predict B prior X n = P.predict B prior X n := by
  unfold pipelineFit at h
  split at h
  · simp at h
  · split at h
    · simp at h
    · split at h
      · simp at h
      · simp at h
      · rename_i m hm
        simp only [Option.some.injEq, Except.ok.injEq] at h
        subst h
        have hp : ∀ Xt, m.store.load.predict prior Xt = m.predict prior Xt := fun Xt => funext fun s => reloaded_model m (fit_bins _ _ _ _ m hm) _ _ s
        unfold FittedPipeline.predict FittedPipeline.reloaded
        simp only [hp]

/-- Witness: an estimator that was fitted, with two bins of finite values, stored and loaded. -/
example : ∃ o m, apiNew.fit apiConfig (poissonEstimator id) apiFrame (fun s => 2 * s + 1) 1 = some (o, .ok ()) ∧ o.status = .fitted m ∧
    ∀ F', o.reloaded.predict apiConfig F' = o.predict apiConfig F' := by
  obtain ⟨o, m, h1, h2⟩ := apiFit
  exact ⟨o, m, h1, h2, C135_estimator _ _ _ _ _ _ _ h1⟩

/-- Witness: values are dropped from the stored form and come back, also next to missing values and infinities. -/
example : csrOf [(.fin 0 : Flt ℚ), .nan, .fin 0, .pinf] = (4, [(1, .nan), (3, .pinf)]) ∧
    csrToArray (4, [(1, (.nan : Flt ℚ)), (3, .pinf)]) = [.fin 0, .nan, .fin 0, .pinf] := by
  constructor <;> decide +kernel

end CB
