import Verif.Spec.Rowwise
import Verif.Model.PriceFit
import Verif.Model.DispersionFit
import Verif.Props.ApiExample
import Verif.Props.PipelineExample
import Verif.Props.Predict
import Verif.Props.BinnedFit

/-!
# C133: predictions are made row by row
-/

set_option autoImplicit false
set_option linter.unusedSectionVars false

namespace CB

variable {σ : Type*}

theorem contributionSum_rows (ρ : ℕ → ℕ) (ext : Bool) (features : List (FittedFeature ℝ)) (X : Table ℝ) (s : ℕ) :
    contributionSum ext features (fun s c => X (ρ s) c) s = contributionSum ext features X (ρ s) := rfl

/-- A fitted model predicts row by row. -/
theorem model_rows (m : FittedModel) (prior : Option (ℕ → Flt ℝ)) (X : Table ℝ) (ρ : ℕ → ℕ) :
    m.predict (prior.map fun q s => q (ρ s)) (fun s c => X (ρ s) c) = fun s => m.predict prior X (ρ s) := by
  funext s
  unfold FittedModel.predict
  rw [(C24_link_space _ _ _ _).1, (C24_link_space _ _ _ _).1, contributionSum_rows]
  cases prior <;> rfl

/-- **C133.** The prediction of an estimator for a row depends on this row only: predictions for chosen rows are the chosen predictions. -/
theorem C133_estimator (C : Config σ) (o : EstimatorObject) (F : DataFrame) (ρ : ℕ → ℕ) (n : ℕ) :
    o.predict C (Spec.chooseRows F ρ n) = Spec.chosen ρ (o.predict C F) := by
  unfold EstimatorObject.predict
  split
  · rfl
  · split
    · rename_i m _
      have h : (Spec.chooseRows F ρ n).has = F.has := rfl
      rw [h]
      split
      · refine congrArg (fun p => some (Except.ok p)) ?_
        have := model_rows m (C.prior F) F.X ρ
        rw [← this]
        unfold Config.prior
        rw [Option.map_map]
        rfl
      · rfl
    · rfl

/-- **C133** for the dispersion model. -/
theorem C133_dispersion (C : Config σ) (o : DispersionObject) (F : DataFrame) (ρ : ℕ → ℕ) (n : ℕ) :
    o.predict C (Spec.chooseRows F ρ n) = Spec.chosen ρ (o.predict C F) := by
  unfold DispersionObject.predict
  split
  · rfl
  · split
    · rename_i m _
      have h : (Spec.chooseRows F ρ n).has = F.has := rfl
      rw [h]
      split
      · refine congrArg (fun p => some (Except.ok p)) ?_
        have := model_rows m ((C.prior F).map fun q s => clipUnit (q s)) F.X ρ
        funext s
        refine Eq.trans ?_ (congrFun this s)
        unfold dispersionPredict Config.prior
        rw [Option.map_map, Option.map_map, Option.map_map]
        rfl
      · rfl
    · rfl

/-- **C133** for the price model. -/
theorem C133_price (P : PriceConfig σ) (o : PriceObject) (F : DataFrame) (ρ : ℕ → ℕ) (n : ℕ) :
    o.predict P (Spec.chooseRows F ρ n) = Spec.chosen ρ (o.predict P F) := by
  unfold PriceObject.predict
  split
  · rename_i m _
    have h : (Spec.chooseRows F ρ n).has = F.has := rfl
    rw [h]
    split
    · refine congrArg (fun p => some (Except.ok p)) ?_
      funext s
      unfold PriceArgs.predict priceModelPredict
      dsimp only
      rw [(C24_link_space _ _ _ _).1, (C24_link_space _ _ _ _).2, (C24_link_space _ _ _ _).1, (C24_link_space _ _ _ _).2]
      have h1 : P.config.prior (Spec.chooseRows F ρ n) = (P.config.prior F).map fun q s => q (ρ s) := by
        unfold Config.prior
        rw [Option.map_map]
        rfl
      have h2 : P.args.exponent (Spec.chooseRows F ρ n).X s = P.args.exponent F.X (ρ s) := by
        unfold PriceArgs.exponent
        rfl
      rw [h1, h2]
      cases P.config.prior F <;> rfl
    · rfl
  · rfl

/-- **C133** for a fitted pipeline on raw data: if the whole table can be predicted, so can every choice of its rows, and the predictions are
the chosen ones. -/
theorem C133_pipeline (P : FittedPipeline) (B : Binner) (prior : Option (ℕ → Flt ℝ)) (X : Table ℝ) (n : ℕ) (p : ℕ → ℝ)
    (h : P.predict B prior X n = .ok p) (ρ : ℕ → ℕ) (n' : ℕ) (hρ : ∀ s < n', ρ s < n) :
    ∃ p', P.predict B (prior.map fun q s => q (ρ s)) (fun s c => X (ρ s) c) n' = .ok p' ∧ ∀ s < n', p' s = p (ρ s) := by
  unfold FittedPipeline.predict Binner.transform at h ⊢
  split at h
  · cases h
  · rename_i Xt hXt
    split at hXt
    · rename_i hall
      rw [if_pos fun s hs c => hall (ρ s) (hρ s hs) c]
      refine ⟨_, rfl, fun s hs => ?_⟩
      injection hXt with hXt
      injection h with h
      subst hXt h
      exact congrFun (model_rows P.model prior (fun s c => match B.cell P.bins c (X s c) with
        | .ok v => v
        | .error _ => .nan) ρ) s
    · cases hXt

/-- **C133**, the other direction: a table can be predicted if each of its rows can be predicted alone. -/
theorem C133_pipeline_whole (P : FittedPipeline) (B : Binner) (prior : Option (ℕ → Flt ℝ)) (X : Table ℝ) (n : ℕ)
    (h : ∀ t < n, ∃ p, P.predict B (prior.map fun q _ => q t) (fun _ c => X t c) 1 = .ok p) : ∃ p, P.predict B prior X n = .ok p := by
  unfold FittedPipeline.predict Binner.transform at h ⊢
  rw [if_pos]
  · exact ⟨_, rfl⟩
  · intro s hs c
    obtain ⟨p, hp⟩ := h s hs
    split at hp
    · cases hp
    · rename_i Xt hXt
      split at hXt
      · rename_i hall
        exact hall 0 Nat.zero_lt_one c
      · cases hXt

/-- Witness: the second row of the training table, predicted alone. -/
example : ∃ o p, apiNew.fit apiConfig (poissonEstimator id) apiFrame (fun s => 2 * s + 1) 1 = some (o, .ok ()) ∧
    o.predict apiConfig apiFrame = some (.ok p) ∧
    o.predict apiConfig (Spec.chooseRows apiFrame (fun _ => 1) 1) = some (.ok fun _ => p 1) := by
  obtain ⟨o, m, h1, h2⟩ := apiFit
  obtain ⟨fs, m', -, hfs, hm, rfl⟩ := fit_object_ok _ _ _ _ _ _ _ h1
  have hmem : ∀ f ∈ m'.features, f.group = ["a"] := by
    intro f hf
    obtain ⟨a, r, -, -, -, hmm⟩ := fit_ok (apiConfig.setup fs) (poissonEstimator id) _ 1 m' hm
    rw [hmm] at hf
    obtain ⟨i, hi⟩ := List.getElem?_of_mem hf
    simp only [fittedFeatures] at hi
    rw [List.getElem?_zipWith] at hi
    split at hi
    · rename_i sp fac hsp hfac
      rw [Option.some.injEq] at hi
      obtain ⟨q, hq, rfl⟩ := List.mem_map.mp (List.mem_of_getElem? hsp)
      have h5 : f.group ∈ apiNew.groupsFor apiConfig apiFrame := by
        rw [← createFeatures_columns apiConfig.choice apiConfig.props _ fs hfs, ← hi]
        exact List.mem_map.mpr ⟨q, hq, rfl⟩
      simpa [EstimatorObject.groupsFor] using h5
    · cases hi
  have hp : EstimatorObject.predict ⟨some (apiNew.groupsFor apiConfig apiFrame), some fs, .fitted m', setFeatureImportances apiNew.importances
      (modelImportances apiFrame m')⟩ apiConfig apiFrame = some (.ok (m'.predict (apiConfig.prior apiFrame) apiFrame.X)) := by
    unfold EstimatorObject.predict EstimatorObject.checkFitted
    simp only [Option.isNone_some, Bool.false_eq_true, if_false]
    rw [if_pos]
    unfold DataFrame.has
    rw [List.all_eq_true]
    intro c hc
    simp only [Option.toList_none, List.nil_append, List.mem_flatMap] at hc
    obtain ⟨f, hf, hc⟩ := hc
    rw [hmem f hf, List.mem_singleton] at hc
    subst hc
    simp [apiFrame]
  refine ⟨_, _, h1, hp, ?_⟩
  rw [C133_estimator, hp]
  rfl

/-- Witness: rows of raw data of a fitted pipeline in another order, one of them twice. -/
example : ∃ P p p', pipelineFit exBinner ["a"] exSetup (gbsEstimator 0) exRaw 1 = some (.ok P) ∧ P.predict exBinner none exRaw.X 2 = .ok p ∧
    P.predict exBinner none (fun s c => exRaw.X ((s + 1) % 2) c) 3 = .ok p' ∧ ∀ s < 3, p' s = p ((s + 1) % 2) := by
  obtain ⟨P, hP, -⟩ := exPipeline
  obtain ⟨p, h⟩ := C85_predict_succeeds exBinner (by norm_num [exBinner]) _ _ _ _ _ P hP none exRaw.X 2
  obtain ⟨p', h', he⟩ := C133_pipeline P exBinner none exRaw.X 2 p h (fun s => (s + 1) % 2) 3 (fun s _ => Nat.mod_lt _ (by norm_num))
  exact ⟨P, p, p', hP, h, h', he⟩

end CB
