import Verif.Props.DispersionFit
import Verif.Props.SmootherCentresExample

/-!
# Concrete dispersion models (witnesses for C92, C93 and C95)
-/

set_option autoImplicit false

namespace CB
open Finset Spec

noncomputable section

/-- A penalised fit with means in the column "m". -/
def dispArgs : DispersionArgs := ⟨"m", 1 / 10, false, 15⟩

abbrev dispConfig : Config (List (FitRow ℝ) × List ℝ) where
  groups := some [["a"]]
  props := none
  choice := plainChoice
  weightColumn := none
  priorColumn := none
  base := packageSmoothers noOpen
  learnRate := some fun _ => 1
  params := exSetup.params
  outputColumn := some "p"

/-- Two samples in bins 0 and 1 with means 1. -/
abbrev dispFrame : DataFrame := ⟨["a", "m"], fun s c => if c = "m" then .fin 1 else .fin (if s = 0 then 0 else 1), 2⟩

abbrev dispNew : DispersionObject := ⟨⟨some [["a"]], some plainSetup.features, .unfitted, []⟩, none⟩

theorem dispConstruct : dispConfig.construct = .ok dispNew.base := by rfl

theorem dispSetup : dispConfig.setup plainSetup.features = plainSetup := by
  unfold Config.setup plainSetup
  congr 1

/-- C95: the counts 0 and 2 with means 1 are fitted, and the costs are at most those of the dispersion 1/2. -/
theorem dispersionExample : ∃ m, dispersionFit plainSetup dispArgs (fun _ => 1) exData 5 = some (.ok m) ∧
    dispersionCost (1 / 10) 2 (fun s => 2 * s) (fun _ => 1) (dispersionPredict m none exData.X) ≤
      dispersionCost (1 / 10) 2 (fun s => 2 * s) (fun _ => 1) fun _ => 1 / 2 := by
  have hsm := noSmoothing_keeps plainSetup noOpen plainChoice none [["a"]] rfl plainFeatures rfl exData
  have hne : ∀ f ∈ plainSetup.features, f.1.group ≠ [] := by simp [plainSetup]
  have hy : ∀ i < exData.n, exData.y i = ((2 * i : ℕ) : ℝ) := fun i _ => by simp [exData]
  have hga : 0 ≤ dispArgs.gamma := by norm_num [dispArgs]
  obtain ⟨-, m, hm⟩ := C95_fit_succeeds plainSetup dispArgs (fun _ => 1) exData (fun s => 2 * s) rfl hga (fun _ _ => one_pos) hy rfl
    (fun _ => rfl) hne hsm le_rfl rfl (by norm_num [plainSetup, exSetup]) (by norm_num [plainSetup, exSetup]) 5 le_rfl
  refine ⟨m, hm, ?_⟩
  have := C95_training_cost plainSetup dispArgs (fun _ => 1) exData (fun s => 2 * s) rfl hga (fun _ _ => one_pos) hy rfl
    (fun _ => rfl) hne hsm (by
      intro f hf c hc i hi x hx
      simp only [exData, Flt.fin.injEq] at hx
      refine ⟨if i = 0 then 0 else 1, ?_⟩
      rw [← hx]
      split_ifs <;> simp) 5 m hm
  refine le_trans this (le_of_eq ?_)
  congr 1
  funext i
  simp [priorPrediction, exData, Flt.getFin]
  norm_num

/-- This object can be fitted, and predicts. -/
theorem dispObject_fits : ∃ o, dispNew.fit dispConfig dispArgs dispFrame (fun s => 2 * s) 5 = some (o, .ok ()) ∧
    ∃ p, o.predict dispConfig dispFrame = some (.ok p) := by
  have hsm := noSmoothing_keeps plainSetup noOpen plainChoice none [["a"]] rfl plainFeatures rfl
    (dispConfig.trainSet dispFrame fun s => 2 * s)
  obtain ⟨-, m, hm⟩ := C95_fit_succeeds plainSetup dispArgs (dispArgs.mean dispFrame) (dispConfig.trainSet dispFrame fun s => 2 * s)
    (fun s => 2 * s) rfl (by norm_num [dispArgs])
    (fun _ _ => by simp [DispersionArgs.mean, dispArgs, Flt.getFin])
    (fun i _ => by simp [Config.trainSet]) rfl (fun _ => rfl) (by simp [plainSetup]) hsm le_rfl rfl
    (by norm_num [plainSetup, exSetup]) (by norm_num [plainSetup, exSetup]) 5 le_rfl
  have hinit : dispNew.base.initFit dispConfig (dispersionEstimator dispArgs (dispArgs.mean dispFrame)) dispFrame (fun s => 2 * s) =
      (⟨some [["a"]], some plainSetup.features, .broken, []⟩, .ok plainSetup.features) := by
    unfold EstimatorObject.initFit
    rw [show checkLenData dispFrame.n dispFrame.n = .ok () from by decide]
    dsimp only
    rw [if_neg (not_not.mpr (fun i _ => by show (0 : ℝ) ≤ 2 * i; positivity))]
    rfl
  refine ⟨⟨⟨some [["a"]], some plainSetup.features, .fitted m, setFeatureImportances [] (modelImportances dispFrame m)⟩, none⟩, ?_,
    dispersionPredict m (dispConfig.prior dispFrame) dispFrame.X, ?_⟩
  · unfold DispersionObject.fit
    rw [if_neg (by simp [DataFrame.has, dispArgs]), hinit]
    dsimp only
    rw [dispSetup, hm]
  · obtain ⟨a, r, -, -, -, rfl⟩ := fit_ok plainSetup _ _ 5 m hm
    unfold DispersionObject.predict EstimatorObject.checkFitted
    simp only [Option.isNone_some, Bool.false_eq_true, if_false]
    rw [if_pos]
    simp only [DataFrame.has, List.all_eq_true, List.contains_iff_mem, Option.toList, List.nil_append, List.mem_flatMap]
    rintro c ⟨f, hf, hc⟩
    obtain ⟨j, q, fac, h1, -, rfl⟩ := fittedFeatures_get _ _ _ _ f hf
    have hq := List.mem_of_getElem? h1
    simp only [plainSetup, List.map_cons, List.map_nil, List.mem_singleton] at hq
    subst hq
    simp only [List.mem_singleton] at hc
    subst hc
    simp

/-- C93: this object can be fitted, and its `transform` then succeeds, but its `fit_transform` raises. -/
example : (∃ o, dispNew.fit dispConfig dispArgs dispFrame (fun s => 2 * s) 5 = some (o, .ok ()) ∧
      ∃ p, o.predict dispConfig dispFrame = some (.ok p)) ∧
    ∃ o' e, dispNew.fitTransform dispConfig dispArgs dispFrame (fun s => 2 * s) = some (o', .error e) :=
  ⟨dispObject_fits, C93_dispersion_counterexample dispConfig dispArgs dispNew rfl dispFrame _⟩

/-- C92: without the column "m" there is no fit, but it is not required. -/
example : dispNew.fit dispConfig dispArgs ⟨["a"], dispFrame.X, 2⟩ (fun s => 2 * s) 5 = some (dispNew, .error (.api .keyError)) ∧
    "m" ∉ dispConfig.requiredColumns dispNew.base :=
  C92_dispersion_counterexample dispConfig dispArgs dispNew ⟨["a"], dispFrame.X, 2⟩ _ 5 (by simp [dispArgs]) _ dispConstruct
    [["a"]] rfl (by simp) (by simp) (by simp [dispArgs])

end

end CB
