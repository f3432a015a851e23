import Verif.Props.PipelineRows
import Verif.Props.PipelineMissing
import Verif.Props.SmootherCentresExample

/-!
# Witnesses for C87 to C89
-/

set_option autoImplicit false

namespace CB
open Finset Spec

noncomputable section

/-- C87: the samples of the pipeline example in the opposite order. -/
example : ∃ P, pipelineFit exBinner ["a"] exSetup (gbsEstimator 0) exRaw 1 = some (.ok P) ∧
    pipelineFit exBinner ["a"] exSetup (gbsEstimator 0) (resample exRaw (Equiv.swap 0 1) 2 fun _ => 1) 1 = some (.ok P) := by
  obtain ⟨P, hP, -, -⟩ := exPipeline
  refine ⟨P, hP, ?_⟩
  rw [← hP]
  refine C87_order exSetup (by simp [exSetup]) _ (.gbs 0) exBinner ["a"] exRaw (Equiv.swap 0 1) ?_ 1
  intro s
  show Equiv.swap 0 1 s < 2 ↔ s < 2
  rw [Equiv.swap_apply_def]
  split_ifs <;> omega

/-- A binner for a categorical column whose missing values are not learned. -/
def catBinner : Binner := ⟨fun _ => 2, [("a", Flags.IS_UNORDERED ||| Flags.MISSING_NOT_LEARNED)], 1 / 1000, 1 / 100⟩

/-- The categories 10 and 30. -/
def catRaw : TrainSet := { poData with X := exRaw.X }

theorem catBins : catBinner.fit ["a"] catRaw.X 2 = .ok [("a", ⟨1 / 1000 * 20, some ([10, 10, 30], [0, 1 / 2, 1])⟩)] := by
  have hmd : minimalDifference [(10 : ℝ), 10, 30] = 20 := by norm_num [minimalDifference]
  have hd : (Flags.isSet (Flags.IS_UNORDERED ||| Flags.MISSING_NOT_LEARNED) Flags.IS_ORDERED ||
    Flags.isSet (Flags.IS_UNORDERED ||| Flags.MISSING_NOT_LEARNED) Flags.IS_UNORDERED) = true := by decide
  have hc : Flags.checkConsistency (Flags.IS_UNORDERED ||| Flags.MISSING_NOT_LEARNED) = .ok () := by decide
  have hf : fitColumn true [some (10 : ℝ), some 30] [1, 1] 2 (1 / 1000) (1 / 100) =
      .ok ⟨1 / 1000 * 20, some ([10, 10, 30], [0, 1 / 2, 1])⟩ := by
    unfold fitColumn
    rw [exCdf]
    dsimp only
    rw [if_neg (by simp)]
    simp only [if_true, hmd]
    simp
  have hcol : catRaw.X.column 2 "a" = [some 10, some 30] := exColumn
  simp only [Binner.fit, Binner.fitColumns, Binner.fitOne, catBinner, List.lookup, beq_self_eq_true, hc, hd, hcol]
  rw [show List.replicate 2 (1 : ℝ) = [1, 1] from rfl, hf]
  rfl

theorem catTransform : catBinner.transform [("a", ⟨1 / 1000 * 20, some ([10, 10, 30], [0, 1 / 2, 1])⟩)] catRaw.X 2 = .ok poData.X := by
  have hm : Flags.isSet (Flags.IS_UNORDERED ||| Flags.MISSING_NOT_LEARNED) Flags.HAS_MAGIC_INT_MISSING = false := by decide
  have hc : Flags.isSet (Flags.IS_UNORDERED ||| Flags.MISSING_NOT_LEARNED) Flags.IS_CONTINUOUS = false := by decide
  have hs : Spec.Sorted [(10 : ℝ), 30] := by norm_num [Spec.Sorted]
  have hcell : ∀ s c, catBinner.cell [("a", ⟨1 / 1000 * 20, some ([10, 10, 30], [0, 1 / 2, 1])⟩)] c (catRaw.X s c) =
      .ok (poData.X s c) := by
    intro s c
    by_cases hca : c = "a"
    · subst hca
      simp only [Binner.cell, List.lookup, catBinner, hm, hc, beq_self_eq_true, catRaw, exRaw, if_true, Option.map_some]
      by_cases h0 : s = 0
      · subst h0
        rw [if_pos rfl]
        rcases C03_discrete_bin (10 : ℝ) [10, 30] hs (by simp) false (1 / 1000 * 20) 10 (by simp) with ⟨k, hk, hb, hle, -⟩ | ⟨-, hb⟩
        · have : k = 0 := by
            simp only [List.length_cons, List.length_nil] at hk
            interval_cases k
            · rfl
            · norm_num at hle
          subst this
          rw [hb]
          simp [poData]
        · have := hb 10 (by simp)
          norm_num at this
      · rw [if_neg h0]
        rcases C03_discrete_bin (10 : ℝ) [10, 30] hs (by simp) false (1 / 1000 * 20) 30 (by simp) with ⟨k, hk, hb, hle, -⟩ | ⟨-, hb⟩
        · have : k = 1 := by
            simp only [List.length_cons, List.length_nil] at hk
            interval_cases k
            · norm_num at hle
            · rfl
          subst this
          rw [hb]
          simp [poData, h0]
        · have := hb 30 (by simp)
          norm_num at this
    · have hb : (c == "a") = false := by simpa using hca
      simp only [Binner.cell, List.lookup, hb, catRaw, exRaw, hca, if_false]
      rfl
  unfold Binner.transform
  rw [if_pos (fun s _ c => ⟨_, hcell s c⟩)]
  simp only [hcell]

theorem catPipeline : ∃ P, pipelineFit catBinner ["a"] poSetup (poissonEstimator id) catRaw 1 = some (.ok P) ∧
    P.bins = [("a", ⟨1 / 1000 * 20, some ([10, 10, 30], [0, 1 / 2, 1])⟩)] := by
  obtain ⟨-, m, hm, -⟩ := poFit id
  refine ⟨⟨_, m⟩, ?_, rfl⟩
  unfold pipelineFit
  rw [show catRaw.n = 2 from rfl, catBins]
  dsimp only
  rw [catTransform]
  dsimp only
  rw [show (⟨poData.X, 2, catRaw.y, catRaw.w, catRaw.prior⟩ : TrainSet) = poData from rfl, hm]

/-- C88: two rows of weight 2, or four rows. -/
example : ∃ P P', pipelineFit catBinner ["a"] poSetup (poissonEstimator id) catRaw 1 = some (.ok P) ∧
    pipelineFit catBinner ["a"] poSetup (poissonEstimator id) (resample catRaw (fun s => s / 2) 4 fun _ => 1) 1 = some (.ok P') ∧
    P'.model = P.model := by
  obtain ⟨P, hP, -⟩ := catPipeline
  obtain ⟨P', h1, h2, -⟩ := C88_repetition poSetup (by simp [poSetup]) _ (.poisson id) catBinner ["a"] (by
    intro c hc fp hfp
    simp only [List.mem_singleton] at hc
    subst hc
    simp only [catBinner, List.lookup, beq_self_eq_true, Option.some.injEq] at hfp
    subst hfp
    decide) catRaw (fun s => s / 2) 4 (fun _ => 2) (by intro s hs; show s / 2 < 2; omega) (by
      intro t ht
      have ht : t < 2 := ht
      interval_cases t <;> decide) (by intro t _; simp [catRaw, poData]) 1 P hP
  exact ⟨P, P', hP, h1, h2⟩

/-- C89: the unseen category 20 and NaN. -/
example : ∃ P p1 p2, pipelineFit catBinner ["a"] poSetup (poissonEstimator id) catRaw 1 = some (.ok P) ∧
    P.predict catBinner none (fun _ _ => .fin 20) 1 = .ok p1 ∧
    P.predict catBinner none (fun _ c => if c = "a" then .nan else .fin 20) 1 = .ok p2 ∧ p1 0 = p2 0 := by
  obtain ⟨P, hP, -⟩ := catPipeline
  obtain ⟨p1, h1⟩ := C85_predict_succeeds catBinner (by norm_num [catBinner]) _ _ _ _ _ P hP none (fun _ _ => .fin 20) 1
  obtain ⟨p2, h2⟩ := C85_predict_succeeds catBinner (by norm_num [catBinner]) _ _ _ _ _ P hP none
    (fun _ c => if c = "a" then .nan else .fin 20) 1
  refine ⟨P, p1, p2, hP, h1, h2, ?_⟩
  refine C89_alike catBinner (by norm_num [catBinner]) ["a"] _ _ catRaw 1 P hP "a" (by simp)
    (Flags.IS_UNORDERED ||| Flags.MISSING_NOT_LEARNED) rfl (by norm_num [catBinner]) (by norm_num [catBinner]) _ _ 1 0 (by norm_num)
    (fun c' hc' => by simp [hc']) ?_ (Or.inl (by simp)) none p1 p2 h1 h2
  refine Or.inr (Or.inr (Or.inr (Or.inr (Or.inr ⟨by decide, 20, rfl, |10 - 30|, Or.inl ⟨10, 30, ?_, ?_, by norm_num, rfl⟩, ?_⟩))))
  · exact ⟨0, by decide, by simp [catRaw, exRaw]⟩
  · exact ⟨1, by decide, by simp [catRaw, exRaw]⟩
  · rintro v ⟨s, -, hs⟩
    simp only [catRaw, exRaw, if_true, Flt.fin.injEq] at hs
    subst hs
    split_ifs <;> norm_num [catBinner]

/-- As `plainSetup`, for the properties of `catBinner`. -/
def notLearnedSetup : Setup (List (FitRow ℝ) × List ℝ) :=
  ⟨[(⟨["a"], false, true⟩, .normalizationRegressionType .binValuesOne .discontinuous)], packageSmoothers noOpen, fun _ => 1,
    exSetup.params⟩

theorem notLearnedFeatures : createFeatures plainChoice (some catBinner.props) [["a"]] = .ok notLearnedSetup.features := by rfl

/-- C89 and C25_fit: the unseen category 20 contributes nothing. -/
example : ∃ P Xt g, pipelineFit catBinner ["a"] notLearnedSetup (gbsEstimator 0) exRaw 5 = some (.ok P) ∧
    catBinner.transform P.bins (fun _ _ => .fin 20) 1 = .ok Xt ∧ P.model.features[0]? = some g ∧ g.predict (Xt.row ["a"] 0) = 0 := by
  have hsm : ShrinkingSmoothers notLearnedSetup exData :=
    C80_no_smoothing notLearnedSetup noOpen plainChoice (some catBinner.props) [["a"]] rfl notLearnedFeatures rfl exData
  obtain ⟨hnd, m, hm⟩ := C80_fit_succeeds notLearnedSetup exData 0 rfl le_rfl (fun _ _ => by simp [exData])
    (fun k => by norm_num [notLearnedSetup]) (by simp [notLearnedSetup]) hsm (by simp [exData]) le_rfl rfl
    (by norm_num [notLearnedSetup, exSetup]) (by norm_num [notLearnedSetup, exSetup]) 5 le_rfl
  have hP : pipelineFit catBinner ["a"] notLearnedSetup (gbsEstimator 0) exRaw 5 =
      some (.ok ⟨[("a", ⟨1 / 1000 * 20, some ([10, 10, 30], [0, 1 / 2, 1])⟩)], m⟩) := by
    unfold pipelineFit
    rw [show exRaw.n = 2 from rfl, show exRaw.X = catRaw.X from rfl, catBins]
    dsimp only
    rw [catTransform]
    dsimp only
    rw [show (⟨poData.X, 2, exRaw.y, exRaw.w, exRaw.prior⟩ : TrainSet) = exData from rfl, hm]
  obtain ⟨Xt, hXt⟩ := transform_ok catBinner (by norm_num [catBinner]) ["a"] catRaw.X 2 _ catBins (fun _ _ => .fin 20) 1
  obtain ⟨g, h1, -, h2⟩ := C89_neutral catBinner (by norm_num [catBinner]) ["a"] notLearnedSetup (gbsEstimator 0) exRaw 5 _ hP "a"
    (by simp) (Flags.IS_UNORDERED ||| Flags.MISSING_NOT_LEARNED) rfl (by norm_num [catBinner]) (by norm_num [catBinner])
    plainChoice [["a"]] notLearnedFeatures realConsts_ok
    (noCalibration_of_modelled _ (.inr (.inr (.inr (.inr ⟨0, rfl⟩))))) (by decide) (by
      intro Yt hYt
      rw [show exRaw.n = 2 from rfl, show exRaw.X = catRaw.X from rfl, catTransform, Except.ok.injEq] at hYt
      rw [← hYt]
      exact hnd) 0 ["a"] rfl (by simp) (fun _ _ => .fin 20) Xt 1 0 (by norm_num) hXt (by
      refine Or.inr (Or.inr (Or.inr (Or.inr (Or.inr ⟨by decide, 20, rfl, |10 - 30|, Or.inl ⟨10, 30, ?_, ?_, by norm_num, rfl⟩, ?_⟩))))
      · exact ⟨0, by decide, by simp [exRaw]⟩
      · exact ⟨1, by decide, by simp [exRaw]⟩
      · rintro v ⟨s, -, hs⟩
        simp only [exRaw, if_true, Flt.fin.injEq] at hs
        subst hs
        split_ifs <;> norm_num [catBinner])
  exact ⟨_, Xt, g, hP, hXt, h1, h2⟩

/-- C19_pipeline: raw values 10 and 30. -/
example : ∃ P p r, pipelineFit exBinner ["a"] exSetup (gbsEstimator 0) exRaw 1 = some (.ok P) ∧
    P.predict exBinner none exRaw.X 2 = .ok p ∧ ∃ Xt a, fitMain (exSetup.paramsFor (gbsEstimator 0))
      (exSetup.oracle (gbsEstimator 0) { exRaw with X := Xt }) (exSetup.cfgs { exRaw with X := Xt })
      (baseline (gbsEstimator 0) { exRaw with X := Xt } a) 1 = some (.ok r) ∧ p 1 = r.prediction.factors 1 := by
  obtain ⟨P, hP, -, -⟩ := exPipeline
  obtain ⟨p, h1⟩ := C85_predict_succeeds exBinner (by norm_num [exBinner]) _ _ _ _ _ P hP exRaw.prior exRaw.X exRaw.n
  obtain ⟨Xt, a, r, -, -, h2, h3⟩ := C19_pipeline exBinner ["a"] exSetup rfl (by simp [exSetup]) (by
    intro f hf c hc
    simp only [exSetup, List.mem_singleton] at hf
    subst hf
    simp only [List.mem_singleton] at hc
    subst hc
    exact ⟨by simp, _, rfl⟩) (gbsEstimator 0) exRaw 1 P hP p h1
  exact ⟨P, p, r, hP, h1, Xt, a, h2, h3 1 (by decide)⟩

end

end CB
