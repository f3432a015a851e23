import Verif.Props.BaselineFit
import Verif.Props.PipelineRowsExample

/-!
# Witnesses for C75 on whole fits and pipelines
-/

set_option autoImplicit false

namespace CB
open Finset Spec

/-- Prior predictions 1 do not change the baseline. -/
theorem poBaseline : baseline (poissonEstimator id) (poDataWith (some fun _ => .fin 1)) (Real.log (2001 / 1000)) =
    fun _ => Real.log (2001 / 1000) := by
  have hs : (poissonEstimator id).scale (poDataWith (some fun _ => .fin 1)).n (poDataWith (some fun _ => .fin 1)).y
      (poDataWith (some fun _ => .fin 1)).w = .fin (Real.log (2001 / 1000)) := by
    simp only [poissonEstimator, globalScaleLink, poDataWith, sum_range_succ, range_zero, sum_empty]
    norm_num [quotientFlt, Flt.addFin, linkFlt]
  have ho : (poissonEstimator id).offset (poDataWith (some fun _ => .fin 1)) = .fin (Real.log (2001 / 1000)) := by
    unfold Estimator.offset
    rw [hs]
    simp only [poDataWith, poissonEstimator, priorOffsetFrom, priorPredMean, sum_range_succ, range_zero, sum_empty]
    norm_num [quotientFlt, linkFlt, Flt.isFinite, Flt.getFin, Flt.sub]
  funext s
  unfold baseline
  rw [ho]
  simp [priorPrediction, poDataWith, poissonEstimator, linkFlt, Flt.add, Flt.isFinite, Flt.getFin]

theorem poFeatures : createFeatures ⟨.noSmoother, false, false, []⟩ (some catBinner.props) [["a"]] = .ok (poSetupWith true).features := by
  rfl

/-- The targets are 1 and 3 and the prior predictions 1. The raw values are 10 and 30; the row to predict has the value 20, which
was not seen. Without prior prediction it gets 2.001, with the prior prediction 5 it gets 10.005. -/
example : ∃ P p p', pipelineFit catBinner ["a"] (poSetupWith true) (poissonEstimator id)
      { catRaw with prior := some fun _ => .fin 1 } 1 = some (.ok P) ∧
    P.predict catBinner none (fun _ _ => .fin 20) 1 = .ok p ∧ p 0 = 2001 / 1000 ∧
    P.predict catBinner (some fun _ => .fin 5) (fun _ _ => .fin 20) 1 = .ok p' ∧ p' 0 = 5 * (2001 / 1000) := by
  obtain ⟨hnd, m, hm, -⟩ := poFitWith id true (some fun _ => .fin 1) poBaseline
  have hP : pipelineFit catBinner ["a"] (poSetupWith true) (poissonEstimator id) { catRaw with prior := some fun _ => .fin 1 } 1 =
      some (.ok ⟨[("a", ⟨1 / 1000 * 20, some ([10, 10, 30], [0, 1 / 2, 1])⟩)], m⟩) := by
    unfold pipelineFit
    rw [show ({ catRaw with prior := some fun _ => .fin 1 } : TrainSet).n = 2 from rfl,
      show ({ catRaw with prior := some fun _ => .fin 1 } : TrainSet).X = catRaw.X from rfl, catBins]
    dsimp only
    rw [catTransform]
    dsimp only
    rw [show (⟨poData.X, 2, catRaw.y, catRaw.w, some fun _ => .fin 1⟩ : TrainSet) = poDataWith (some fun _ => .fin 1) from rfl, hm]
  have htol : 0 ≤ catBinner.tolerance := by norm_num [catBinner]
  obtain ⟨p, h1⟩ := C85_predict_succeeds catBinner htol _ _ _ _ _ _ hP none (fun _ _ => .fin 20) 1
  obtain ⟨p', h2⟩ := C85_predict_succeeds catBinner htol _ _ _ _ _ _ hP (some fun _ => .fin 5) (fun _ _ => .fin 20) 1
  have hun : ∀ group ∈ [["a"]], ∃ col ∈ group, col ∈ ["a"] ∧ ∃ fp, catBinner.props.lookup col = some fp ∧
      Flags.isSet fp Flags.MISSING_NOT_LEARNED = true ∧
      Unusable catBinner.epsilon fp (fun v => ∃ s < ({ catRaw with prior := some fun _ => .fin 1 } : TrainSet).n,
        ({ catRaw with prior := some fun _ => .fin 1 } : TrainSet).X s col = .fin v) (.fin 20) := by
    intro group hgr
    rw [List.mem_singleton] at hgr
    subst hgr
    refine ⟨"a", by simp, by simp, Flags.IS_UNORDERED ||| Flags.MISSING_NOT_LEARNED, rfl, by decide, ?_⟩
    refine Or.inr (Or.inr (Or.inr (Or.inr (Or.inr ⟨by decide, 20, rfl, |10 - 30|, Or.inl ⟨10, 30, ?_, ?_, by norm_num, rfl⟩, ?_⟩))))
    · exact ⟨0, by decide, by simp [catRaw, exRaw]⟩
    · exact ⟨1, by decide, by simp [catRaw, exRaw]⟩
    · rintro v ⟨s, -, hs⟩
      simp only [catRaw, exRaw, if_true, Flt.fin.injEq] at hs
      subst hs
      split_ifs <;> norm_num [catBinner]
  have hnd' : ∀ Xt, catBinner.transform [("a", ⟨1 / 1000 * 20, some ([10, 10, 30], [0, 1 / 2, 1])⟩)]
      ({ catRaw with prior := some fun _ => .fin 1 } : TrainSet).X 2 = .ok Xt → NeverDiverges (poSetupWith true) (poissonEstimator id)
        { ({ catRaw with prior := some fun _ => .fin 1 } : TrainSet) with X := Xt } := by
    intro Yt hYt
    rw [show ({ catRaw with prior := some fun _ => .fin 1 } : TrainSet).X = catRaw.X from rfl, catTransform, Except.ok.injEq] at hYt
    rw [← hYt]
    exact hnd
  have hy : wmean catRaw.n catRaw.y catRaw.w = 2 := by
    norm_num [wmean, catRaw, poData, sum_range_succ]
  refine ⟨_, p, p', hP, h1, ?_, h2, ?_⟩
  · have := C75_pipeline catBinner htol ["a"] (poSetupWith true) (poissonEstimator id) _ 1 _ hP (by norm_num [catBinner])
      (by norm_num [catBinner]) _ [["a"]] poFeatures realConsts_ok (noCalibration_of_modelled _ (.inl ⟨id, rfl⟩)) hnd'
      (fun _ _ => .fin 20) 1 0 (by norm_num) hun .log (.poisson id) p h1
    rw [this]
    show wmean catRaw.n catRaw.y catRaw.w + _ = _
    rw [hy]
    norm_num
  · have := C75_pipeline_prior_log catBinner htol ["a"] (poSetupWith true) (poissonEstimator id) _ 1 _ hP (by norm_num [catBinner])
      (by norm_num [catBinner]) _ [["a"]] poFeatures realConsts_ok (noCalibration_of_modelled _ (.inl ⟨id, rfl⟩)) hnd'
      (fun _ _ => .fin 20) 1 0 (by norm_num) hun .log (.poisson id) rfl (fun _ _ => by simp [catRaw, poData]) _ rfl (fun _ => 1)
      (fun _ _ => ⟨rfl, one_pos⟩) (fun _ => .fin 5) 5 rfl (by norm_num) p' h2
    rw [this]
    show 5 * ((wmean catRaw.n catRaw.y catRaw.w + _) / wmean catRaw.n (fun _ => 1) catRaw.w) = _
    rw [hy]
    norm_num [wmean, catRaw, poData, sum_range_succ]

end CB
