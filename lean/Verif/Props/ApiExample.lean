import Verif.Props.ApiImportance
import Verif.Props.WholeFitExample

/-!
# C91-C94, C28, C76: a concrete estimator object

One feature column "a", weights in "w" and another column "z" that does not matter.
-/

set_option autoImplicit false

namespace CB
open Finset Spec

noncomputable section

abbrev apiConfig : Config Unit where
  groups := some [["a"]]
  props := some [("a", Flags.IS_UNORDERED)]
  choice := ⟨.noSmoother, false, false, []⟩
  weightColumn := some "w"
  priorColumn := none
  base _ := tenth
  learnRate := some fun _ => 1
  params := exSetup.params
  outputColumn := some "p"

/-- Rows 0 and 1 in bins 0 and 1, of weight 2. -/
abbrev apiFrame : DataFrame :=
  ⟨["a", "w", "z"], fun s c => if c = "w" then .fin 2 else .fin (if s = 0 then 0 else 1), 2⟩

abbrev apiNew : EstimatorObject := ⟨some [["a"]], some (poSetupWith false).features, .unfitted, []⟩

theorem apiConstruct : apiConfig.construct = .ok apiNew := by rfl

theorem apiSetup : apiConfig.setup (poSetupWith false).features = poSetupWith false := by
  unfold Config.setup poSetupWith
  congr 1

theorem apiTrain : (apiConfig.setup (poSetupWith false).features).fit (poissonEstimator id) (apiConfig.trainSet apiFrame fun s => 2 * s + 1) 1 =
    (poSetupWith false).fit (poissonEstimator id) (poDataWith none) 1 := by
  rw [apiSetup]
  refine fit_train_congr (poSetupWith false) (by simp [poSetupWith]) _ (poDataWith none) (apiConfig.trainSet apiFrame fun s => 2 * s + 1)
    (.inl (.poisson id)) rfl ?_ (fun _ _ => rfl) ?_ rfl (fun _ _ => rfl) 1
  · intro f hf c hc s hs
    simp only [poSetupWith, List.mem_singleton] at hf
    subst hf
    rw [List.mem_singleton] at hc
    subst hc
    simp [Config.trainSet, apiFrame, poDataWith]
  · intro s hs
    simp [Config.trainSet, apiFrame, poDataWith, initWeights, Flt.getFin]

theorem apiFit : ∃ o m, apiNew.fit apiConfig (poissonEstimator id) apiFrame (fun s => 2 * s + 1) 1 = some (o, .ok ()) ∧ o.status = .fitted m := by
  obtain ⟨-, m, hm, -⟩ := poFitWith id false none (by intros; rfl)
  have hinit : apiNew.initFit apiConfig (poissonEstimator id) apiFrame (fun s => 2 * s + 1) =
      (⟨some [["a"]], some (poSetupWith false).features, .broken, []⟩, .ok (poSetupWith false).features) := by
    unfold EstimatorObject.initFit
    rw [show checkLenData apiFrame.n apiFrame.n = .ok () from by decide]
    dsimp only
    rw [if_neg (by
      rw [not_not]
      intro i _
      show (0 : ℝ) ≤ 2 * i + 1
      positivity)]
    rfl
  unfold EstimatorObject.fit
  rw [hinit]
  dsimp only
  rw [apiTrain, hm]
  exact ⟨_, m, rfl, rfl⟩

/-- Witness for C91, C92, C93 and C94: the estimator is fitted, then fitted again to a table without column "z", which gives the same as the
first fit of a new estimator; asking the unfitted estimator for importances raises. -/
example : ∃ o o', apiNew.fit apiConfig (poissonEstimator id) apiFrame (fun s => 2 * s + 1) 1 = some (o, .ok ()) ∧
    o.fit apiConfig (poissonEstimator id) { apiFrame with columns := ["w", "a"] } (fun s => 2 * s + 1) 1 = some (o', .ok ()) ∧
    (∀ G, o'.predict apiConfig G = o.predict apiConfig G) ∧ apiNew.getImportances = .error .valueError := by
  obtain ⟨o, m, h, hm⟩ := apiFit
  have hist : History apiConfig (poissonEstimator id) (fun _ => True) o :=
    .fit apiNew o (.constructed _ apiConstruct) apiFrame trivial _ _ _ h
  have hcols : ∀ o0, History apiConfig (poissonEstimator id) (fun _ => True) o0 →
      o0.fit apiConfig (poissonEstimator id) { apiFrame with columns := ["w", "a"] } (fun s => 2 * s + 1) 1 =
        o0.fit apiConfig (poissonEstimator id) apiFrame (fun s => 2 * s + 1) 1 := by
    intro o0 h0
    refine C92_fit_columns_partial apiConfig (poissonEstimator id) o0 h0 [["a"]] rfl (by simp) apiFrame { apiFrame with columns := ["w", "a"] }
      ⟨rfl, ?_, fun _ _ _ _ => rfl⟩ _ _ (fun _ _ => rfl) (.inl (.poisson id)) 1
    rintro c (hc | hc | ⟨g, hg, hc⟩)
    · rw [Option.some.injEq] at hc; subst hc; simp
    · cases hc
    · rw [List.mem_singleton] at hg; subst hg; rw [List.mem_singleton] at hc; subst hc; simp
  obtain ⟨h1, h2⟩ := C91_refit apiConfig (poissonEstimator id) [["a"]] rfl o apiNew hist apiConstruct
    { apiFrame with columns := ["w", "a"] } (fun s => 2 * s + 1) 1
  rw [hcols apiNew (.constructed _ apiConstruct), h] at h1
  cases hf : o.fit apiConfig (poissonEstimator id) { apiFrame with columns := ["w", "a"] } (fun s => 2 * s + 1) 1 with
  | none => rw [hf] at h1; cases h1
  | some r =>
    obtain ⟨o', r⟩ := r
    rw [hf] at h1
    simp only [Option.map_some, Option.some.injEq] at h1
    subst h1
    obtain ⟨n', hn, hp⟩ := h2 o' hf
    rw [hcols apiNew (.constructed _ apiConstruct), h, Option.some.injEq, Prod.mk.injEq] at hn
    refine ⟨o, o', h, hf, fun G => ?_, C94_importances_partial apiConfig (poissonEstimator id) apiNew (.constructed _ apiConstruct)⟩
    rw [← hp G, ← hn.1]

/-- Witness for C93_fit_transform_partial and C93_transform: `fit_transform` succeeds and returns the columns "a", "w", "z", "p". -/
example : ∃ o G, apiNew.fitTransform apiConfig (poissonEstimator id) apiFrame (fun s => 2 * s + 1) 1 = some (o, .ok G) ∧
    G.columns = ["a", "w", "z", "p"] ∧ ∃ H p, o.transform apiConfig apiFrame = some (.ok H) ∧ o.predict apiConfig apiFrame = some (.ok p) ∧
      ∀ s < 2, G.X s "p" = .fin (p s) := by
  obtain ⟨o, m, h, hm⟩ := apiFit
  obtain ⟨fs, m', -, hfs, hm', ho⟩ := fit_object_ok apiConfig _ apiNew o apiFrame _ 1 h
  obtain ⟨a, r, -, hs, hmain, -⟩ := fit_ok (apiConfig.setup fs) (poissonEstimator id) (apiConfig.trainSet apiFrame _) 1 m' hm'
  have hin : ∃ pr, inSamplePrediction (apiConfig.setup (o.features.getD [])) (poissonEstimator id)
      (apiConfig.trainSet apiFrame fun s => 2 * s + 1) 1 = some pr := by
    rw [ho]
    unfold inSamplePrediction
    dsimp only [Option.getD_some]
    rw [hs, show (fun s => (priorPrediction (poissonEstimator id).link (.fin a) ((poissonEstimator id).offset (apiConfig.trainSet apiFrame fun s => 2 * s + 1))
      (apiConfig.trainSet apiFrame fun s => 2 * s + 1).prior s).getFin) =
      baseline (poissonEstimator id) (apiConfig.trainSet apiFrame fun s => 2 * s + 1) a from rfl, hmain]
    exact ⟨_, rfl⟩
  obtain ⟨pr, hpr⟩ := hin
  have hft : apiNew.fitTransform apiConfig (poissonEstimator id) apiFrame (fun s => 2 * s + 1) 1 = some (o, .ok (apiFrame.addColumn "p" pr)) := by
    unfold EstimatorObject.fitTransform
    rw [show apiConfig.checkOutput apiFrame = .ok "p" from by simp [Config.checkOutput]]
    dsimp only
    rw [h]
    dsimp only
    rw [hpr]
  obtain ⟨-, H, hH, -, -, hX⟩ := C93_fit_transform_partial apiConfig rfl (poissonEstimator id) apiNew o apiFrame _ _ 1
    (by simp [EstimatorObject.groupsFor]) (by
      intro c hc s hs x hx
      have hc' : c = "a" := by simpa [EstimatorObject.groupsFor] using hc
      subst hc'
      have hx' : (if s = 0 then (0 : ℝ) else 1) = x := by simpa using hx
      by_cases h0 : s = 0
      · exact ⟨0, by rw [← hx', if_pos h0]; simp⟩
      · exact ⟨1, by rw [← hx', if_neg h0]; simp⟩) hft
  obtain ⟨out, p, h1, -, h3, -, -, -, h7⟩ := C93_transform apiConfig o apiFrame H hH
  rw [Option.some.injEq] at h1
  subst h1
  exact ⟨o, _, hft, rfl, H, p, hH, h3, fun s hs => by rw [← hX s hs, h7 s]⟩

/-- Witness for C76_unweighted: ones in column "w". -/
example : apiNew.fit { apiConfig with weightColumn := none } (poissonEstimator id)
      { apiFrame with X := fun s c => if c = "w" then .fin 1 else .fin s } (fun s => s) 5 =
    apiNew.fit apiConfig (poissonEstimator id) { apiFrame with X := fun s c => if c = "w" then .fin 1 else .fin s } (fun s => s) 5 :=
  C76_unweighted apiConfig (poissonEstimator id) (.inl (.poisson id)) apiNew [["a"]] rfl (by simp) _ _ 5 "w" rfl (by simp)
    (fun s _ => by simp)

/-- Witness for C28_fit. -/
example : ∃ o m, apiNew.fit apiConfig (poissonEstimator id) apiFrame (fun s => 2 * s + 1) 1 = some (o, .ok ()) ∧ o.status = .fitted m ∧
    m.features.map (fun f => f.group) = [["a"]] := by
  obtain ⟨o, -, h, -⟩ := apiFit
  obtain ⟨m, h1, h2, -⟩ := C28_fit apiConfig (poissonEstimator id) [["a"]] rfl (by simp) (by simp) (by simp) apiNew o apiFrame _ 1 h (by
      intro c hc s hs x hx
      have hc' : c = "a" := by simpa using hc
      subst hc'
      have hx' : (if s = 0 then (0 : ℝ) else 1) = x := by simpa using hx
      by_cases h0 : s = 0
      · exact ⟨0, by rw [← hx', if_pos h0]; simp⟩
      · exact ⟨1, by rw [← hx', if_neg h0]; simp⟩) (.constructed _ apiConstruct)
  exact ⟨o, m, h, h1, h2⟩

/-- Witness for C17_used: with 10 iterations the default rate in the second one is 0.4. -/
example : (Config.setup { apiConfig with learnRate := none, params := { exSetup.params with maximalIterations := 10 } } []).learnRate 2 = 2 / 5 := by
  rw [(C17_used { apiConfig with learnRate := none, params := { exSetup.params with maximalIterations := 10 } } [] 2).2.2 rfl rfl (by norm_num)]
  norm_num

end

end CB
