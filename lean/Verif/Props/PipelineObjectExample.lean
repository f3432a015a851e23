import Verif.Props.PipelineObject
import Verif.Props.Convergence
import Verif.Props.PipelineExample
import Verif.Props.ApiExample

/-!
# C175: a pipeline that mixes two fits
-/

set_option autoImplicit false

namespace CB
open Finset Spec

noncomputable section

/-! ### The model of the first fit -/

theorem exModel : ∃ m, exSetup.fit (gbsEstimator 0) exData 1 = some (.ok m) ∧ m.features.map (·.group) = [["a"]] ∧
    m.predict none exData.X 0 = 1 / 2 ∧ m.predict none exData.X 1 = 3 / 2 := by
  obtain ⟨-, m, hm, hg⟩ := exFit
  refine ⟨m, hm, hg, ?_⟩
  obtain ⟨a, r, -, hs, hfit, hmr⟩ := fit_ok exSetup _ exData 1 m hm
  obtain ⟨past, s, ht, hc, -, hpred, hn⟩ := fitMain_ok _ _ _ _ 1 r hfit
  have ha : a = 1 := by
    have h := hs
    rw [exScale, Flt.fin.injEq] at h
    exact h.symm
  subst ha
  rw [exBaseline, exCfg] at ht
  have hstart : continues exP (startState exO [exC] fun _ => 1) = true := by
    simp [continues, checkStop, startState, exP, Setup.paramsFor, exSetup, Flt.absLe]
    norm_num
  obtain ⟨fs, pred, hp, -, h0, h1⟩ := exPass (exO.loss ⟨fun _ => 1, fun _ => 0⟩)
  have hl : isDiverged (exO.loss ⟨fun _ => 1, fun _ => 0⟩) (exO.loss pred) = false := by
    simp only [exO, Setup.oracle, gbsEstimator, gbsLoss, LinkKind.toLink, exData, sum_range_succ, range_zero, sum_empty, h0, h1]
    norm_num [quotientFlt, isDiverged, Flt.twice, Flt.gt, identityLink]
  have hit : ∃ s1, iterate exP exO [exC] (startState exO [exC] fun _ => 1) = .ok s1 ∧ s1.iteration = 1 ∧ s1.isDiverging = false ∧
      s1.pred = pred := by
    simp only [iterate, startState, List.map_cons, List.map_nil]
    rw [hp]
    simp only [checkConvergence, hl, Bool.false_eq_true, if_false]
    exact ⟨_, rfl, rfl, rfl, rfl⟩
  obtain ⟨s1, e1, e2, e3, e4⟩ := hit
  have hstop : continues exP s1 = false := by
    simp [continues, checkStop, exP, Setup.paramsFor, exSetup, e2, e3]
  have htwo : ∀ past s, Trace exP exO [exC] (startState exO [exC] fun _ => 1) past s →
      s = (startState exO [exC] fun _ => 1) ∨ s = s1 := by
    intro past s ht
    induction ht with
    | start => exact .inl rfl
    | step ht hc hit ih =>
      rcases ih with rfl | rfl
      · rw [e1] at hit; cases hit; exact .inr rfl
      · rw [hstop] at hc; cases hc
  have hsit : s.iteration = 1 := by
    rcases htwo past s ht with rfl | rfl
    · rw [hstart] at hc; cases hc
    · exact e2
  obtain ⟨past', s', ht', hi', hp'⟩ := gbs_in_sample exSetup exData 0 rfl (by simp [exSetup]) (by
    intro f _ c _ i _ x hx
    have hx' : (if i = 0 then (0 : ℝ) else 1) = x := by simpa [exData] using hx
    by_cases h0 : i = 0
    · exact ⟨0, by rw [← hx', if_pos h0]; simp⟩
    · exact ⟨1, by rw [← hx', if_neg h0]; simp⟩) 1 m hm
  have hst : startingPredictions exData = fun _ => 1 := by
    rw [← gbs_baseline exData 0 1 exScale, exBaseline]
  rw [exCfg, hst] at ht'
  have hs' : s' = s1 := by
    rcases htwo past' s' ht' with rfl | rfl
    · rw [hmr] at hi'
      dsimp only at hi'
      rw [hn, hsit] at hi'
      simp [startState] at hi'
    · rfl
  refine ⟨?_, ?_⟩
  · exact (hp' 0 (by simp [exData])).trans (by rw [hs', e4, h0])
  · exact (hp' 1 (by simp [exData])).trans (by rw [hs', e4, h1])

/-- Predictions without prior depend on the entries only. -/
theorem predict_entry (m : FittedModel) (hg : m.features.map (·.group) = [["a"]]) (X X' : Table ℝ) (s s' : ℕ) (h : X s "a" = X' s' "a") :
    m.predict none X s = m.predict none X' s' := by
  unfold FittedModel.predict
  rw [(C24_link_space _ _ X s).1, (C24_link_space _ _ X' s').1]
  congr 2
  unfold contributionSum
  congr 1
  refine List.map_congr_left fun f hf => ?_
  have hfg : f.group = ["a"] := by
    have : f.group ∈ m.features.map (·.group) := List.mem_map_of_mem (List.mem_filter.mp hf).1
    rw [hg] at this
    simpa using this
  rw [hfg]
  simp [Table.row, h]

/-! ### The bins of two values -/

theorem pairFit (lo : ℝ) : fitColumn false [some lo, some (lo + 20)] [1, 1] 2 (1 / 1000) (1 / 100) =
    .ok ⟨1 / 1000 * 20, some ([lo, lo, lo + 20], [0, 1 / 2, 1])⟩ := by
  have hmd : minimalDifference [lo, lo, lo + 20] = 20 := by norm_num [minimalDifference]
  have hu : npUnique [lo, lo + 20] = [lo, lo + 20] := by
    have : lo ≤ lo + 20 := by linarith
    simp [npUnique, List.insertionSort, this]
  have hcdf : calcCdf [some lo, some (lo + 20)] [1, 1] = .ok ([lo, lo + 20], [1 / 2, 1]) := by
    simp only [calcCdf, validSamples, List.zip_cons_cons, List.zip_nil_right, List.filterMap_cons, List.filterMap_nil, Option.map_some,
      List.map_cons, List.map_nil, hu]
    norm_num [weightOf, cumsumFrom]
  have hred : reduceCdf [lo, lo + 20] [1 / 2, 1] 2 (1 / 1000) (1 / 100) = .ok ([lo, lo, lo + 20], [0, 1 / 2, 1]) := by
    have g1 : geLim [(1 / 2 : ℝ), 1] (.fin (1 / 2 - 1 / 1000)) true 0 2 = some 0 := by
      unfold geLim
      rw [geLoop]
      norm_num [pyGet, Flt.geOf]
      rw [geLoop]
      norm_num
    have g2 : geLim [(1 / 2 : ℝ), 1] (.fin (1 - 1 / 1000)) true 0 2 = some 1 := by
      unfold geLim
      rw [geLoop]
      norm_num [pyGet, Flt.geOf]
      rw [geLoop]
      norm_num
    have m0 : pyMod (0 : ℝ) (1 / 2) = 0 := by simp [pyMod]
    have m1 : pyMod (1 / 2 : ℝ) (1 / 2) = 0 := by norm_num [pyMod]
    unfold reduceCdf
    rw [if_neg (by norm_num)]
    dsimp only
    rw [reduceLoop]
    simp only [Nat.cast_ofNat, m0]
    rw [if_pos (by norm_num), if_pos (by norm_num)]
    rw [show (0 : ℝ) + 1 / 2 - 0 - 1 / 1000 = 1 / 2 - 1 / 1000 by norm_num]
    simp only [List.length_cons, List.length_nil, Nat.zero_add, Nat.reduceAdd, Nat.cast_ofNat]
    rw [g1]
    simp only [pyGet]
    norm_num
    rw [reduceLoop]
    simp only [m1]
    norm_num
    rw [show (999 / 1000 : ℝ) = 1 - 1 / 1000 by norm_num, g2]
    norm_num [pyGet, reduceLoop]
  unfold fitColumn
  rw [hcdf]
  dsimp only
  rw [if_neg (by simp)]
  simp only [Bool.false_eq_true, if_false, hred, hmd]
  simp

theorem pairLow (lo : ℝ) : binNumber true false (1 / 1000 * 20) (some [lo, lo, lo + 20]) (.fin lo) = .ok 0 := by
  have hs : Spec.Sorted [lo, lo + 20] := by simp [Spec.Sorted]
  obtain ⟨k, hk, hin⟩ := C01_continuous_bin lo [lo, lo + 20] hs (by simp) false (1 / 1000 * 20) lo (by simp)
  have := C01_bin_unique _ _ _ 0 hin (by simp [Spec.InBin])
  subst this
  exact hk

theorem pairHigh (lo : ℝ) : binNumber true false (1 / 1000 * 20) (some [lo, lo, lo + 20]) (.fin (lo + 20)) = .ok 1 := by
  have hs : Spec.Sorted [lo, lo + 20] := by simp [Spec.Sorted]
  obtain ⟨k, hk, hin⟩ := C01_continuous_bin lo [lo, lo + 20] hs (by simp) false (1 / 1000 * 20) (lo + 20) (by simp)
  have := C01_bin_unique _ _ _ 1 hin (by
    refine ⟨by simp, fun j hj => ?_, ?_⟩
    · have : j = 0 := by omega
      subst this
      norm_num
      linarith
    · right; rfl)
  subst this
  exact hk

/-- What the binner learns from two samples with the values `lo` and `lo + 20`, and how it bins tables. -/
theorem pairBinned (lo : ℝ) (F T : DataFrame) (hF : F.columns = ["a", "w"] ∨ F.columns = ["a"]) (hn : F.n = 2)
    (h0 : F.X 0 "a" = .fin lo) (h1 : F.X 1 "a" = .fin (lo + 20)) (hT : T.columns = ["a", "w"] ∨ T.columns = ["a"]) :
    ((BinnerObject.new exBinner none false).fit F).2 = none ∧
    ∃ G, ((BinnerObject.new exBinner none false).fit F).1.binnedTable T = .ok G ∧ G.columns = T.columns ∧ G.n = T.n ∧
      ∀ s < T.n, (T.X s "a" = .fin lo → G.X s "a" = .fin 0) ∧ (T.X s "a" = .fin (lo + 20) → G.X s "a" = .fin 1) ∧
        ("w" ∈ T.columns → G.X s "w" = T.X s "w") := by
  have hd : (Flags.isSet (Flags.IS_MONOTONIC ||| Flags.INCREASING) Flags.IS_ORDERED ||
    Flags.isSet (Flags.IS_MONOTONIC ||| Flags.INCREASING) Flags.IS_UNORDERED) = false := by decide
  have hc : Flags.checkConsistency (Flags.IS_MONOTONIC ||| Flags.INCREASING) = .ok () := by decide
  have hl : exProps.lookup "a" = some (Flags.IS_MONOTONIC ||| Flags.INCREASING) := by decide
  have hlw : exProps.lookup "w" = none := by decide
  have hm : Flags.isSet (Flags.IS_MONOTONIC ||| Flags.INCREASING) Flags.HAS_MAGIC_INT_MISSING = false := by decide
  have hct : Flags.isSet (Flags.IS_MONOTONIC ||| Flags.INCREASING) Flags.IS_CONTINUOUS = true := by decide
  have hcol : F.X.column 2 "a" = [some lo, some (lo + 20)] := by
    simp [Table.column, List.range_succ, h0, h1]
  have hfit : exBinner.fit F.columns F.X F.n = .ok [("a", ⟨1 / 1000 * 20, some ([lo, lo, lo + 20], [0, 1 / 2, 1])⟩)] := by
    have hr : List.replicate 2 (1 : ℝ) = [1, 1] := rfl
    rcases hF with hF | hF <;> rw [hF, hn] <;>
      simp only [Binner.fit, Binner.fitColumns, Binner.fitOne, exBinner, hl, hlw, hc, hd, hcol, hr, pairFit] <;> rfl
  have hfit' := (C140_pipeline_fit exBinner false F _).mpr hfit
  have hnone : ((BinnerObject.new exBinner none false).fit F).2 = none := by rw [hfit']
  refine ⟨hnone, ?_⟩
  have hta : Spec.ToBin exBinner.props none "a" := ⟨by simp, _, hl⟩
  have htw : ¬ Spec.ToBin exBinner.props none "w" := by
    rintro ⟨-, q, h⟩
    have h' : exProps.lookup "w" = some q := h
    rw [hlw] at h'
    cases h'
  have hbin : ∀ cs : List String, cs = ["a", "w"] ∨ cs = ["a"] → cs.Nodup ∧ Spec.binColumns exBinner.props none cs = ["a"] := by
    rintro cs (rfl | rfl)
    · exact ⟨by decide, by unfold Spec.binColumns; simp [hta, htw]⟩
    · exact ⟨by decide, by unfold Spec.binColumns; simp [hta]⟩
  obtain ⟨hF1, hF2⟩ := hbin _ hF
  obtain ⟨hT1, hT2⟩ := hbin _ hT
  obtain ⟨-, -, h3⟩ := C140_transform (BinnerObject.new exBinner none false) (by norm_num [BinnerObject.new, exBinner]) F hF1
    (fun c hc => by cases hc) hnone [] (by simp) ⟨fun _ => T, 1⟩ ⟨fun _ => T, 1⟩ 0 hT1
  have ha : "a" ∈ T.columns := by rcases hT with hT | hT <;> rw [hT] <;> simp
  obtain ⟨a', G, h4, h5, h6, h7, h8⟩ := h3 (by
    show (Spec.binColumns exBinner.props none T.columns).length = (Spec.binColumns exBinner.props none F.columns).length
    rw [hF2, hT2]) (by
    intro c hc
    have hc' : c ∈ Spec.binColumns exBinner.props none F.columns := hc
    rw [hF2, List.mem_singleton] at hc'
    rw [hc']
    exact ha)
  rw [List.foldl_nil] at h4 h5
  refine ⟨G, ?_, h6, h7, ?_⟩
  · unfold BinnerObject.binnedTable
    rcases hr : ((BinnerObject.new exBinner none false).fit F).1.transform ⟨fun _ => T, 1⟩ 0 with ⟨m', r⟩
    rw [hr] at h4 h5
    dsimp only at h4 h5
    subst h4
    dsimp only
    rw [h5]
  · intro s hs
    have hs' : s < G.n := by rw [h7]; exact hs
    obtain ⟨prop, w, bins, i, q1, q2, q3, q4, q5⟩ := (h8 s hs' "a" (by rw [h6]; exact ha)).2 hta
    have hprop : prop = (Flags.IS_MONOTONIC ||| Flags.INCREASING) := by
      have : exProps.lookup "a" = some prop := q1
      rw [hl, Option.some.injEq] at this
      exact this.symm
    subst hprop
    have hw : w = [1, 1] := by
      rw [show ([1, 1] : List ℝ) = List.replicate 2 1 from rfl]
      exact List.eq_replicate_iff.mpr ⟨q2.1.trans hn, q2.2.1 rfl⟩
    subst hw
    have hb : bins = ⟨1 / 1000 * 20, some ([lo, lo, lo + 20], [0, 1 / 2, 1])⟩ := by
      rw [hd, hn, hcol] at q3
      have : fitColumn false [some lo, some (lo + 20)] [1, 1] 2 (1 / 1000) (1 / 100) = .ok bins := q3
      rw [pairFit, Except.ok.injEq] at this
      exact this.symm
    subst hb
    rw [hm, hct] at q4
    have q4' : binNumber true false (1 / 1000 * 20) (some [lo, lo, lo + 20]) (T.X s "a") = .ok i := q4
    refine ⟨fun h => ?_, fun h => ?_, fun h => (h8 s hs' "w" (by rw [h6]; exact h)).1 htw⟩
    · rw [h, pairLow, Except.ok.injEq] at q4'
      rw [q5, ← q4']; simp
    · rw [h, pairHigh, Except.ok.injEq] at q4'
      rw [q5, ← q4']; simp

/-! ### The counterexample -/

/-- One monotonic feature "a", weights in "w". -/
abbrev mixConfig : Config (List (ℝ × ℝ × ℝ)) where
  groups := some [["a"]]
  props := some exProps
  choice := defaultChoice
  weightColumn := some "w"
  priorColumn := none
  base _ := isotonicSmoother (cumulativeRegression true)
  learnRate := some fun _ => 1
  params := exSetup.params
  outputColumn := none

/-- The values 10 and 30. -/
abbrev mixFrame : DataFrame := ⟨["a", "w"], fun s c => if c = "w" then .fin 1 else .fin (if s = 0 then 10 else 30), 2⟩

/-- The values 30 and 50; the weights have been forgotten. -/
abbrev mixFrame2 : DataFrame := ⟨["a"], fun s _ => .fin (if s = 0 then 30 else 50), 2⟩

abbrev mixNew : EstimatorObject := ⟨some [["a"]], some exSetup.features, .unfitted, []⟩

theorem mixConstruct : mixConfig.construct = .ok mixNew := by
  unfold Config.construct
  rw [if_neg (by simp)]
  simp only [Option.getD_some, exFeatures]

/-- The estimator fitted to the binned table. -/
theorem mixFit (o₀ : EstimatorObject) (ho : o₀.groups = some [["a"]]) (G : DataFrame) (hc : G.columns = ["a", "w"]) (hn : G.n = 2) (h0 : G.X 0 "a" = .fin 0) (h1 : G.X 1 "a" = .fin 1)
    (hw : ∀ s < 2, G.X s "w" = .fin 1) : ∃ o m, o₀.fit mixConfig (gbsEstimator 0) G (fun s => 2 * s) 1 = some (o, .ok ()) ∧
      o.status = .fitted m ∧ o.features = some exSetup.features ∧ o.groups = some [["a"]] ∧ m.features.map (·.group) = [["a"]] ∧
      m.predict none exData.X 0 = 1 / 2 ∧ m.predict none exData.X 1 = 3 / 2 := by
  obtain ⟨m, hm, hg, hp0, hp1⟩ := exModel
  have hinit : o₀.initFit mixConfig (gbsEstimator 0) G (fun s => 2 * s) =
      (⟨some [["a"]], some exSetup.features, .broken, o₀.importances⟩, .ok exSetup.features) := by
    unfold EstimatorObject.initFit
    rw [show checkLenData G.n G.n = .ok () from by rw [hn]; decide]
    dsimp only
    rw [if_neg (by
      rw [not_not]
      intro i _
      trivial), if_neg (by simp [DataFrame.has, hc])]
    simp only [EstimatorObject.groupsFor, ho, exFeatures]
    rw [if_pos (by simp [DataFrame.has, hc, featureColumns, exSetup])]
  have htrain : (mixConfig.setup exSetup.features).fit (gbsEstimator 0) (mixConfig.trainSet G fun s => 2 * s) 1 =
      exSetup.fit (gbsEstimator 0) exData 1 := by
    have hset : mixConfig.setup exSetup.features = exSetup := by
      unfold Config.setup
      congr 1
    rw [hset]
    refine fit_train_congr exSetup (by simp [exSetup]) _ exData (mixConfig.trainSet G fun s => 2 * s) (.inl (.gbs 0)) hn ?_ (fun _ _ => rfl) ?_ rfl (fun _ _ => rfl) 1
    · intro f hf c hc' s hs
      simp only [exSetup, List.mem_singleton] at hf
      subst hf
      rw [List.mem_singleton] at hc'
      subst hc'
      have : s = 0 ∨ s = 1 := by simp [exData] at hs; omega
      rcases this with rfl | rfl
      · simp [Config.trainSet, exData, h0]
      · simp [Config.trainSet, exData, h1]
    · intro s hs
      simp [Config.trainSet, exData, initWeights, hw s hs, Flt.getFin]
  unfold EstimatorObject.fit
  rw [hinit]
  dsimp only
  rw [htrain, hm]
  exact ⟨_, m, rfl, rfl, rfl, rfl, hg, hp0, hp1⟩

/-- **C175: a fit that raises does not leave the pipeline as it was.** A pipeline is fitted to the values 10 and 30 with the targets 0 and 2, and
predicts 3/2 for the value 30. A fit to the values 30 and 50 raises a KeyError because the column of the weights is missing. Then the pipeline
predicts 1/2 for the value 30: the bin of the new table and the factors of the old model. It can still be fitted again. -/
theorem C175_counterexample : ∃ P₀ P P' : PipelineObject, PipelineObject.construct exBinner false mixConfig = .ok P₀ ∧
    P₀.fit mixConfig (gbsEstimator 0) mixFrame (fun s => 2 * s) 1 = some (P, .ok ()) ∧
    P.fit mixConfig (gbsEstimator 0) mixFrame2 (fun s => 2 * s) 1 = some (P', .error (.estimator .keyError)) ∧
    (∃ p, P.predict mixConfig ⟨["a"], fun _ _ => .fin 30, 1⟩ = some (.ok p) ∧ p 0 = 3 / 2) ∧
    (∃ p, P'.predict mixConfig ⟨["a"], fun _ _ => .fin 30, 1⟩ = some (.ok p) ∧ p 0 = 1 / 2) ∧
    ∃ P'', P'.fit mixConfig (gbsEstimator 0) mixFrame (fun s => 2 * s) 1 = some (P'', .ok ()) := by
  obtain ⟨b1, G, g1, g2, g3, g4⟩ := pairBinned 10 mixFrame mixFrame (.inl rfl) rfl (by simp [mixFrame]) (by simp [mixFrame]; norm_num) (.inl rfl)
  obtain ⟨o, m, e1, e2, e3, e4, e5, e6, e7⟩ := mixFit mixNew rfl G g2 g3 ((g4 0 (by simp [mixFrame])).1 (by simp [mixFrame]))
    ((g4 1 (by simp [mixFrame])).2.1 (by simp [mixFrame]; norm_num)) (fun s hs => by rw [(g4 s hs).2.2 (by simp [mixFrame])]; simp [mixFrame])
  obtain ⟨-, T1, t1, t2, t3, t4⟩ := pairBinned 10 mixFrame ⟨["a"], fun _ _ => .fin 30, 1⟩ (.inl rfl) rfl (by simp [mixFrame])
    (by simp [mixFrame]; norm_num) (.inr rfl)
  obtain ⟨b2, H, h1, h2, h3, -⟩ := pairBinned 30 mixFrame2 mixFrame2 (.inr rfl) rfl (by simp [mixFrame2]) (by simp [mixFrame2]; norm_num) (.inr rfl)
  obtain ⟨-, T2, u1, u2, u3, u4⟩ := pairBinned 30 mixFrame2 ⟨["a"], fun _ _ => .fin 30, 1⟩ (.inr rfl) rfl (by simp [mixFrame2])
    (by simp [mixFrame2]; norm_num) (.inr rfl)
  have hbin : ((BinnerObject.new exBinner none false).fit mixFrame).1.fit mixFrame2 = (BinnerObject.new exBinner none false).fit mixFrame2 := by
    obtain ⟨L, hL, -⟩ := fit_spec (BinnerObject.new exBinner none false) mixFrame
    rw [hL, fit_bins_irrelevant]
  have hpred : ∀ (b : BinnerObject) (T : DataFrame), b.binnedTable ⟨["a"], fun _ _ => .fin 30, 1⟩ = .ok T → T.columns = ["a"] →
      (⟨b, o⟩ : PipelineObject).predict mixConfig ⟨["a"], fun _ _ => .fin 30, 1⟩ = some (.ok (m.predict none T.X)) := by
    intro b T hT hTc
    have hcols : m.features.flatMap (fun f => f.group) = ["a"] := by
      rw [List.flatMap_def, e5]; rfl
    unfold PipelineObject.predict
    simp only [hT, EstimatorObject.predict, EstimatorObject.checkFitted, e3, e2, Option.isNone_some, Bool.false_eq_true, if_false, hcols]
    rw [if_pos (by simp [DataFrame.has, hTc])]
    rfl
  refine ⟨⟨BinnerObject.new exBinner none false, mixNew⟩, ⟨((BinnerObject.new exBinner none false).fit mixFrame).1, o⟩,
    ⟨((BinnerObject.new exBinner none false).fit mixFrame2).1, o⟩, ?_, ?_, ?_, ⟨_, hpred _ _ t1 t2, ?_⟩, ⟨_, hpred _ _ u1 u2, ?_⟩, ?_⟩
  · unfold PipelineObject.construct
    rw [mixConstruct]
  · unfold PipelineObject.fit
    rcases hb : (BinnerObject.new exBinner none false).fit mixFrame with ⟨b, eb⟩
    rw [hb] at b1 g1
    dsimp only at b1 g1 ⊢
    subst b1
    dsimp only
    rw [g1]
    dsimp only
    rw [e1]
  · unfold PipelineObject.fit
    dsimp only
    rw [hbin]
    rcases hb : (BinnerObject.new exBinner none false).fit mixFrame2 with ⟨b, eb⟩
    rw [hb] at b2 h1
    dsimp only at b2 h1 ⊢
    subst b2
    dsimp only
    rw [h1]
    have : o.fit mixConfig (gbsEstimator 0) H (fun s => 2 * s) 1 = some (o, .error .keyError) := by
      unfold EstimatorObject.fit EstimatorObject.initFit
      rw [show checkLenData H.n H.n = .ok () from by rw [h3]; decide]
      dsimp only
      rw [if_neg (by
        rw [not_not]
        intro i _
        trivial), if_pos (by simp [DataFrame.has, h2])]
    dsimp only
    rw [this]
  · have := (t4 0 (by simp)).2.1 (by norm_num)
    rw [predict_entry m e5 T1.X exData.X 0 1 (by rw [this]; simp [exData])]
    exact e7
  · have := (u4 0 (by simp)).1 rfl
    rw [predict_entry m e5 T2.X exData.X 0 0 (by rw [this]; simp [exData])]
    exact e6
  · obtain ⟨o', m', f1, -⟩ := mixFit o e4 G g2 g3 ((g4 0 (by simp [mixFrame])).1 (by simp [mixFrame]))
      ((g4 1 (by simp [mixFrame])).2.1 (by simp [mixFrame]; norm_num)) (fun s hs => by rw [(g4 s hs).2.2 (by simp [mixFrame])]; simp [mixFrame])
    have hbin' : ((BinnerObject.new exBinner none false).fit mixFrame2).1.fit mixFrame = (BinnerObject.new exBinner none false).fit mixFrame := by
      obtain ⟨L, hL, -⟩ := fit_spec (BinnerObject.new exBinner none false) mixFrame2
      rw [hL, fit_bins_irrelevant]
    refine ⟨⟨((BinnerObject.new exBinner none false).fit mixFrame).1, o'⟩, ?_⟩
    unfold PipelineObject.fit
    dsimp only
    rw [hbin']
    rcases hb : (BinnerObject.new exBinner none false).fit mixFrame with ⟨b, eb⟩
    rw [hb] at b1 g1
    dsimp only at b1 g1 ⊢
    subst b1
    dsimp only
    rw [g1]
    dsimp only
    rw [f1]

/-- Witness for C175_refit: the mixed pipeline, fitted again to the first table, predicts as a new pipeline does. -/
example : ∃ P₀ P P' P'' new : PipelineObject, PipelineObject.construct exBinner false mixConfig = .ok P₀ ∧
    P₀.fit mixConfig (gbsEstimator 0) mixFrame (fun s => 2 * s) 1 = some (P, .ok ()) ∧
    P.fit mixConfig (gbsEstimator 0) mixFrame2 (fun s => 2 * s) 1 = some (P', .error (.estimator .keyError)) ∧
    P'.fit mixConfig (gbsEstimator 0) mixFrame (fun s => 2 * s) 1 = some (P'', .ok ()) ∧
    P₀.fit mixConfig (gbsEstimator 0) mixFrame (fun s => 2 * s) 1 = some (new, .ok ()) ∧
    ∀ T, P''.predict mixConfig T = new.predict mixConfig T := by
  obtain ⟨P₀, P, P', h1, h2, h3, -, -, P'', h4⟩ := C175_counterexample
  obtain ⟨new, h5, h6⟩ := C175_refit exBinner false mixConfig (gbsEstimator 0) [["a"]] rfl P' P₀
    (.fit _ _ (.fit _ _ (.constructed _ h1) _ _ _ _ h2) _ _ _ _ h3) h1 mixFrame _ 1 P'' h4
  exact ⟨P₀, P, P', P'', new, h1, h2, h3, h4, h5, h6⟩

/-- Witness for C175_binner_raised: a table without rows. -/
example : ∃ P₀ P P' : PipelineObject, PipelineObject.construct exBinner false mixConfig = .ok P₀ ∧
    P₀.fit mixConfig (gbsEstimator 0) mixFrame (fun s => 2 * s) 1 = some (P, .ok ()) ∧
    P.fit mixConfig (gbsEstimator 0) { mixFrame with n := 0 } (fun s => 2 * s) 1 = some (P', .error (.binnerFit .valueError)) ∧
    P'.predict mixConfig mixFrame = some (.error (.binnerTransform .valueError)) := by
  obtain ⟨P₀, P, -, h1, h2, -⟩ := C175_counterexample
  obtain ⟨hb, -⟩ := pipeline_history exBinner false mixConfig (gbsEstimator 0) P (.fit _ _ (.constructed _ h1) _ _ _ _ h2)
  have h3 : P.fit mixConfig (gbsEstimator 0) { mixFrame with n := 0 } (fun s => 2 * s) 1 =
      some (⟨{ P.binner with bins := some [] }, P.estimator⟩, .error (.binnerFit .valueError)) := by
    unfold PipelineObject.fit BinnerObject.fit
    rw [if_pos (.inl rfl)]
  refine ⟨P₀, P, _, h1, h2, h3, ?_⟩
  refine C175_binner_raised P _ mixConfig (gbsEstimator 0) _ _ 1 _ h3 ?_ mixFrame le_rfl
  rw [hb]
  have hta : Spec.ToBin exBinner.props none "a" := ⟨by simp, _, rfl⟩
  have : "a" ∈ Spec.binColumns exBinner.props none ["a", "w"] := by
    unfold Spec.binColumns
    simp [hta]
  exact List.ne_nil_of_mem this

/-- Witness for C175_refused_partial and C175_same_table: Poisson regression refuses the target -1. -/
example : ∃ P₀ P : PipelineObject, PipelineObject.construct exBinner false apiConfig = .ok P₀ ∧
    P₀.fit apiConfig (poissonEstimator id) ⟨["a", "w"], fun s c => if c = "w" then .fin 2 else .fin (if s = 0 then 10 else 30), 2⟩
      (fun s => 2 * s + 1) 1 = some (P, .ok ()) ∧
    P.fit apiConfig (poissonEstimator id) ⟨["a", "w"], fun s c => if c = "w" then .fin 2 else .fin (if s = 0 then 10 else 30), 2⟩
      (fun _ => -1) 1 = some (P, .error (.estimator .valueError)) := by
  set F : DataFrame := ⟨["a", "w"], fun s c => if c = "w" then .fin 2 else .fin (if s = 0 then 10 else 30), 2⟩ with hF
  obtain ⟨b1, G, g1, g2, g3, g4⟩ := pairBinned 10 F F (.inl rfl) rfl (by simp [hF]) (by simp [hF]; norm_num) (.inl rfl)
  have a0 : G.X 0 "a" = .fin 0 := (g4 0 (by simp [hF])).1 (by simp [hF])
  have a1 : G.X 1 "a" = .fin 1 := (g4 1 (by simp [hF])).2.1 (by simp [hF]; norm_num)
  have aw : ∀ s < 2, G.X s "w" = .fin 2 := fun s hs => by rw [(g4 s hs).2.2 (by simp [hF])]; simp [hF]
  have hn : G.n = 2 := g3
  have hc : G.columns = ["a", "w"] := g2
  have hest : apiNew.fit apiConfig (poissonEstimator id) G (fun s => 2 * s + 1) 1 = apiNew.fit apiConfig (poissonEstimator id)
      apiFrame (fun s => 2 * s + 1) 1 := by
    refine C92_fit_columns_partial apiConfig (poissonEstimator id) apiNew (.constructed _ apiConstruct) [["a"]] rfl (by simp) apiFrame G
      ⟨hn, ?_, ?_⟩ _ _ (fun _ _ => rfl) (.inl (.poisson id)) 1
    · rintro c (hc' | hc' | ⟨g, hg, hc'⟩)
      · rw [Option.some.injEq] at hc'; subst hc'; simp [hc]
      · cases hc'
      · rw [List.mem_singleton] at hg; subst hg; rw [List.mem_singleton] at hc'; subst hc'; simp [hc]
    · rintro c (hc' | hc' | ⟨g, hg, hc'⟩) s hs
      · rw [Option.some.injEq] at hc'; subst hc'; rw [aw s hs]; simp
      · cases hc'
      · rw [List.mem_singleton] at hg; subst hg; rw [List.mem_singleton] at hc'; subst hc'
        have : s = 0 ∨ s = 1 := by
          have : s < 2 := hs
          omega
        rcases this with rfl | rfl
        · rw [a0]; simp
        · rw [a1]; simp
  obtain ⟨o, m, ho, -⟩ := apiFit
  have h1 : PipelineObject.construct exBinner false apiConfig = .ok ⟨BinnerObject.new exBinner none false, apiNew⟩ := by
    unfold PipelineObject.construct
    rw [apiConstruct]
  have h2 : (⟨BinnerObject.new exBinner none false, apiNew⟩ : PipelineObject).fit apiConfig (poissonEstimator id) F (fun s => 2 * s + 1) 1 =
      some (⟨((BinnerObject.new exBinner none false).fit F).1, o⟩, .ok ()) := by
    unfold PipelineObject.fit
    dsimp only
    rcases hb : (BinnerObject.new exBinner none false).fit F with ⟨b, eb⟩
    rw [hb] at b1 g1
    dsimp only at b1 g1 ⊢
    subst b1
    dsimp only
    rw [g1]
    dsimp only
    rw [hest, ho]
  refine ⟨_, _, h1, h2, ?_⟩
  exact C175_same_table _ _ apiConfig (poissonEstimator id) (fun t => 0 ≤ t) (.poisson id) (by norm_num [BinnerObject.new, exBinner]) F (by decide)
    (fun c hc => by cases hc) _ 1 h2 _ 0 (by simp [hF]) (by norm_num) 1

end

end CB
