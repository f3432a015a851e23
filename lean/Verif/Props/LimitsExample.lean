import Verif.Props.Limits
import Verif.Props.SettlingExample

/-!
# Witnesses for C136
-/

set_option autoImplicit false

namespace CB
open Finset Spec

noncomputable section

/-- One feature without smoothing, learning rate 1. -/
def limConfig : Config (List (FitRow ℝ) × List ℝ) where
  groups := some [["a"]]
  props := none
  choice := plainChoice
  weightColumn := none
  priorColumn := none
  base := packageSmoothers noOpen
  learnRate := some fun _ => 1
  params := exSetup.params
  outputColumn := none

def limFrame : DataFrame := ⟨["a"], exData.X, 2⟩

def limNew : EstimatorObject := ⟨some [["a"]], some plainSetup.features, .unfitted, []⟩

/-- Up to 1000 iterations, until the factors change by less than 1/10. -/
def limLimits : Limits := ⟨1000, 1 / 10, 1 / 1000⟩

theorem limFit : ∃ o m, limNew.fit (configWith limConfig limLimits) (gbsEstimator 0) limFrame (fun s => 2 * s) 406 = some (o, .ok ()) ∧
    o.status = .fitted m ∧ m.iterations < 402 := by
  obtain ⟨m, hm, hit⟩ := C121_fit_succeeds settleSetup exData 0 settleDescent (by norm_num [settleSetup]) (by norm_num [settleSetup])
      (by norm_num [settleSetup, plainSetup, exSetup]) (by simp [exData]) 402 (by rw [settleError]; norm_num [settleSetup])
      (by norm_num [settleSetup]) 406 le_rfl
  have hinit : limNew.initFit (configWith limConfig limLimits) (gbsEstimator 0) limFrame (fun s => 2 * s) =
      (⟨some [["a"]], some plainSetup.features, .broken, []⟩, .ok plainSetup.features) := by
    unfold EstimatorObject.initFit
    rw [show checkLenData limFrame.n limFrame.n = .ok () from by decide]
    dsimp only
    rw [if_neg (by rw [not_not]; intro i _; trivial)]
    rfl
  have hset : (configWith limConfig limLimits).setup plainSetup.features = settleSetup := by
    rw [setup_with limConfig limLimits (.inl rfl)]
    rfl
  unfold EstimatorObject.fit
  rw [hinit]
  dsimp only
  rw [hset, show (configWith limConfig limLimits).trainSet limFrame (fun s => 2 * s) = exData from rfl, hm]
  exact ⟨_, m, rfl, rfl, hit⟩

/-- Witness for C136: a fit that ends after fewer than 402 of 1000 iterations gives the same estimator if 5000 or 402 are allowed; all of
these limits are comparable. -/
example : ∃ o, limNew.fit (configWith limConfig limLimits) (gbsEstimator 0) limFrame (fun s => 2 * s) 406 = some (o, .ok ()) ∧
    limNew.fit (configWith limConfig { limLimits with iterations := 5000 }) (gbsEstimator 0) limFrame (fun s => 2 * s) 406
      = some (o, .ok ()) ∧
    limNew.fit (configWith limConfig { limLimits with iterations := 402 }) (gbsEstimator 0) limFrame (fun s => 2 * s) 406
      = some (o, .ok ()) ∧
    Looser { limLimits with iterations := 402 } limLimits := by
  obtain ⟨o, m, h, hm, hit⟩ := limFit
  exact ⟨o, h, C136_larger_limit limConfig limLimits (.inl rfl) _ _ _ _ _ _ m h hm (by show _ < 1000; omega) 5000 (by omega),
    C136_larger_limit limConfig limLimits (.inl rfl) _ _ _ _ _ _ m h hm (by show _ < 1000; omega) 402 (by omega),
    by norm_num [Looser, limLimits]⟩

/-- The default learning rate depends on `maximal_iterations`, which is why C136 excludes it: in the first iteration it is 1/5 of 10
iterations and 1/10 of 20. -/
example : (configWith { limConfig with learnRate := none } { limLimits with iterations := 10 }).rate 1 ≠
    (configWith { limConfig with learnRate := none } { limLimits with iterations := 20 }).rate 1 := by
  norm_num [Config.rate, configWith, paramsWith, limConfig, limLimits, exSetup, halfLinearLearnRate, linearLearnRate]

/-! ### A training that is given up -/

/-- A smoother that returns 100 everywhere. -/
def hundred : Smoother ℝ Unit := ⟨fun _ _ => (), fun _ rows => rows.map fun _ => .fin 100⟩

def divConfig : Config Unit where
  groups := some [["a"]]
  props := some [("a", Flags.IS_UNORDERED)]
  choice := ⟨.noSmoother, false, false, []⟩
  weightColumn := none
  priorColumn := none
  base _ := hundred
  learnRate := some fun _ => 1
  params := { exSetup.params with maximalIterations := 10 }
  outputColumn := none

def divSetup : Setup Unit :=
  ⟨[(⟨["a"], false, false⟩, .binValuesOne)], fun _ => hundred, fun _ => 1, { exSetup.params with maximalIterations := 10 }⟩

def divNew : EstimatorObject := ⟨some [["a"]], some divSetup.features, .unfitted, []⟩

abbrev divP : Params ℝ := divSetup.paramsFor (gbsEstimator 0)
abbrev divO : Oracle ℝ := divSetup.oracle (gbsEstimator 0) exData

theorem divSmooth (it : ℕ) (pred : Pred ℝ) (fs : FState ℝ) (u : ℕ → ℝ) (b : ℕ) (hb : b < 2) :
    divO.smooth it 0 pred fs u b = some 100 := by
  simp only [divO, Setup.oracle, divSetup, List.getElem?_cons_zero, show exData.n = 2 from rfl, exBind, smoothAtCentres, kindPredict,
    hundred]
  have ha : arangeMulti [2] = [[0], [1]] := by decide
  simp only [ha, List.map_cons, List.map_nil]
  interval_cases b <;> rfl

/-- The pass over the feature adds 100 to both predictions; what is removed again is the same. -/
theorem divPass (it dv : ℕ) (isd : Bool) (il : Flt ℝ) (fs : FState ℝ) (pred : Pred ℝ) (hz : fs.zeroSmoother = false) :
    ∃ fs' pred' agg, featurePass divP divO it dv isd il 0 [exC] [fs] pred = ([fs'], pred') ∧ fs'.agg = some agg ∧ fs'.zeroSmoother = false ∧
      (∀ s < 2, pred'.factors s = pred.factors s + 100 ∧ predInSample exC fs' s = 100) := by
  have hc : divP.clip = false := by simp [divP, Setup.paramsFor, gbsEstimator]
  have ha : divP.aggregate = true := rfl
  have hs : skipped divP it exC = false := rfl
  have hl : divO.learnRate (it + 1) = 1 := rfl
  have hcal : ∀ fs : FState ℝ, divO.calibrate it 0 fs = fs.factors := fun _ => rfl
  simp only [featurePass, hs, Bool.false_eq_true, if_false, featureIteration, ha, visitFactors, hc, Bool.false_and, if_true,
    hl, hcal, updateFactors]
  refine ⟨_, _, _, rfl, rfl, ?_, ?_⟩
  · split_ifs <;> exact hz
  · intro s hs2
    have hbin : exC.bin s < 2 := by interval_cases s <;> simp
    have hz' : (if it = 0 then ({ fs with factors := fun _ => 0 } : FState ℝ) else fs).zeroSmoother = false := by
      split_ifs <;> exact hz
    constructor
    · simp only [Pred.update, predInSample, predictFactors, Bool.false_eq_true, if_false]
      rw [if_pos hbin, divSmooth _ _ _ _ _ hbin, hz']
      simp
    · simp only [predInSample, predictFactors]
      rw [if_pos hbin, divSmooth _ _ _ _ _ hbin, hz']
      simp

/-- Each iteration makes the loss larger than allowed. -/
theorem divStep (s : TState ℝ) (fs : FState ℝ) (h1 : s.feats = [fs]) (hz : fs.zeroSmoother = false) (h2 : ∀ i < 2, s.pred.factors i = 1)
    (h3 : s.initialLoss = .fin 2) :
    (4 ≤ s.diverging → iterate divP divO [exC] s = .error .convergenceError) ∧
    (s.diverging < 4 → ∃ s' fs', iterate divP divO [exC] s = .ok s' ∧ s'.feats = [fs'] ∧ fs'.zeroSmoother = false ∧
      (∀ i < 2, s'.pred.factors i = 1) ∧ s'.initialLoss = .fin 2 ∧ s'.diverging = s.diverging + 1 ∧ s'.isDiverging = true) := by
  obtain ⟨fs', pred', agg, hp, hagg, hz', hv⟩ := divPass s.iteration s.diverging s.isDiverging s.initialLoss fs s.pred hz
  have hloss : isDiverged s.initialLoss (divO.loss pred') = true := by
    have e0 := (hv 0 (by norm_num)).1
    have e1 := (hv 1 (by norm_num)).1
    rw [h2 0 (by norm_num)] at e0
    rw [h2 1 (by norm_num)] at e1
    rw [h3]
    simp only [divO, Setup.oracle, gbsEstimator, gbsLoss, LinkKind.toLink, exData, sum_range_succ, range_zero, sum_empty, e0, e1]
    norm_num [quotientFlt, isDiverged, Flt.twice, Flt.gt, identityLink]
  constructor
  · intro hd
    unfold iterate
    rw [h1, hp]
    simp only [checkConvergence, hloss, if_true]
    rw [if_pos (by omega)]
  · intro hd
    unfold iterate
    rw [h1, hp]
    simp only [checkConvergence, hloss, if_true]
    rw [if_neg (by omega)]
    simp only [removePreds, hagg, if_true]
    refine ⟨_, _, rfl, rfl, hz', ?_, h3, rfl, rfl⟩
    intro i hi
    have := (hv i hi).1
    rw [h2 i hi] at this
    simp only [Pred.remove, Bool.false_eq_true, if_false]
    rw [(hv i hi).2, this]
    norm_num

theorem divLoop : ∀ (k fuel : ℕ) (s : TState ℝ) (fs : FState ℝ), s.diverging + k = 4 → k < fuel → continues divP s = true → s.feats = [fs] →
    fs.zeroSmoother = false → (∀ i < 2, s.pred.factors i = 1) → s.initialLoss = .fin 2 →
    loop divP divO [exC] fuel s = .failed .convergenceError := by
  intro k
  induction k with
  | zero =>
    intro fuel s fs hk hf hc h1 hz h2 h3
    obtain ⟨fuel, rfl⟩ : ∃ f, fuel = f + 1 := ⟨fuel - 1, by omega⟩
    unfold loop
    rw [if_pos hc]
    dsimp only
    rw [(divStep s fs h1 hz h2 h3).1 (by omega)]
  | succ k ih =>
    intro fuel s fs hk hf hc h1 hz h2 h3
    obtain ⟨fuel, rfl⟩ : ∃ f, fuel = f + 1 := ⟨fuel - 1, by omega⟩
    obtain ⟨s', fs', hi, g1, g2, g3, g4, g5, g6⟩ := (divStep s fs h1 hz h2 h3).2 (by omega)
    unfold loop
    rw [if_pos hc]
    dsimp only
    rw [hi]
    exact ih fuel s' fs' (by omega) (by omega) (by simp [continues, g6]) g1 g2 g3 g4

theorem divFit : divSetup.fit (gbsEstimator 0) exData 20 = some (.error (.training .convergenceError)) := by
  rw [divSetup.fit_finite exData (gbsEstimator 0) 20 (fun _ _ => trivial) 1 exScale]
  have hb : (fun s => (priorPrediction (gbsEstimator 0).link (.fin 1) ((gbsEstimator 0).offset exData) exData.prior s).getFin) =
      fun _ => (1 : ℝ) := exBaseline
  have hcfg : divSetup.cfgs exData = [exC] := by
    simp [Setup.cfgs, divSetup, exC, FeatureSpec.cfg, show exData.n = 2 from rfl, exBind]
  rw [hb, hcfg]
  unfold fitMain
  rw [divLoop 4 20 (startState divO [exC] fun _ => 1) FState.init rfl (by norm_num) ?_ rfl rfl (fun _ _ => rfl) ?_]
  · norm_num [continues, checkStop, startState, divP, Setup.paramsFor, divSetup, exSetup, Flt.absLe]
  · simp only [startState, divO, Setup.oracle, gbsEstimator, gbsLoss, LinkKind.toLink, exData, sum_range_succ, range_zero, sum_empty]
    norm_num [quotientFlt, identityLink]

/-- Witness for C136_not_converging: training is given up after 5 iterations, whether 10 or 100 are allowed. -/
example : ∃ o, divNew.fit (configWith divConfig ⟨10, 1 / 1000, 1 / 1000⟩) (gbsEstimator 0) limFrame (fun s => 2 * s) 20
      = some (o, .error (.training (.training .convergenceError))) ∧
    divNew.fit (configWith divConfig ⟨100, 1 / 10000, 1 / 1000⟩) (gbsEstimator 0) limFrame (fun s => 2 * s) 20
      = some (o, .error (.training (.training .convergenceError))) := by
  have hinit : divNew.initFit (configWith divConfig ⟨10, 1 / 1000, 1 / 1000⟩) (gbsEstimator 0) limFrame (fun s => 2 * s) =
      (⟨some [["a"]], some divSetup.features, .broken, []⟩, .ok divSetup.features) := by
    unfold EstimatorObject.initFit
    rw [show checkLenData limFrame.n limFrame.n = .ok () from by decide]
    dsimp only
    rw [if_neg (by rw [not_not]; intro i _; trivial)]
    rfl
  have hset : (configWith divConfig ⟨10, 1 / 1000, 1 / 1000⟩).setup divSetup.features = divSetup := by
    rw [setup_with divConfig _ (.inl rfl)]
    rfl
  have key : divNew.fit (configWith divConfig ⟨10, 1 / 1000, 1 / 1000⟩) (gbsEstimator 0) limFrame (fun s => 2 * s) 20
      = some (⟨some [["a"]], some divSetup.features, .broken, []⟩, .error (.training (.training .convergenceError))) := by
    unfold EstimatorObject.fit
    rw [hinit]
    dsimp only
    rw [hset, show (configWith divConfig ⟨10, 1 / 1000, 1 / 1000⟩).trainSet limFrame (fun s => 2 * s) = exData from rfl, divFit]
  exact ⟨_, key, C136_not_converging divConfig _ _ (.inl rfl) _ _ _ _ _ _ (by norm_num [Looser]) key⟩

end

end CB
