import Verif.Props.PriceApi
import Verif.Props.WholeFitExample
import Mathlib.Analysis.Complex.ExponentialBounds

/-!
# C96, C97 and others: a concrete price model

Two samples, a demand feature "a" and an external feature "b"; the second sample has the price ratio 2, the first one none.
-/

set_option autoImplicit false

namespace CB
open Finset Spec

noncomputable section

/-- Training with one iteration in which the loss does not double. -/
theorem oneIterationMain (p : Params ℝ) (o : Oracle ℝ) (cfgs : List FeatureCfg) (prior : ℕ → ℝ) (hm : p.maximalIterations = 1)
    (hh : p.hierarchical = none) (hf : p.minimalFactorChange < 100) (hlc : p.minimalLossChange < 100000000000000000000)
    (hl : isDiverged (o.loss ⟨prior, fun _ => 0⟩) (o.loss (featurePass p o 0 0 false (o.loss ⟨prior, fun _ => 0⟩)
        0 cfgs (cfgs.map fun _ => FState.init) ⟨prior, fun _ => 0⟩).2) = false) :
    (∀ past s, Trace p o cfgs (startState o cfgs prior) past s → s.diverging = 0) ∧
      ∃ r, fitMain p o cfgs prior 1 = some (.ok r) ∧ r.factors.length = cfgs.length := by
  have hit : ∃ s1, iterate p o cfgs (startState o cfgs prior) = .ok s1
      ∧ s1.iteration = 1 ∧ s1.diverging = 0 ∧ s1.isDiverging = false ∧ (∀ fs ∈ s1.feats, fs.agg.isSome)
      ∧ isDiverged s1.initialLoss s1.loss = false ∧ s1.feats.length = cfgs.length := by
    simp only [iterate, startState, checkConvergence, hl, Bool.false_eq_true, if_false]
    exact ⟨_, rfl, rfl, rfl, rfl, pass_some p _ hh _ _ _ _ _ _ _ _, hl,
      featurePass_length _ _ _ _ _ _ _ _ _ _ (by simp)⟩
  obtain ⟨s1, h1, hi, hd, hid, hagg, hl1, hlen⟩ := hit
  have hstop : continues p s1 = false := by
    simp [continues, checkStop, hi, hid, hm, hh]
  refine ⟨fun past s ht => oneStep h1 rfl hd hstop past s ht, ?_⟩
  have hc : continues p (startState o cfgs prior) = true := by
    simp [continues, checkStop, startState, hm, Flt.absLe, not_le.mpr hf, not_le.mpr hlc]
  have hloop : loop p o cfgs 1 (startState o cfgs prior) = .done s1 := by
    rw [loop, if_pos hc]
    simp only [h1]
    rw [loop, if_neg (by rw [hstop]; simp)]
  obtain ⟨l, hl2, hll⟩ := prepare_some _ hagg
  refine ⟨⟨l, s1.prediction, s1.iteration⟩, ?_, by rw [hll, hlen]⟩
  unfold fitMain
  rw [hloop]
  simp only [hl2, checkConvergence, hl1, Bool.false_eq_true, if_false]

def prArgs : PriceArgs := ⟨"r", none, 1 / 10, 1, 0, id⟩

def prSetup : Setup Unit :=
  ⟨[(⟨["a"], false, false⟩, .binValuesOne), (⟨["b"], true, false⟩, .binValuesOne)], fun _ => tenth, fun _ => 1, exSetup.params⟩

/-- Targets 1 and 3, of weight 2 each; the second sample is sold at the double price. -/
def prData : TrainSet :=
  ⟨fun s c => if c = "r" then (if s = 0 then .nan else .fin 2) else .fin (if s = 0 then 0 else 1), 2, fun s => 2 * s + 1, fun _ => 2, none⟩

theorem prScale : prArgs.estimator.scale prData.n prData.y prData.w = .fin (Real.log (2001 / 1000)) := by
  simp only [PriceArgs.estimator, nbinomEstimator, globalScaleLink, prData, sum_range_succ, range_zero, sum_empty]
  norm_num [quotientFlt, Flt.addFin, linkFlt]

theorem prBind (c : String) (hc : c ≠ "r") : bindData prData.X 2 [c] none = ([0, 1], [2]) := by
  simp [bindData, lexBinnos, inferBins, maxPlusOne, prData, Table.row, finiteSemiPositive, floorComp, validRow, validComp,
    binSteps, dotRow, List.range_succ, hc]

abbrev prA : FeatureCfg := ⟨["a"], false, 2, fun s => [0, 1].getD s 0, false⟩
abbrev prB : FeatureCfg := ⟨["b"], true, 2, fun s => [0, 1].getD s 0, false⟩

theorem prCfg : prSetup.cfgs prData = [prA, prB] := by
  simp [Setup.cfgs, prSetup, FeatureSpec.cfg, show prData.n = 2 from rfl, prBind "a" (by decide), prBind "b" (by decide)]

theorem prBase0 : prArgs.base prData.X 0 = 0 := by simp [PriceArgs.base, prArgs, prData, externalBase]

theorem prBase1 : prArgs.base prData.X 1 = 1 := by
  simp [PriceArgs.base, prArgs, prData, externalBase]; norm_num

theorem prFitMain : PriceNeverDiverges prSetup prArgs prData ∧
    ∃ m, prSetup.priceFit prArgs prData 1 = some (.ok m) ∧ m.features.map (fun f => (f.group, f.external)) = [(["a"], false), (["b"], true)] := by
  have hb : baseline prArgs.estimator prData (Real.log (2001 / 1000)) = fun _ => Real.log (2001 / 1000) := by
    funext s; simp [baseline, priorPrediction, prData, Flt.getFin]
  have hsm : ∀ i pred fs u b, i < 2 → b < 2 → (prSetup.priceOracle prArgs prData).smooth 0 i pred fs u b = some (1 / 10) := by
    intro i pred fs u b hi hlt
    have ha : arangeMulti [2] = [[0], [1]] := by decide
    interval_cases i <;>
      simp only [Setup.priceOracle, prSetup, List.getElem?_cons_zero, List.getElem?_cons_succ, show prData.n = 2 from rfl,
        prBind "a" (by decide), prBind "b" (by decide), smoothAtCentres, kindPredict, tenth, ha, List.map_cons, List.map_nil] <;>
      interval_cases b <;> rfl
  have hlog : (1 / 10 : ℝ) ≤ Real.log 2 := le_trans (by norm_num) (Real.one_sub_inv_le_log_of_pos (by norm_num))
  have hhalf : Real.log 0.5 ≤ 1 / 10 := le_trans (Real.log_nonpos (by norm_num) (by norm_num)) (by norm_num)
  have hpred : ∀ il, ∀ s < 2, (featurePass (prSetup.paramsFor prArgs.estimator) (prSetup.priceOracle prArgs prData) 0 0 false il
      0 [prA, prB] [FState.init, FState.init] ⟨fun _ => Real.log (2001 / 1000), fun _ => 0⟩).2.factors s = Real.log (2001 / 1000) + 1 / 10 ∧
      (featurePass (prSetup.paramsFor prArgs.estimator) (prSetup.priceOracle prArgs prData) 0 0 false il
      0 [prA, prB] [FState.init, FState.init] ⟨fun _ => Real.log (2001 / 1000), fun _ => 0⟩).2.exponents s = 1 / 10 := by
    intro il s hs2
    have hc : (prSetup.paramsFor prArgs.estimator).clip = true := by simp [Setup.paramsFor, PriceArgs.estimator, nbinomEstimator]
    have ha : (prSetup.paramsFor prArgs.estimator).aggregate = true := rfl
    have hk : skipped (prSetup.paramsFor prArgs.estimator) 0 prA = false := rfl
    have hk' : skipped (prSetup.paramsFor prArgs.estimator) 0 prB = false := rfl
    have hl : (prSetup.priceOracle prArgs prData).learnRate 1 = 1 := rfl
    have hco : (prSetup.paramsFor prArgs.estimator).consts = realConsts := rfl
    have hcal : ∀ i, ∀ fs : FState ℝ, (prSetup.priceOracle prArgs prData).calibrate 0 i fs = fs.factors := fun _ _ => rfl
    have hbin : prA.bin s < 2 := by interval_cases s <;> simp
    simp only [featurePass, hk, hk', if_true, Bool.false_eq_true, if_false, featureIteration, ha, visitFactors, hc, Bool.and_true,
      hl, hcal, updateFactors, FState.init, Pred.update, predInSample, clipUpdate, predictFactors, hco]
    rw [if_pos hbin, hsm _ _ _ _ _ (by norm_num) hbin, hsm _ _ _ _ _ (by norm_num) hbin]
    simp only [clipTo, realConsts]
    rw [one_mul, max_eq_left hhalf, min_eq_left hlog]
    refine ⟨rfl, ?_⟩
    rw [if_pos hbin, max_eq_left hhalf, min_eq_left hlog]
    norm_num
  have hpar : (prSetup.paramsFor prArgs.estimator).maximalIterations = 1 := rfl
  obtain ⟨hnd, r, hr, hlen⟩ := oneIterationMain (prSetup.paramsFor prArgs.estimator) (prSetup.priceOracle prArgs prData)
    (prSetup.cfgs prData) (baseline prArgs.estimator prData (Real.log (2001 / 1000))) rfl rfl
    (by norm_num [Setup.paramsFor, prSetup, exSetup]) (by norm_num [Setup.paramsFor, prSetup, exSetup]) (by
      rw [hb, prCfg]
      simp only [List.map_cons, List.map_nil]
      have h0 := hpred ((prSetup.priceOracle prArgs prData).loss ⟨fun _ => Real.log (2001 / 1000), fun _ => 0⟩) 0 (by norm_num)
      have h1 := hpred ((prSetup.priceOracle prArgs prData).loss ⟨fun _ => Real.log (2001 / 1000), fun _ => 0⟩) 1 (by norm_num)
      revert h0 h1
      generalize (featurePass (prSetup.paramsFor prArgs.estimator) _ _ _ _ _ _ _ _ _).2 = q
      rintro ⟨h0, h0'⟩ ⟨h1, h1'⟩
      have hexp : Real.exp (1 / 10) ≤ 10 / 9 := by
        have h := Real.add_one_le_exp (-(1 / 10) : ℝ)
        rw [Real.exp_neg] at h
        have hpos := Real.exp_pos (1 / 10 : ℝ)
        rw [show (10 / 9 : ℝ) = (9 / 10)⁻¹ by norm_num]
        rw [le_inv_comm₀ hpos (by norm_num)]
        linarith
      have hone : 1 ≤ Real.exp (1 / 10) := Real.one_le_exp (by norm_num)
      have he1 : Real.exp (-1) ≤ 2 / 5 := by
        rw [Real.exp_neg, show (2 / 5 : ℝ) = (5 / 2)⁻¹ by norm_num]
        exact inv_anti₀ (by norm_num) (by have := Real.exp_one_gt_d9; linarith)
      have he0 := Real.exp_pos (-1)
      have hk0 : Real.exp (-Real.exp (1 / 10)) ≤ 1 := Real.exp_le_one_iff.mpr (by linarith)
      have hk1 := Real.exp_pos (-Real.exp (1 / 10))
      have hex : ∀ X s, prArgs.exponent X s = -1 := fun _ _ => rfl
      simp only [Setup.priceOracle, squaredLoss, PriceArgs.linkOf, priceLinkOf, priceExponent, show prData.n = 2 from rfl,
        sum_range_succ, range_zero, sum_empty, h0, h1, h0', h1', prBase0, prBase1, hex, Real.exp_zero, mul_zero, add_zero, mul_one,
        neg_mul, one_mul, zero_add,
        Real.exp_add, Real.exp_log (show (0 : ℝ) < 2001 / 1000 by norm_num)]
      norm_num [quotientFlt, isDiverged, Flt.twice, Flt.gt, prData]
      generalize Real.exp (-Real.exp (1 / 10)) = k at hk0 hk1 ⊢
      generalize Real.exp (1 / 10) = e at hexp hone ⊢
      generalize Real.exp (-1) = u at he0 he1 ⊢
      have hp : 0 < e * k := by positivity
      have hp' : e * k ≤ 10 / 9 := by nlinarith
      have hA : (2001 / 1000 * e - 1) * (2001 / 1000 * e - 1) ≤ 16 / 10 := by nlinarith
      have hB : (2001 / 1000 * e * k - 3) * (2001 / 1000 * e * k - 3) ≤ 9 := by nlinarith
      have hC : (21996 / 10000 : ℝ) ^ 2 ≤ (2001 / 1000 * u - 3) * (2001 / 1000 * u - 3) := by nlinarith
      nlinarith)
  constructor
  · intro a ha past s ht
    rw [prScale, Flt.fin.injEq] at ha
    subst ha
    exact hnd past s ht
  · unfold Setup.priceFit
    dsimp only
    rw [if_pos (by
      intro i _
      show (0 : ℝ) ≤ 2 * i + 1
      positivity), prScale, if_pos (by rfl)]
    have : prSetup.priceFitMain prArgs prData 1 = some (.ok r) := by
      unfold Setup.priceFitMain
      dsimp only
      rw [prScale]
      exact hr
    rw [this]
    refine ⟨_, rfl, ?_⟩
    rw [prCfg] at hlen
    obtain ⟨f, g, hfg⟩ : ∃ f g, r.factors = [f, g] := List.length_eq_two.mp hlen
    simp [fittedFeatures, prSetup, hfg]

/-- Witness for C96_elasticity and C23_price: a fitted model with one external feature of one column; the exponent of any row is
between 0.05 and 20 times the prior exponent -1. -/
example : ∃ m, prSetup.priceFit prArgs prData 1 = some (.ok m) ∧ ∀ X s, ∃ k, (0.05 : ℝ) ≤ k ∧ k ≤ 20 ∧
    ∀ r : ℝ, prArgs.predict m none (setEntry X s "r" (.fin r)) s
      = prArgs.predict m none (setEntry X s "r" .nan) s * Real.exp (-1 * k * (r - 1)) := by
  obtain ⟨hnd, m, hm, -⟩ := prFitMain
  refine ⟨m, hm, fun X s => ?_⟩
  have := C96_elasticity prSetup prArgs prData 1 rfl rfl m hm hnd (by simp [prSetup, prArgs]) (by simp [prArgs]) none X s
  simpa [lowestExponent, highestExponent, prSetup, prArgs, priorExponentOf] using this

/-- Witness for C96_direction: a fitted model that predicts less demand at the double price than at the usual one. -/
example : ∃ m, prSetup.priceFit prArgs prData 1 = some (.ok m) ∧ ∀ X s,
    prArgs.predict m none (setEntry X s "r" (.fin 2)) s < prArgs.predict m none (setEntry X s "r" (.fin 1)) s := by
  obtain ⟨-, m, hm, -⟩ := prFitMain
  refine ⟨m, hm, fun X s => ?_⟩
  exact ((C96_direction prSetup prArgs prData 1 m hm (by simp [prSetup, prArgs]) (by simp [prArgs]) none X s).1 1 2 (by norm_num)).1
    (by simp [prArgs, priorExponentOf])

/-- Witness for C19_price: on the training table the prediction of the fitted model for the sample at the double price is the
in-sample prediction. -/
example : ∃ m r, prSetup.priceFit prArgs prData 1 = some (.ok m) ∧ prSetup.priceFitMain prArgs prData 1 = some (.ok r) ∧
    prArgs.predict m none prData.X 1 = Real.exp (prArgs.linkOf prData.X r.prediction 1) := by
  obtain ⟨-, m, hm, -⟩ := prFitMain
  obtain ⟨r, hr, h⟩ := C19_price prSetup prArgs prData 1 rfl m hm 1 (by decide) (by simp [prSetup]) (by
    intro f hf c hc x hx
    simp only [prData] at hx
    refine ⟨1, ?_⟩
    simp only [prSetup, List.mem_cons, List.not_mem_nil, or_false] at hf
    rcases hf with rfl | rfl
    · simp only [List.cons.injEq, and_true] at hc
      subst hc
      simpa using hx.symm
    · simp only [List.cons.injEq, and_true] at hc
      subst hc
      simpa using hx.symm)
  exact ⟨m, r, hm, hr, h⟩

/-- Witness for C77_price: the two samples exchanged. -/
example : prSetup.priceFit prArgs (resample prData (Equiv.swap 0 1) 2 fun _ => 2) 1 = prSetup.priceFit prArgs prData 1 := by
  refine C77_price prSetup (by simp [prSetup]) prArgs prData (Equiv.swap 0 1) ?_ 1
  intro s
  show Equiv.swap 0 1 s < 2 ↔ s < 2
  by_cases h0 : s = 0
  · subst h0; simp
  · by_cases h1 : s = 1
    · subst h1; simp
    · rw [Equiv.swap_apply_of_ne_of_ne h0 h1]

/-- The set with a missing price and a price ratio of 1. -/
def prNeutral : TrainSet :=
  { prData with X := fun s c => if c = "r" then (if s = 0 then .nan else .fin 1) else .fin (if s = 0 then 0 else 1) }

/-- Witness for C97_no_prices and C97_predict: the fit of the demand feature alone is that of the negative binomial model, and
predictions at the price ratio 1 do not depend on external features. -/
example : (∃ r, (poSetupWith false).priceFit prArgs prNeutral 5 = some r ∧
      (poSetupWith false).fit (nbinomEstimator id 1 0) prNeutral 5 = some r) ∧
    ∃ m, prSetup.priceFit prArgs prData 1 = some (.ok m) ∧ prArgs.predict m none prNeutral.X 1 = m.predict none prNeutral.X 1 := by
  constructor
  · obtain ⟨r, hr⟩ := C21_price (poSetupWith false) prArgs prNeutral 5 (by decide)
    refine ⟨r, hr, ?_⟩
    rw [← hr]
    refine (C97_no_prices (poSetupWith false) prArgs prNeutral 5 (by simp [poSetupWith]) ?_).symm
    intro s hs
    simp only [prNeutral, prArgs, if_true]
    by_cases h : s = 0
    · right; rw [if_pos h]; rfl
    · left; rw [if_neg h]
  · obtain ⟨-, m, hm, -⟩ := prFitMain
    obtain ⟨a, q, -, -, -, -, hmm⟩ := priceFit_ok _ _ _ _ m hm
    exact ⟨m, hm, C97_predict prArgs m (by rw [hmm]) none prNeutral.X 1 (.inl (by simp [prNeutral, prArgs]))⟩

/-! ### An object -/

abbrev prConfig : PriceConfig Unit where
  standard := some [.name "a"]
  external := some [.tuple ["b"]]
  args := prArgs
  config :=
    { groups := none
      props := some [("a", Flags.IS_UNORDERED), ("b", Flags.IS_UNORDERED)]
      choice := ⟨.noSmoother, false, false, []⟩
      weightColumn := some "w"
      priorColumn := none
      base := fun _ => tenth
      learnRate := some fun _ => 1
      params := exSetup.params
      outputColumn := some "p" }

abbrev prFrame : DataFrame := ⟨["a", "b", "w", "z", "r"], fun s c => if c = "w" then .fin 2 else prData.X s c, 2⟩

abbrev prIds : List FeatureId := [⟨["a"], .standard⟩, ⟨["b"], .external⟩]

abbrev prNew : PriceObject := ⟨prIds, prSetup.features, .unfitted, []⟩

theorem prCombine : combineFeatureGroups prConfig.standard prConfig.external = .ok prIds := by rfl

theorem prConstruct : prConfig.construct = .ok prNew := by rfl

theorem prTrain : (prConfig.config.setup prSetup.features).priceFit prArgs (prConfig.config.trainSet prFrame fun s => 2 * s + 1) 1 =
    prSetup.priceFit prArgs prData 1 := by
  rw [show prConfig.config.setup prSetup.features = prSetup from by unfold Config.setup prSetup; congr 1]
  refine priceFit_congr prSetup (by simp [prSetup]) prArgs prData (prConfig.config.trainSet prFrame fun s => 2 * s + 1) rfl ?_ ?_ ?_
    (fun _ _ => rfl) ?_ rfl (fun _ _ => rfl) 1
  · intro f hf c hc s hs
    simp only [prSetup, List.mem_cons, List.not_mem_nil, or_false] at hf
    rcases hf with rfl | rfl <;>
    · rw [List.mem_singleton] at hc
      subst hc
      simp [Config.trainSet, prFrame]
  · intro s _
    simp [Config.trainSet, prFrame, prArgs]
  · intro c hc
    simp [prArgs] at hc
  · intro s _
    simp [Config.trainSet, prFrame, prData, initWeights, Flt.getFin]

theorem prInit : prNew.initFit prConfig prFrame (fun s => 2 * s + 1) =
    (⟨prIds, prSetup.features, .broken, []⟩, .ok prSetup.features) := by
  unfold PriceObject.initFit
  rw [show checkLenData prFrame.n prFrame.n = .ok () from by decide]
  dsimp only
  rw [if_neg (by
    rw [not_not]
    intro i _
    show (0 : ℝ) ≤ 2 * i + 1
    positivity)]
  rfl

theorem prFit : ∃ o m, prNew.fit prConfig prFrame (fun s => 2 * s + 1) 1 = some (o, .ok ()) ∧ o.status = .fitted m := by
  obtain ⟨-, m, hm, -⟩ := prFitMain
  unfold PriceObject.fit
  rw [prInit]
  dsimp only
  rw [prTrain, hm]
  exact ⟨_, m, rfl, rfl⟩

/-- Witness for C91_price, C92_price_fit, C92_price_required and C92_price_missing: the model is fitted, and fitted again to a
table without column "z"; the result is the same; column "r" is required and "z" is not. -/
example : ∃ o o', prNew.fit prConfig prFrame (fun s => 2 * s + 1) 1 = some (o, .ok ()) ∧
    o.fit prConfig ⟨["r", "b", "w", "a"], prFrame.X, 2⟩ (fun s => 2 * s + 1) 1 = some (o', .ok ()) ∧
    (∀ G, o'.predict prConfig G = o.predict prConfig G) ∧ "r" ∈ prConfig.requiredColumns o ∧ "z" ∉ prConfig.requiredColumns o := by
  obtain ⟨o, m, h, hm⟩ := prFit
  have hist : PriceHistory prConfig o := .fit prNew o (.constructed _ prConstruct) prFrame _ _ _ h
  have hreq := C92_price_required prConfig prIds prCombine o hist
  have hcols : ∀ c, priceColumns prConfig prIds c → c = "w" ∨ c = "r" ∨ c = "a" ∨ c = "b" := by
    intro c hc
    simp only [priceColumns, prConfig, prArgs, prIds, Option.some.injEq, reduceCtorEq, false_or, List.mem_cons, List.not_mem_nil,
      or_false, exists_eq_or_imp, exists_eq_left] at hc
    rcases hc with hc | hc | hc | hc
    · exact .inl hc.symm
    · exact .inr (.inl hc.symm)
    · exact .inr (.inr (.inl hc))
    · exact .inr (.inr (.inr hc))
  have hsame : o.fit prConfig ⟨["r", "b", "w", "a"], prFrame.X, 2⟩ (fun s => 2 * s + 1) 1
      = o.fit prConfig prFrame (fun s => 2 * s + 1) 1 := by
    refine C92_price_fit prConfig prIds prCombine (by simp [prIds]) o hist prFrame ⟨["r", "b", "w", "a"], prFrame.X, 2⟩ ⟨rfl, fun c hc => ?_, fun _ _ _ _ => rfl⟩ _ _
      (fun _ _ => rfl) 1
    rcases hcols c hc with rfl | rfl | rfl | rfl <;> simp [prFrame]
  obtain ⟨h1, h2⟩ := C91_price prConfig o prNew hist prConstruct prFrame (fun s => 2 * s + 1) 1
  rw [h] at h1
  obtain ⟨o', ho'⟩ : ∃ o', o.fit prConfig prFrame (fun s => 2 * s + 1) 1 = some (o', .ok ()) := by
    cases hf : o.fit prConfig prFrame (fun s => 2 * s + 1) 1 with
    | none => rw [hf] at h1; simp at h1
    | some q =>
      rw [hf] at h1
      simp only [Option.map_some, Option.some.injEq] at h1
      exact ⟨q.1, by rw [← h1]⟩
  obtain ⟨new', hn, hp⟩ := h2 o' ho'
  rw [h, Option.some.injEq, Prod.mk.injEq] at hn
  refine ⟨o, o', h, hsame.trans ho', fun G => ?_, ?_, ?_⟩
  · rw [hn.1]; exact (hp G).symm
  · rw [hreq]; exact .inr (.inr (.inl rfl))
  · rw [hreq]
    intro hz
    rcases hcols _ hz with hz | hz | hz | hz <;> exact absurd hz (by decide)

/-- Witness for C92_price_predict: the weight column is not needed for predictions. -/
example : ∃ o p p', prNew.fit prConfig prFrame (fun s => 2 * s + 1) 1 = some (o, .ok ()) ∧ o.predict prConfig prFrame = some (.ok p) ∧
    o.predict prConfig ⟨["b", "r", "a"], prFrame.X, 2⟩ = some (.ok p') ∧ ∀ s < 2, p' s = p s := by
  obtain ⟨o, m, h, hm⟩ := prFit
  have hp : ∃ p, o.predict prConfig prFrame = some (.ok p) := by
    obtain ⟨fs, m', -, hfs, -, rfl⟩ := priceFit_object_ok prConfig prNew o _ _ _ h
    have : fs = prSetup.features := by
      have e : createTypedFeatures prConfig.config.choice prConfig.config.props prNew.ids = .ok prSetup.features := rfl
      rw [e, Except.ok.injEq] at hfs
      exact hfs.symm
    subst this
    exact ⟨_, rfl⟩
  obtain ⟨p, hp⟩ := hp
  obtain ⟨p', h1, h2⟩ := C92_price_predict prConfig prIds prCombine prNew o (.constructed _ prConstruct) prFrame _ 1 h prFrame
    ⟨["b", "r", "a"], prFrame.X, 2⟩ ⟨rfl, fun c hc => by
      simp only [prConfig, prArgs, prIds, Option.some.injEq, reduceCtorEq, false_or, List.mem_cons, List.not_mem_nil,
        or_false, exists_eq_or_imp, exists_eq_left] at hc
      rcases hc with rfl | rfl | rfl <;> simp [prFrame], fun _ _ _ _ => rfl⟩ p hp
  exact ⟨o, p, p', h, hp, h1, h2⟩

/-- Witness for C93_price_counterexample: the training set can be fitted with `fit`, but not with `fit_transform`. -/
example : (∃ o, prNew.fit prConfig prFrame (fun s => 2 * s + 1) 1 = some (o, .ok ())) ∧
    ∃ o, prNew.fitTransform prConfig prFrame (fun s => 2 * s + 1) = some (o, .error .attributeError) := by
  obtain ⟨o, m, h, -⟩ := prFit
  refine ⟨⟨o, h⟩, ?_⟩
  obtain ⟨o', err, h1, h2⟩ := C93_price_counterexample prConfig (.tuple ["b"]) [] rfl (by decide) (by norm_num [exSetup]) (by norm_num [exSetup])
    prNew (.constructed _ prConstruct) prFrame (fun s => 2 * s + 1)
  rw [h2 ⟨"p", rfl, by decide, by decide⟩ ⟨_, _, prInit⟩] at h1
  exact ⟨o', h1⟩

end

end CB
