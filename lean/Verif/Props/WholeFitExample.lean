import Verif.Props.WholeFit
import Verif.Props.Rows
import Verif.Props.Shift
import Mathlib.Tactic.FinCases

/-!
# A concrete fit

A training set of two samples and one monotonic feature, for which the hypotheses of the end-to-end theorems hold.
-/

set_option autoImplicit false

namespace CB
open Finset Spec

noncomputable section

/-- IS_MONOTONIC and INCREASING for the column "a". -/
def exProps : List (String × ℕ) := [("a", Flags.IS_MONOTONIC ||| Flags.INCREASING)]

def exKind : SmootherKind := .normalizationRegressionType (.isotonic (some true)) .interpolating

def exSetup : Setup (List (ℝ × ℝ × ℝ)) where
  features := [(⟨["a"], false, false⟩, exKind)]
  base _ := isotonicSmoother (cumulativeRegression true)
  learnRate _ := 1
  params :=
    { aggregate := true
      clip := false
      consts := realConsts
      maximalIterations := 1
      minimalFactorChange := 1 / 1000
      minimalLossChange := 1 / 1000
      hierarchical := none
      hierarchicalIterations := 0 }

/-- Samples 0 and 1 in bins 0 and 1, with targets 0 and 2. -/
def exData : TrainSet := ⟨fun s _ => .fin (if s = 0 then 0 else 1), 2, fun s => 2 * s, fun _ => 1, none⟩

theorem exFeatures : createFeatures defaultChoice (some exProps) [["a"]] = .ok exSetup.features := by rfl

theorem exBind : bindData exData.X 2 ["a"] none = ([0, 1], [2]) := by
  simp [bindData, lexBinnos, inferBins, maxPlusOne, exData, Table.row, finiteSemiPositive, floorComp, validRow, validComp,
    binSteps, dotRow, List.range_succ]

theorem exCfg : exSetup.cfgs exData = [⟨["a"], false, 2, fun s => [0, 1].getD s 0, false⟩] := by
  simp [Setup.cfgs, exSetup, FeatureSpec.cfg, show exData.n = 2 from rfl, exBind]

theorem exScale : (gbsEstimator 0).scale exData.n exData.y exData.w = .fin 1 := by
  simp [gbsEstimator, quotientFlt, exData, sum_range_succ]

theorem exBaseline : baseline (gbsEstimator 0) exData 1 = fun _ => 1 := by
  funext s
  simp [baseline, priorPrediction, exData, Flt.getFin]

/-- What `calc_parameters` finds for the two bins in the first iteration. -/
def exValues (b : ℕ) : ℝ := if b = 0 then -1 / 2 else if b = 1 then 1 / 2 else 0

theorem exEstimate (it : ℕ) (pred : Pred ℝ) (hp : pred.factors = fun _ => 1) (fs : FState ℝ) :
    (exSetup.oracle (gbsEstimator 0) exData).estimate it 0 pred fs = exValues := by
  funext b
  unfold exValues
  simp only [Setup.oracle, exSetup, List.getElem?_cons_zero, gbsEstimator, hp, gbsSummand, binSum, FeatureSpec.cfg,
    show exData.n = 2 from rfl, exBind, sum_range_succ, range_zero, sum_empty]
  by_cases h0 : b = 0
  · subst h0; norm_num [exData]
  · by_cases h1 : b = 1
    · subst h1; norm_num [exData]
    · simp [h0, h1, Ne.symm h0, Ne.symm h1]

theorem exNorm (u0 u1 : ℝ) : normRegTypePredict (isotonicSmoother (cumulativeRegression true)) RegType.interpolating
    (normRegTypeFit (isotonicSmoother (cumulativeRegression true)) [⟨[0], 1, u0⟩, ⟨[1], 1, u1⟩] [-1 / 2, 1 / 2])
    [[Flt.fin 0], [Flt.fin 1]] = some [.fin (-1 / 2), .fin (1 / 2)] := by
  have hn : calcNorm [⟨[0], 1, u0⟩, ⟨[1], 1, u1⟩] [-1 / 2, (1 / 2 : ℝ)] = 0 := by
    norm_num [calcNorm]
  simp only [normRegTypePredict, normRegTypeFit, hn]
  norm_num [isotonicSmoother, cumulativeRegression, Flt.addFin, applyCut, setBinInfo]
  have hb : setNBins 1 [[0], [1]] = [2] := by decide
  simp [hb, selectedInterpolating, minNeg, fltIsNan, fltNeg, fltGt]
  norm_num

theorem exSmooth (it : ℕ) (pred : Pred ℝ) (fs : FState ℝ) (b : ℕ) (hb : b < 2) :
    (exSetup.oracle (gbsEstimator 0) exData).smooth it 0 pred fs exValues b = some (exValues b) := by
  simp only [Setup.oracle, exSetup, List.getElem?_cons_zero, show exData.n = 2 from rfl, exBind, smoothAtCentres, kindPredict,
    exKind, FeatureSpec.cfg]
  have hw : ∀ b < 2, binSum 2 (fun s => ([0, 1] : List ℕ).getD s 0) exData.w b = 1 := by
    intro b hb
    interval_cases b <;> simp [binSum, exData] <;> rfl
  have ha : arangeMulti [2] = [[0], [1]] := by decide
  simp only [smootherTable, ha]
  simp only [List.zipIdx_cons, List.zipIdx_nil, List.map_cons, List.map_nil, Nat.zero_add, hw 0 (by norm_num), hw 1 (by norm_num)]
  have := exNorm ((gbsEstimator 0).parameters it 2 (fun s => [0, 1].getD s 0) exData.y exData.w pred.factors 0).2
    ((gbsEstimator 0).parameters it 2 (fun s => [0, 1].getD s 0) exData.y exData.w pred.factors 1).2
  simp only [show (List.range [2].prod) = [0, 1] from rfl, List.map_cons, List.map_nil, exValues, if_true, if_false, one_ne_zero, Nat.cast_zero, Nat.cast_one, this]
  interval_cases b <;> simp

abbrev exP : Params ℝ := exSetup.paramsFor (gbsEstimator 0)
abbrev exO : Oracle ℝ := exSetup.oracle (gbsEstimator 0) exData
abbrev exC : FeatureCfg := ⟨["a"], false, 2, fun s => [0, 1].getD s 0, false⟩

/-- The pass over the feature in the first iteration. -/
theorem exPass (il : Flt ℝ) : ∃ fs pred, featurePass exP exO 0 0 false il 0 [exC] [FState.init] ⟨fun _ => 1, fun _ => 0⟩ = ([fs], pred)
    ∧ fs.agg.isSome ∧ pred.factors 0 = 1 / 2 ∧ pred.factors 1 = 3 / 2 := by
  have hc : exP.clip = false := by simp [exP, Setup.paramsFor, gbsEstimator]
  have ha : exP.aggregate = true := rfl
  have hs : skipped exP 0 exC = false := rfl
  have hl : exO.learnRate 1 = 1 := rfl
  have hcal : ∀ fs : FState ℝ, exO.calibrate 0 0 fs = fs.factors := fun _ => rfl
  simp only [featurePass, hs, if_true, Bool.false_eq_true, if_false, featureIteration, ha, visitFactors, hc, Bool.false_and,
    hl, hcal, exEstimate, updateFactors, FState.init]
  refine ⟨_, _, rfl, rfl, ?_, ?_⟩
  · simp only [Pred.update, predInSample, predictFactors, List.getD_eq_getElem?_getD]
    simp [exSmooth _ _ _ 0 (by norm_num)]
    norm_num [exValues]
  · simp only [Pred.update, predInSample, predictFactors, List.getD_eq_getElem?_getD]
    simp [exSmooth _ _ _ 1 (by norm_num)]
    norm_num [exValues]

/-- A history whose first iteration does not diverge and is the last one. -/
theorem oneStep {p : Params ℝ} {o : Oracle ℝ} {cfgs : List FeatureCfg} {s0 s1 : TState ℝ} (h1 : iterate p o cfgs s0 = .ok s1)
    (h0 : s0.diverging = 0) (hd : s1.diverging = 0) (hstop : continues p s1 = false) (past : List (TState ℝ)) (s : TState ℝ)
    (ht : Trace p o cfgs s0 past s) : s.diverging = 0 := by
  have : s = s0 ∨ s = s1 := by
    induction ht with
    | start => exact .inl rfl
    | step ht hc hit ih =>
      rcases ih with rfl | rfl
      · rw [h1] at hit; cases hit; exact .inr rfl
      · rw [hstop] at hc; cases hc
  rcases this with rfl | rfl <;> assumption

theorem groups_eq (X : Table ℝ) (n : ℕ) (fs : List (FeatureSpec × SmootherKind)) (l : List (ℕ → ℝ)) (h : l.length = fs.length) :
    (fittedFeatures X n (fs.map (·.1)) l).map (·.group) = fs.map (·.1.group) := by
  unfold fittedFeatures
  induction fs generalizing l with
  | nil => simp
  | cons f fs ih =>
    cases l with
    | nil => simp at h
    | cons x l => simpa using ih l (by simpa using h)

/-- A fit with one iteration, in which the loss does not double, succeeds without divergence. -/
theorem oneIteration {σ : Type*} (S : Setup σ) (E : Estimator) (D : TrainSet) (a : ℝ) (hv : ∀ i < D.n, E.valid (D.y i))
    (hs : E.scale D.n D.y D.w = .fin a) (hm : S.params.maximalIterations = 1) (hh : S.params.hierarchical = none)
    (hf : S.params.minimalFactorChange < 100) (hlc : S.params.minimalLossChange < 100000000000000000000)
    (hl : isDiverged ((S.oracle E D).loss ⟨baseline E D a, fun _ => 0⟩)
      ((S.oracle E D).loss (featurePass (S.paramsFor E) (S.oracle E D) 0 0 false ((S.oracle E D).loss ⟨baseline E D a, fun _ => 0⟩)
        0 (S.cfgs D) ((S.cfgs D).map fun _ => FState.init) ⟨baseline E D a, fun _ => 0⟩).2) = false) :
    NeverDiverges S E D ∧ ∃ m, S.fit E D 1 = some (.ok m) ∧ m.features.map (·.group) = S.features.map (·.1.group) := by
  have hit : ∃ s1, iterate (S.paramsFor E) (S.oracle E D) (S.cfgs D) (startState (S.oracle E D) (S.cfgs D) (baseline E D a)) = .ok s1
      ∧ s1.iteration = 1 ∧ s1.diverging = 0 ∧ s1.isDiverging = false ∧ (∀ fs ∈ s1.feats, fs.agg.isSome)
      ∧ isDiverged s1.initialLoss s1.loss = false ∧ s1.feats.length = (S.cfgs D).length := by
    simp only [iterate, startState, checkConvergence, hl, Bool.false_eq_true, if_false]
    exact ⟨_, rfl, rfl, rfl, rfl, pass_some (S.paramsFor E) _ hh _ _ _ _ _ _ _ _, hl,
      featurePass_length _ _ _ _ _ _ _ _ _ _ (by simp)⟩
  obtain ⟨s1, h1, hi, hd, hid, hagg, hl1, hlen⟩ := hit
  have hstop : continues (S.paramsFor E) s1 = false := by
    have hm' : (S.paramsFor E).maximalIterations = 1 := hm
    have hh' : (S.paramsFor E).hierarchical = none := hh
    simp [continues, checkStop, hi, hid, hm', hh']
  constructor
  · intro a' ha' past s ht
    rw [hs, Flt.fin.injEq] at ha'
    subst ha'
    exact oneStep h1 rfl hd hstop past s ht
  · rw [S.fit_finite D E 1 hv a hs,
      show (fun s => (priorPrediction E.link (.fin a) (E.offset D) D.prior s).getFin) = baseline E D a from rfl]
    have hc : continues (S.paramsFor E) (startState (S.oracle E D) (S.cfgs D) (baseline E D a)) = true := by
      have hm' : (S.paramsFor E).maximalIterations = 1 := hm
      have hf' : (S.paramsFor E).minimalFactorChange < 100 := hf
      have hl' : (S.paramsFor E).minimalLossChange < 100000000000000000000 := hlc
      have a1 : ¬ (0 ≥ 1) := by decide
      have a3 : ¬ |(100000000000000000000 : ℝ)| ≤ (S.paramsFor E).minimalLossChange := by
        rw [abs_of_pos (by norm_num)]; exact not_le.mpr hl'
      simp [continues, checkStop, startState, hm', Flt.absLe, not_le.mpr hf', not_le.mpr hl']
    have hloop : loop (S.paramsFor E) (S.oracle E D) (S.cfgs D) 1 (startState (S.oracle E D) (S.cfgs D) (baseline E D a)) = .done s1 := by
      rw [loop, if_pos hc]
      simp only [h1]
      rw [loop, if_neg (by rw [hstop]; simp)]
    obtain ⟨l, hl2, hll⟩ := prepare_some _ hagg
    have : fitMain (S.paramsFor E) (S.oracle E D) (S.cfgs D) (baseline E D a) 1 = some (.ok ⟨l, s1.prediction, s1.iteration⟩) := by
      unfold fitMain
      rw [hloop]
      simp only [hl2, checkConvergence, hl1, Bool.false_eq_true, if_false]
    rw [this]
    refine ⟨_, rfl, ?_⟩
    rw [hlen, Setup.cfgs, List.length_map] at hll
    exact groups_eq _ _ _ _ hll

theorem exFit : NeverDiverges exSetup (gbsEstimator 0) exData ∧ ∃ m, exSetup.fit (gbsEstimator 0) exData 1 = some (.ok m) ∧ m.features.map (·.group) = [["a"]] := by
  refine oneIteration exSetup (gbsEstimator 0) exData 1 (fun _ _ => trivial) exScale rfl rfl (by norm_num [exSetup])
    (by norm_num [exSetup]) ?_
  rw [exBaseline, exCfg]
  obtain ⟨fs, pred, hp, ha, h0, h1⟩ := exPass (exO.loss ⟨fun _ => 1, fun _ => 0⟩)
  simp only [List.map_cons, List.map_nil]
  rw [hp]
  simp only [Setup.oracle, gbsEstimator, gbsLoss, LinkKind.toLink, exData, sum_range_succ, range_zero, sum_empty, h0, h1]
  norm_num [quotientFlt, isDiverged, Flt.twice, Flt.gt, identityLink]

/-- Witness for C73_fit: an increasing feature, fitted successfully without divergence; the prediction in bin 0 is at most the
one in bin 1. -/
example : ∃ m, exSetup.fit (gbsEstimator 0) exData 1 = some (.ok m) ∧
    m.predict none (fun _ c => if c = "a" then .fin 0 else .fin 1) 0 ≤ m.predict none (fun _ _ => .fin 1) 0 := by
  obtain ⟨hnd, m, hm, -⟩ := exFit
  refine ⟨m, hm, ?_⟩
  have := C73_fit exSetup defaultChoice exProps [["a"]] exFeatures rfl realConsts_ok (fun _ => by norm_num [exSetup]) (gbsEstimator 0)
    (noCalibration_of_modelled _ (.inr (.inr (.inr (.inr ⟨0, rfl⟩))))) true (cumulativeRegression true) (fun data _ x x' h => cumulative_mono true data x x' h) rfl (by decide) "a" (noExplicit_iff.mp rfl)
    (Flags.IS_MONOTONIC ||| Flags.INCREASING) (by unfold AsksDirection; decide) rfl 0 rfl (by
      intro i g hg _
      cases i with
      | zero => rfl
      | succ i => simp at hg) exData 1 m hm hnd (fun _ c => if c = "a" then .fin 0 else .fin 1) (fun _ _ => .fin 1) 0
      (by intro c hc; simp [hc]) 0 1 (by norm_num) (by simp) (by simp) ⟨1, by decide, 1, by simp [exData], by norm_num⟩ none
  exact this

/-- A smoother with the same value everywhere. -/
def tenth : Smoother ℝ Unit := ⟨fun _ _ => (), fun _ rows => rows.map fun _ => .fin (1 / 10)⟩

def poSetup : Setup Unit := ⟨[(⟨["a"], false, false⟩, .binValuesOne)], fun _ => tenth, fun _ => 1, exSetup.params⟩

/-- Targets 1 and 3, of weight 2 each. -/
def poData : TrainSet := ⟨fun s _ => .fin (if s = 0 then 0 else 1), 2, fun s => 2 * s + 1, fun _ => 2, none⟩

def poSetupWith (miss : Bool) : Setup Unit := ⟨[(⟨["a"], false, miss⟩, .binValuesOne)], fun _ => tenth, fun _ => 1, exSetup.params⟩

def poDataWith (prior : Option (ℕ → Flt ℝ)) : TrainSet :=
  ⟨fun s _ => .fin (if s = 0 then 0 else 1), 2, fun s => 2 * s + 1, fun _ => 2, prior⟩

abbrev exCWith (miss : Bool) : FeatureCfg := ⟨["a"], false, 2, fun s => [0, 1].getD s 0, miss⟩

/-- With or without learning missing values, and with prior predictions that do not change the baseline. -/
theorem poFitWith (g : ℝ → ℝ) (miss : Bool) (prior : Option (ℕ → Flt ℝ))
    (hb : baseline (poissonEstimator g) (poDataWith prior) (Real.log (2001 / 1000)) = fun _ => Real.log (2001 / 1000)) :
    NeverDiverges (poSetupWith miss) (poissonEstimator g) (poDataWith prior) ∧
    ∃ m, (poSetupWith miss).fit (poissonEstimator g) (poDataWith prior) 1 = some (.ok m) ∧ m.features.map (·.group) = [["a"]] := by
  have hbind : bindData (poDataWith prior).X 2 ["a"] none = ([0, 1], [2]) := exBind
  have hs : (poissonEstimator g).scale (poDataWith prior).n (poDataWith prior).y (poDataWith prior).w = .fin (Real.log (2001 / 1000)) := by
    simp only [poissonEstimator, globalScaleLink, poDataWith, sum_range_succ, range_zero, sum_empty]
    norm_num [quotientFlt, Flt.addFin, linkFlt]
  have hcfg : (poSetupWith miss).cfgs (poDataWith prior) = [exCWith miss] := by
    simp [Setup.cfgs, poSetupWith, exCWith, FeatureSpec.cfg, show (poDataWith prior).n = 2 from rfl, hbind]
  refine oneIteration (poSetupWith miss) (poissonEstimator g) (poDataWith prior) (Real.log (2001 / 1000)) ?_ hs rfl rfl (by norm_num [exSetup, poSetupWith])
    (by norm_num [exSetup, poSetupWith]) ?_
  · intro i _
    simp only [poDataWith, poissonEstimator]
    positivity
  · rw [hb, hcfg]
    have hsm : ∀ pred fs u b, b < 2 → ((poSetupWith miss).oracle (poissonEstimator g) (poDataWith prior)).smooth 0 0 pred fs u b = some (1 / 10) := by
      intro pred fs u b hlt
      simp only [Setup.oracle, poSetupWith, List.getElem?_cons_zero, show (poDataWith prior).n = 2 from rfl, hbind, smoothAtCentres, kindPredict, tenth]
      have ha : arangeMulti [2] = [[0], [1]] := by decide
      simp only [ha, List.map_cons, List.map_nil]
      interval_cases b <;> rfl
    have hpred : ∀ il, ∀ s < 2, (featurePass ((poSetupWith miss).paramsFor (poissonEstimator g)) ((poSetupWith miss).oracle (poissonEstimator g) (poDataWith prior)) 0 0 false il
        0 [exCWith miss] [FState.init] ⟨fun _ => Real.log (2001 / 1000), fun _ => 0⟩).2.factors s = Real.log (2001 / 1000) + 1 / 10 := by
      intro il s hs2
      have hc : ((poSetupWith miss).paramsFor (poissonEstimator g)).clip = true := by simp [Setup.paramsFor, poissonEstimator]
      have ha : ((poSetupWith miss).paramsFor (poissonEstimator g)).aggregate = true := rfl
      have hk : skipped ((poSetupWith miss).paramsFor (poissonEstimator g)) 0 (exCWith miss) = false := rfl
      have hl : ((poSetupWith miss).oracle (poissonEstimator g) (poDataWith prior)).learnRate 1 = 1 := rfl
      have hco : ((poSetupWith miss).paramsFor (poissonEstimator g)).consts = realConsts := rfl
      have hcal : ∀ fs : FState ℝ, ((poSetupWith miss).oracle (poissonEstimator g) (poDataWith prior)).calibrate 0 0 fs = fs.factors := fun _ => rfl
      have hbin : (exCWith miss).bin s < 2 := by interval_cases s <;> simp
      have hlog : (1 / 10 : ℝ) ≤ Real.log 2 := le_trans (by norm_num) (Real.one_sub_inv_le_log_of_pos (by norm_num))
      have hhalf : Real.log 0.5 ≤ 1 / 10 := le_trans (Real.log_nonpos (by norm_num) (by norm_num)) (by norm_num)
      simp only [featurePass, hk, if_true, Bool.false_eq_true, if_false, featureIteration, ha, visitFactors, hc, Bool.and_true,
        hl, hcal, updateFactors, FState.init, Pred.update, predInSample, clipUpdate, predictFactors, hco]
      rw [if_pos hbin, hsm _ _ _ _ hbin]
      simp only [clipTo, realConsts]
      rw [one_mul, max_eq_left hhalf, min_eq_left hlog]
    simp only [List.map_cons, List.map_nil]
    have hexp : Real.exp (1 / 10) ≤ 10 / 9 := by
      have h := Real.add_one_le_exp (-(1 / 10) : ℝ)
      rw [Real.exp_neg] at h
      have hpos := Real.exp_pos (1 / 10 : ℝ)
      rw [show (10 / 9 : ℝ) = (9 / 10)⁻¹ by norm_num]
      rw [le_inv_comm₀ hpos (by norm_num)]
      linarith
    have hone : 1 ≤ Real.exp (1 / 10) := Real.one_le_exp (by norm_num)
    have h0 := hpred (((poSetupWith miss).oracle (poissonEstimator g) (poDataWith prior)).loss ⟨fun _ => Real.log (2001 / 1000), fun _ => 0⟩) 0 (by norm_num)
    have h1 := hpred (((poSetupWith miss).oracle (poissonEstimator g) (poDataWith prior)).loss ⟨fun _ => Real.log (2001 / 1000), fun _ => 0⟩) 1 (by norm_num)
    revert h0 h1
    generalize (featurePass ((poSetupWith miss).paramsFor (poissonEstimator g)) _ _ _ _ _ _ _ _ _).2 = q
    intro h0 h1
    simp only [Setup.oracle, poissonEstimator, squaredLoss, LinkKind.toLink, logLink, poDataWith, sum_range_succ, range_zero, sum_empty, h0, h1,
      Real.exp_add, Real.exp_log (show (0 : ℝ) < 2001 / 1000 by norm_num)]
    norm_num [quotientFlt, isDiverged, Flt.twice, Flt.gt]
    generalize Real.exp (1 / 10) = e at hexp hone ⊢
    nlinarith

theorem poFit (g : ℝ → ℝ) : NeverDiverges poSetup (poissonEstimator g) poData ∧
    ∃ m, poSetup.fit (poissonEstimator g) poData 1 = some (.ok m) ∧ m.features.map (·.group) = [["a"]] :=
  poFitWith g false none (by funext s; simp [baseline, priorPrediction, poDataWith, Flt.getFin])

/-- Witness for C23_fit: the factor of bin 1 after a fit in which the clipping of the logarithmic link is active. -/
example : ∃ m g, poSetup.fit (poissonEstimator id) poData 1 = some (.ok m) ∧ m.features = [g] ∧
    0.01 ≤ Real.exp (g.predict [.fin 1]) ∧ Real.exp (g.predict [.fin 1]) ≤ 1000 := by
  obtain ⟨hnd, m, hm, hfe⟩ := poFit id
  rw [List.map_eq_singleton_iff] at hfe
  obtain ⟨g, hg, hga⟩ := hfe
  refine ⟨m, g, hm, hg, ?_⟩
  have := C23_fit poSetup (poissonEstimator id) poData 1 rfl rfl rfl (by simp [poSetup]) m hm hnd g (by simp [hg]) [.fin 1]
  simpa [hga] using this

/-! A categorical feature -/

def catProps : List (String × ℕ) := [("a", Flags.IS_UNORDERED)]

def catSetup : Setup Unit :=
  ⟨[(⟨["a"], false, false⟩, .normalizationRegressionType .weightedMean .discontinuous)], fun _ => tenth, fun _ => 1, exSetup.params⟩

/-- Samples in bins 0 and 2, with targets 0 and 2. -/
def catData : TrainSet := ⟨fun s _ => .fin (if s = 0 then 0 else 2), 2, fun s => 2 * s, fun _ => 1, none⟩

theorem catFeatures : createFeatures defaultChoice (some catProps) [["a"]] = .ok catSetup.features := by rfl

theorem catBind : bindData catData.X 2 ["a"] none = ([0, 2], [3]) := by
  simp [bindData, lexBinnos, inferBins, maxPlusOne, catData, Table.row, finiteSemiPositive, floorComp, validRow, validComp,
    binSteps, dotRow, List.range_succ]
  norm_num

theorem catFit : NeverDiverges catSetup (gbsEstimator 0) catData ∧
    ∃ m, catSetup.fit (gbsEstimator 0) catData 1 = some (.ok m) ∧ m.features.map (·.group) = [["a"]] := by
  have hs : (gbsEstimator 0).scale catData.n catData.y catData.w = .fin 1 := exScale
  have hb : baseline (gbsEstimator 0) catData 1 = fun _ => 1 := by
    funext s
    simp [baseline, priorPrediction, catData, Flt.getFin]
  have hcfg : catSetup.cfgs catData = [⟨["a"], false, 3, fun s => [0, 2].getD s 0, false⟩] := by
    simp [Setup.cfgs, catSetup, FeatureSpec.cfg, show catData.n = 2 from rfl, catBind]
  refine oneIteration catSetup (gbsEstimator 0) catData 1 (fun _ _ => trivial) hs rfl rfl (by norm_num [exSetup, catSetup])
    (by norm_num [exSetup, catSetup]) ?_
  rw [hb, hcfg]
  have hest : ∀ fs b, b < 3 → (catSetup.oracle (gbsEstimator 0) catData).estimate 0 0 ⟨fun _ => 1, fun _ => 0⟩ fs b
      = if b = 0 then -1 / 2 else if b = 2 then 1 / 2 else 0 := by
    intro fs b hlt
    simp only [Setup.oracle, catSetup, List.getElem?_cons_zero, gbsEstimator, gbsSummand, binSum, FeatureSpec.cfg,
      show catData.n = 2 from rfl, catBind, sum_range_succ, range_zero, sum_empty]
    interval_cases b <;> norm_num [catData]
  have hsm : ∀ fs u b, (∀ b < 3, u b = if b = 0 then -1 / 2 else if b = 2 then 1 / 2 else (0 : ℝ)) → (b = 0 ∨ b = 2) →
      (catSetup.oracle (gbsEstimator 0) catData).smooth 0 0 ⟨fun _ => 1, fun _ => 0⟩ fs u b = some (1 / 10) := by
    intro fs u b hu hlt
    simp only [Setup.oracle, catSetup, List.getElem?_cons_zero, show catData.n = 2 from rfl, catBind, smoothAtCentres, kindPredict,
      FeatureSpec.cfg]
    have ha : arangeMulti [3] = [[0], [1], [2]] := by decide
    have hw : ∀ b < 3, binSum 2 (fun s => ([0, 2] : List ℕ).getD s 0) catData.w b = if b = 1 then 0 else 1 := by
      intro b hb
      interval_cases b <;> simp [binSum, catData, Finset.filter] <;> decide
    simp only [smootherTable, ha, List.zipIdx_cons, List.zipIdx_nil, List.map_cons, List.map_nil, Nat.zero_add, Nat.reduceAdd,
      hw 0 (by norm_num), hw 1 (by norm_num), hw 2 (by norm_num), show (List.range [3].prod) = [0, 1, 2] from rfl,
      hu 0 (by norm_num), hu 1 (by norm_num), hu 2 (by norm_num)]
    generalize ((gbsEstimator 0).parameters _ _ _ _ _ _ 0).2 = u0
    generalize ((gbsEstimator 0).parameters _ _ _ _ _ _ 1).2 = u1
    generalize ((gbsEstimator 0).parameters _ _ _ _ _ _ 2).2 = u2
    have hn : setNBins 1 [[0], [1], [2]] = [3] := by decide
    have hrint : ∀ k : ℕ, rint (k : ℝ) = k := by
      intro k; simp [rint]
    norm_num [normRegTypePredict, normRegTypeFit, tenth, calcNorm, applyCut, notSeenEvents, setBinInfo, hn, notSeenIndex, rintCode]
    have r0 : rint (0 : ℝ) = 0 := by simpa using hrint 0
    have r1 : rint (1 : ℝ) = 1 := by simpa using hrint 1
    have r2 : rint (2 : ℝ) = 2 := by simpa using hrint 2
    have f0 : ∀ x : ℝ, 0 ≤ x → finiteSemiPositive [Flt.fin x] = true := by
      intro x hx; simp [finiteSemiPositive, hx]
    rw [r0, r1, r2, f0 0 le_rfl, f0 1 (by norm_num), f0 2 (by norm_num)]
    rcases hlt with rfl | rfl <;> simp [Flt.addFin]
  have hpred : ∀ il, ∀ s < 2, (featurePass (catSetup.paramsFor (gbsEstimator 0)) (catSetup.oracle (gbsEstimator 0) catData) 0 0 false il
      0 [⟨["a"], false, 3, fun s => [0, 2].getD s 0, false⟩] [FState.init] ⟨fun _ => 1, fun _ => 0⟩).2.factors s = 11 / 10 := by
    intro il s hs2
    have hc : (catSetup.paramsFor (gbsEstimator 0)).clip = false := by simp [Setup.paramsFor, gbsEstimator]
    have ha : (catSetup.paramsFor (gbsEstimator 0)).aggregate = true := rfl
    have hk : skipped (catSetup.paramsFor (gbsEstimator 0)) 0 ⟨["a"], false, 3, fun s => [0, 2].getD s 0, false⟩ = false := rfl
    have hl : (catSetup.oracle (gbsEstimator 0) catData).learnRate 1 = 1 := rfl
    have hcal : ∀ fs : FState ℝ, (catSetup.oracle (gbsEstimator 0) catData).calibrate 0 0 fs = fs.factors := fun _ => rfl
    have hbin : [0, 2].getD s 0 < 3 ∧ ([0, 2].getD s 0 = 0 ∨ [0, 2].getD s 0 = 2) := by interval_cases s <;> decide
    simp only [featurePass, hk, if_true, Bool.false_eq_true, if_false, featureIteration, ha, visitFactors, hc, Bool.and_true,
      hl, hcal, updateFactors, FState.init, Pred.update, predInSample, predictFactors]
    rw [if_pos hbin.1, hsm _ _ _ (fun b hb => hest _ b hb) hbin.2]
    norm_num
  simp only [List.map_cons, List.map_nil]
  have h0 := hpred ((catSetup.oracle (gbsEstimator 0) catData).loss ⟨fun _ => 1, fun _ => 0⟩) 0 (by norm_num)
  have h1 := hpred ((catSetup.oracle (gbsEstimator 0) catData).loss ⟨fun _ => 1, fun _ => 0⟩) 1 (by norm_num)
  revert h0 h1
  generalize (featurePass (catSetup.paramsFor (gbsEstimator 0)) _ _ _ _ _ _ _ _ _).2 = q
  intro h0 h1
  simp only [Setup.oracle, gbsEstimator, gbsLoss, LinkKind.toLink, catData, sum_range_succ, range_zero, sum_empty, h0, h1]
  norm_num [quotientFlt, isDiverged, Flt.twice, Flt.gt, identityLink]

/-- Witness for C74_fit: no sample is in bin 1; its factor is neutral. -/
example : ∃ m g, catSetup.fit (gbsEstimator 0) catData 1 = some (.ok m) ∧ m.features = [g] ∧ g.predict [.fin 1] = 0 := by
  obtain ⟨hnd, m, hm, hfe⟩ := catFit
  rw [List.map_eq_singleton_iff] at hfe
  obtain ⟨g, hg, hga⟩ := hfe
  refine ⟨m, g, hm, hg, ?_⟩
  obtain ⟨g', hg', -, h0⟩ := C74_fit catSetup defaultChoice catProps [["a"]] catFeatures rfl realConsts_ok (gbsEstimator 0)
    (noCalibration_of_modelled _ (.inr (.inr (.inr (.inr ⟨0, rfl⟩))))) rfl (by decide) 0 ["a"] rfl "a" (by simp) Flags.IS_UNORDERED rfl
    (by unfold IsCategorical; decide) catData 1 m hm hnd [1] (by
      rw [show catData.n = 2 from rfl, catBind]
      exact ⟨rfl, fun i h h' => by simp at h; subst h; simp⟩) (by
      intro i hi ⟨x, hx, hc⟩
      rw [show catData.n = 2 from rfl] at hi
      have hxl : x = [if i = 0 then 0 else 2] := by
        have : x.map Flt.fin = [if i = 0 then (0 : ℝ) else 2].map Flt.fin := by rw [← hx]; simp [Table.row, catData]
        exact List.map_injective_iff.mpr (fun a b h => by cases h; rfl) this
      subst hxl
      have := hc.2 0 (by simp) (by simp)
      simp only [List.getElem_cons_zero] at this
      split at this <;> norm_num at this) [1] (by simp [BelongsTo])
  rw [hg] at hg'
  simp only [List.getElem?_cons_zero, Option.some.injEq] at hg'
  subst hg'
  simpa using h0

/-! Witnesses for C76 to C79 -/

/-- Sample 0 with weight 2, sample 1 with weight 1; the repeated set has three samples. -/
example : poSetup.fit (poissonEstimator id) (resample { poData with w := fun s => if s = 0 then 2 else 1 } (fun s => s / 2) 3 fun _ => 1) 1
    = poSetup.fit (poissonEstimator id) { poData with w := fun s => if s = 0 then 2 else 1 } 1 := by
  refine C76_repetition poSetup (by simp [poSetup]) _ (.poisson id) _ (fun s => s / 2) 3 (fun t => if t = 0 then 2 else 1) ?_ ?_ ?_ 1
  · intro s hs; show s / 2 < 2; omega
  · intro t ht
    have ht : t < 2 := ht
    interval_cases t <;> decide
  · intro t _
    show (if t = 0 then (2 : ℝ) else 1) = _
    split <;> simp

/-- The samples in the opposite order; the fit succeeds. -/
example : ∃ m, exSetup.fit (gbsEstimator 0) exData 1 = some (.ok m) ∧
    exSetup.fit (gbsEstimator 0) (resample exData (Equiv.swap 0 1) 2 fun _ => 1) 1 = some (.ok m) := by
  obtain ⟨-, m, hm, -⟩ := exFit
  refine ⟨m, hm, ?_⟩
  rw [← hm]
  refine C77_order exSetup (by simp [exSetup]) _ (.gbs 0) exData (Equiv.swap 0 1) ?_ 1
  intro s
  show _ < 2 ↔ s < 2
  rw [Equiv.swap_apply_def]
  split_ifs <;> omega

/-- A third sample of weight 0. -/
def exMore : TrainSet := ⟨fun s _ => .fin (if s = 0 then 0 else 1), 3, fun s => 2 * s, fun s => if s = 2 then 0 else 1, none⟩

example : ∃ m, exSetup.fit (gbsEstimator 0) exData 1 = some (.ok m) ∧
    exSetup.fit (gbsEstimator 0) exMore 1 = some (.ok m) := by
  obtain ⟨-, m, hm, -⟩ := exFit
  refine ⟨m, hm, ?_⟩
  rw [← hm]
  refine C78_zero_weight exSetup (by simp [exSetup]) _ exData exMore (.gbs 0 (by norm_num))
    (fun s _ => by show (0 : ℝ) ≤ if s = 2 then 0 else 1; split_ifs <;> norm_num) (by decide) ?_ ?_ ?_ rfl ?_ ?_ ?_ 1
  · intro s hs
    have hs : s < 2 := hs
    interval_cases s <;> simp [exData, exMore]
  · intro s hs; rfl
  · intro s hs
    have hs : s < 2 := hs
    interval_cases s <;> simp [exData, exMore]
  · intro s hs; rfl
  · intro s h1 h2
    have h1 : 2 ≤ s := h1
    have h2 : s < 3 := h2
    interval_cases s
    exact ⟨by simp [exMore], trivial⟩
  · intro f hf
    simp only [exSetup, List.mem_singleton] at hf
    subst hf
    rw [show exData.n = 2 from rfl, exBind]
    simp [exMore, bindData, lexBinnos, inferBins, maxPlusOne, Table.row, finiteSemiPositive, floorComp, validRow, validComp,
      binSteps, dotRow, List.range_succ]

/-- The weights of the example are not negative. -/
example : ∀ i < exData.n, 0 ≤ exData.w i := fun _ _ => by simp [exData]

end
end CB
