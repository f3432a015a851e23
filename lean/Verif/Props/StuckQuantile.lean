import Verif.Props.Crossing
import Verif.Props.OneFeatureCosts

/-!
# C163: additive models with the smallest costs
-/

set_option autoImplicit false
set_option linter.unusedSectionVars false

namespace CB
open Finset Spec

section
variable {σ : Type*} {S : Setup σ} {D : TrainSet} {m : FittedModel} {f : FeatureSpec × SmootherKind} {E : Estimator}
  {minimize : (ℝ → Flt ℝ) → ℝ → ℝ} {loss : ℝ → ℝ → ℝ}

/-- **C163**, what holds: after a full step, a single-feature model of `CBAdditiveQuantileRegressor`, or of `CBAdditiveGenericCRegressor`
with a convex loss, has the smallest training costs of all models that are constant in every bin of the feature. Missing, because it does
not hold: models with several features (`C163_stuck_counterexample`). -/
theorem C163_one_feature_partial (hE : CostEstimator minimize false E loss) (hmin : FindsMinimum minimize) (h : OneFeatureModel S E D m f)
    (hsk : S.params.hierarchical = none)
    (hu : ∀ i < D.n, D.w i ≠ 0 → Unsmoothed S D f ((f.1.cfg D.X D.n).bin i))
    (hx : ∀ b, ∃ x₀, ∀ z, binCost D f b loss x₀ ≤ binCost D f b loss z)
    (k : ℕ) (hk : k < m.iterations) (hr : S.learnRate (k + 1) = 1) (u : ℕ → ℝ) :
    trainingCost loss D (m.predict D.prior D.X) ≤ trainingCost loss D fun i => u ((f.1.cfg D.X D.n).bin i) := by
  have hM := costEstimator_minimizing hE
  obtain ⟨a, t, -, -, hp⟩ := oneFeature_counted h hM.calibrate
    (fun k => by
      have : (S.paramsFor E).hierarchical = none := hsk
      simp [skipped, this])
    (fun _ _ _ => True) (fun _ _ => trivial) (fun _ _ _ _ _ _ _ _ _ _ _ _ _ _ _ => trivial)
  unfold trainingCost
  rw [← sum_fiberwise_of_maps_to (g := (f.1.cfg D.X D.n).bin) (t := (range D.n).image (f.1.cfg D.X D.n).bin)
      (fun i hi => mem_image_of_mem _ hi),
    ← sum_fiberwise_of_maps_to (g := (f.1.cfg D.X D.n).bin) (t := (range D.n).image (f.1.cfg D.X D.n).bin)
      (f := fun i => D.w i * loss (u ((f.1.cfg D.X D.n).bin i)) (D.y i)) (fun i hi => mem_image_of_mem _ hi)]
  refine sum_le_sum fun b hb => ?_
  by_cases hz : ∀ i ∈ (range D.n).filter (fun i => (f.1.cfg D.X D.n).bin i = b), D.w i = 0
  · exact le_of_eq (sum_congr rfl fun i hi => by rw [hz i hi, zero_mul, zero_mul])
  · push Not at hz
    obtain ⟨i, hi, hwi⟩ := hz
    obtain ⟨hin, hib⟩ := mem_filter.mp hi
    have hin := mem_range.mp hin
    subst hib
    have hW : 0 < sumInBin D f ((f.1.cfg D.X D.n).bin i) D.w :=
      sum_pos' (fun j hj => h.weights j (mem_range.mp (mem_filter.mp hj).1))
        ⟨i, hi, lt_of_le_of_ne (h.weights i hin) (Ne.symm hwi)⟩
    have hopt := C155_optimal hE hmin h hsk i hin (hu i hin hwi) hW (hx _) k hk hr (u ((f.1.cfg D.X D.n).bin i))
    unfold binCost sumInBin at hopt
    refine le_trans (le_of_eq ?_) (hopt.trans (le_of_eq ?_))
    · refine sum_congr rfl fun j hj => ?_
      obtain ⟨hjn, hjb⟩ := mem_filter.mp hj
      rw [hp j (mem_range.mp hjn), hp i hin, hjb]
    · refine sum_congr rfl fun j hj => ?_
      rw [(mem_filter.mp hj).2]

end

/-- Witness: the median, two samples in two bins with the targets 0 and 2. The costs are the smallest possible ones, 0. -/
example : ∃ m, OneFeatureModel plainSetup (quantileEstimator false (1 / 2) bestMinimize) exData m calFeature ∧
    trainingCost (Spec.pinball (1 / 2)) exData (m.predict none exData.X) ≤ 0 := by
  have hs : (([(0, 1), (2, 1)] : List (ℝ × ℝ)).mergeSort fun a b => decide (a.1 ≤ b.1)) = [(0, 1), (2, 1)] :=
    List.mergeSort_of_pairwise (by simp)
  have hl : ((List.range exData.n).map fun i => (exData.y i, exData.w i)) = [(0, 1), (2, 1)] := by
    simp [List.range_succ, exData]
  obtain ⟨m, h, hit⟩ := oneQuantile (1 / 2) (by norm_num) (by norm_num) 0 (by
    unfold quantileScale
    rw [hl, hs]
    norm_num [continuousQuantile, firstReaching, linkFlt, List.range_succ])
  have hC : CostEstimator bestMinimize false (quantileEstimator false (1 / 2) bestMinimize) (Spec.pinball (1 / 2)) :=
    .quantile false (1 / 2) (by norm_num) (by norm_num)
  have hpos := (pinball_convexLoss (1 / 2) (by norm_num) (by norm_num)).nonneg
  have hb : ∀ b < 2, (calFeature.1.cfg exData.X exData.n).bin b = b := by
    intro b hb
    rw [oneCfg]
    interval_cases b <;> rfl
  refine ⟨m, h, ?_⟩
  refine le_trans (C163_one_feature_partial hC bestMinimize_finds h rfl
    (fun i hi _ => by rw [hb i hi]; exact oneUnsmoothed exData.y exData.w (fun _ => one_ne_zero) i hi)
    (fun b => ⟨if b = 0 then 0 else 2, fun z => ?_⟩) 0 (by omega) rfl (fun b => if b = 0 then 0 else 2)) (le_of_eq ?_)
  · have hz : 0 ≤ binCost exData calFeature b (Spec.pinball (1 / 2)) z := by
      unfold binCost sumInBin
      exact sum_nonneg fun i _ => mul_nonneg (show (0 : ℝ) ≤ exData.w i by simp [exData]) (hpos z (exData.y i))
    refine le_trans (le_of_eq ?_) hz
    unfold binCost
    rw [oneSum]
    by_cases h0 : b = 0
    · simp [h0, exData, Spec.pinball]
    · by_cases h1 : b = 1 <;> simp [h0, h1, exData, Spec.pinball]
  · unfold trainingCost
    rw [show exData.n = 2 from rfl, sum_range_succ, sum_range_one]
    have b0 := hb 0 (by omega)
    have b1 := hb 1 (by omega)
    rw [show exData.n = 2 from rfl] at b0 b1
    simp only [b0, b1]
    simp [exData, Spec.pinball]

/-! ### Two features -/

section
variable {minimize : (ℝ → Flt ℝ) → ℝ → ℝ}

/-- Two features without smoothing, `N` iterations with full steps. -/
noncomputable def stuckSetup (N : ℕ) : Setup (List (FitRow ℝ) × List ℝ) :=
  { levelSetup with params := { levelSetup.params with maximalIterations := N } }

/-- Six samples; the cells of the two features have the targets 0 (twice), 1, -1 and 0 (twice). -/
def stuckData : TrainSet :=
  ⟨fun s c => .fin (if c = "a" then (if s < 3 then 0 else 1) else (if s < 2 ∨ s = 3 then 0 else 1)), 6,
    fun s => if s = 2 then 1 else if s = 3 then -1 else 0, fun _ => 1, none⟩

theorem stuckBindA : bindData stuckData.X 6 ["a"] none = ([0, 0, 0, 1, 1, 1], [2]) := by
  simp [bindData, lexBinnos, inferBins, maxPlusOne, stuckData, Table.row, finiteSemiPositive, floorComp, validRow, validComp,
    binSteps, dotRow, List.range_succ]

theorem stuckBindB : bindData stuckData.X 6 ["b"] none = ([0, 0, 1, 0, 1, 1], [2]) := by
  simp [bindData, lexBinnos, inferBins, maxPlusOne, stuckData, Table.row, finiteSemiPositive, floorComp, validRow, validComp,
    binSteps, dotRow, List.range_succ]

theorem stuckFeatures (N : ℕ) : createFeatures plainChoice none [["a"], ["b"]] = .ok (stuckSetup N).features := by rfl

theorem stuckUnsmoothed (N : ℕ) (f : FeatureSpec × SmootherKind) (hf : f ∈ (stuckSetup N).features) (i : ℕ) (hi : i < 6) :
    Unsmoothed (stuckSetup N) stuckData f ((f.1.cfg stuckData.X stuckData.n).bin i) :=
  C124_no_smoothing (stuckSetup N) noOpen rfl (stuckFeatures N) rfl (by simp) stuckData (fun i _ => by simp [stuckData])
    (by simp [stuckSetup, levelSetup, twoSetup]) f hf i hi (by simp [stuckData])

def stuckA : ℕ → ℕ := fun s => [0, 0, 0, 1, 1, 1].getD s 0
def stuckB : ℕ → ℕ := fun s => [0, 0, 1, 0, 1, 1].getD s 0

theorem stuckBinA : (crossFA.1.cfg stuckData.X stuckData.n).bin = stuckA := by
  simp [crossFA, FeatureSpec.cfg, show stuckData.n = 6 from rfl, stuckBindA]
  rfl

theorem stuckBinB : (crossFB.1.cfg stuckData.X stuckData.n).bin = stuckB := by
  simp [crossFB, FeatureSpec.cfg, show stuckData.n = 6 from rfl, stuckBindB]
  rfl

theorem stuck_sums (v : ℕ → ℝ) :
    binSum 6 stuckA v 0 = v 0 + v 1 + v 2 ∧ binSum 6 stuckA v 1 = v 3 + v 4 + v 5 ∧
    binSum 6 stuckB v 0 = v 0 + v 1 + v 3 ∧ binSum 6 stuckB v 1 = v 2 + v 4 + v 5 := by
  refine ⟨?_, ?_, ?_, ?_⟩ <;> simp [binSum, stuckA, stuckB, Finset.sum_range_succ]

/-- The estimates: whatever the same prediction of all samples is, the medians lead to the prediction 0. -/
theorem stuck_estimate (hmin : FindsMinimum minimize) (it : ℕ) (p : ℕ → ℝ) (c : ℝ) (hp : ∀ i < 6, p i = c) (codes : ℕ → ℕ)
    (hcodes : codes = stuckA ∨ codes = stuckB) (i : ℕ) (hi : i < 6) :
    ((quantileEstimator false (1 / 2) minimize).parameters it 6 codes stuckData.y stuckData.w p (codes i)).1 = -c := by
  have hw : ∀ i, stuckData.w i = 1 := fun _ => rfl
  have hy : stuckData.y 0 = 0 ∧ stuckData.y 1 = 0 ∧ stuckData.y 2 = 1 ∧ stuckData.y 3 = -1 ∧ stuckData.y 4 = 0 ∧ stuckData.y 5 = 0 := by
    simp [stuckData]
  obtain ⟨y0, y1, y2, y3, y4, y5⟩ := hy
  have p0 := hp 0 (by omega)
  have p1 := hp 1 (by omega)
  have p2 := hp 2 (by omega)
  have p3 := hp 3 (by omega)
  have p4 := hp 4 (by omega)
  have p5 := hp 5 (by omega)
  have key : ∀ b < 2, ((quantileEstimator false (1 / 2) minimize).parameters it 6 codes stuckData.y stuckData.w p b).1 = -c := by
    intro b hb
    have hq := quantile_residuals (minimize := minimize) (1 / 2) (by norm_num) (by norm_num) hmin it 6 codes stuckData.y stuckData.w p
      (fun i _ => by rw [hw]; norm_num) b (by
        rcases hcodes with rfl | rfl <;> interval_cases b
        · rw [(stuck_sums _).1]; norm_num [hw]
        · rw [(stuck_sums _).2.1]; norm_num [hw]
        · rw [(stuck_sums _).2.2.1]; norm_num [hw]
        · rw [(stuck_sums _).2.2.2]; norm_num [hw])
    generalize ((quantileEstimator false (1 / 2) minimize).parameters it 6 codes stuckData.y stuckData.w p b).1 = z at hq
    rcases hcodes with rfl | rfl <;> interval_cases b <;>
      simp only [(stuck_sums _).1, (stuck_sums _).2.1, (stuck_sums _).2.2.1, (stuck_sums _).2.2.2, hw, y0, y1, y2, y3, y4, y5,
        p0, p1, p2, p3, p4, p5] at hq <;>
      (obtain ⟨u, v⟩ := hq
       rcases lt_trichotomy z (-c) with e | e | e
       · exfalso
         split_ifs at u v <;> linarith
       · exact e
       · exfalso
         split_ifs at u v <;> linarith)
  refine key (codes i) ?_
  rcases hcodes with rfl | rfl <;> interval_cases i <;> simp [stuckA, stuckB]

/-- One pass over the features. -/
theorem stuck_pass (N : ℕ) (hmin : FindsMinimum minimize) (it dv : ℕ) (isd : Bool) (il : Flt ℝ) (fA fB : FState ℝ)
    (hA : fA.zeroSmoother = false) (hB : fB.zeroSmoother = false) (pred : Pred ℝ) (c : ℝ) (hc : ∀ i < 6, pred.factors i = c) :
    ∀ i < 6, (featurePass ((stuckSetup N).paramsFor (quantileEstimator false (1 / 2) minimize))
      ((stuckSetup N).oracle (quantileEstimator false (1 / 2) minimize) stuckData) it dv isd il 0
      [crossFA.1.cfg stuckData.X stuckData.n, crossFB.1.cfg stuckData.X stuckData.n] [fA, fB] pred).2.factors i = 0 := by
  set E := quantileEstimator false (1 / 2) minimize with hE
  have hfA : (stuckSetup N).features[0]? = some crossFA := rfl
  have hfB : (stuckSetup N).features[1]? = some crossFB := rfl
  have hsk : ∀ c, skipped ((stuckSetup N).paramsFor E) it c = false := fun c => rfl
  simp only [featurePass, hsk, Bool.false_eq_true, if_false]
  set gA := if it = 0 then ({ fA with factors := fun _ => 0 } : FState ℝ) else fA with hgA
  set gB := if it = 0 then ({ fB with factors := fun _ => 0 } : FState ℝ) else fB with hgB
  have zA : gA.zeroSmoother = false := by rw [hgA]; split_ifs <;> exact hA
  have zB : gB.zeroSmoother = false := by rw [hgB]; split_ifs <;> exact hB
  clear_value gA gB
  set stA := featureIteration ((stuckSetup N).paramsFor E) ((stuckSetup N).oracle E stuckData) it 0
    (crossFA.1.cfg stuckData.X stuckData.n) dv isd il gA pred with hstA
  have vA : ∀ i < 6, stA.2.factors i = 0 := by
    intro i hi
    have := visit_free (stuckSetup N) stuckData E rfl (fun _ _ _ => rfl) rfl it 0 crossFA hfA rfl dv isd il
      gA zA pred i (stuckUnsmoothed N crossFA (List.mem_of_getElem? hfA) i hi)
    rw [stuckBinA] at this
    rw [hstA, this, show (stuckSetup N).learnRate (it + 1) = 1 from rfl, one_mul, hc i hi,
      show stuckData.n = 6 from rfl, stuck_estimate hmin it pred.factors c hc stuckA (Or.inl rfl) i hi]
    ring
  clear_value stA
  intro i hi
  have := visit_free (stuckSetup N) stuckData E rfl (fun _ _ _ => rfl) rfl it 1 crossFB hfB rfl dv isd il
    gB zB stA.2 i (stuckUnsmoothed N crossFB (List.mem_of_getElem? hfB) i hi)
  rw [stuckBinB] at this
  refine Eq.trans this ?_
  rw [show (stuckSetup N).learnRate (it + 1) = 1 from rfl, one_mul, vA i hi,
    show stuckData.n = 6 from rfl, stuck_estimate hmin it stA.2.factors 0 vA stuckB (Or.inr rfl) i hi]
  ring

/-- **C163**, what does not hold: additive median regression with two features, full steps, any number of iterations and any optimiser
that finds minima. Training ends with the prediction 0 for all six samples and the costs 1, although a sum of functions of the two
features has the costs 0. -/
theorem C163_stuck_counterexample (N : ℕ) (hN : 1 ≤ N) (hmin : FindsMinimum minimize) (hnw : NotWorse minimize) :
    ∃ m, (stuckSetup N).fit (quantileEstimator false (1 / 2) minimize) stuckData (N + 4) = some (.ok m) ∧
      (∀ i < 6, m.predict none stuckData.X i = 0) ∧
      trainingCost (Spec.pinball (1 / 2)) stuckData (m.predict none stuckData.X) = 1 ∧
      ∃ u v : ℕ → ℝ, trainingCost (Spec.pinball (1 / 2)) stuckData
        (fun i => u ((crossFA.1.cfg stuckData.X stuckData.n).bin i) + v ((crossFB.1.cfg stuckData.X stuckData.n).bin i)) = 0 := by
  set E := quantileEstimator false (1 / 2) minimize with hE
  have hC : CostEstimator minimize false E (Spec.pinball (1 / 2)) := .quantile false (1 / 2) (by norm_num) (by norm_num)
  have hsm := C80_no_smoothing (stuckSetup N) noOpen plainChoice none [["a"], ["b"]] rfl (stuckFeatures N) rfl stuckData
  have hw : ∀ i < stuckData.n, 0 ≤ stuckData.w i := fun _ _ => by simp [stuckData]
  have hlr : ∀ k, 0 ≤ (stuckSetup N).learnRate k ∧ (stuckSetup N).learnRate k ≤ 1 := fun k => by simp [stuckSetup, levelSetup]
  have hne : ∀ f ∈ (stuckSetup N).features, f.1.group ≠ [] := by simp [stuckSetup, levelSetup, twoSetup]
  obtain ⟨a, hs⟩ : ∃ a, E.scale stuckData.n stuckData.y stuckData.w = .fin a := by
    have := C138_baseline_quantile (1 / 2) (by norm_num) minimize stuckData.n (by decide) stuckData.y stuckData.w hw
    cases h : E.scale stuckData.n stuckData.y stuckData.w with
    | fin a => exact ⟨a, rfl⟩
    | _ => rw [h] at this; simp [Flt.isFinite] at this
  have hdiv := fun prior past s h =>
    (C84_never_increases (stuckSetup N) stuckData hC hnw (fun h => by cases h) rfl rfl hw hlr hne hsm prior past s h).2.2
  obtain ⟨-, m, hm⟩ := C84_fit_succeeds (stuckSetup N) stuckData hC hnw (fun h => by cases h) rfl rfl hw hlr hne hsm
    (fun h => by cases h) a hs hN rfl (by norm_num [stuckSetup, levelSetup, twoSetup]) (by norm_num [stuckSetup, levelSetup, twoSetup])
    (N + 4) le_rfl
  obtain ⟨a', past, s, hs', ht, hcont, hpredict⟩ := fit_trace_predict (stuckSetup N) stuckData E rfl hne
    (by
      intro f hf c hfc i hi x hx
      simp only [stuckData, Flt.fin.injEq] at hx
      rw [← hx]
      split_ifs
      · exact ⟨0, by simp⟩
      · exact ⟨1, by simp⟩
      · exact ⟨0, by simp⟩
      · exact ⟨1, by simp⟩) (N + 4) m hm
  obtain ⟨hd, -, -, hit⟩ := trace_all_iterations _ _ _ _ rfl (by norm_num [Setup.paramsFor, stuckSetup, levelSetup, twoSetup])
    (by norm_num [Setup.paramsFor, stuckSetup, levelSetup, twoSetup]) (hdiv _) past s ht
  have hsN : s.iteration = N := hit hcont
  have hinv : ∀ past s, Trace ((stuckSetup N).paramsFor E) ((stuckSetup N).oracle E stuckData) ((stuckSetup N).cfgs stuckData)
      (startState ((stuckSetup N).oracle E stuckData) ((stuckSetup N).cfgs stuckData) (baseline E stuckData a')) past s →
      ∃ c, (∀ i < 6, s.pred.factors i = c) ∧ (1 ≤ s.iteration → c = 0) := by
    intro past s ht
    induction ht with
    | start =>
      refine ⟨a', fun i _ => ?_, fun h => by simp [startState] at h⟩
      simp [startState, baseline, priorPrediction, stuckData, Flt.getFin]
    | @step past s s' ht hc hi ih =>
      obtain ⟨c, hcc, -⟩ := ih
      have hcalm := iterate_calm _ _ _ s s' hi (hdiv _ _ _ (.step ht hc hi))
      have hwf := trace_WF _ _ _ _ _ _ ht
      have hz : ∀ fs ∈ s.feats, fs.zeroSmoother = false := by
        intro fs hfs
        by_contra hzz
        have h1 := trace_zeroSmoother _ _ _ _ _ _ ht fs hfs (by simpa using hzz)
        have h2 := hdiv _ _ _ ht
        omega
      have hlen : s.feats.length = 2 := by rw [← hwf.1]; rfl
      obtain ⟨fA, fB, hfs⟩ := List.length_eq_two.mp hlen
      refine ⟨0, fun i hi6 => ?_, fun _ => rfl⟩
      rw [hcalm.2, hfs]
      exact stuck_pass N hmin s.iteration s.diverging s.isDiverging s.initialLoss fA fB (hz fA (by simp [hfs])) (hz fB (by simp [hfs]))
        s.pred c hcc i hi6
  obtain ⟨c, hc, hc0⟩ := hinv past s ht
  have hzero : ∀ i < 6, m.predict none stuckData.X i = 0 := by
    intro i hi
    have := hpredict i hi
    rw [hc i hi, hc0 (by omega)] at this
    exact this
  refine ⟨m, hm, hzero, ?_, fun b => if b = 0 then 0 else -1, fun b => if b = 0 then 0 else 1, ?_⟩
  · unfold trainingCost
    rw [sum_congr rfl fun i hi => by rw [hzero i (mem_range.mp hi)]]
    norm_num [stuckData, sum_range_succ, Spec.pinball]
  · rw [stuckBinA, stuckBinB]
    norm_num [trainingCost, stuckData, stuckA, stuckB, sum_range_succ, Spec.pinball]

/-- Witness: such an optimiser exists. -/
example : ∃ m, (stuckSetup 100).fit (quantileEstimator false (1 / 2) bestMinimize) stuckData 104 = some (.ok m) ∧
    trainingCost (Spec.pinball (1 / 2)) stuckData (m.predict none stuckData.X) = 1 := by
  obtain ⟨m, h1, -, h2, -⟩ := C163_stuck_counterexample 100 (by omega) bestMinimize_finds bestMinimize_notWorse
  exact ⟨m, h1, h2⟩

end

end CB
