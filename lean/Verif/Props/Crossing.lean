import Verif.Props.OneFeatureQuantile
import Verif.Props.OneFeatureQuantileExample
import Verif.Props.ConvergenceExample
import Verif.Props.FailureScale

/-!
# C161: predictions for different quantiles
-/

set_option autoImplicit false
set_option linter.unusedSectionVars false

namespace CB
open Finset Spec

section
variable {σ σ' : Type*} {S : Setup σ} {S' : Setup σ'} {D : TrainSet} {m m' : FittedModel} {f : FeatureSpec × SmootherKind}

/-- Quantiles of a bin increase with the level. -/
theorem isBinQuantile_mono (hw : ∀ i < D.n, 0 ≤ D.w i) {b : ℕ} {q q' x x' : ℝ} (hW : 0 < sumInBin D f b D.w) (hq : q < q')
    (hx : IsBinQuantile D f b q x) (hx' : IsBinQuantile D f b q' x') : x ≤ x' := by
  by_contra hlt
  push Not at hlt
  have h1 : sumInBin D f b (fun i => if D.y i ≤ x' then D.w i else 0) ≤ sumInBin D f b fun i => if D.y i < x then D.w i else 0 :=
    sumInBin_le D f b _ _ fun i hi => by
      have := hw i hi
      split_ifs with h2 h3
      · exact le_rfl
      · exact absurd (lt_of_le_of_lt h2 hlt) h3
      · exact this
      · exact le_rfl
  have h2 := hx.1
  have h3 := hx'.2
  have h4 := mul_lt_mul_of_pos_right hq hW
  linarith

/-- The prediction of a single-feature model lies between its start value and a quantile of the bin, at a place that the learning rates
determine. -/
theorem quantile_place (q : ℝ) (h0 : 0 ≤ q) (h1 : q ≤ 1) (minimize : (ℝ → Flt ℝ) → ℝ → ℝ) (hmin : FindsMinimum minimize)
    (h : OneFeatureModel S (quantileEstimator false q minimize) D m f) (hsk : S.params.hierarchical = none)
    (i : ℕ) (hi : i < D.n) (hu : Unsmoothed S D f ((f.1.cfg D.X D.n).bin i)) (hw : 0 < sumInBin D f ((f.1.cfg D.X D.n).bin i) D.w) :
    ∃ a x, quantileScale .identity q D.n D.y D.w = .fin a ∧ IsBinQuantile D f ((f.1.cfg D.X D.n).bin i) q x ∧
      m.predict D.prior D.X i = (∏ k ∈ range m.iterations, (1 - S.learnRate (k + 1))) * a +
        (1 - ∏ k ∈ range m.iterations, (1 - S.learnRate (k + 1))) * x := by
  set b := (f.1.cfg D.X D.n).bin i with hb
  have hclip : (S.paramsFor (quantileEstimator false q minimize)).clip = false := by simp [Setup.paramsFor, quantileEstimator]
  obtain ⟨x₀, hx₀⟩ := isBinQuantile_exists (f := f) q h0 h1 h.weights b hw
  have hc : ∀ n, 0 ≤ ∏ k ∈ range n, (1 - S.learnRate (k + 1)) ∧ ∏ k ∈ range n, (1 - S.learnRate (k + 1)) ≤ 1 := fun n =>
    ⟨prod_nonneg fun k _ => by linarith [(h.rates (k + 1)).2], prod_le_one (fun k _ => by linarith [(h.rates (k + 1)).2])
      fun k _ => by linarith [(h.rates (k + 1)).1]⟩
  obtain ⟨a, t, hs, ⟨x, hx, e⟩, hp⟩ := oneFeature_counted h (fun _ _ _ => rfl)
    (fun k => by
      have : (S.paramsFor (quantileEstimator false q minimize)).hierarchical = none := hsk
      simp [skipped, this])
    (fun a n t => ∃ x, IsBinQuantile D f b q x ∧ a + t b = (∏ k ∈ range n, (1 - S.learnRate (k + 1))) * a +
      (1 - ∏ k ∈ range n, (1 - S.learnRate (k + 1))) * x)
    (by intro a _; exact ⟨x₀, hx₀, by simp⟩)
    (by
      intro a k t new raw running it fitted hs hk hI hr hf hraw hupd
      have hraw' := raw_unsmoothed hu hraw
      have hq := quantile_estimate q h0 h1 minimize hmin h.weights a t running it b hr hw
      have hd := (hupd b).1 hclip
      rw [hk] at hraw'
      rw [hk] at hq
      set z := ((quantileEstimator false q minimize).parameters k D.n (f.1.cfg D.X D.n).bin D.y D.w running b).1 with hz
      obtain ⟨x, hx, e⟩ := hI
      obtain ⟨l0, l1⟩ := h.rates (k + 1)
      obtain ⟨c0, c1⟩ := hc k
      rw [prod_range_succ]
      set c := ∏ k ∈ range k, (1 - S.learnRate (k + 1)) with hcdef
      set r := S.learnRate (k + 1) with hrr
      set X := a + t b + z with hX
      have hnew : a + new b = (1 - r) * (c * a + (1 - c) * x) + r * X := by
        rw [← e, hX]
        linarith
      have hd0 : 0 ≤ 1 - c * (1 - r) := by nlinarith
      rcases hd0.eq_or_lt with hz0 | hpos
      · refine ⟨x, hx, ?_⟩
        have hr0 : r = 0 := by nlinarith
        have hc1 : c = 1 := by rw [hr0] at hz0; linarith
        rw [hnew, hr0, hc1]; ring
      · refine ⟨((1 - r) * (1 - c) * x + r * X) / (1 - c * (1 - r)), isBinQuantile_between h.weights hx hq ?_ ?_, ?_⟩
        · rw [le_div_iff₀ hpos]
          have m1 := min_le_left x X
          have m2 := min_le_right x X
          nlinarith [mul_nonneg (mul_nonneg (sub_nonneg.mpr l1) (sub_nonneg.mpr c1)) (sub_nonneg.mpr m1), mul_nonneg l0 (sub_nonneg.mpr m2)]
        · rw [div_le_iff₀ hpos]
          have m1 := le_max_left x X
          have m2 := le_max_right x X
          nlinarith [mul_nonneg (mul_nonneg (sub_nonneg.mpr l1) (sub_nonneg.mpr c1)) (sub_nonneg.mpr m1), mul_nonneg l0 (sub_nonneg.mpr m2)]
        · rw [hnew, mul_div_cancel₀ _ hpos.ne']
          ring)
  refine ⟨a, x, hs, hx, ?_⟩
  rw [hp i hi]
  exact e

/-- **C161**, what holds: two models of additive quantile regression with the same single feature, trained on the same data for the
levels `q < q'` with the same learning rates and the same number of iterations, and with start values in the right order. On the samples
of an unsmoothed bin the prediction for the lower level is at most that for the higher one. Missing, because it does not hold: models
with several features (`C161_crossing_counterexample`). -/
theorem C161_one_feature_partial (q q' : ℝ) (h0 : 0 ≤ q) (hqq : q < q') (h1 : q' ≤ 1) (minimize minimize' : (ℝ → Flt ℝ) → ℝ → ℝ)
    (hmin : FindsMinimum minimize) (hmin' : FindsMinimum minimize')
    (h : OneFeatureModel S (quantileEstimator false q minimize) D m f)
    (h' : OneFeatureModel S' (quantileEstimator false q' minimize') D m' f)
    (hsk : S.params.hierarchical = none) (hsk' : S'.params.hierarchical = none) (hrates : S'.learnRate = S.learnRate)
    (hits : m'.iterations = m.iterations)
    (i : ℕ) (hi : i < D.n) (hu : Unsmoothed S D f ((f.1.cfg D.X D.n).bin i)) (hu' : Unsmoothed S' D f ((f.1.cfg D.X D.n).bin i))
    (hw : 0 < sumInBin D f ((f.1.cfg D.X D.n).bin i) D.w)
    (hstart : ∀ a a', quantileScale .identity q D.n D.y D.w = .fin a → quantileScale .identity q' D.n D.y D.w = .fin a' → a ≤ a') :
    m.predict D.prior D.X i ≤ m'.predict D.prior D.X i := by
  obtain ⟨a, x, hs, hx, e⟩ := quantile_place q h0 (by linarith) minimize hmin h hsk i hi hu hw
  obtain ⟨a', x', hs', hx', e'⟩ := quantile_place q' (by linarith) h1 minimize' hmin' h' hsk' i hi hu' hw
  rw [e, e', hits, hrates]
  have hxx := isBinQuantile_mono h.weights hw hqq hx hx'
  have haa := hstart a a' hs hs'
  have c0 : 0 ≤ ∏ k ∈ range m.iterations, (1 - S.learnRate (k + 1)) := prod_nonneg fun k _ => by linarith [(h.rates (k + 1)).2]
  have c1 : ∏ k ∈ range m.iterations, (1 - S.learnRate (k + 1)) ≤ 1 :=
    prod_le_one (fun k _ => by linarith [(h.rates (k + 1)).2]) fun k _ => by linarith [(h.rates (k + 1)).1]
  have := mul_le_mul_of_nonneg_left haa c0
  have := mul_le_mul_of_nonneg_left hxx (sub_nonneg.mpr c1)
  linarith

/-- **C161**, full steps: if each training contains an iteration with the learning rate 1, start values, other learning rates and the
numbers of iterations do not matter. -/
theorem C161_full_steps_partial (q q' : ℝ) (h0 : 0 ≤ q) (hqq : q < q') (h1 : q' ≤ 1) (minimize minimize' : (ℝ → Flt ℝ) → ℝ → ℝ)
    (hmin : FindsMinimum minimize) (hmin' : FindsMinimum minimize')
    (h : OneFeatureModel S (quantileEstimator false q minimize) D m f)
    (h' : OneFeatureModel S' (quantileEstimator false q' minimize') D m' f)
    (hsk : S.params.hierarchical = none) (hsk' : S'.params.hierarchical = none)
    (k k' : ℕ) (hk : k < m.iterations) (hk' : k' < m'.iterations) (hr : S.learnRate (k + 1) = 1) (hr' : S'.learnRate (k' + 1) = 1)
    (i : ℕ) (hi : i < D.n) (hu : Unsmoothed S D f ((f.1.cfg D.X D.n).bin i)) (hu' : Unsmoothed S' D f ((f.1.cfg D.X D.n).bin i))
    (hw : 0 < sumInBin D f ((f.1.cfg D.X D.n).bin i) D.w) :
    m.predict D.prior D.X i ≤ m'.predict D.prior D.X i :=
  isBinQuantile_mono h.weights hw hqq
    (C154_exact q h0 (by linarith) minimize hmin h hsk i hi hu hw k hk hr)
    (C154_exact q' (by linarith) h1 minimize' hmin' h' hsk' i hi hu' hw k' hk' hr')

end

/-- Where the start values are in the wrong order: the targets 0, 0 and 1/10 give the start value 1 for the level 0.6, because of the
interpolation between equal targets, but 1/10 for the level 0.9. -/
theorem C161_start_counterexample :
    quantileScale .identity 0.6 3 (fun i => if i = 2 then 1 / 10 else 0) (fun _ => 1) = .fin 1 ∧
    quantileScale .identity 0.9 3 (fun i => if i = 2 then 1 / 10 else 0) (fun _ => 1) = .fin (1 / 10) := by
  have hs : (([(0, 1), (0, 1), (1 / 10, 1)] : List (ℝ × ℝ)).mergeSort fun a b => decide (a.1 ≤ b.1)) = [(0, 1), (0, 1), (1 / 10, 1)] :=
    List.mergeSort_of_pairwise (by simp)
  have hl : ((List.range 3).map fun i => ((if i = 2 then 1 / 10 else 0 : ℝ), (1 : ℝ))) = [(0, 1), (0, 1), (1 / 10, 1)] := by
    simp [List.range_succ]
  unfold quantileScale
  rw [hl, hs]
  constructor
  · have hf : ⌊(9 / 5 : ℝ)⌋ = 1 := by rw [Int.floor_eq_iff]; norm_num
    norm_num [continuousQuantile, firstReaching, linkFlt, List.range_succ, hf]
  · norm_num [continuousQuantile, firstReaching, linkFlt, List.range_succ]

/-- A model of two samples in two bins. -/
theorem oneQuantile (q : ℝ) (h0 : 0 ≤ q) (h1 : q ≤ 1) (a : ℝ) (hs : quantileScale .identity q exData.n exData.y exData.w = .fin a) :
    ∃ m, OneFeatureModel plainSetup (quantileEstimator false q bestMinimize) exData m calFeature ∧ m.iterations = 1 := by
  have hsm := C80_no_smoothing plainSetup noOpen plainChoice none [["a"]] rfl plainFeatures rfl exData
  have hw : ∀ i < exData.n, 0 ≤ exData.w i := fun _ _ => by simp [exData]
  have hlr : ∀ k, 0 ≤ plainSetup.learnRate k ∧ plainSetup.learnRate k ≤ 1 := fun k => by simp [plainSetup]
  have hne : ∀ f ∈ plainSetup.features, f.1.group ≠ [] := by simp [plainSetup]
  have hE : CostEstimator bestMinimize false (quantileEstimator false q bestMinimize) (Spec.pinball q) := .quantile false q h0 h1
  obtain ⟨hnd, m, hm⟩ := C84_fit_succeeds plainSetup exData hE bestMinimize_notWorse (fun h => by cases h) rfl rfl hw hlr hne hsm
    (fun _ i _ => by simp [exData]) a hs le_rfl rfl (by norm_num [plainSetup, exSetup])
    (by norm_num [plainSetup, exSetup]) 5 le_rfl
  refine ⟨m, ⟨⟨5, hm⟩, rfl, rfl, rfl, rfl, by simp [calFeature], oneInts, hw, rfl, hnd, hlr⟩, ?_⟩
  have hit := (fit_iterations_pos plainSetup _ exData le_rfl (by norm_num [plainSetup, exSetup]) (by norm_num [plainSetup, exSetup]) 5 m hm).1
  obtain ⟨a, r, -, hs, hfit, rfl⟩ := fit_ok plainSetup _ exData 5 m hm
  obtain ⟨past, s, ht, hcont, -, hpred, hiter⟩ := fitMain_ok _ _ _ _ 5 r hfit
  have hc := (trace_counter _ _ _ _ past s ht).2
  have hd := hnd a hs past s ht
  have hd' : s.isDiverging = false := by
    unfold continues at hcont
    rw [Bool.or_eq_false_iff] at hcont
    exact hcont.2
  rw [hd', hd] at hc
  simp only [Bool.false_eq_true, if_false] at hc
  have hn : normalIterations (plainSetup.paramsFor (quantileEstimator false q bestMinimize)) = 1 := by
    simp [normalIterations, Setup.paramsFor, plainSetup, exSetup]
  rw [hn] at hc
  have h2 := (trace_iterations _ _ _ _ past s ht).1
  change r.iterations = 1
  change 1 ≤ r.iterations at hit
  omega

/-- Witness: the levels 1/2 and 3/4, with the start values 0 and 2. -/
example : ∃ m m', OneFeatureModel plainSetup (quantileEstimator false (1 / 2) bestMinimize) exData m calFeature ∧
    OneFeatureModel plainSetup (quantileEstimator false (3 / 4) bestMinimize) exData m' calFeature ∧ m'.iterations = m.iterations ∧
    quantileScale .identity (1 / 2) exData.n exData.y exData.w = .fin 0 ∧ quantileScale .identity (3 / 4) exData.n exData.y exData.w = .fin 2 ∧
    m.predict none exData.X 0 ≤ m'.predict none exData.X 0 := by
  have hs : (([(0, 1), (2, 1)] : List (ℝ × ℝ)).mergeSort fun a b => decide (a.1 ≤ b.1)) = [(0, 1), (2, 1)] :=
    List.mergeSort_of_pairwise (by simp)
  have hl : ((List.range exData.n).map fun i => (exData.y i, exData.w i)) = [(0, 1), (2, 1)] := by
    simp [List.range_succ, exData]
  have s1 : quantileScale .identity (1 / 2) exData.n exData.y exData.w = .fin 0 := by
    unfold quantileScale
    rw [hl, hs]
    norm_num [continuousQuantile, firstReaching, linkFlt, List.range_succ]
  have s2 : quantileScale .identity (3 / 4) exData.n exData.y exData.w = .fin 2 := by
    unfold quantileScale
    rw [hl, hs]
    norm_num [continuousQuantile, firstReaching, linkFlt, List.range_succ]
  obtain ⟨m, h, hit⟩ := oneQuantile (1 / 2) (by norm_num) (by norm_num) 0 s1
  obtain ⟨m', h', hit'⟩ := oneQuantile (3 / 4) (by norm_num) (by norm_num) 2 s2
  have hb0 : (calFeature.1.cfg exData.X exData.n).bin 0 = 0 := by rw [oneCfg]; rfl
  have hu := fun b hb => oneUnsmoothed exData.y exData.w (fun _ => one_ne_zero) b hb
  refine ⟨m, m', h, h', by rw [hit, hit'], s1, s2, ?_⟩
  exact C161_one_feature_partial (1 / 2) (3 / 4) (by norm_num) (by norm_num) (by norm_num) bestMinimize bestMinimize bestMinimize_finds
    bestMinimize_finds h h' rfl rfl rfl (by rw [hit, hit']) 0 (by decide) (by rw [hb0]; exact hu 0 (by omega))
    (by rw [hb0]; exact hu 0 (by omega)) (by rw [hb0, oneSum]; simp [exData])
    (fun a a' e e' => by
      rw [s1] at e; rw [s2] at e'
      cases e; cases e'; norm_num)

/-! ### Two features -/

section
variable {σ : Type*} {minimize : (ℝ → Flt ℝ) → ℝ → ℝ}

/-- The estimate for a bin is a quantile of the residuals of its samples. -/
theorem quantile_residuals (q : ℝ) (h0 : 0 ≤ q) (h1 : q ≤ 1) (hmin : FindsMinimum minimize) (it n : ℕ) (codes : ℕ → ℕ) (y w p : ℕ → ℝ)
    (hw : ∀ i < n, 0 ≤ w i) (b : ℕ) (hW : 0 < binSum n codes w b) :
    binSum n codes (fun i => if y i - p i < ((quantileEstimator false q minimize).parameters it n codes y w p b).1 then w i else 0) b
        ≤ q * binSum n codes w b ∧
      q * binSum n codes w b ≤
        binSum n codes (fun i => if y i - p i ≤ ((quantileEstimator false q minimize).parameters it n codes y w p b).1 then w i else 0) b := by
  set obj := binObjective (quantileCostsFlt q) identityLink false n codes y w p b with hobjdef
  have hpar : ((quantileEstimator false q minimize).parameters it n codes y w p b).1 = minimize obj 0 := by
    show genericParamLink identityLink (minimize obj (identityLink.unlink 0)) = minimize obj 0
    unfold genericParamLink
    rw [if_neg (by simp [identityLink])]
    rfl
  rw [hpar]
  set l := (binMembers n codes b).map fun i => (y i - p i, w i) with hl
  have hlsum : (l.map Prod.snd).sum = binSum n codes w b := by
    rw [binSum_members, hl, List.map_map]; rfl
  have hmem : ∀ i ∈ binMembers n codes b, i < n := fun i hi => List.mem_range.mp (List.mem_filter.mp hi).1
  obtain ⟨q1, q2⟩ := minimize_isQuantile q h0 h1 l
    (fun s hs => by
      obtain ⟨i, hi, rfl⟩ := List.mem_map.mp hs
      exact hw i (hmem i hi))
    (by rw [hlsum]; exact hW) minimize hmin obj _ hW (binObjective_additive q n codes y w p b hW) 0
  rw [hlsum, hl, weightOf_members] at q1 q2
  simp only [decide_eq_true_eq] at q1 q2
  exact ⟨q1, q2⟩

/-- What a visit of a feature adds to the predictions of samples in unsmoothed bins. -/
theorem visit_free (S : Setup σ) (D : TrainSet) (E : Estimator) (hlink : E.link = .identity) (hcal : ∀ c v g, E.calibrate c v g = g)
    (hagg : S.params.aggregate = true) (it k : ℕ) (f : FeatureSpec × SmootherKind) (hf : S.features[k]? = some f)
    (hx : f.1.external = false) (dv : ℕ) (isd : Bool) (il : Flt ℝ) (fs : FState ℝ) (hz : fs.zeroSmoother = false) (pred : Pred ℝ) (i : ℕ)
    (hu : Unsmoothed S D f ((f.1.cfg D.X D.n).bin i)) :
    (featureIteration (S.paramsFor E) (S.oracle E D) it k (f.1.cfg D.X D.n) dv isd il fs pred).2.factors i = pred.factors i +
      S.learnRate (it + 1) * (E.parameters it D.n (f.1.cfg D.X D.n).bin D.y D.w pred.factors ((f.1.cfg D.X D.n).bin i)).1 := by
  have hcal' : ∀ it i fs, (S.oracle E D).calibrate it i fs = fs.factors := by
    intro it i fs
    unfold Setup.oracle
    dsimp only
    cases S.features[i]? with
    | none => rfl
    | some f => exact hcal _ _ _
  rw [update_plain (S.paramsFor E) hagg (by simp [Setup.paramsFor, hlink]) _ _ _ _ _ _ _ _ _ hcal']
  have hx' : (f.1.cfg D.X D.n).external = false := hx
  unfold Pred.update
  rw [hx']
  simp only [Bool.false_eq_true, if_false]
  congr 1
  have hest : (S.oracle E D).estimate it k pred fs ((f.1.cfg D.X D.n).bin i)
      = (E.parameters it D.n (f.1.cfg D.X D.n).bin D.y D.w pred.factors ((f.1.cfg D.X D.n).bin i)).1 := by
    simp only [Setup.oracle, hf]
  rw [← hest]
  unfold predictFactors updateFactors
  rcases hu with ⟨hb, hu⟩ | ⟨hb, hm⟩
  · rw [if_pos hb]
    have hsm : ∀ st, (S.oracle E D).smooth it k pred st ((S.oracle E D).estimate it k pred fs)
        ((f.1.cfg D.X D.n).bin i) = some ((S.oracle E D).estimate it k pred fs ((f.1.cfg D.X D.n).bin i)) := by
      intro st
      simp only [Setup.oracle, hf]
      exact hu _ _
    simp only [hz, Bool.false_eq_true, if_false]
    rw [hsm]
    rfl
  · rw [if_neg (by omega)]
    have hm' : (f.1.cfg D.X D.n).missingNotLearned = false := hm
    simp only [if_true, hm', Bool.false_eq_true, if_false]
    rw [← hb, mul_comm]
    rfl

/-- A trace with one iteration. -/
theorem trace_once (p : Params ℝ) (o : Oracle ℝ) (cfgs : List FeatureCfg) (prior : ℕ → ℝ) (past : List (TState ℝ)) (s : TState ℝ)
    (ht : Trace p o cfgs (startState o cfgs prior) past s) (h1 : s.iteration = 1) (h0 : s.diverging = 0) :
    s.pred = (featurePass p o 0 0 false (o.loss ⟨prior, fun _ => 0⟩) 0 cfgs (cfgs.map fun _ => FState.init) ⟨prior, fun _ => 0⟩).2 := by
  cases ht with
  | start => simp [startState] at h1
  | @step past s₀ s' ht hc hi =>
    obtain ⟨_, _, _, _, _, _, _, _, hit, _⟩ := iterate_ok _ _ _ s₀ s hi
    have hcalm := iterate_calm _ _ _ s₀ s hi h0
    have hz : s₀.iteration = 0 := by omega
    cases ht with
    | start => exact hcalm.2
    | @step past s₁ s'' ht hc hi' =>
      obtain ⟨_, _, _, _, _, _, _, _, hit', _⟩ := iterate_ok _ _ _ s₁ s₀ hi'
      omega

/-- What a fitted model predicts for the training samples, by the trace of its training. -/
theorem fit_trace_predict (S : Setup σ) (D : TrainSet) (E : Estimator) (hagg : S.params.aggregate = true)
    (hg : ∀ f ∈ S.features, f.1.group ≠ [])
    (hint : ∀ f ∈ S.features, ∀ c, f.1.group = [c] → ∀ i < D.n, ∀ x : ℝ, D.X i c = .fin x → ∃ k : ℤ, x = (k : ℝ))
    (fuel : ℕ) (m : FittedModel) (h : S.fit E D fuel = some (.ok m)) :
    ∃ a past s, E.scale D.n D.y D.w = .fin a ∧
      Trace (S.paramsFor E) (S.oracle E D) (S.cfgs D) (startState (S.oracle E D) (S.cfgs D) (baseline E D a)) past s ∧
      continues (S.paramsFor E) s = false ∧
      ∀ i < D.n, m.predict D.prior D.X i = E.link.toLink.unlink (s.pred.factors i) := by
  obtain ⟨a, r, -, hs, hfit, rfl⟩ := fit_ok S _ D fuel m h
  obtain ⟨past, s, ht, hcont, -, hpred, -⟩ := fitMain_ok _ _ _ _ fuel r hfit
  have hd : s.isDiverging = false := by
    unfold continues at hcont
    rw [Bool.or_eq_false_iff] at hcont
    exact hcont.2
  refine ⟨a, past, s, hs, ht, hcont, fun i hi => ?_⟩
  have hcfgs : S.cfgs D = (S.features.map (·.1)).map fun f => f.cfg D.X D.n := by
    unfold Setup.cfgs
    rw [List.map_map]; rfl
  have hpi : r.prediction.factors i = s.pred.factors i := by
    rw [hpred, trace_prediction _ _ _ _ past s ht hd]
  rw [hcfgs] at hfit
  obtain ⟨h1, -⟩ := C19_predict_train (S.paramsFor E) hagg (S.oracle E D) D.X D.n
    (S.features.map (·.1)) (baseline E D a) fuel r hfit i hi
    (by
      intro f hf
      obtain ⟨q, hq, rfl⟩ := List.mem_map.mp hf
      exact hg q hq)
    (by
      intro f hf c hfc x hx
      obtain ⟨q, hq, rfl⟩ := List.mem_map.mp hf
      exact hint q hq c hfc i hi x hx)
  rw [← hpi, ← h1]
  rfl

/-- Two features without smoothing, one iteration with full steps. -/
noncomputable def levelSetup : Setup (List (FitRow ℝ) × List ℝ) :=
  { twoSetup with
    learnRate := fun _ => 1
    params := { twoSetup.params with maximalIterations := 1 } }

/-- Four samples. Feature `a` is 0 for all but the last, feature `b` is 0 for the first two; the third sample has target 1, the others
have target 0. -/
def levelData : TrainSet :=
  ⟨fun s c => .fin (if c = "a" then (if s = 3 then 1 else 0) else (if s < 2 then 0 else 1)), 4, fun s => if s = 2 then 1 else 0,
    fun _ => 1, none⟩

theorem crossBindA : bindData levelData.X 4 ["a"] none = ([0, 0, 0, 1], [2]) := by
  simp [bindData, lexBinnos, inferBins, maxPlusOne, levelData, Table.row, finiteSemiPositive, floorComp, validRow, validComp,
    binSteps, dotRow, List.range_succ]

theorem crossBindB : bindData levelData.X 4 ["b"] none = ([0, 0, 1, 1], [2]) := by
  simp [bindData, lexBinnos, inferBins, maxPlusOne, levelData, Table.row, finiteSemiPositive, floorComp, validRow, validComp,
    binSteps, dotRow, List.range_succ]

theorem levelFeatures : createFeatures plainChoice none [["a"], ["b"]] = .ok levelSetup.features := by rfl

theorem crossUnsmoothed (f : FeatureSpec × SmootherKind) (hf : f ∈ levelSetup.features) (i : ℕ) (hi : i < 4) :
    Unsmoothed levelSetup levelData f ((f.1.cfg levelData.X levelData.n).bin i) :=
  C124_no_smoothing levelSetup noOpen rfl levelFeatures rfl (by simp) levelData (fun i _ => by simp [levelData])
    (by simp [levelSetup, twoSetup]) f hf i hi (by simp [levelData])

def crossA : ℕ → ℕ := fun s => [0, 0, 0, 1].getD s 0
def crossB : ℕ → ℕ := fun s => [0, 0, 1, 1].getD s 0

def crossFA : FeatureSpec × SmootherKind := (⟨["a"], false, false⟩, .normalizationRegressionType .binValuesOne .discontinuous)
def crossFB : FeatureSpec × SmootherKind := (⟨["b"], false, false⟩, .normalizationRegressionType .binValuesOne .discontinuous)

theorem crossBinA : (crossFA.1.cfg levelData.X levelData.n).bin = crossA := by
  simp [crossFA, FeatureSpec.cfg, show levelData.n = 4 from rfl, crossBindA]
  rfl

theorem crossBinB : (crossFB.1.cfg levelData.X levelData.n).bin = crossB := by
  simp [crossFB, FeatureSpec.cfg, show levelData.n = 4 from rfl, crossBindB]
  rfl

/-- The two visits of the only iteration. -/
theorem cross_fit (q : ℝ) (h0 : 0 ≤ q) (h1 : q ≤ 1) (hmin : FindsMinimum minimize) (hnw : NotWorse minimize) :
    ∃ (m : FittedModel) (a : ℝ) (zA zB : ℕ → ℝ), levelSetup.fit (quantileEstimator false q minimize) levelData 5 = some (.ok m) ∧
      (∀ i < 4, m.predict none levelData.X i = a + zA (crossA i) + zB (crossB i)) ∧
      (∀ b, 0 < binSum 4 crossA levelData.w b →
        binSum 4 crossA (fun i => if levelData.y i - a < zA b then levelData.w i else 0) b ≤ q * binSum 4 crossA levelData.w b ∧
        q * binSum 4 crossA levelData.w b ≤ binSum 4 crossA (fun i => if levelData.y i - a ≤ zA b then levelData.w i else 0) b) ∧
      (∀ b, 0 < binSum 4 crossB levelData.w b →
        binSum 4 crossB (fun i => if levelData.y i - (a + zA (crossA i)) < zB b then levelData.w i else 0) b ≤
          q * binSum 4 crossB levelData.w b ∧
        q * binSum 4 crossB levelData.w b ≤
          binSum 4 crossB (fun i => if levelData.y i - (a + zA (crossA i)) ≤ zB b then levelData.w i else 0) b) := by
  set E := quantileEstimator false q minimize with hE
  have hC : CostEstimator minimize false E (Spec.pinball q) := .quantile false q h0 h1
  have hsm := C80_no_smoothing levelSetup noOpen plainChoice none [["a"], ["b"]] rfl levelFeatures rfl levelData
  have hw : ∀ i < levelData.n, 0 ≤ levelData.w i := fun _ _ => by simp [levelData]
  have hlr : ∀ k, 0 ≤ levelSetup.learnRate k ∧ levelSetup.learnRate k ≤ 1 := fun k => by simp [levelSetup]
  have hne : ∀ f ∈ levelSetup.features, f.1.group ≠ [] := by simp [levelSetup, twoSetup]
  obtain ⟨a, hs⟩ : ∃ a, E.scale levelData.n levelData.y levelData.w = .fin a := by
    have := C138_baseline_quantile q h1 minimize levelData.n (by decide) levelData.y levelData.w hw
    cases h : E.scale levelData.n levelData.y levelData.w with
    | fin a => exact ⟨a, rfl⟩
    | _ => rw [h] at this; simp [Flt.isFinite] at this
  have hdiv := fun prior past s h => (C84_never_increases levelSetup levelData hC hnw (fun h => by cases h) rfl rfl hw hlr hne hsm prior past s h).2.2
  obtain ⟨-, m, hm⟩ := C84_fit_succeeds levelSetup levelData hC hnw (fun h => by cases h) rfl rfl hw hlr hne hsm
    (fun h => by cases h) a hs le_rfl rfl (by norm_num [levelSetup, twoSetup]) (by norm_num [levelSetup, twoSetup]) 5 le_rfl
  obtain ⟨a', past, s, hs', ht, hcont, hpredict⟩ := fit_trace_predict levelSetup levelData E rfl hne
    (by
      intro f hf c hfc i hi x hx
      simp only [levelData, Flt.fin.injEq] at hx
      rw [← hx]
      split_ifs
      · exact ⟨1, by simp⟩
      · exact ⟨0, by simp⟩
      · exact ⟨0, by simp⟩
      · exact ⟨1, by simp⟩) 5 m hm
  have haa : a' = a := by rw [hs] at hs'; exact (Flt.fin.inj hs').symm
  subst haa
  obtain ⟨hd, -, -, hit⟩ := trace_all_iterations _ _ _ _ rfl (by norm_num [Setup.paramsFor, levelSetup, twoSetup])
    (by norm_num [Setup.paramsFor, levelSetup, twoSetup]) (hdiv _) past s ht
  have hs1 : s.iteration = 1 := hit hcont
  have hone := trace_once _ _ _ _ past s ht hs1 (hdiv _ past s ht)
  have hb : baseline E levelData a' = fun _ => a' := by
    funext i
    simp [baseline, priorPrediction, levelData, Flt.getFin]
  rw [hb] at hone
  have hfA : levelSetup.features[0]? = some crossFA := rfl
  have hfB : levelSetup.features[1]? = some crossFB := rfl
  have hcfgs : levelSetup.cfgs levelData = [crossFA.1.cfg levelData.X levelData.n, crossFB.1.cfg levelData.X levelData.n] := rfl
  rw [hcfgs] at hone
  have hsk : ∀ c, skipped (levelSetup.paramsFor E) 0 c = false := fun c => rfl
  simp only [List.map_cons, List.map_nil, featurePass, hsk, Bool.false_eq_true, if_false] at hone
  set p₀ : Pred ℝ := ⟨fun _ => a', fun _ => 0⟩ with hp₀
  set il := (levelSetup.oracle E levelData).loss p₀ with hil
  set stA := featureIteration (levelSetup.paramsFor E) (levelSetup.oracle E levelData) 0 0 (crossFA.1.cfg levelData.X levelData.n) 0 false il
    { (FState.init : FState ℝ) with factors := fun _ => 0 } p₀ with hstA
  set stB := featureIteration (levelSetup.paramsFor E) (levelSetup.oracle E levelData) 0 1 (crossFB.1.cfg levelData.X levelData.n) 0 false il
    { (FState.init : FState ℝ) with factors := fun _ => 0 } stA.2 with hstB
  have hone' : s.pred = stB.2 := hone
  have hA : ∀ i < 4, stA.2.factors i = a' + (E.parameters 0 4 crossA levelData.y levelData.w p₀.factors (crossA i)).1 := by
    intro i hi
    have := visit_free levelSetup levelData E rfl (fun _ _ _ => rfl) rfl 0 0 crossFA hfA rfl 0 false il
      { (FState.init : FState ℝ) with factors := fun _ => 0 } rfl p₀ i (crossUnsmoothed crossFA (List.mem_of_getElem? hfA) i hi)
    rw [crossBinA] at this
    rw [hstA, this, show levelSetup.learnRate (0 + 1) = 1 from rfl, one_mul]
    rfl
  have hB : ∀ i < 4, stB.2.factors i = stA.2.factors i +
      (E.parameters 0 4 crossB levelData.y levelData.w stA.2.factors (crossB i)).1 := by
    intro i hi
    have := visit_free levelSetup levelData E rfl (fun _ _ _ => rfl) rfl 0 1 crossFB hfB rfl 0 false il
      { (FState.init : FState ℝ) with factors := fun _ => 0 } rfl stA.2 i (crossUnsmoothed crossFB (List.mem_of_getElem? hfB) i hi)
    rw [crossBinB] at this
    rw [hstB, this, show levelSetup.learnRate (0 + 1) = 1 from rfl, one_mul]
    rfl
  refine ⟨m, a', fun b => (E.parameters 0 4 crossA levelData.y levelData.w p₀.factors b).1,
    fun b => (E.parameters 0 4 crossB levelData.y levelData.w stA.2.factors b).1, hm, fun i hi => ?_, fun b hW => ?_, fun b hW => ?_⟩
  · have := hpredict i hi
    beta_reduce
    rw [← hA i hi, ← hB i hi, ← hone']
    exact this
  · exact quantile_residuals q h0 h1 hmin 0 4 crossA levelData.y levelData.w p₀.factors hw b hW
  · have hq := quantile_residuals q h0 h1 hmin 0 4 crossB levelData.y levelData.w stA.2.factors hw b hW
    have hcongr : ∀ (P : ℝ → Prop) [DecidablePred P], binSum 4 crossB (fun i => if P (levelData.y i - stA.2.factors i) then levelData.w i else 0) b =
        binSum 4 crossB (fun i => if P (levelData.y i - (a' + (E.parameters 0 4 crossA levelData.y levelData.w p₀.factors (crossA i)).1))
          then levelData.w i else 0) b := by
      intro P _
      unfold binSum
      refine Finset.sum_congr rfl fun i hi => ?_
      beta_reduce
      rw [hA i (Finset.mem_range.mp hi)]
    rw [hcongr fun x => x < _, hcongr fun x => x ≤ _] at hq
    exact hq

theorem cross_sums (v : ℕ → ℝ) :
    binSum 4 crossA v 0 = v 0 + v 1 + v 2 ∧ binSum 4 crossA v 1 = v 3 ∧ binSum 4 crossB v 1 = v 2 + v 3 := by
  refine ⟨?_, ?_, ?_⟩ <;> simp [binSum, crossA, crossB, Finset.sum_range_succ]

/-- **C161**, what does not hold: with two features, full steps and any optimiser that finds minima, the prediction for the level 0.55
exceeds that for the level 0.7 on a training sample. -/
theorem C161_crossing_counterexample (hmin : FindsMinimum minimize) (hnw : NotWorse minimize) :
    ∃ m m', levelSetup.fit (quantileEstimator false 0.55 minimize) levelData 5 = some (.ok m) ∧
      levelSetup.fit (quantileEstimator false 0.7 minimize) levelData 5 = some (.ok m') ∧
      m.predict none levelData.X 3 = 1 ∧ m'.predict none levelData.X 3 = 0 := by
  obtain ⟨m, a, zA, zB, hm, hp, hA, hB⟩ := cross_fit (minimize := minimize) 0.55 (by norm_num) (by norm_num) hmin hnw
  obtain ⟨m', a', zA', zB', hm', hp', hA', hB'⟩ := cross_fit (minimize := minimize) 0.7 (by norm_num) (by norm_num) hmin hnw
  have hy : levelData.y 0 = 0 ∧ levelData.y 1 = 0 ∧ levelData.y 2 = 1 ∧ levelData.y 3 = 0 := by
    simp [levelData]
  have hw : ∀ i, levelData.w i = 1 := fun _ => rfl
  have ha : crossA 0 = 0 ∧ crossA 1 = 0 ∧ crossA 2 = 0 ∧ crossA 3 = 1 := ⟨rfl, rfl, rfl, rfl⟩
  have hb : crossB 2 = 1 ∧ crossB 3 = 1 := ⟨rfl, rfl⟩
  obtain ⟨y0, y1, y2, y3⟩ := hy
  obtain ⟨a0, a1, a2, a3⟩ := ha
  refine ⟨m, m', hm, hm', ?_, ?_⟩
  · have hA0 := hA 0 (by rw [(cross_sums _).1]; norm_num [hw])
    have hA1 := hA 1 (by rw [(cross_sums _).2.1]; norm_num [hw])
    have hB1 := hB 1 (by rw [(cross_sums _).2.2]; norm_num [hw])
    rw [hp 3 (by norm_num)]
    simp only [(cross_sums _).1, (cross_sums _).2.1, (cross_sums _).2.2, hw, y0, y1, y2, y3, a0, a1, a2, a3, hb.1, hb.2] at hA0 hA1 hB1 ⊢
    have e0 : a + zA 0 = 0 := by
      obtain ⟨u, v⟩ := hA0
      split_ifs at u v <;> first | linarith | (exfalso; norm_num at u v; done) | skip
    have e1 : a + zA 1 = 0 := by
      obtain ⟨u, v⟩ := hA1
      split_ifs at u v <;> first | linarith | (exfalso; norm_num at u v; done) | skip
    rw [e0, e1] at hB1
    have e2 : zB 1 = 1 := by
      obtain ⟨u, v⟩ := hB1
      split_ifs at u v <;> first | linarith | (exfalso; norm_num at u v; done) | skip
    rw [e1, e2]; norm_num
  · have hA0 := hA' 0 (by rw [(cross_sums _).1]; norm_num [hw])
    have hA1 := hA' 1 (by rw [(cross_sums _).2.1]; norm_num [hw])
    have hB1 := hB' 1 (by rw [(cross_sums _).2.2]; norm_num [hw])
    rw [hp' 3 (by norm_num)]
    simp only [(cross_sums _).1, (cross_sums _).2.1, (cross_sums _).2.2, hw, y0, y1, y2, y3, a0, a1, a2, a3, hb.1, hb.2] at hA0 hA1 hB1 ⊢
    have e0 : a' + zA' 0 = 1 := by
      obtain ⟨u, v⟩ := hA0
      split_ifs at u v <;> first | linarith | (exfalso; norm_num at u v; done) | skip
    have e1 : a' + zA' 1 = 0 := by
      obtain ⟨u, v⟩ := hA1
      split_ifs at u v <;> first | linarith | (exfalso; norm_num at u v; done) | skip
    rw [e0, e1] at hB1
    have e2 : zB' 1 = 0 := by
      obtain ⟨u, v⟩ := hB1
      split_ifs at u v <;> first | linarith | (exfalso; norm_num at u v; done) | skip
    rw [e1, e2]; norm_num

/-- Witness: such an optimiser exists, so that the predictions do cross. -/
example : ∃ m m', levelSetup.fit (quantileEstimator false 0.55 bestMinimize) levelData 5 = some (.ok m) ∧
    levelSetup.fit (quantileEstimator false 0.7 bestMinimize) levelData 5 = some (.ok m') ∧
    m'.predict none levelData.X 3 < m.predict none levelData.X 3 := by
  obtain ⟨m, m', h1, h2, e1, e2⟩ := C161_crossing_counterexample bestMinimize_finds bestMinimize_notWorse
  exact ⟨m, m', h1, h2, by rw [e1, e2]; norm_num⟩

end

end CB
