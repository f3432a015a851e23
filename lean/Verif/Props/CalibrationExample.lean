import Verif.Props.IdleMore
import Verif.Props.WeightedMean

/-!
# When C111 and C112 apply

`NoSmootherChoice` leaves every bin with weight unsmoothed. Concrete fits meet the hypotheses of C111 and C112.
-/

set_option autoImplicit false
set_option linter.unusedSectionVars false

namespace CB
open Finset Spec

noncomputable section

section
variable (S : Setup (List (FitRow ℝ) × List ℝ)) (O : OpenSmoothers) (c : Choice) (props : Option (List (String × ℕ)))
  (groups : List (List String))

theorem binValues1_at (n : ℕ) (w u v : ℕ → ℝ) (b : ℕ) (hb : b < n) :
    (binValues1.predict (binValues1.fit (smootherTable [n] w u) ((List.range n).map v))
        ((arangeMulti [n]).map fun c => c.map fun (i : ℕ) => Flt.fin (i : ℝ)))[b]? = some (.fin (v b)) := by
  simp only [binValues1]
  rw [List.getElem?_map, centreRows_getElem? [n] b (by simpa using hb), digits_one n b hb]
  simp only [List.map_cons, List.map_nil, Option.map_some, Option.some.injEq]
  have hr : rint (b : ℝ) = (b : ℤ) := by exact_mod_cast rint_intCast (K := ℝ) (b : ℤ)
  simp only [predictOneDim, List.length_map, List.length_range]
  simp [hr, hb, ofLookup]

theorem binValuesMulti_at (ns : List ℕ) (w u v : ℕ → ℝ) (b : ℕ) (hb : b < ns.prod) :
    (binValuesMulti.predict (binValuesMulti.fit (smootherTable ns w u) ((List.range ns.prod).map v))
        ((arangeMulti ns).map fun c => c.map fun (i : ℕ) => Flt.fin (i : ℝ)))[b]? = some (.fin (v b)) := by
  have ht : Spec.IsBinTuple ns (digits ns b) := digits_valid ns b (by omega)
  have hcell : Spec.InCell ((digits ns b).map fun (i : ℕ) => (i : ℝ)) (digits ns b) := by
    refine ⟨by simp, fun i h h' => ?_⟩
    rw [List.getElem_map]
    exact ⟨le_rfl, by linarith⟩
  exact (C51_multi_dim ns (by omega) (smootherTable ns w u) (smootherTable_centres ns w u) ((List.range ns.prod).map v)
      ((arangeMulti ns).map fun c => c.map fun (i : ℕ) => Flt.fin (i : ℝ)) b).1 ((digits ns b).map fun (i : ℕ) => (i : ℝ)) b
      ⟨digits ns b, w b, u b⟩ (v b) (by rw [centreRows_getElem? ns b hb, List.map_map]; rfl) ht hcell
      (smootherTable_getElem? ns w u b hb) (by rw [List.getElem?_map, List.getElem?_range hb]; rfl)

/-- **C111**, where it applies: with `NoSmootherChoice` all bins whose samples have a weight other than 0 are unsmoothed, for all features. -/
theorem C111_no_smoothing (hbase : S.base = packageSmoothers O) (hS : createFeatures c props groups = .ok S.features)
    (hk : c.kind = .noSmoother) (hg : ∀ g ∈ groups, g ≠ []) (D : TrainSet) (f : FeatureSpec × SmootherKind) (hf : f ∈ S.features) (b : ℕ)
    (hb : b < (f.1.cfg D.X D.n).nFinite) (hw : sumInBin D f b D.w ≠ 0) : Unsmoothed S D f b := by
  refine Or.inl ⟨hb, fun u v => ?_⟩
  obtain ⟨hmem, -, hch⟩ := createFeatures_mem c props groups S.features hS f hf
  have hlen := bindData_length D.X D.n f.1.group
  have hne : (bindData D.X D.n f.1.group none).2 ≠ [] := by
    intro h
    rw [h] at hlen
    exact hg _ hmem (List.length_eq_zero_iff.mp hlen.symm)
  have hb : b < ((bindData D.X D.n f.1.group none).2).prod := hb
  rw [← sumInBin_binSum] at hw
  revert hw
  generalize binSum D.n (f.1.cfg D.X D.n).bin D.w = w
  revert hlen hne hb
  generalize (bindData D.X D.n f.1.group none).2 = ns
  intro hlen hne hb hw
  unfold smootherForGroup Choice.choose at hch
  rw [hk] at hch
  simp only [Choice.wrap, hk, Except.ok.injEq] at hch
  rw [← hch, hbase]
  by_cases hl : f.1.group.length = 1
  · rw [if_pos hl]
    obtain ⟨n, rfl⟩ := List.length_eq_one_iff.mp (hlen.trans hl)
    rw [meta_centre_eq (packageSmoothers O) .binValuesOne (fun _ _ _ => rfl) _ _ [n] hne w u v b hb _
      (by rw [List.prod_singleton] at hb ⊢; exact binValues1_at n w u _ b hb), if_neg (by tauto)]
    simp [Flt.toOption]
  · rw [if_neg hl]
    rw [meta_centre_eq (packageSmoothers O) .binValuesMany (fun _ _ _ => rfl) _ _ ns hne w u v b hb _
      (binValuesMulti_at ns w u _ b hb), if_neg (by tauto)]
    simp [Flt.toOption]

end

open Classical in
/-- An optimiser that knows everything: it stays at its start value if there is nothing better, and otherwise returns a minimum. -/
def bestMinimize (f : ℝ → Flt ℝ) (start : ℝ) : ℝ :=
  if ∃ a, f start = .fin a ∧ ∀ z c, f z = .fin c → a ≤ c then start
  else if h : ∃ x a, f x = .fin a ∧ ∀ z c, f z = .fin c → a ≤ c then h.choose else start

theorem bestMinimize_stays : StaysPut bestMinimize := by
  intro f start a h1 h2
  unfold bestMinimize
  rw [if_pos ⟨a, h1, h2⟩]

theorem bestMinimize_finds : FindsMinimum bestMinimize := by
  intro f start x a h1 h2
  unfold bestMinimize
  have h : ∃ x a, f x = .fin a ∧ ∀ z c, f z = .fin c → a ≤ c := ⟨x, a, h1, h2⟩
  split_ifs with hs
  · obtain ⟨c, h3, h4⟩ := hs
    exact ⟨c, h3, h4 x a h1⟩
  · obtain ⟨c, h3, h4⟩ := h.choose_spec
    exact ⟨c, h3, h4 x a h1⟩

/-- Four samples with targets 1, 3, 1, 3. The feature is 0 for the first two and missing for the others. -/
def calData : TrainSet := ⟨fun s _ => if s < 2 then .fin 0 else .nan, 4, fun s => if s % 2 = 0 then 1 else 3, fun _ => 1, none⟩

theorem calBind : bindData calData.X 4 ["a"] none = ([0, 0, 1, 1], [1]) := by
  simp [bindData, lexBinnos, inferBins, maxPlusOne, calData, Table.row, finiteSemiPositive, floorComp, validRow, validComp,
    binSteps, dotRow, List.range_succ]

theorem calCfg : (FeatureSpec.mk ["a"] false false).cfg calData.X calData.n = ⟨["a"], false, 1, fun s => [0, 0, 1, 1].getD s 0, false⟩ := by
  simp [FeatureSpec.cfg, show calData.n = 4 from rfl, calBind]

/-- The only feature of `plainSetup`. -/
def calFeature : FeatureSpec × SmootherKind := (⟨["a"], false, false⟩, .normalizationRegressionType .binValuesOne .discontinuous)

theorem calSum (x : ℕ → ℝ) (b : ℕ) : sumInBin calData calFeature b x =
    (if b = 0 then x 0 + x 1 else 0) + if b = 1 then x 2 + x 3 else 0 := by
  unfold sumInBin
  rw [show calFeature.1 = ⟨["a"], false, false⟩ from rfl, calCfg, show calData.n = 4 from rfl, sum_filter]
  simp only [sum_range_succ, range_zero, sum_empty]
  rcases b with - | - | b <;> simp


theorem calInts : ∀ f ∈ plainSetup.features, ∀ c, f.1.group = [c] → ∀ i < calData.n, ∀ x : ℝ, calData.X i c = .fin x → ∃ k : ℤ, x = (k : ℝ) := by
  intro f _ c _ i _ x hx
  refine ⟨0, ?_⟩
  simp only [calData] at hx
  split_ifs at hx
  simp only [Flt.fin.injEq] at hx
  rw [← hx]; simp

/-- The samples of `calData` with other targets and weights. -/
def calWith (y w : ℕ → ℝ) : TrainSet := ⟨calData.X, calData.n, y, w, none⟩

theorem calKeepZeroWith (y w : ℕ → ℝ) : SmoothersKeepZero plainSetup (calWith y w) :=
  keepZero_of_shrinking _ _ (C80_no_smoothing plainSetup noOpen plainChoice none [["a"]] rfl plainFeatures rfl (calWith y w))

theorem calKeepZero : SmoothersKeepZero plainSetup calData := calKeepZeroWith calData.y calData.w

/-- Both bins of the feature are unsmoothed. -/
theorem calUnsmoothedWith (y w : ℕ → ℝ) (hw : ∀ s, 0 < w s) (b : ℕ) (hb : b < 2) : Unsmoothed plainSetup (calWith y w) calFeature b := by
  have hn : (calFeature.1.cfg calData.X calData.n).nFinite = 1 := by
    rw [show calFeature.1 = ⟨["a"], false, false⟩ from rfl, calCfg]
  by_cases h : b = 0
  · subst h
    exact C111_no_smoothing plainSetup noOpen plainChoice none [["a"]] rfl plainFeatures rfl (by simp) (calWith y w) calFeature
      (List.mem_singleton.mpr rfl) 0 (by show 0 < (calFeature.1.cfg calData.X calData.n).nFinite; rw [hn]; exact one_pos) (by
        show sumInBin calData calFeature 0 w ≠ 0
        rw [calSum]
        have h0 := hw 0
        have h1 := hw 1
        simp only [if_true, zero_ne_one, if_false, add_zero]
        positivity)
  · exact Or.inr ⟨by show b = (calFeature.1.cfg calData.X calData.n).nFinite; rw [hn]; omega, rfl⟩

theorem calUnsmoothed (b : ℕ) (hb : b < 2) : Unsmoothed plainSetup calData calFeature b :=
  calUnsmoothedWith calData.y calData.w (fun _ => one_pos) b hb

/-- If there is nothing to learn from these samples, the fit succeeds, is settled, and all its factors are neutral. -/
theorem calSettledWith (y w : ℕ → ℝ) (hw : ∀ s, 0 < w s) (E : Estimator) (hcal : ∀ cfg bw fac, E.calibrate cfg bw fac = fac)
    (hv : ∀ i < calData.n, E.valid (y i)) (a : ℝ) (hs : E.scale calData.n y w = .fin a)
    (hn : ∀ it, ∀ b < 2, (E.parameters it 4 (fun s => [0, 0, 1, 1].getD s 0) y w (fun _ => a) b).1 = 0)
    (hloss : ∀ prediction x, E.loss calData.n prediction y w = .fin x → 0 ≤ x) :
    ∃ m, plainSetup.fit E (calWith y w) 5 = some (.ok m) ∧ SettledModel plainSetup E (calWith y w) m 0 ∧
      (∀ X i, m.predict none X i = E.link.toLink.unlink a) ∧ ∀ b < 2, InsideLimits m 0 0 calFeature b := by
  have hb : baseline E (calWith y w) a = fun _ => a := by
    funext s
    simp [baseline, priorPrediction, calWith, Flt.getFin]
  have hcal' : ∀ cfg bw (fac : ℕ → ℝ), (∀ b ≤ cfg.nFinite, fac b = 0) → ∀ b ≤ cfg.nFinite, E.calibrate cfg bw fac b = 0 := by
    intro cfg bw fac h; rw [hcal]; exact h
  have hnl : NothingToLearn plainSetup E (calWith y w) (baseline E (calWith y w) a) := by
    intro f hf it b hb'
    have : f = calFeature := List.mem_singleton.mp hf
    subst this
    rw [hb]
    change b ≤ (calFeature.1.cfg calData.X calData.n).nFinite at hb'
    change (E.parameters it 4 (calFeature.1.cfg calData.X calData.n).bin y w (fun _ => a) b).1 = 0
    rw [show calFeature.1 = ⟨["a"], false, false⟩ from rfl, calCfg] at hb' ⊢
    exact hn it b (by have : b ≤ 1 := hb'; omega)
  have hg : ∀ f ∈ plainSetup.features, f.1.group ≠ [] := by simp [plainSetup]
  have hnd := not_diverged_self _ (hloss fun i => E.link.toLink.unlink (baseline E (calWith y w) a i))
  obtain ⟨m, hm⟩ := C112_fit_succeeds plainSetup (calWith y w) E rfl rfl hcal' hg hv (calKeepZeroWith y w) a hs hnl hnd le_rfl rfl
    (by norm_num [plainSetup, exSetup]) (by norm_num [plainSetup, exSetup]) 5 le_rfl
  refine ⟨m, hm, ?_, fun X i => ?_, fun b hb => ?_⟩
  · exact C112_settled plainSetup (calWith y w) E rfl rfl hcal' hg calInts (fun s _ => (hw s).le) (calKeepZeroWith y w) a hs hnl hnd 5 m hm
      (by simp [plainSetup])
  · rw [C112_left_alone plainSetup E (calWith y w) rfl rfl hcal' hg (calKeepZeroWith y w) a hs hnl hnd 5 m hm none X i]
    rfl
  · refine ⟨Real.log_pos (by norm_num), fun g hg' => ?_⟩
    have hnf : g.nFinite = 1 := by
      obtain ⟨a', r, -, -, -, rfl⟩ := fit_ok plainSetup E (calWith y w) 5 m hm
      simp only [fittedFeatures] at hg'
      rw [List.getElem?_zipWith] at hg'
      simp only [plainSetup, List.map_cons, List.map_nil, List.getElem?_cons_zero] at hg'
      cases hr : r.factors[0]? with
      | none => rw [hr] at hg'; simp at hg'
      | some fac =>
        rw [hr] at hg'
        simp only [Option.some.injEq] at hg'
        rw [← hg']
        simp [FittedFeature.nFinite, show (calWith y w).n = 4 from rfl, show (calWith y w).X = calData.X from rfl, calBind]
    rw [C112_neutral plainSetup E (calWith y w) rfl rfl hcal' hg (calKeepZeroWith y w) a hs hnl hnd 5 m hm g (List.mem_of_getElem? hg') b
      (by rw [hnf]; omega)]
    constructor
    · exact Real.log_neg (by norm_num [calFeature, minFactor]) (by norm_num [calFeature, minFactor])
    · exact Real.log_pos (by norm_num [calFeature, maxFactor])

/-- The same for `calData`. -/
theorem calSettled (E : Estimator) (hcal : ∀ cfg bw fac, E.calibrate cfg bw fac = fac) (hv : ∀ i < calData.n, E.valid (calData.y i)) (a : ℝ)
    (hs : E.scale calData.n calData.y calData.w = .fin a)
    (hn : ∀ it, ∀ b < 2, (E.parameters it 4 (fun s => [0, 0, 1, 1].getD s 0) calData.y calData.w (fun _ => a) b).1 = 0)
    (hloss : ∀ prediction x, E.loss calData.n prediction calData.y calData.w = .fin x → 0 ≤ x) :
    ∃ m, plainSetup.fit E calData 5 = some (.ok m) ∧ SettledModel plainSetup E calData m 0 ∧
      (∀ X i, m.predict none X i = E.link.toLink.unlink a) ∧ ∀ b < 2, InsideLimits m 0 0 calFeature b :=
  calSettledWith calData.y calData.w (fun _ => one_pos) E hcal hv a hs hn hloss

/-- Witness for C111 and C112: `CBGBSRegressor` predicts 2 for all inputs, and the sums of predictions and targets agree in both bins. -/
example : ∃ m, SettledModel plainSetup (gbsEstimator 0) calData m 0 ∧ (∀ X i, m.predict none X i = 2) ∧
    ∀ b < 2, sumInBin calData calFeature b (fun i => calData.w i * (calData.y i - m.predict none calData.X i)) = 0 := by
  obtain ⟨m, -, hm, hp, -⟩ := calSettled (gbsEstimator 0) (fun _ _ _ => rfl) (fun _ _ => trivial) 2 (by
    simp [gbsEstimator, quotientFlt, calData, sum_range_succ]; norm_num) (by
    intro it b hb
    interval_cases b <;>
    · simp [gbsEstimator, gbsSummand, binSum, calData, sum_range_succ]
      norm_num) (by
    intro p x hx
    simp only [gbsEstimator, quotientFlt] at hx
    split_ifs at hx
    rw [Flt.fin.injEq] at hx
    rw [← hx]
    have h1 : (0 : ℝ) ≤ (gbsLoss calData.n p calData.y calData.w).1 := by
      show (0 : ℝ) ≤ ∑ i ∈ range calData.n, calData.w i * (p i - calData.y i) ^ 2
      exact sum_nonneg fun i _ => mul_nonneg zero_le_one (sq_nonneg _)
    have h2 : (0 : ℝ) ≤ (gbsLoss calData.n p calData.y calData.w).2 := by
      show (0 : ℝ) ≤ ∑ i ∈ range calData.n, (if calData.y i ≠ 0 then 1 else 0) * calData.w i
      exact sum_nonneg fun i _ => mul_nonneg (by split_ifs <;> norm_num) zero_le_one
    exact div_nonneg h1 h2)
  refine ⟨m, hm, hp, fun b hb => ?_⟩
  have := C111_gbs plainSetup calData m 0 0 hm le_rfl 0 calFeature rfl b (calUnsmoothed b hb)
  rw [mul_zero] at this
  exact abs_eq_zero.mp (le_antisymm this (abs_nonneg _))

/-- Witness for the Poisson regression: four samples with target `10 ^ 13` and weight 160.83. Every input is predicted 0.001 more, and
the sums of predictions and targets of both bins differ by 0.32166. -/
example : ∃ m, SettledModel plainSetup (poissonEstimator trueMedian) (calWith (fun _ => 1e13) fun _ => 160.83) m 0 ∧
    (∀ X i, m.predict none X i = 1e13 + 0.001) ∧
    ∀ b < 2, sumInBin (calWith (fun _ => 1e13) fun _ => 160.83) calFeature b (fun i => 160.83 * m.predict none calData.X i) -
        sumInBin (calWith (fun _ => 1e13) fun _ => 160.83) calFeature b (fun _ => 160.83 * 1e13) ≤ 0.322 := by
  have he : Real.exp (Real.log (1e13 + 0.001)) = 1e13 + 0.001 := Real.exp_log (by norm_num)
  have hw : ∀ s : ℕ, (0 : ℝ) < (fun _ : ℕ => (160.83 : ℝ)) s := fun _ => by norm_num
  obtain ⟨m, -, hm, hp, hl⟩ := calSettledWith (fun _ => 1e13) (fun _ => 160.83) hw (poissonEstimator trueMedian) (fun _ _ _ => rfl)
    (fun i _ => by show (0 : ℝ) ≤ 1e13; norm_num) (Real.log (1e13 + 0.001)) (by
    simp only [poissonEstimator, globalScaleLink, show calData.n = 4 from rfl, sum_range_succ, range_zero, sum_empty]
    norm_num [quotientFlt, Flt.addFin, linkFlt]) (by
    intro it b hb
    simp only [poissonEstimator, poissonCalcParameters, poissonPrecalc, calcFactorsAndUncertainties, calcFactorFromPosterior, gammaPriors]
    interval_cases b <;>
    · simp only [binSum, sum_range_succ, range_zero, sum_empty, he]
      norm_num) (fun p x hx => by
    simp only [poissonEstimator, squaredLoss, quotientFlt] at hx
    split_ifs at hx
    rw [Flt.fin.injEq] at hx
    rw [← hx]
    exact div_nonneg (sum_nonneg fun i _ => mul_nonneg (mul_self_nonneg _) (hw 0).le) (sum_nonneg fun i _ => (hw 0).le))
  refine ⟨m, hm, fun X i => ?_, fun b hb => ?_⟩
  · rw [hp]
    exact he
  · exact (C111_poisson_fixed plainSetup (calWith (fun _ => 1e13) fun _ => 160.83) m trueMedian trueMedian_ok hm (fun i _ => by
      show (0 : ℝ) ≤ 1e13
      norm_num) 0 calFeature rfl b (calUnsmoothedWith _ _ hw b hb) (hl b hb)).2

/-- Witness for the median with summands: the prediction is 3, and in both bins the coverage is right. -/
example : ∃ m, SettledModel plainSetup (quantileEstimator false (1 / 2) bestMinimize) calData m 0 ∧ (∀ X i, m.predict none X i = 3) ∧
    ∀ b < 2, sumInBin calData calFeature b (fun i => if calData.y i < m.predict none calData.X i then calData.w i else 0) ≤ 1 ∧
      1 ≤ sumInBin calData calFeature b fun i => if calData.y i ≤ m.predict none calData.X i then calData.w i else 0 := by
  have hsort : (([(1, 1), (3, 1), (1, 1), (3, 1)] : List (ℝ × ℝ)).mergeSort fun a b => decide (a.1 ≤ b.1))
      = [(1, 1), (1, 1), (3, 1), (3, 1)] := by
    norm_num [List.mergeSort, List.MergeSort.Internal.splitInTwo, List.merge]
  have hb : baseline (quantileEstimator false (1 / 2) bestMinimize) calData 3 = fun _ => 3 := by
    funext s
    simp [baseline, priorPrediction, calData, Flt.getFin]
  have hidle := quantile_idle plainSetup calData (1 / 2) bestMinimize bestMinimize_stays (fun _ _ => by simp [calData]) 3 (by
    intro f hf b
    have : f = calFeature := List.mem_singleton.mp hf
    subst this
    simp only [hb, calSum]
    by_cases h0 : b = 0
    · subst h0; norm_num [calData]
    by_cases h1 : b = 1
    · subst h1; norm_num [calData]
    simp [h0, h1])
  obtain ⟨m, -, hm, hp, -⟩ := calSettled (quantileEstimator false (1 / 2) bestMinimize) (fun _ _ _ => rfl) (fun i _ h => by cases h) 3 (by
    simp [quantileEstimator, quantileScale, calData, List.range_succ, hsort, continuousQuantile, firstReaching, linkFlt]
    norm_num) (by
    intro it b hb'
    have := hidle calFeature (List.mem_singleton.mpr rfl) it b
    rw [hb, show calFeature.1 = ⟨["a"], false, false⟩ from rfl, calCfg] at this
    exact this (by show b ≤ 1; omega)) (by
    intro p x hx
    simp only [quantileEstimator, genericTotal, quantileCostsFlt, quotientFlt] at hx
    split_ifs at hx <;> rw [Flt.fin.injEq] at hx <;> rw [← hx]
    refine div_nonneg (List.sum_nonneg fun v hv => ?_) (List.sum_nonneg fun v hv => ?_)
    · obtain ⟨t, ht, rfl⟩ := List.mem_map.mp hv
      obtain ⟨i, -, rfl⟩ := List.mem_map.mp ht
      refine mul_nonneg ?_ zero_le_one
      unfold pinball
      split_ifs <;> nlinarith
    · obtain ⟨t, ht, rfl⟩ := List.mem_map.mp hv
      obtain ⟨i, -, rfl⟩ := List.mem_map.mp ht
      exact zero_le_one)
  refine ⟨m, hm, fun X i => hp X i, fun b hb => ?_⟩
  have := C111_quantile_additive plainSetup calData m 0 (1 / 2) (by norm_num) (by norm_num) bestMinimize bestMinimize_finds hm 0 calFeature
    rfl b (calUnsmoothed b hb)
  simp only [mul_zero, sub_zero, add_zero] at this
  have hW : sumInBin calData calFeature b calData.w = 2 := by
    rw [calSum]
    interval_cases b <;> norm_num [calData]
  rw [hW] at this
  norm_num at this
  exact this

end

end CB
