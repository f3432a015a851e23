import Verif.Props.OneFeature
import Verif.Props.OneFeatureLimit
import Verif.Props.CalibrationExample

/-!
# When C117 applies
-/

set_option autoImplicit false
set_option linter.unusedSectionVars false

namespace CB
open Finset Spec

noncomputable section

/-- Two unsmoothed bins are smoothed alike. -/
theorem smoothedAlike_of_unsmoothed {σ : Type*} (S : Setup σ) (D : TrainSet) (f : FeatureSpec × SmootherKind) (b b' : ℕ)
    (h : Unsmoothed S D f b) (h' : Unsmoothed S D f b') : SmoothedAlike S D f b b' := .inr ⟨h, h'⟩

theorem oneCfg : calFeature.1.cfg exData.X exData.n = ⟨["a"], false, 2, fun s => [0, 1].getD s 0, false⟩ := by
  rw [show calFeature.1 = ⟨["a"], false, false⟩ from rfl]
  simp [FeatureSpec.cfg, show exData.n = 2 from rfl, exBind]

theorem oneSum (x : ℕ → ℝ) (b : ℕ) : sumInBin exData calFeature b x = (if b = 0 then x 0 else 0) + if b = 1 then x 1 else 0 := by
  unfold sumInBin
  rw [oneCfg, show exData.n = 2 from rfl, sum_filter]
  simp only [sum_range_succ, range_zero, sum_empty]
  rcases b with - | - | b <;> simp

theorem oneInts : ∀ c, calFeature.1.group = [c] → ∀ i < exData.n, ∀ x : ℝ, exData.X i c = .fin x → ∃ k : ℤ, x = (k : ℝ) := by
  intro c _ i _ x hx
  simp only [exData, Flt.fin.injEq] at hx
  refine ⟨if i = 0 then 0 else 1, ?_⟩
  rw [← hx]
  split_ifs <;> simp

/-- The targets and weights of a training set like `exData` do not matter for the smoothing, as long as there is weight. -/
theorem oneUnsmoothed (y w : ℕ → ℝ) (hw : ∀ i, w i ≠ 0) (b : ℕ) (hb : b < 2) :
    Unsmoothed plainSetup { exData with y := y, w := w } calFeature b := by
  have hn : (calFeature.1.cfg exData.X exData.n).nFinite = 2 := by rw [oneCfg]
  refine C111_no_smoothing plainSetup noOpen plainChoice none [["a"]] rfl plainFeatures rfl (by simp) _ calFeature
    (List.mem_singleton.mpr rfl) b (by show b < (calFeature.1.cfg exData.X exData.n).nFinite; rw [hn]; exact hb) ?_
  show sumInBin exData calFeature b w ≠ 0
  rw [oneSum]
  interval_cases b <;> simp [hw]

/-- Witness for C117, background subtraction: samples 0 and 1 with targets 0 and 2. -/
example : ∃ m, OneFeatureModel plainSetup (gbsEstimator 0) exData m calFeature ∧
    m.predict none exData.X 0 ≤ m.predict none exData.X 1 ∧
    0 ≤ m.predict none exData.X 0 ∧ m.predict none exData.X 0 ≤ 1 ∧ 1 ≤ m.predict none exData.X 1 ∧ m.predict none exData.X 1 ≤ 2 := by
  have hsm := C80_no_smoothing plainSetup noOpen plainChoice none [["a"]] rfl plainFeatures rfl exData
  have hw : ∀ i < exData.n, 0 ≤ exData.w i := fun _ _ => by simp [exData]
  have hlr : ∀ k, 0 ≤ plainSetup.learnRate k ∧ plainSetup.learnRate k ≤ 1 := fun k => by simp [plainSetup]
  obtain ⟨hnd, m, hm⟩ := C80_fit_succeeds plainSetup exData 0 rfl le_rfl hw hlr (by simp [plainSetup]) hsm
    (by simp [exData]) le_rfl rfl (by norm_num [plainSetup, exSetup]) (by norm_num [plainSetup, exSetup]) 5 le_rfl
  have h : OneFeatureModel plainSetup (gbsEstimator 0) exData m calFeature :=
    ⟨⟨5, hm⟩, rfl, rfl, rfl, rfl, by simp [calFeature], oneInts, hw, rfl, hnd, hlr⟩
  have hb0 : (calFeature.1.cfg exData.X exData.n).bin 0 = 0 := by rw [oneCfg]; rfl
  have hb1 : (calFeature.1.cfg exData.X exData.n).bin 1 = 1 := by rw [oneCfg]; rfl
  have hu := fun b hb => oneUnsmoothed exData.y exData.w (fun _ => one_ne_zero) b hb
  refine ⟨m, h, ?_, ?_⟩
  · refine C117_gbs_order 0 le_rfl h 1 0 (by decide) (by decide) (.inr ⟨by rw [hb1]; exact hu 1 (by omega), by rw [hb0]; exact hu 0 (by omega)⟩) ?_ ?_
    · rw [hb0, hb1, oneSum, oneSum]; simp [exData]
    · rw [hb0, hb1, oneSum, oneSum]; simp [exData]
  · have r0 := C117_gbs_range 0 le_rfl h hsm 0 (by decide) (by rw [hb0, oneSum]; simp [exData])
    have r1 := C117_gbs_range 0 le_rfl h hsm 1 (by decide) (by rw [hb1, oneSum]; simp [exData])
    rw [hb0] at r0
    rw [hb1] at r1
    simp only [oneSum] at r0 r1
    simp [exData, sum_range_succ] at r0 r1
    exact ⟨r0.1, r0.2, r1.1, r1.2⟩

/-- The Poisson regression of two bins with one sample each, of targets 1 and 3 and weight 2. -/
theorem poissonOne : NeverDiverges plainSetup (poissonEstimator trueMedian) poData ∧
    ∃ m, plainSetup.fit (poissonEstimator trueMedian) poData 1 = some (.ok m) ∧ m.features.map (·.group) = [["a"]] := by
  have hbind : bindData poData.X 2 ["a"] none = ([0, 1], [2]) := exBind
  obtain ⟨m4, m4'⟩ := GammaMedian.bounds trueMedian_ok 4 (by norm_num)
  obtain ⟨m8, m8'⟩ := GammaMedian.bounds trueMedian_ok 8 (by norm_num)
  norm_num at m4 m8
  have hs : (poissonEstimator trueMedian).scale poData.n poData.y poData.w = .fin (Real.log (2001 / 1000)) := by
    simp only [poissonEstimator, globalScaleLink, poData, sum_range_succ, range_zero, sum_empty]
    norm_num [quotientFlt, Flt.addFin, linkFlt]
  have hcfg : plainSetup.cfgs poData = [exC] := by
    simp [Setup.cfgs, plainSetup, exC, FeatureSpec.cfg, show poData.n = 2 from rfl, hbind]
  have hb : baseline (poissonEstimator trueMedian) poData (Real.log (2001 / 1000)) = fun _ => Real.log (2001 / 1000) := by
    funext s; exact baseline_none _ rfl s
  refine oneIteration plainSetup (poissonEstimator trueMedian) poData (Real.log (2001 / 1000)) ?_ hs rfl rfl (by norm_num [exSetup, plainSetup])
    (by norm_num [exSetup, plainSetup]) ?_
  · intro i _
    simp only [poData, poissonEstimator]
    positivity
  · rw [hb, hcfg]
    have he : Real.exp (Real.log (2001 / 1000)) = 2001 / 1000 := Real.exp_log (by norm_num)
    have hest : ∀ b < 2, ((poissonEstimator trueMedian).parameters 0 2 (fun s => [0, 1].getD s 0) poData.y poData.w
        (fun _ => Real.log (2001 / 1000)) b).1 = Real.log (if b = 0 then trueMedian 4 / 5.68034 else trueMedian 8 / 5.68034) := by
      intro b hb
      interval_cases b <;>
      · simp [poissonEstimator, poissonCalcParameters, poissonPrecalc, calcFactorsAndUncertainties, calcFactorFromPosterior, gammaPriors,
          binSum, poData, sum_range_succ, he]
        norm_num
    have hpred : ∀ il, ∀ s < 2, (featurePass (plainSetup.paramsFor (poissonEstimator trueMedian)) (plainSetup.oracle (poissonEstimator trueMedian) poData) 0 0 false il
        0 [exC] [FState.init] ⟨fun _ => Real.log (2001 / 1000), fun _ => 0⟩).2.factors s =
          Real.log (2001 / 1000) + Real.log (if s = 0 then trueMedian 4 / 5.68034 else trueMedian 8 / 5.68034) := by
      intro il s hs2
      have hc : (plainSetup.paramsFor (poissonEstimator trueMedian)).clip = true := by simp [Setup.paramsFor, poissonEstimator]
      have ha : (plainSetup.paramsFor (poissonEstimator trueMedian)).aggregate = true := rfl
      have hk : skipped (plainSetup.paramsFor (poissonEstimator trueMedian)) 0 exC = false := rfl
      have hl : (plainSetup.oracle (poissonEstimator trueMedian) poData).learnRate 1 = 1 := rfl
      have hco : (plainSetup.paramsFor (poissonEstimator trueMedian)).consts = realConsts := rfl
      have hcal : ∀ fs : FState ℝ, (plainSetup.oracle (poissonEstimator trueMedian) poData).calibrate 0 0 fs = fs.factors := fun _ => rfl
      have hbs : ([0, 1] : List ℕ).getD s 0 = s := by interval_cases s <;> rfl
      have hsm : ∀ fs, (plainSetup.oracle (poissonEstimator trueMedian) poData).smooth 0 0 ⟨fun _ => Real.log (2001 / 1000), fun _ => 0⟩ fs
          ((plainSetup.oracle (poissonEstimator trueMedian) poData).estimate 0 0 ⟨fun _ => Real.log (2001 / 1000), fun _ => 0⟩ FState.init) s =
          some (Real.log (if s = 0 then trueMedian 4 / 5.68034 else trueMedian 8 / 5.68034)) := by
        intro fs
        have hu := oneUnsmoothed poData.y poData.w (fun _ => two_ne_zero) s hs2
        rcases hu with ⟨-, hu⟩ | ⟨hu, -⟩
        · refine (hu _ _).trans ?_
          congr 1
          rw [← hest s hs2]
          show ((poissonEstimator trueMedian).parameters 0 2 (calFeature.1.cfg exData.X exData.n).bin poData.y poData.w
            (fun _ => Real.log (2001 / 1000)) s).1 = _
          rw [oneCfg]
        · have : s = 2 := by rw [hu]; show (calFeature.1.cfg exData.X exData.n).nFinite = 2; rw [oneCfg]
          omega
      set r : ℝ := if s = 0 then trueMedian 4 / 5.68034 else trueMedian 8 / 5.68034 with hr
      have hr1 : (0.5 : ℝ) ≤ r := by rw [hr]; split_ifs <;> norm_num <;> linarith
      have hr2 : r ≤ 2 := by rw [hr]; split_ifs <;> norm_num <;> linarith
      have hhalf : Real.log 0.5 ≤ Real.log r := Real.log_le_log (by norm_num) hr1
      have hlog : Real.log r ≤ Real.log 2 := Real.log_le_log (by linarith) hr2
      simp only [featurePass, hk, if_true, Bool.false_eq_true, if_false, featureIteration, ha, visitFactors, hc, Bool.and_true,
        hl, hcal, updateFactors, FState.init, Pred.update, predInSample, clipUpdate, predictFactors, hco]
      have hsm' := hsm (updateFactors exC FState.init ((plainSetup.oracle (poissonEstimator trueMedian) poData).estimate 0 0
        ⟨fun _ => Real.log (2001 / 1000), fun _ => 0⟩ FState.init) 1)
      simp only [updateFactors, FState.init, Bool.false_eq_true, if_false] at hsm'
      rw [hbs, if_pos hs2]
      rw [hsm']
      simp only [clipTo, realConsts]
      rw [one_mul, max_eq_left hhalf, min_eq_left hlog]
    simp only [List.map_cons, List.map_nil]
    have h0 := hpred ((plainSetup.oracle (poissonEstimator trueMedian) poData).loss ⟨fun _ => Real.log (2001 / 1000), fun _ => 0⟩) 0 (by norm_num)
    have h1 := hpred ((plainSetup.oracle (poissonEstimator trueMedian) poData).loss ⟨fun _ => Real.log (2001 / 1000), fun _ => 0⟩) 1 (by norm_num)
    revert h0 h1
    generalize (featurePass (plainSetup.paramsFor (poissonEstimator trueMedian)) _ _ _ _ _ _ _ _ _).2 = q
    intro h0 h1
    rw [if_pos rfl] at h0
    rw [if_neg one_ne_zero] at h1
    simp only [Setup.oracle, poissonEstimator, squaredLoss, LinkKind.toLink, logLink, poData, sum_range_succ, range_zero, sum_empty, h0, h1,
      Real.exp_add, he, Real.exp_log (show (0 : ℝ) < trueMedian 4 / 5.68034 by norm_num; linarith),
      Real.exp_log (show (0 : ℝ) < trueMedian 8 / 5.68034 by norm_num; linarith)]
    norm_num [quotientFlt, isDiverged, Flt.twice, Flt.gt]
    nlinarith

/-- Witness for C117, Poisson regression. -/
example : ∃ m, OneFeatureModel plainSetup (poissonEstimator trueMedian) poData m calFeature ∧
    m.predict none poData.X 0 ≤ m.predict none poData.X 1 ∧
    0.994 ≤ m.predict none poData.X 0 ∧ m.predict none poData.X 0 ≤ 2.001 ∧ 2.001 ≤ m.predict none poData.X 1 ∧
    m.predict none poData.X 1 ≤ 3.161 := by
  obtain ⟨hnd, m, hm, -⟩ := poissonOne
  have hsm := C80_no_smoothing plainSetup noOpen plainChoice none [["a"]] rfl plainFeatures rfl poData
  have hlr : ∀ k, 0 ≤ plainSetup.learnRate k ∧ plainSetup.learnRate k ≤ 1 := fun k => by simp [plainSetup]
  have h : OneFeatureModel plainSetup (poissonEstimator trueMedian) poData m calFeature :=
    ⟨⟨1, hm⟩, rfl, rfl, rfl, rfl, by simp [calFeature], oneInts, fun _ _ => by simp [poData], rfl, hnd, hlr⟩
  have hb0 : (calFeature.1.cfg poData.X poData.n).bin 0 = 0 := by show (calFeature.1.cfg exData.X exData.n).bin 0 = 0; rw [oneCfg]; rfl
  have hb1 : (calFeature.1.cfg poData.X poData.n).bin 1 = 1 := by show (calFeature.1.cfg exData.X exData.n).bin 1 = 1; rw [oneCfg]; rfl
  have hu := fun b hb => oneUnsmoothed poData.y poData.w (fun _ => two_ne_zero) b hb
  have hsum : ∀ (x : ℕ → ℝ) (b : ℕ), sumInBin poData calFeature b x = (if b = 0 then x 0 else 0) + if b = 1 then x 1 else 0 := oneSum
  have hy : ∀ i < poData.n, 0 ≤ poData.y i := fun i _ => by simp only [poData]; positivity
  refine ⟨m, h, ?_, ?_⟩
  · refine C117_poisson_order trueMedian trueMedian_ok h hy 1 0 (by decide) (by decide)
      (.inr ⟨by rw [hb1]; exact hu 1 (by omega), by rw [hb0]; exact hu 0 (by omega)⟩) ?_ ?_
    · rw [hb0, hb1, hsum, hsum]; simp [poData]
    · rw [hb0, hb1, hsum, hsum]; simp [poData]
  · have r0 := C117_poisson_range trueMedian trueMedian_ok h hy hsm 0 (by decide) (by rw [hb0, hsum]; simp [poData])
    have r1 := C117_poisson_range trueMedian trueMedian_ok h hy hsm 1 (by decide) (by rw [hb1, hsum]; simp [poData])
    rw [hb0] at r0
    rw [hb1] at r1
    simp only [hsum] at r0 r1
    norm_num [poData, sum_range_succ] at r0 r1
    norm_num
    change _ ≤ m.predict none poData.X 0 ∧ _ at r0
    exact ⟨r0.1, r0.2, r1.1, r1.2⟩

/-- Witness for C151: two bins with one sample each, of targets 1 and 3 and weight 2. The limit for the first one is near 1, and every
iteration halves the distance to it at least. -/
example : ∃ m, OneFeatureModel plainSetup (poissonEstimator trueMedian) poData m calFeature ∧
    (0.994 < (trueMedian 4 - 1.67834) / 2 ∧ (trueMedian 4 - 1.67834) / 2 < 1.162) ∧
    (trueMedian 4 - 1.67834) / 2 ≤ m.predict none poData.X 0 ∧ m.predict none poData.X 0 ≤ 2.001 ∧
    |Real.log (m.predict none poData.X 0) - Real.log ((trueMedian 4 - 1.67834) / 2)| ≤
      (1 - 1 / 2) ^ m.iterations * |Real.log 2.001 - Real.log ((trueMedian 4 - 1.67834) / 2)| := by
  obtain ⟨hnd, m, hm, -⟩ := poissonOne
  have hlr : ∀ k, 0 ≤ plainSetup.learnRate k ∧ plainSetup.learnRate k ≤ 1 := fun k => by simp [plainSetup]
  have h : OneFeatureModel plainSetup (poissonEstimator trueMedian) poData m calFeature :=
    ⟨⟨1, hm⟩, rfl, rfl, rfl, rfl, by simp [calFeature], oneInts, fun _ _ => by simp [poData], rfl, hnd, hlr⟩
  have hb0 : (calFeature.1.cfg poData.X poData.n).bin 0 = 0 := by show (calFeature.1.cfg exData.X exData.n).bin 0 = 0; rw [oneCfg]; rfl
  have hsum : ∀ (x : ℕ → ℝ) (b : ℕ), sumInBin poData calFeature b x = (if b = 0 then x 0 else 0) + if b = 1 then x 1 else 0 := oneSum
  have hy : ∀ i < poData.n, 0 ≤ poData.y i := fun i _ => by simp only [poData]; positivity
  obtain ⟨m4, m4'⟩ := GammaMedian.bounds trueMedian_ok 4 (by norm_num)
  norm_num at m4
  have e1 : sumInBin poData calFeature ((calFeature.1.cfg poData.X poData.n).bin 0) poData.w = 2 := by
    rw [hb0, hsum]; simp [poData]
  have e2 : (sumInBin poData calFeature ((calFeature.1.cfg poData.X poData.n).bin 0) fun k => poData.w k * poData.y k) + 2 = 4 := by
    rw [hb0, hsum]; norm_num [poData]
  have e3 : (∑ k ∈ range poData.n, poData.w k * poData.y k) / (∑ k ∈ range poData.n, poData.w k) + 0.001 = 2.001 := by
    norm_num [poData, sum_range_succ]
  have r := C151_rate trueMedian trueMedian_ok h hy rfl 0 (by decide)
    (by rw [hb0]; exact oneUnsmoothed poData.y poData.w (fun _ => two_ne_zero) 0 (by omega)) (by rw [e1]; norm_num) (1 / 2)
  dsimp only at r
  rw [e1, e2, e3] at r
  set l := (trueMedian 4 - 1.67834) / 2 with hl
  have l1 : 0.994 < l := by rw [hl]; norm_num; linarith
  have l2 : l < 1.162 := by rw [hl]; norm_num; linarith
  have l0 : 0 < l := lt_trans (by norm_num) l1
  have hmin : min 2.001 l = l := min_eq_right (by norm_num at *; linarith)
  have hmax : max 2.001 l = 2.001 := max_eq_left (by norm_num at *; linarith)
  rw [hmin, hmax] at r
  refine ⟨m, h, ⟨l1, l2⟩, r ?_ ?_ ?_ ?_ ?_ ?_ ?_⟩
  · rw [le_div_iff₀ (by norm_num)]
    norm_num [minFactor, calFeature] at *
    linarith
  · rw [div_le_iff₀ (by norm_num)]
    norm_num [maxFactor, calFeature] at *
    linarith
  · norm_num
  · norm_num
  · norm_num
  · intro k _
    show 1 / 2 ≤ 1 * _
    rw [one_mul, le_div_iff₀ (by positivity)]
    norm_num at *
    linarith
  · have h1 : Real.log l ≤ Real.log 2.001 := Real.log_le_log l0 (by norm_num at *; linarith)
    rw [abs_of_nonneg (by linarith), ← Real.log_div (by norm_num) l0.ne']
    have h2 : Real.log (2.001 / l) ≤ Real.log (2 ^ 2) := by
      refine Real.log_le_log (by positivity) ?_
      rw [div_le_iff₀ l0]
      norm_num at *
      linarith
    rw [Real.log_pow] at h2
    push_cast at h2
    linarith

end
end CB
