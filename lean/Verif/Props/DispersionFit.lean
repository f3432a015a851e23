import Verif.Model.DispersionFit
import Verif.Spec.Dispersion
import Verif.Props.NegBinomial
import Verif.Props.Nbinom
import Verif.Props.CostDescent
import Verif.Props.SmootherCentres
import Verif.Props.Rows
import Verif.Props.Api

/-!
# C95: training of the dispersion model
-/

set_option autoImplicit false
set_option linter.unusedSectionVars false

namespace CB
open Finset Spec

/-! ### The log-probabilities -/

theorem nbinomCoeff_gamma (n : ℝ) (hn : 0 < n) (k : ℕ) :
    nbinomCoeff n k = Real.Gamma (n + k) / (Real.Gamma (k + 1) * Real.Gamma n) := by
  have hg := (Real.Gamma_pos_of_pos hn).ne'
  induction k with
  | zero => simp [nbinomCoeff, hg]
  | succ k ih =>
    have h1 : Real.Gamma (n + ((k : ℝ) + 1)) = (n + k) * Real.Gamma (n + k) := by
      rw [← add_assoc]
      exact Real.Gamma_add_one (by positivity)
    have h2 : Real.Gamma ((k : ℝ) + 1 + 1) = (k + 1) * Real.Gamma (k + 1) := Real.Gamma_add_one (by positivity)
    have h3 := (Real.Gamma_pos_of_pos (show (0 : ℝ) < k + 1 by positivity)).ne'
    have h4 : (k : ℝ) + 1 ≠ 0 := by positivity
    rw [nbinomCoeff_succ, ih]
    push_cast
    rw [h1, h2]
    field_simp

theorem nbinomCoeff_pos (n : ℝ) (hn : 0 < n) (k : ℕ) : 0 < nbinomCoeff n k := by
  unfold nbinomCoeff
  exact Finset.prod_pos fun i _ => by positivity

/-- **C95**, log-probabilities: what the code computes with `lgamma` is the logarithm of the probability. -/
theorem C95_log_pmf (n p : ℝ) (hn : 0 < n) (h0 : 0 < p) (h1 : p < 1) (k : ℕ) :
    nbinomLogPmf k n p = .fin (Real.log (nbinomPmf n p k)) ∧ 0 < nbinomPmf n p k ∧ nbinomPmf n p k ≤ 1 := by
  have hq : 0 < 1 - p := by linarith
  have hc := nbinomCoeff_pos n hn k
  have hpn : 0 < p ^ n := Real.rpow_pos_of_pos h0 n
  have hpos : ∀ j, 0 < nbinomPmf n p j := fun j => by
    have := nbinomCoeff_pos n hn j
    unfold nbinomPmf
    positivity
  refine ⟨?_, hpos k, ?_⟩
  · have hk : (0 : ℝ) < k + 1 := by positivity
    have g1 := (Real.Gamma_pos_of_pos (show 0 < n + k by positivity)).ne'
    have g2 := (Real.Gamma_pos_of_pos hk).ne'
    have g3 := (Real.Gamma_pos_of_pos hn).ne'
    unfold nbinomLogPmf nbinomPmf
    rw [if_pos hn, Real.log_mul (by positivity) (by positivity), Real.log_mul hc.ne' hpn.ne', nbinomCoeff_gamma n hn k,
      Real.log_div g1 (mul_ne_zero g2 g3), Real.log_mul g2 g3, Real.log_rpow h0, Real.log_pow]
    congr 1
    ring
  · have hs := nbinomPmf_hasSum n p h0 h1
    exact le_hasSum hs k fun j _ => (hpos j).le

/-- The loss of the code is the penalised negative log-likelihood, and not negative. -/
theorem sampleLoss_spec (gamma mu c : ℝ) (hmu : 0 < mu) (hc : 0 < c) (count : ℕ) :
    sampleLoss nbinomLogPmf gamma count mu c = negLogLikelihood mu c count + gamma * |c| ∧ 0 ≤ negLogLikelihood mu c count := by
  have hd : 1 < 1 + c * mu := by nlinarith
  have h0 : 0 < nbinomP c mu := by
    unfold nbinomP
    exact lt_min (by positivity) (by norm_num)
  have h1 : nbinomP c mu < 1 := by
    unfold nbinomP
    exact lt_of_le_of_lt (min_le_right _ _) (by norm_num)
  have hn : 0 < nbinomN c mu := by
    unfold nbinomN
    have : 0 < 1 - nbinomP c mu := by linarith
    positivity
  obtain ⟨e, hp, hle⟩ := C95_log_pmf _ _ hn h0 h1 count
  constructor
  · unfold sampleLoss
    rw [e]
    rfl
  · show 0 ≤ -Real.log (nbinomPmf (nbinomN c mu) (nbinomP c mu) count)
    rw [neg_nonneg]
    exact Real.log_nonpos hp.le hle

theorem sigmoid_pos (x : ℝ) : 0 < sigmoid x := by unfold sigmoid; positivity

/-! ### Training -/

/-- With smoothers that keep the values and learning rate 1 the update of a bin is the estimate, or nothing. -/
theorem update_keeps (cfg : FeatureCfg) (fs : FState ℝ) (estimate : ℕ → ℝ) (smoothed : ℕ → Option ℝ)
    (hs : ∀ b v, smoothed b = some v → v = estimate b) (b : ℕ) (hb : b ≤ cfg.nFinite) :
    predictFactors cfg (updateFactors cfg fs estimate 1) smoothed 1 b = 0 ∨
      predictFactors cfg (updateFactors cfg fs estimate 1) smoothed 1 b = estimate b := by
  unfold predictFactors updateFactors
  by_cases hlt : b < cfg.nFinite
  · rw [if_pos hlt]
    by_cases hzs : fs.zeroSmoother = true
    · left; simp [hzs]
    · simp only [hzs]
      cases hsb : smoothed b with
      | none => left; rfl
      | some v => right; simp [hs b v hsb]
  · have : b = cfg.nFinite := by omega
    subst this
    rw [if_neg hlt]
    simp only [if_true]
    split_ifs
    · left; rfl
    · right; ring

section
variable {σ : Type*} (S : Setup σ) (A : DispersionArgs) (mu : ℕ → ℝ) (D : TrainSet) (counts : ℕ → ℕ)

/-- The training loss of a running prediction. -/
noncomputable def runningLoss (pred : Pred ℝ) : ℝ :=
  lossNbinomC nbinomLogPmf A.gamma D.n D.y mu fun i => sigmoid (pred.factors i)

theorem running_spec (hmu : ∀ i < D.n, 0 < mu i) (hy : ∀ i < D.n, D.y i = counts i) (hga : 0 ≤ A.gamma) (pred : Pred ℝ) :
    runningLoss A mu D pred = dispersionCost A.gamma D.n counts mu (fun i => sigmoid (pred.factors i)) ∧
      0 ≤ runningLoss A mu D pred := by
  have h := fun i (hi : i < D.n) => sampleLoss_spec A.gamma (mu i) _ (hmu i hi) (sigmoid_pos (pred.factors i)) (counts i)
  have e : runningLoss A mu D pred = dispersionCost A.gamma D.n counts mu (fun i => sigmoid (pred.factors i)) := by
    unfold runningLoss lossNbinomC dispersionCost
    congr 1
    refine Finset.sum_congr rfl fun i hi => ?_
    rw [hy i (Finset.mem_range.mp hi), (h i (Finset.mem_range.mp hi)).1]
  refine ⟨e, ?_⟩
  rw [e]
  unfold dispersionCost
  refine div_nonneg (Finset.sum_nonneg fun i hi => ?_) (Nat.cast_nonneg _)
  exact add_nonneg (h i (Finset.mem_range.mp hi)).2 (mul_nonneg hga (abs_nonneg _))

theorem dispersion_not_diverged (hmu : ∀ i < D.n, 0 < mu i) (hy : ∀ i < D.n, D.y i = counts i) (hga : 0 ≤ A.gamma) (a b : Pred ℝ)
    (h : runningLoss A mu D a ≤ runningLoss A mu D b) :
    isDiverged ((S.oracle (dispersionEstimator A mu) D).loss b) ((S.oracle (dispersionEstimator A mu) D).loss a) = false := by
  have hb := (running_spec A mu D counts hmu hy hga b).2
  show isDiverged (.fin (runningLoss A mu D b)) (.fin (runningLoss A mu D a)) = false
  simp only [isDiverged, Flt.twice, Flt.gt, decide_eq_false_iff_not, not_lt]
  linarith

/-- No visit of a feature increases the loss. -/
theorem dispersion_visit (hb : A.bayes = false) (hagg : S.params.aggregate = true) (hlr : ∀ k, S.learnRate k = 1)
    (hg : ∀ f ∈ S.features, f.1.group ≠ []) (hsm : KeepingSmoothers S D) (it j : ℕ) (cfg : FeatureCfg)
    (hj : (S.cfgs D)[j]? = some cfg) (dv : ℕ) (isd : Bool) (il : Flt ℝ) (fs : FState ℝ) (pred : Pred ℝ) :
    runningLoss A mu D (featureIteration (S.paramsFor (dispersionEstimator A mu)) (S.oracle (dispersionEstimator A mu) D) it j cfg dv
      isd il fs pred).2 ≤ runningLoss A mu D pred := by
  unfold Setup.cfgs at hj
  rw [List.getElem?_map] at hj
  cases hf : S.features[j]? with
  | none => rw [hf] at hj; simp at hj
  | some f =>
    rw [hf] at hj
    simp only [Option.map_some, Option.some.injEq] at hj
    subst hj
    have hmem : f ∈ S.features := List.mem_of_getElem? hf
    rw [update_plain (S.paramsFor (dispersionEstimator A mu)) hagg (by simp [Setup.paramsFor, dispersionEstimator])
      (S.oracle (dispersionEstimator A mu) D) it j (f.1.cfg D.X D.n) dv isd il fs pred (by
      intro it i fs
      unfold Setup.oracle
      dsimp only
      cases S.features[i]? with
      | none => rfl
      | some f => rfl)]
    unfold Pred.update
    by_cases hx : (f.1.cfg D.X D.n).external = true
    · rw [if_pos hx]; exact le_rfl
    · rw [if_neg hx]
      set o := S.oracle (dispersionEstimator A mu) D with ho
      set codes := (f.1.cfg D.X D.n).bin with hcodes
      generalize hgdef : predictFactors (f.1.cfg D.X D.n) (updateFactors (f.1.cfg D.X D.n) fs (o.estimate it j pred fs)
        (o.learnRate (it + 1))) (o.smooth it j pred (updateFactors (f.1.cfg D.X D.n) fs (o.estimate it j pred fs)
          (o.learnRate (it + 1))) (o.estimate it j pred fs)) (o.learnRate (it + 1)) = g
      have hrate : o.learnRate (it + 1) = 1 := hlr _
      have hest : ∀ b, o.estimate it j pred fs b =
          (nbinomCCalcParameters nbinomLogPmf A.gamma false A.nSteps it D.n codes D.y mu pred.factors b).1 := by
        intro b
        simp only [ho, Setup.oracle, hf, dispersionEstimator, hb]
        rfl
      have hgb : ∀ i < D.n, g (codes i) = 0 ∨ g (codes i) = o.estimate it j pred fs (codes i) := by
        intro i hi
        rw [← hgdef, hrate]
        refine update_keeps _ fs _ _ ?_ _ (cfg_bin_le f.1 (hg f hmem) D.X D.n i hi)
        intro b v hv
        simp only [ho, Setup.oracle, hf] at hv ⊢
        exact hsm f hmem _ _ b v hv
      unfold runningLoss lossNbinomC
      refine div_le_div_of_nonneg_right ?_ (Nat.cast_nonneg _)
      rw [sum_by_bin D.n codes, sum_by_bin D.n codes (fun i => sampleLoss nbinomLogPmf A.gamma (D.y i) (mu i)
        (sigmoid (pred.factors i)))]
      refine Finset.sum_le_sum fun b hb' => ?_
      obtain ⟨i0, hi0, rfl⟩ := Finset.mem_image.mp hb'
      have h1 : binSum D.n codes (fun i => sampleLoss nbinomLogPmf A.gamma (D.y i) (mu i)
          (sigmoid (pred.factors i + g (codes i)))) (codes i0) =
          binnedLoss nbinomLogPmf A.gamma D.n codes D.y mu pred.factors (g (codes i0)) (codes i0) := by
        unfold binnedLoss binSum
        refine Finset.sum_congr rfl fun i _ => ?_
        by_cases hc : codes i = codes i0
        · simp only [hc, if_true, add_comm (pred.factors i)]
        · simp [hc]
      have h2 : binSum D.n codes (fun i => sampleLoss nbinomLogPmf A.gamma (D.y i) (mu i) (sigmoid (pred.factors i))) (codes i0) =
          binnedLoss nbinomLogPmf A.gamma D.n codes D.y mu pred.factors 0 (codes i0) := by
        unfold binnedLoss
        simp only [zero_add]
      refine (le_of_eq h1).trans (le_trans ?_ (le_of_eq h2.symm))
      rcases hgb i0 (Finset.mem_range.mp hi0) with h | h
      · rw [h]
      · rw [h, hest]
        exact (C45_minimal nbinomLogPmf A.gamma A.nSteps it D.n codes D.y mu pred.factors (codes i0)).2.2

theorem dispersion_pass (hb : A.bayes = false) (hagg : S.params.aggregate = true) (hlr : ∀ k, S.learnRate k = 1)
    (hg : ∀ f ∈ S.features, f.1.group ≠ []) (hsm : KeepingSmoothers S D) (it : ℕ) (fss : List (FState ℝ)) (pred : Pred ℝ) (dv : ℕ)
    (isd : Bool) (il : Flt ℝ) :
    runningLoss A mu D (featurePass (S.paramsFor (dispersionEstimator A mu)) (S.oracle (dispersionEstimator A mu) D) it dv isd il 0
      (S.cfgs D) fss pred).2 ≤ runningLoss A mu D pred :=
  pass_descends _ _ _ it dv isd il (S.cfgs D) 0 fss pred fun j cfg hj fs pr => by
    rw [Nat.zero_add]
    exact dispersion_visit S A mu D hb hagg hlr hg hsm it j cfg hj dv isd il fs pr

/-- **C95.** Counts with positive means, no Bayesian averaging, learning rate 1 (the default) and smoothers that keep the values of
the bins: the penalised negative log-likelihood of the training data never increases from one iteration to any later one, and
training never diverges. -/
theorem C95_never_increases (hb : A.bayes = false) (hga : 0 ≤ A.gamma) (hmu : ∀ i < D.n, 0 < mu i)
    (hy : ∀ i < D.n, D.y i = counts i) (hagg : S.params.aggregate = true) (hlr : ∀ k, S.learnRate k = 1)
    (hg : ∀ f ∈ S.features, f.1.group ≠ []) (hsm : KeepingSmoothers S D) (prior : ℕ → ℝ) (past : List (TState ℝ)) (s : TState ℝ)
    (h : Trace (S.paramsFor (dispersionEstimator A mu)) (S.oracle (dispersionEstimator A mu) D) (S.cfgs D)
      (startState (S.oracle (dispersionEstimator A mu) D) (S.cfgs D) prior) past s) :
    (∀ t ∈ past, dispersionCost A.gamma D.n counts mu (fun i => 1 / (1 + Real.exp (-s.pred.factors i))) ≤
        dispersionCost A.gamma D.n counts mu fun i => 1 / (1 + Real.exp (-t.pred.factors i))) ∧
      dispersionCost A.gamma D.n counts mu (fun i => 1 / (1 + Real.exp (-s.pred.factors i))) ≤
        dispersionCost A.gamma D.n counts mu (fun i => 1 / (1 + Real.exp (-prior i))) ∧ s.diverging = 0 := by
  obtain ⟨h1, h2, h3, -, -⟩ := trace_descends _ _ _ prior (runningLoss A mu D)
    (dispersion_pass S A mu D hb hagg hlr hg hsm) (dispersion_not_diverged S A mu D counts hmu hy hga) past s h
  have e := fun p => (running_spec A mu D counts hmu hy hga p).1
  rw [e, e] at h2
  refine ⟨fun t ht => ?_, h2, h3⟩
  have := h1 t ht
  rw [e, e] at this
  exact this

/-- **C95**, success: such a fit never fails, and never diverges. -/
theorem C95_fit_succeeds (hb : A.bayes = false) (hga : 0 ≤ A.gamma) (hmu : ∀ i < D.n, 0 < mu i)
    (hy : ∀ i < D.n, D.y i = counts i) (hagg : S.params.aggregate = true) (hlr : ∀ k, S.learnRate k = 1)
    (hg : ∀ f ∈ S.features, f.1.group ≠ []) (hsm : KeepingSmoothers S D)
    (hm : 1 ≤ S.params.maximalIterations) (hh : S.params.hierarchical = none)
    (hf : S.params.minimalFactorChange < 100) (hlc : S.params.minimalLossChange < 100000000000000000000)
    (fuel : ℕ) (hfuel : S.params.maximalIterations + 4 ≤ fuel) :
    NeverDiverges S (dispersionEstimator A mu) D.clipPrior ∧ ∃ m, dispersionFit S A mu D fuel = some (.ok m) := by
  have hsm' : KeepingSmoothers S D.clipPrior := hsm
  refine ⟨fun a _ past s h => (C95_never_increases S A mu D.clipPrior counts hb hga hmu hy hagg hlr hg hsm' _ past s h).2.2, ?_⟩
  refine fit_succeeds S _ D.clipPrior fuel 0 (fun i hi => ?_) rfl hm hh hf hlc ?_ (by
    unfold normalIterations
    simpa [hh] using hfuel)
  · show 0 ≤ D.y i
    rw [hy i hi]
    exact Nat.cast_nonneg _
  · intro past s h
    have hpass := dispersion_pass S A mu D.clipPrior hb hagg hlr hg hsm'
    have hnd := dispersion_not_diverged S A mu D.clipPrior counts hmu hy hga
    obtain ⟨-, h2, -, h4, h5⟩ := trace_descends _ _ _ _ (runningLoss A mu D.clipPrior) hpass hnd past s h
    rw [h4, h5]
    exact ⟨hnd _ _ h2, hnd _ _ ((hpass _ _ _ _ _ _).trans h2)⟩

/-- **C95**, fitted model: its penalised negative log-likelihood on the training data is at most that of the predictions it
started from. Needed, as in C19: features made of a single column hold integers or special values there. -/
theorem C95_training_cost (hb : A.bayes = false) (hga : 0 ≤ A.gamma) (hmu : ∀ i < D.n, 0 < mu i)
    (hy : ∀ i < D.n, D.y i = counts i) (hagg : S.params.aggregate = true) (hlr : ∀ k, S.learnRate k = 1)
    (hg : ∀ f ∈ S.features, f.1.group ≠ []) (hsm : KeepingSmoothers S D)
    (hint : ∀ f ∈ S.features, ∀ c, f.1.group = [c] → ∀ i < D.n, ∀ x : ℝ, D.X i c = .fin x → ∃ k : ℤ, x = (k : ℝ))
    (fuel : ℕ) (m : FittedModel) (h : dispersionFit S A mu D fuel = some (.ok m)) :
    dispersionCost A.gamma D.n counts mu (dispersionPredict m D.prior D.X) ≤ dispersionCost A.gamma D.n counts mu fun i =>
      1 / (1 + Real.exp (-(priorPrediction .logit (.fin 0) (.fin 0) (D.prior.map fun q s => clipUnit (q s)) i).getFin)) := by
  have hsm' : KeepingSmoothers S D.clipPrior := hsm
  obtain ⟨a, r, -, hs, hfit, rfl⟩ := fit_ok S _ D.clipPrior fuel m h
  have ha : a = 0 := by
    simp only [dispersionEstimator, Flt.fin.injEq] at hs
    exact hs.symm
  subst ha
  have hoff : (dispersionEstimator A mu).offset D.clipPrior = .fin 0 := by
    unfold Estimator.offset
    cases D.clipPrior.prior <;> rfl
  obtain ⟨past, s, ht, hcont, -, hpred, -⟩ := fitMain_ok _ _ _ _ fuel r hfit
  have hd : s.isDiverging = false := by
    unfold continues at hcont
    rw [Bool.or_eq_false_iff] at hcont
    exact hcont.2
  have hdesc := (C95_never_increases S A mu D.clipPrior counts hb hga hmu hy hagg hlr hg hsm' _ past s ht).2.1
  have hcfgs : S.cfgs D.clipPrior = (S.features.map (·.1)).map fun f => f.cfg D.X D.n := by
    unfold Setup.cfgs
    rw [List.map_map]; rfl
  have hbase : ∀ i, baseline (dispersionEstimator A mu) D.clipPrior 0 i =
      (priorPrediction .logit (.fin 0) (.fin 0) (D.prior.map fun q s => clipUnit (q s)) i).getFin := by
    intro i
    unfold baseline
    rw [hoff]
    rfl
  simp only [hbase] at hdesc
  refine le_trans (le_of_eq ?_) hdesc
  unfold dispersionCost
  congr 1
  refine Finset.sum_congr rfl fun i hi => ?_
  have hi : i < D.n := Finset.mem_range.mp hi
  have hpi : r.prediction.factors i = s.pred.factors i := by
    rw [hpred, trace_prediction _ _ _ _ past s ht hd]
  rw [hcfgs] at hfit
  obtain ⟨h1, -⟩ := C19_predict_train (S.paramsFor (dispersionEstimator A mu)) hagg (S.oracle (dispersionEstimator A mu) D.clipPrior)
    D.X D.n (S.features.map (·.1)) (baseline (dispersionEstimator A mu) D.clipPrior 0) fuel r hfit i hi
    (by
      intro f hf
      obtain ⟨q, hq, rfl⟩ := List.mem_map.mp hf
      exact hg q hq)
    (by
      intro f hf c hfc x hx
      obtain ⟨q, hq, rfl⟩ := List.mem_map.mp hf
      exact hint q hq c hfc i hi x hx)
  have e : dispersionPredict ⟨(dispersionEstimator A mu).link, .fin 0, (dispersionEstimator A mu).offset D.clipPrior,
      fittedFeatures D.clipPrior.X D.clipPrior.n (S.features.map (·.1)) r.factors, r.iterations⟩ D.prior D.X i =
      1 / (1 + Real.exp (-s.pred.factors i)) := by
    rw [← hpi, ← h1]
    rfl
  rw [e]

/-- **C95**, range: a predicted dispersion is strictly between 0 and 1, for every fitted model, table and prior prediction. -/
theorem C95_range (fuel : ℕ) (m : FittedModel) (h : dispersionFit S A mu D fuel = some (.ok m)) (prior : Option (ℕ → Flt ℝ))
    (X : Table ℝ) (s : ℕ) : 0 < dispersionPredict m prior X s ∧ dispersionPredict m prior X s < 1 := by
  obtain ⟨a, r, -, -, -, rfl⟩ := fit_ok S _ D.clipPrior fuel m h
  unfold dispersionPredict FittedModel.predict
  simp only [dispersionEstimator, LinkKind.toLink, logitLink]
  generalize (predictExtended _ _ X).factors s = x
  have := Real.exp_pos (-x)
  exact ⟨by positivity, by rw [div_lt_one (by positivity)]; linarith⟩

/-- **C95**, order: permuting the rows together with targets, weights, prior predictions and means gives the same outcome. -/
theorem C95_order (hg : ∀ f ∈ S.features, f.1.group ≠ []) (π : Equiv.Perm ℕ) (hπ : ∀ s, π s < D.n ↔ s < D.n) (fuel : ℕ) :
    dispersionFit S A (fun s => mu (π s)) (resample D π D.n fun s => D.w (π s)) fuel = dispersionFit S A mu D fuel := by
  have hcl : (resample D π D.n fun s => D.w (π s)).clipPrior = resample D.clipPrior π D.n fun s => D.w (π s) := by
    unfold TrainSet.clipPrior resample
    cases D.prior <;> rfl
  unfold dispersionFit
  rw [hcl]
  have hperm : ∀ g : ℕ → ℝ, ∑ i ∈ range D.n, g (π i) = ∑ i ∈ range D.n, g i := by
    intro g
    refine sum_bij (fun s _ => π s) (fun s hs => mem_range.mpr ((hπ s).mpr (mem_range.mp hs))) (fun a _ b _ hab => π.injective hab)
      (fun t ht => ⟨π.symm t, mem_range.mpr ((hπ _).mp ?_), π.apply_symm_apply t⟩) (fun _ _ => rfl)
    rw [π.apply_symm_apply]
    exact mem_range.mp ht
  have hagree : ∀ {β : Type} {f f' : ℕ → β}, Agree D.n D.n (fun s => s) π f f' → ∀ s < D.n, f' s = f (π s) := by
    rintro β f f' ⟨P, h1, h2⟩ s hs
    rw [h2 s hs, h1 (π s) ((hπ s).mpr hs)]
  have hbin : ∀ {codes codes' : ℕ → ℕ} {g g' : ℕ → ℝ}, (∀ s < D.n, codes' s = codes (π s)) → (∀ s < D.n, g' s = g (π s)) →
      ∀ b, binSum D.n codes' g' b = binSum D.n codes g b := by
    intro codes codes' g g' h1 h2 b
    unfold binSum
    rw [← hperm fun i => if codes i = b then g i else 0]
    refine sum_congr rfl fun s hs => ?_
    rw [h1 s (mem_range.mp hs), h2 s (mem_range.mp hs)]
  refine (order_rows S hg D.clipPrior π hπ).fit_at (dispersionEstimator A mu) (dispersionEstimator A fun s => mu (π s)) ?_ fuel
  refine ⟨rfl, ?_, rfl, rfl, ?_, ?_, fun _ _ _ _ => rfl⟩
  · constructor
    · intro hv s hs
      exact hv (π s) ((hπ s).mpr hs)
    · intro hv s hs
      have := hv (π.symm s) ((hπ _).mp (by rw [π.apply_symm_apply]; exact hs))
      have e : 0 ≤ D.y (π (π.symm s)) := this
      rw [π.apply_symm_apply] at e
      exact e
  · intro it codes codes' p p' hc hp
    have h1 := hagree hc
    have h2 := hagree hp
    funext b
    have hl : ∀ c, binnedLoss nbinomLogPmf A.gamma D.n codes' (fun s => D.y (π s)) (fun s => mu (π s)) p' c b =
        binnedLoss nbinomLogPmf A.gamma D.n codes D.y mu p c b := by
      intro c
      unfold binnedLoss
      exact hbin h1 (fun s hs => by rw [h2 s hs]) b
    have hcount : binSum D.n codes' (fun _ => (1 : ℝ)) b = binSum D.n codes (fun _ => 1) b :=
      hbin (g := fun _ => 1) h1 (fun _ _ => rfl) b
    show nbinomCCalcParameters nbinomLogPmf A.gamma A.bayes A.nSteps it D.n codes' (fun s => D.y (π s)) (fun s => mu (π s)) p' b =
      nbinomCCalcParameters nbinomLogPmf A.gamma A.bayes A.nSteps it D.n codes D.y mu p b
    unfold nbinomCCalcParameters calcParametersNbinomC
    simp only [hl, hcount]
  · intro p p' hp
    have h2 := hagree hp
    show Flt.fin (lossNbinomC nbinomLogPmf A.gamma D.n (fun s => D.y (π s)) (fun s => mu (π s)) p') =
      Flt.fin (lossNbinomC nbinomLogPmf A.gamma D.n D.y mu p)
    unfold lossNbinomC
    rw [← hperm fun i => sampleLoss nbinomLogPmf A.gamma (D.y i) (mu i) (p i)]
    congr 2
    exact sum_congr rfl fun s hs => by rw [h2 s (mem_range.mp hs)]

end

/-! ### Objects: what is different for the dispersion model -/

section
variable {σ : Type*}

/-- **C92**, where it fails: the dispersion model cannot be fitted without the column of the means, whatever happened to it
before, although `required_columns` does not list this column (unless it is also used for something else). -/
theorem C92_dispersion_counterexample (C : Config σ) (A : DispersionArgs) (o : DispersionObject) (F : DataFrame) (y : ℕ → ℝ) (fuel : ℕ)
    (hF : A.meanColumn ∉ F.columns) (new : EstimatorObject) (hnew : C.construct = .ok new) (gs : List (List String))
    (hgs : C.groups = some gs) (hw : C.weightColumn ≠ some A.meanColumn) (hp : C.priorColumn ≠ some A.meanColumn)
    (hm : ∀ g ∈ gs, A.meanColumn ∉ g) :
    o.fit C A F y fuel = some (o, .error (.api .keyError)) ∧ A.meanColumn ∉ C.requiredColumns new := by
  constructor
  · unfold DispersionObject.fit
    rw [if_pos]
    simp [DataFrame.has, hF]
  · rw [C92_required_partial C new hnew gs hgs]
    rintro (h | h | ⟨g, hg, h⟩)
    · exact hw h
    · exact hp h
    · exact hm g hg h

/-- **C93**, where it fails: `fit_transform` of a dispersion model that has not been left by a failed fit never succeeds. -/
theorem C93_dispersion_counterexample (C : Config σ) (A : DispersionArgs) (o : DispersionObject) (hmu : o.mu = none) (F : DataFrame)
    (y : ℕ → ℝ) : ∃ o' e, o.fitTransform C A F y = some (o', .error e) := by
  unfold DispersionObject.fitTransform
  split
  · exact ⟨_, _, rfl⟩
  · rw [hmu]
    dsimp only
    split
    · exact ⟨_, _, rfl⟩
    · exact ⟨_, _, rfl⟩

end

end CB
