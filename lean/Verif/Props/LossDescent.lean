import Verif.Props.WholeFit
import Verif.Props.Gbs
import Verif.Model.BinSmoothers
import Verif.Spec.Descent

/-!
# C80: shrinking updates of the GBS regressor never increase the training loss
-/

set_option autoImplicit false
set_option linter.unusedSectionVars false

namespace CB
open Finset Spec

/-- A sum over the samples, bin by bin. -/
theorem sum_by_bin (n : ℕ) (codes : ℕ → ℕ) (h : ℕ → ℝ) :
    ∑ i ∈ range n, h i = ∑ b ∈ (range n).image codes, binSum n codes h b := by
  unfold binSum
  rw [← Finset.sum_fiberwise_of_maps_to (g := codes) (t := (range n).image codes)
    (fun i hi => Finset.mem_image_of_mem _ hi) h]
  exact Finset.sum_congr rfl fun b _ => Finset.sum_filter _ _

theorem binSum_mul (n : ℕ) (codes : ℕ → ℕ) (g : ℕ → ℝ) (h : ℕ → ℝ) (b : ℕ) :
    binSum n codes (fun i => g (codes i) * h i) b = g b * binSum n codes h b := by
  unfold binSum
  rw [Finset.mul_sum]
  refine Finset.sum_congr rfl fun i _ => ?_
  by_cases hb : codes i = b
  · simp [hb]
  · simp [hb]

theorem binSum_sub' (n : ℕ) (codes : ℕ → ℕ) (g h : ℕ → ℝ) (b : ℕ) :
    binSum n codes (fun i => g i - h i) b = binSum n codes g b - binSum n codes h b := by
  unfold binSum
  rw [← Finset.sum_sub_distrib]
  refine Finset.sum_congr rfl fun i _ => ?_
  split_ifs <;> simp

/-- One update whose summands are shrunk versions of the estimates does not increase the squared error. -/
theorem gbs_step (ra : ℝ) (ha : 0 ≤ ra) (n : ℕ) (codes : ℕ → ℕ) (y pred w f : ℕ → ℝ) (hw : ∀ i < n, 0 ≤ w i)
    (hf : ∀ i < n, ∃ t, 0 ≤ t ∧ t ≤ 1 ∧ f (codes i) = t * gbsSummand ra n codes y pred w (codes i)) :
    ∑ i ∈ range n, w i * ((pred i + f (codes i)) - y i) ^ 2 ≤ ∑ i ∈ range n, w i * (pred i - y i) ^ 2 := by
  rw [← sub_nonneg, ← Finset.sum_sub_distrib]
  have e : ∀ i ∈ range n, w i * (pred i - y i) ^ 2 - w i * ((pred i + f (codes i)) - y i) ^ 2 =
      (2 * f (codes i)) * ((y i - pred i) * w i) - (f (codes i)) ^ 2 * w i := fun i _ => by ring
  rw [Finset.sum_congr rfl e, sum_by_bin n codes]
  refine Finset.sum_nonneg fun b hb => ?_
  obtain ⟨i, hi, rfl⟩ := Finset.mem_image.mp hb
  rw [binSum_sub', binSum_mul n codes (fun b => 2 * f b), binSum_mul n codes (fun b => f b ^ 2)]
  obtain ⟨t, h0, h1, hft⟩ := hf i (Finset.mem_range.mp hi)
  have hW : 0 ≤ binSum n codes w (codes i) := by
    unfold binSum
    refine Finset.sum_nonneg fun j hj => ?_
    split_ifs
    · exact hw j (Finset.mem_range.mp hj)
    · exact le_refl 0
  have hD : binSum n codes (fun i => w i * (1 + ra)) (codes i) = binSum n codes w (codes i) * (1 + ra) := by
    have := binSum_mul n codes (fun _ => 1 + ra) w (codes i)
    rw [mul_comm, ← this]
    congr 1
    funext j
    ring
  rw [hft]
  unfold gbsSummand
  simp only [hD]
  generalize binSum n codes (fun i => (y i - pred i) * w i) (codes i) = N
  revert hW
  generalize binSum n codes w (codes i) = W
  intro hW
  have hWa : 0 ≤ W * ra := mul_nonneg hW ha
  have hpos : 0 < W * (1 + ra) + 1 := by nlinarith
  have e2 : 2 * (t * (N / (W * (1 + ra) + 1))) * N - (t * (N / (W * (1 + ra) + 1))) ^ 2 * W =
      t * N ^ 2 * (2 * (W * (1 + ra) + 1) - t * W) / (W * (1 + ra) + 1) ^ 2 := by
    field_simp
  rw [e2]
  apply div_nonneg
  · apply mul_nonneg (mul_nonneg h0 (sq_nonneg N))
    nlinarith [mul_le_mul_of_nonneg_right h1 hW]
  · positivity

/-- On the training table every sample lands in a finite bin or in the bin of missing values. -/
theorem cfg_bin_le (f : FeatureSpec) (hg : f.group ≠ []) (X : Table ℝ) (n s : ℕ) (hs : s < n) :
    (f.cfg X n).bin s ≤ (f.cfg X n).nFinite := by
  have hcode := bindData_code X n f.group hg s hs
  show (bindData X n f.group none).1.getD s 0 ≤ (bindData X n f.group none).2.prod
  rw [hcode]
  by_cases hfs : finiteSemiPositive (X.row f.group s) = true
  · rw [if_pos hfs]
    exact (encode_lt _ _ (validRow_tuple _ _ (by rw [bindData_length]; simp [Table.row]) (bindData_valid X n f.group hg s hs hfs))).le
  · rw [if_neg hfs]

/-- Without clipping, an update is the learning rate times what the smoother says (or nothing). -/
theorem update_plain (p : Params ℝ) (hp : p.aggregate = true) (hclip : p.clip = false) (o : Oracle ℝ) (it i : ℕ) (cfg : FeatureCfg)
    (dv : ℕ) (isd : Bool) (il : Flt ℝ) (fs : FState ℝ) (pred : Pred ℝ) (hcal : ∀ it i fs, o.calibrate it i fs = fs.factors) :
    (featureIteration p o it i cfg dv isd il fs pred).2 = pred.update cfg (fun s =>
      predictFactors cfg (updateFactors cfg fs (o.estimate it i pred fs) (o.learnRate (it + 1)))
        (o.smooth it i pred (updateFactors cfg fs (o.estimate it i pred fs) (o.learnRate (it + 1))) (o.estimate it i pred fs))
        (o.learnRate (it + 1)) (cfg.bin s)) := by
  unfold featureIteration
  simp only [visitFactors_pred, hp, if_true, hcal]
  unfold visitFactors predInSample
  simp only [hclip, Bool.false_and]
  rfl

/-- The update of a bin is a shrunk estimate. -/
theorem update_shrinks (cfg : FeatureCfg) (fs : FState ℝ) (estimate : ℕ → ℝ) (lr : ℝ) (h0 : 0 ≤ lr) (h1 : lr ≤ 1)
    (smoothed : ℕ → Option ℝ) (hs : ∀ b v, smoothed b = some v → ∃ t, 0 ≤ t ∧ t ≤ 1 ∧ v = t * estimate b)
    (b : ℕ) (hb : b ≤ cfg.nFinite) :
    ∃ t, 0 ≤ t ∧ t ≤ 1 ∧ predictFactors cfg (updateFactors cfg fs estimate lr) smoothed lr b = t * estimate b := by
  have hz : ∃ t : ℝ, 0 ≤ t ∧ t ≤ 1 ∧ 0 = t * estimate b := ⟨0, le_refl 0, zero_le_one, by ring⟩
  unfold predictFactors updateFactors
  by_cases hlt : b < cfg.nFinite
  · rw [if_pos hlt]
    by_cases hzs : fs.zeroSmoother = true
    · simpa [hzs] using hz
    · simp only [hzs]
      cases hsb : smoothed b with
      | none => exact hz
      | some v =>
        obtain ⟨t, t0, t1, rfl⟩ := hs b v hsb
        exact ⟨lr * t, mul_nonneg h0 t0, mul_le_one₀ h1 t0 t1, by simp; ring⟩
  · have : b = cfg.nFinite := by omega
    subst this
    rw [if_neg hlt]
    simp only [if_true]
    split_ifs
    · exact hz
    · exact ⟨lr, h0, h1, by ring⟩

/-- If no visit of a feature increases a quantity, no pass over the features does. -/
theorem pass_descends (p : Params ℝ) (o : Oracle ℝ) (Q : Pred ℝ → ℝ) (it dv : ℕ) (isd : Bool) (il : Flt ℝ) :
    ∀ (cfgs : List FeatureCfg) (k : ℕ) (fss : List (FState ℝ)) (pred : Pred ℝ),
      (∀ j cfg, cfgs[j]? = some cfg → ∀ fs pred,
        Q (featureIteration p o it (k + j) cfg dv isd il fs pred).2 ≤ Q pred) →
      Q (featurePass p o it dv isd il k cfgs fss pred).2 ≤ Q pred
  | [], k, fss, pred, _ => by simp [featurePass]
  | cfg :: cfgs, k, [], pred, _ => by simp [featurePass]
  | cfg :: cfgs, k, fs :: fss, pred, h => by
    have ih := fun pred' => pass_descends p o Q it dv isd il cfgs (k + 1) fss pred' (fun j c hj fs pr => by
      have := h (j + 1) c (by simpa using hj) fs pr
      rwa [show k + (j + 1) = k + 1 + j by omega] at this)
    unfold featurePass
    by_cases hsk : skipped p it cfg = true
    · simp only [hsk, if_true]
      exact ih pred
    · simp only [hsk]
      exact (ih _).trans (h 0 cfg (by simp) _ pred)

/-- If no pass over the features increases a quantity on which the loss depends, and the loss is not doubled when the quantity is
not increased, then the quantity never increases from iteration to iteration and training never diverges. -/
theorem trace_descends (p : Params ℝ) (o : Oracle ℝ) (cfgs : List FeatureCfg) (prior : ℕ → ℝ) (Q : Pred ℝ → ℝ)
    (hpass : ∀ it fss pred dv isd il, Q (featurePass p o it dv isd il 0 cfgs fss pred).2 ≤ Q pred)
    (hloss : ∀ a b, Q a ≤ Q b → isDiverged (o.loss b) (o.loss a) = false)
    (past : List (TState ℝ)) (s : TState ℝ) (h : Trace p o cfgs (startState o cfgs prior) past s) :
    (∀ t ∈ past, Q s.pred ≤ Q t.pred) ∧ Q s.pred ≤ Q (startState o cfgs prior).pred ∧ s.diverging = 0 ∧
      s.initialLoss = o.loss (startState o cfgs prior).pred ∧ s.loss = o.loss s.pred := by
  induction h with
  | start => exact ⟨by simp, le_refl _, rfl, rfl, rfl⟩
  | step ht hc hi ih =>
    rename_i past s s'
    obtain ⟨h1, h2, h3, h4, h5⟩ := ih
    obtain ⟨feats, pred, r, hfp, hcc, hr, hf, hp, -, hil, hl, -, -, -⟩ := iterate_ok p o cfgs s s' hi
    have hQ : Q pred ≤ Q s.pred := by
      have := hpass s.iteration s.feats s.pred s.diverging s.isDiverging s.initialLoss
      rwa [hfp] at this
    have hnd : isDiverged s.initialLoss (o.loss pred) = false := by
      rw [h4]
      exact hloss _ _ (hQ.trans h2)
    unfold checkConvergence at hcc
    rw [hnd] at hcc
    simp only [Bool.false_eq_true, if_false, Except.ok.injEq, Prod.mk.injEq] at hcc
    rw [← hcc.2] at hr
    simp only [Bool.false_eq_true, if_false, Except.ok.injEq] at hr
    have hpred : s'.pred = pred := by rw [hp, ← hr]
    refine ⟨?_, ?_, ?_, ?_, ?_⟩
    · intro t ht
      rw [hpred]
      rcases List.mem_cons.mp ht with rfl | ht
      · exact hQ
      · exact hQ.trans (h1 t ht)
    · rw [hpred]; exact hQ.trans h2
    · rw [← hcc.1]; exact h3
    · rw [hil]; exact h4
    · rw [hl, hpred]

section
variable {σ : Type*} (S : Setup σ) (D : TrainSet) (ra : ℝ)

/-- The loss of the GBS regressor is not doubled when the squared error does not grow. -/
theorem gbs_not_diverged (hw : ∀ i < D.n, 0 ≤ D.w i) (a b : Pred ℝ)
    (h : trainingError D (fun s => a.factors s) ≤ trainingError D (fun s => b.factors s)) :
    isDiverged ((S.oracle (gbsEstimator ra) D).loss b) ((S.oracle (gbsEstimator ra) D).loss a) = false := by
  unfold isDiverged Setup.oracle gbsEstimator
  simp only [LinkKind.toLink]
  unfold gbsLoss quotientFlt
  simp only
  have hd : 0 ≤ ∑ i ∈ range D.n, (if D.y i ≠ 0 then (1 : ℝ) else 0) * D.w i := by
    refine Finset.sum_nonneg fun i hi => ?_
    split_ifs
    · simpa using hw i (Finset.mem_range.mp hi)
    · simp
  have hq : 0 ≤ trainingError D (fun s => b.factors s) :=
    Finset.sum_nonneg fun i hi => mul_nonneg (hw i (Finset.mem_range.mp hi)) (sq_nonneg _)
  unfold trainingError at h hq
  by_cases h0 : ∑ i ∈ range D.n, (if D.y i ≠ 0 then (1 : ℝ) else 0) * D.w i = 0
  · rw [if_pos h0, if_pos h0]; rfl
  · rw [if_neg h0, if_neg h0]
    have hpos := lt_of_le_of_ne hd (Ne.symm h0)
    have h1 := div_le_div_of_nonneg_right h hd
    have h2 := div_nonneg hq hd
    simp only [Flt.twice, Flt.gt, decide_eq_false_iff_not, not_lt]
    simp only [identityLink] at *
    linarith

/-- No visit of a feature increases the squared error. -/
theorem gbs_visit (hagg : S.params.aggregate = true) (ha : 0 ≤ ra) (hw : ∀ i < D.n, 0 ≤ D.w i)
    (hlr : ∀ k, 0 ≤ S.learnRate k ∧ S.learnRate k ≤ 1) (hg : ∀ f ∈ S.features, f.1.group ≠ []) (hsm : ShrinkingSmoothers S D)
    (it j : ℕ) (cfg : FeatureCfg) (hj : (S.cfgs D)[j]? = some cfg) (dv : ℕ) (isd : Bool) (il : Flt ℝ) (fs : FState ℝ) (pred : Pred ℝ) :
    trainingError D (featureIteration (S.paramsFor (gbsEstimator ra)) (S.oracle (gbsEstimator ra) D) it j cfg dv isd il fs pred).2.factors
      ≤ trainingError D pred.factors := by
  unfold Setup.cfgs at hj
  rw [List.getElem?_map] at hj
  cases hf : S.features[j]? with
  | none => rw [hf] at hj; simp at hj
  | some f =>
    rw [hf] at hj
    simp only [Option.map_some, Option.some.injEq] at hj
    subst hj
    have hmem : f ∈ S.features := List.mem_of_getElem? hf
    rw [update_plain (S.paramsFor (gbsEstimator ra)) hagg (by simp [Setup.paramsFor, gbsEstimator]) _ _ _ _ _ _ _ _ _ (by
      intro it i fs
      unfold Setup.oracle
      dsimp only
      cases S.features[i]? with
      | none => rfl
      | some f => rfl)]
    unfold Pred.update
    by_cases hx : (f.1.cfg D.X D.n).external = true
    · rw [if_pos hx]
    · rw [if_neg hx]
      unfold trainingError
      have hest : ∀ b, (S.oracle (gbsEstimator ra) D).estimate it j pred fs b
          = gbsSummand ra D.n (f.1.cfg D.X D.n).bin D.y pred.factors D.w b := by
        intro b
        simp only [Setup.oracle, hf, gbsEstimator]
      refine gbs_step ra ha D.n (f.1.cfg D.X D.n).bin D.y pred.factors D.w _ hw ?_
      intro i hi
      obtain ⟨t, t0, t1, e⟩ := update_shrinks (f.1.cfg D.X D.n) fs ((S.oracle (gbsEstimator ra) D).estimate it j pred fs)
        ((S.oracle (gbsEstimator ra) D).learnRate (it + 1)) (hlr _).1 (hlr _).2 ((S.oracle (gbsEstimator ra) D).smooth it j pred
          (updateFactors (f.1.cfg D.X D.n) fs ((S.oracle (gbsEstimator ra) D).estimate it j pred fs)
            ((S.oracle (gbsEstimator ra) D).learnRate (it + 1))) ((S.oracle (gbsEstimator ra) D).estimate it j pred fs))
        (by
          intro b v hv
          simp only [Setup.oracle, hf] at hv ⊢
          exact hsm f hmem _ _ b v hv)
        ((f.1.cfg D.X D.n).bin i) (cfg_bin_le f.1 (hg f hmem) D.X D.n i hi)
      exact ⟨t, t0, t1, by rw [← hest]; exact e⟩

/-- No pass over the features increases the squared error. -/
theorem gbs_pass (hagg : S.params.aggregate = true) (ha : 0 ≤ ra) (hw : ∀ i < D.n, 0 ≤ D.w i)
    (hlr : ∀ k, 0 ≤ S.learnRate k ∧ S.learnRate k ≤ 1) (hg : ∀ f ∈ S.features, f.1.group ≠ []) (hsm : ShrinkingSmoothers S D)
    (it : ℕ) (fss : List (FState ℝ)) (pred : Pred ℝ) (dv : ℕ) (isd : Bool) (il : Flt ℝ) :
    trainingError D (featurePass (S.paramsFor (gbsEstimator ra)) (S.oracle (gbsEstimator ra) D) it dv isd il 0 (S.cfgs D) fss
      pred).2.factors ≤ trainingError D pred.factors :=
  pass_descends (S.paramsFor (gbsEstimator ra)) (S.oracle (gbsEstimator ra) D) (fun pred => trainingError D pred.factors) it dv isd il
    (S.cfgs D) 0 fss pred fun j cfg hj fs pr => by
      rw [Nat.zero_add]
      exact gbs_visit S D ra hagg ha hw hlr hg hsm it j cfg hj dv isd il fs pr

/-- **C80.** With smoothers that only shrink and learning rates between 0 and 1, the squared error of the GBS regressor on the
training data never increases from one iteration to any later one, and training never diverges. -/
theorem C80_never_increases (hagg : S.params.aggregate = true) (ha : 0 ≤ ra) (hw : ∀ i < D.n, 0 ≤ D.w i)
    (hlr : ∀ k, 0 ≤ S.learnRate k ∧ S.learnRate k ≤ 1) (hg : ∀ f ∈ S.features, f.1.group ≠ []) (hsm : ShrinkingSmoothers S D)
    (prior : ℕ → ℝ) (past : List (TState ℝ)) (s : TState ℝ)
    (h : Trace (S.paramsFor (gbsEstimator ra)) (S.oracle (gbsEstimator ra) D) (S.cfgs D)
      (startState (S.oracle (gbsEstimator ra) D) (S.cfgs D) prior) past s) :
    (∀ t ∈ past, trainingError D s.pred.factors ≤ trainingError D t.pred.factors) ∧
      trainingError D s.pred.factors ≤ trainingError D prior ∧ s.diverging = 0 := by
  have := trace_descends (S.paramsFor (gbsEstimator ra)) (S.oracle (gbsEstimator ra) D) (S.cfgs D) prior
    (fun pred => trainingError D pred.factors)
    (gbs_pass S D ra hagg ha hw hlr hg hsm)
    (fun a b hab => gbs_not_diverged S D ra hw a b hab) past s h
  exact ⟨this.1, this.2.1, this.2.2.1⟩

/-- **C80**, success: such a fit never fails, whatever the data, as long as the total weight is not 0. -/
theorem C80_fit_succeeds (hagg : S.params.aggregate = true) (ha : 0 ≤ ra) (hw : ∀ i < D.n, 0 ≤ D.w i)
    (hlr : ∀ k, 0 ≤ S.learnRate k ∧ S.learnRate k ≤ 1) (hg : ∀ f ∈ S.features, f.1.group ≠ []) (hsm : ShrinkingSmoothers S D)
    (hsum : ∑ i ∈ range D.n, D.w i ≠ 0) (hm : 1 ≤ S.params.maximalIterations) (hh : S.params.hierarchical = none)
    (hf : S.params.minimalFactorChange < 100) (hlc : S.params.minimalLossChange < 100000000000000000000)
    (fuel : ℕ) (hfuel : S.params.maximalIterations + 4 ≤ fuel) :
    NeverDiverges S (gbsEstimator ra) D ∧ ∃ m, S.fit (gbsEstimator ra) D fuel = some (.ok m) := by
  refine ⟨fun a _ past s h => (C80_never_increases S D ra hagg ha hw hlr hg hsm _ past s h).2.2, ?_⟩
  have hscale : (gbsEstimator ra).scale D.n D.y D.w = .fin ((∑ i ∈ range D.n, D.y i * D.w i) / ∑ i ∈ range D.n, D.w i) := by
    simp only [gbsEstimator, quotientFlt, if_neg hsum]
  refine fit_succeeds S (gbsEstimator ra) D fuel _ (fun _ _ => trivial) hscale hm hh hf hlc ?_ (by
    unfold normalIterations
    simpa [hh] using hfuel)
  intro past s h
  obtain ⟨-, h2, -, h4, h5⟩ := trace_descends (S.paramsFor (gbsEstimator ra)) (S.oracle (gbsEstimator ra) D) (S.cfgs D) _
    (fun pred => trainingError D pred.factors)
    (gbs_pass S D ra hagg ha hw hlr hg hsm)
    (fun a b hab => gbs_not_diverged S D ra hw a b hab) past s h
  rw [h4, h5]
  refine ⟨gbs_not_diverged S D ra hw _ _ h2, gbs_not_diverged S D ra hw _ _ (le_trans ?_ h2)⟩
  exact gbs_pass S D ra hagg ha hw hlr hg hsm _ _ _ _ _ _

/-- **C80**, fitted model: on the training data such a model is at least as good, in the weighted squared error, as the
predictions it started from. Needed, as in C19: features made of a single column hold integers or special values there. -/
theorem C80_training_error (hagg : S.params.aggregate = true) (ha : 0 ≤ ra) (hw : ∀ i < D.n, 0 ≤ D.w i)
    (hlr : ∀ k, 0 ≤ S.learnRate k ∧ S.learnRate k ≤ 1) (hg : ∀ f ∈ S.features, f.1.group ≠ []) (hsm : ShrinkingSmoothers S D)
    (hint : ∀ f ∈ S.features, ∀ c, f.1.group = [c] → ∀ i < D.n, ∀ x : ℝ, D.X i c = .fin x → ∃ k : ℤ, x = (k : ℝ))
    (fuel : ℕ) (m : FittedModel) (h : S.fit (gbsEstimator ra) D fuel = some (.ok m)) :
    trainingError D (m.predict D.prior D.X) ≤ trainingError D (fun i => (priorPrediction .identity m.scale (.fin 0) D.prior i).getFin)
      := by
  obtain ⟨a, r, -, hs, hfit, rfl⟩ := fit_ok S _ D fuel m h
  obtain ⟨past, s, ht, hc, -, hpred, -⟩ := fitMain_ok _ _ _ _ fuel r hfit
  have hd : s.isDiverging = false := by
    unfold continues at hc
    rw [Bool.or_eq_false_iff] at hc
    exact hc.2
  have hdesc := (C80_never_increases S D ra hagg ha hw hlr hg hsm _ past s ht).2.1
  have hcfgs : S.cfgs D = (S.features.map (·.1)).map fun f => f.cfg D.X D.n := by
    unfold Setup.cfgs
    rw [List.map_map]; rfl
  have hb : baseline (gbsEstimator ra) D a = fun i => (priorPrediction .identity (.fin a) (.fin 0) D.prior i).getFin := by
    funext i
    unfold baseline Estimator.offset
    cases D.prior with
    | none => rfl
    | some p => rfl
  have hoff : (gbsEstimator ra).offset D = .fin 0 := by
    unfold Estimator.offset
    cases D.prior with
    | none => rfl
    | some p => rfl
  rw [hb] at hdesc
  refine le_trans (le_of_eq ?_) hdesc
  unfold trainingError
  refine Finset.sum_congr rfl fun i hi => ?_
  have hi := Finset.mem_range.mp hi
  have hpi : r.prediction.factors i = s.pred.factors i := by
    rw [hpred, trace_prediction _ _ _ _ past s ht hd]
  rw [hcfgs] at hfit
  obtain ⟨h1, -⟩ := C19_predict_train (S.paramsFor (gbsEstimator ra)) hagg (S.oracle (gbsEstimator ra) D) D.X D.n
    (S.features.map (·.1)) (baseline (gbsEstimator ra) D a) fuel r hfit i hi
    (by
      intro f hf
      obtain ⟨q, hq, rfl⟩ := List.mem_map.mp hf
      exact hg q hq)
    (by
      intro f hf c hfc x hx
      obtain ⟨q, hq, rfl⟩ := List.mem_map.mp hf
      exact hint q hq c hfc i hi x hx)
  rw [← hpi, ← h1, hb]
  unfold FittedModel.predict
  simp only [hoff]
  rfl

end

end CB
