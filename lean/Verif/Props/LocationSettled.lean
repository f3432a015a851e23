import Verif.Props.Calibration
import Verif.Props.LocationMean

/-!
# C111 for the location regressor
-/

set_option autoImplicit false
set_option linter.unusedSectionVars false

namespace CB
open Finset Spec

noncomputable section

/-- One update of a feature when the link is not logarithmic: the raw update goes through the calibration. -/
theorem update_calibrated (p : Params ℝ) (hp : p.aggregate = true) (hclip : p.clip = false) (o : Oracle ℝ)
    (cfgs : List FeatureCfg) (prior : ℕ → ℝ)
    (past : List (TState ℝ)) (s s' : TState ℝ) (h : Trace p o cfgs (startState o cfgs prior) past s)
    (hit : iterate p o cfgs s = .ok s') (hd : s.isDiverging = false) (hd' : s'.isDiverging = false)
    (j : ℕ) (cfg : FeatureCfg) (fs fs' : FState ℝ) (hcfg : cfgs[j]? = some cfg)
    (hj : s.feats[j]? = some fs) (hj' : s'.feats[j]? = some fs') (htr : skipped p past.length cfg = false) :
    ∃ (running : Pred ℝ) (input : FState ℝ) (raw : ℕ → ℝ),
      (∀ i, running.factors i = prior i + storedSum false cfgs (s'.feats.take j ++ s.feats.drop j) i) ∧
      IsRawUpdate cfg (o.learnRate (past.length + 1)) fs.zeroSmoother
        (o.smooth past.length j running input (o.estimate past.length j running fs)) (o.estimate past.length j running fs) raw ∧
      ∀ b, stored fs' b - stored fs b = o.calibrate past.length j { input with factors := raw } b := by
  have hiter := (trace_iterations p o cfgs prior past s h).1
  obtain ⟨feats, pred, r, hfp, _, hr, hf, _⟩ := iterate_ok p o cfgs _ _ hit
  rw [hd'] at hr
  simp only [Bool.false_eq_true, if_false, Except.ok.injEq] at hr
  have hw := trace_WF p o cfgs prior past s h
  obtain ⟨fs1, fs0, running, g1, g2, g3, g4⟩ := featurePass_get_pred p hp o s.iteration s.diverging s.isDiverging s.initialLoss
    cfgs 0 s.feats s.pred j cfg fs hw.2 hcfg hj
  rw [reset_noop p o cfgs prior past s h fs (List.mem_of_getElem? hj)] at g2
  subst g2
  have hlen : feats.length = cfgs.length := by
    have := featurePass_length p o s.iteration s.diverging s.isDiverging s.initialLoss cfgs 0 s.feats s.pred hw.1
    rw [hfp] at this; exact this
  rw [hfp] at g1 g4
  have hfeats : s'.feats = feats := by rw [hf, ← hr]
  rw [hfeats] at hj' ⊢
  simp only at g1
  rw [g1, Option.some.injEq] at hj'
  subst hj'
  have hfw : fs0.WF := hw.2 fs0 (List.mem_of_getElem? hj)
  rw [hiter] at g3
  rcases g3 with ⟨hsk, _⟩ | ⟨_, g3⟩
  · rw [htr] at hsk; cases hsk
  rw [Nat.zero_add, hd] at g3
  obtain ⟨_, hagg⟩ := featureIteration_aggregate p o past.length j cfg s.diverging false s.initialLoss fs0 running hp hfw
  rw [← g3] at hagg
  refine ⟨running, updateFactors cfg fs0 (o.estimate past.length j running fs0) (o.learnRate (past.length + 1)),
    predictFactors cfg (updateFactors cfg fs0 (o.estimate past.length j running fs0) (o.learnRate (past.length + 1)))
      (o.smooth past.length j running (updateFactors cfg fs0 (o.estimate past.length j running fs0) (o.learnRate (past.length + 1)))
        (o.estimate past.length j running fs0)) (o.learnRate (past.length + 1)), ?_, rawUpdate cfg fs0 _ _ _, ?_⟩
  · intro i
    have hb := C18_bookkeeping p hp o cfgs prior past s h i
    have e0 := g4 false i
    simp only [Pred.col, Bool.false_eq_true, if_false] at e0
    rw [storedSum_take_succ false i cfgs feats s.feats j hlen.symm (by rw [hlen, hw.1]), e0, hb.1]
    ring
  · intro b
    have hup : stored fs1 b - stored fs0 b = fs1.factors b := by rw [hagg b]; ring
    rw [hup, g3]
    unfold featureIteration visitFactors
    simp only [hp, hclip, if_true, Bool.false_and, Bool.false_eq_true, if_false]

section
variable {σ : Type*} (S : Setup σ) (D : TrainSet)

/-- What a settled training of the location regressor says about the updates of a feature. -/
theorem settled_location (m : FittedModel) (ε : ℝ) (h : SettledModel S locationEstimator D m ε)
    (j : ℕ) (f : FeatureSpec × SmootherKind) (hf : S.features[j]? = some f) :
    ∃ (running raw : ℕ → ℝ), (∀ i < D.n, |running i - m.predict D.prior D.X i| ≤ S.features.length * ε) ∧
      (∀ b, Unsmoothed S D f b → raw b = S.learnRate m.iterations *
        locationParameter D.n (f.1.cfg D.X D.n).bin running D.y D.w b) ∧
      ∀ b ≤ (f.1.cfg D.X D.n).nFinite,
        |locCalibrate (f.1.cfg D.X D.n) (binSum D.n (f.1.cfg D.X D.n).bin D.w) raw b| ≤ ε := by
  obtain ⟨fuel, hmfit⟩ := h.fitted
  have hagg := h.aggregate
  obtain ⟨a, r, -, hs, hfit, hm⟩ := fit_ok S _ D fuel m hmfit
  obtain ⟨past, s', ht, hcont, hfac, hpred, hiter⟩ := fitMain_ok _ _ _ _ fuel r hfit
  have hd' : s'.isDiverging = false := by
    unfold continues at hcont
    rw [Bool.or_eq_false_iff] at hcont
    exact hcont.2
  have hjlt : j < S.features.length := (List.getElem?_eq_some_iff.mp hf).1
  have hcfg : (S.cfgs D)[j]? = some (f.1.cfg D.X D.n) := by
    unfold Setup.cfgs
    rw [List.getElem?_map, hf]; rfl
  have hcl : (S.cfgs D).length = S.features.length := by unfold Setup.cfgs; rw [List.length_map]
  match past, ht with
  | [], ht =>
    exfalso
    cases ht
    have : (startState (S.oracle locationEstimator D) (S.cfgs D) (baseline locationEstimator D a)).feats[j]? = some FState.init := by
      unfold startState
      simp only
      rw [List.getElem?_map, hcfg]; rfl
    have h1 : ((startState (S.oracle locationEstimator D) (S.cfgs D) (baseline locationEstimator D a)).feats.map fun fs => fs.agg)[j]?
        = some none := by
      rw [List.getElem?_map, this]; rfl
    rw [hfac, List.getElem?_map] at h1
    cases hrj : r.factors[j]? with
    | none => rw [hrj] at h1; cases h1
    | some x => rw [hrj] at h1; cases h1
  | s :: past, ht =>
    have hch := h.settled a hs past s s' ht hcont
    have hskip := not_skipped_at_stop _ _ _ _ past s s' ht hcont (f.1.cfg D.X D.n)
    have hlen' := (trace_iterations _ _ _ _ _ _ ht).1
    have hbook := C18_bookkeeping (S.paramsFor locationEstimator) hagg _ _ _ _ _ ht
    have hw' := trace_WF _ _ _ _ _ _ ht
    have hj' : j < s'.feats.length := by rw [← hw'.1, hcl]; exact hjlt
    cases ht with
    | step ht hc1 hit =>
      have hw := trace_WF _ _ _ _ _ _ ht
      have hdv := h.converging a hs past s ht
      have hd := trace_not_diverging _ _ _ _ _ _ ht hdv
      have hz : ∀ fs ∈ s.feats, fs.zeroSmoother = false := by
        intro fs hfs
        by_contra hz
        have := trace_zeroSmoother _ _ _ _ _ _ ht fs hfs (by simpa using hz)
        omega
      have hj : j < s.feats.length := by rw [← hw.1, hcl]; exact hjlt
      have hjs : s.feats[j]? = some s.feats[j] := List.getElem?_eq_getElem hj
      have hjs' : s'.feats[j]? = some s'.feats[j] := List.getElem?_eq_getElem hj'
      obtain ⟨running, input, raw, hrun, hraw, hupd⟩ := update_calibrated (S.paramsFor locationEstimator) hagg rfl
        (S.oracle locationEstimator D) (S.cfgs D) (baseline locationEstimator D a)
        past s s' ht hit hd hd' j _ _ _ hcfg hjs hjs' hskip
      have hits : m.iterations = past.length + 1 := by rw [hm]; show r.iterations = _; rw [hiter, hlen']; rfl
      refine ⟨running.factors, raw, ?_, ?_, ?_⟩
      · intro i hi
        have hmp : m.predict D.prior D.X i = s'.pred.factors i := by
          have hcfgs : S.cfgs D = (S.features.map (·.1)).map fun f => f.cfg D.X D.n := by
            unfold Setup.cfgs
            rw [List.map_map]; rfl
          rw [hcfgs] at hfit
          obtain ⟨h1, -⟩ := C19_predict_train (S.paramsFor locationEstimator) hagg (S.oracle locationEstimator D) D.X D.n
            (S.features.map (·.1)) (baseline locationEstimator D a) fuel r hfit i hi
            (by
              intro f hf
              obtain ⟨q, hq, rfl⟩ := List.mem_map.mp hf
              exact h.columns q hq)
            (by
              intro f hf c hfc x hx
              obtain ⟨q, hq, rfl⟩ := List.mem_map.mp hf
              exact h.binNumbers q hq c hfc i hi x hx)
          have hpi : r.prediction.factors i = s'.pred.factors i := by
            rw [hpred, trace_prediction _ _ _ _ _ s' (.step ht hc1 hit) hd']
          rw [hm, ← hpi, ← h1]
          rfl
        rw [hmp, hrun i, (hbook i).1]
        have hll : s.feats.length = s'.feats.length := by rw [← hw.1, ← hw'.1]
        have := storedSum_close false ε h.nonneg i (S.cfgs D) (s'.feats.take j ++ s.feats.drop j) s'.feats
          (by rw [List.length_append, List.length_take, List.length_drop]; omega) (by
            intro k cfg x y hk hx hy
            have hbin : cfg.bin i ≤ cfg.nFinite := by
              unfold Setup.cfgs at hk
              rw [List.getElem?_map] at hk
              cases hq : S.features[k]? with
              | none => rw [hq] at hk; cases hk
              | some q =>
                rw [hq] at hk
                simp only [Option.map_some, Option.some.injEq] at hk
                rw [← hk]
                exact cfg_bin_le q.1 (h.columns q (List.mem_of_getElem? hq)) D.X D.n i hi
            rcases getElem?_mixed _ _ hll j k x hx with h | h
            · exact hch k cfg x y hk h hy _ hbin
            · rw [hy] at h
              cases h
              simpa using SettledModel.nonneg ‹_›)
        rw [hcl] at this
        rwa [add_sub_add_left_eq_sub]
      · intro b hu
        have hz' := hz _ (List.getElem_mem hj)
        have hestb : (S.oracle locationEstimator D).estimate past.length j running s.feats[j] =
            fun b => locationParameter D.n (f.1.cfg D.X D.n).bin running.factors D.y D.w b := by
          funext b
          unfold Setup.oracle
          dsimp only
          rw [hf]; rfl
        rw [hits]
        rcases hu with ⟨hb, hsm⟩ | ⟨hb, hl⟩
        · refine hraw.2.1 b _ hb hz' ?_
          rw [hestb]
          unfold Setup.oracle
          dsimp only
          rw [hf]
          exact hsm _ _
        · have := hraw.2.2.2.2 hl
          rw [hb, this, hestb]
          rfl
      · intro b hb
        have hdiff := hch j _ _ _ hcfg hjs hjs' b hb
        rw [hupd b] at hdiff
        simp only [Setup.oracle, hf] at hdiff
        exact hdiff

/-- The intercept of a bin is the weighted sum of the residuals over the weight plus 0.01 times the variance. -/
theorem location_solves (n : ℕ) (codes : ℕ → ℕ) (pred y w : ℕ → ℝ) (hw : ∀ i < n, 0 ≤ w i) (b : ℕ) :
    locationParameter n codes pred y w b * (binSum n codes w b + 1 / 100 * precalcVarianceY n codes y w b)
      = binSum n codes (fun i => w i * (y i - pred i)) b := by
  have hv := C54_variance_pos n codes y w hw b
  have h0 : 0 ≤ binSum n codes w b := binSum_nonneg n codes w hw b
  have e1 : binSum n codes (fun i => w i / precalcVarianceY n codes y w (codes i) * (y i - pred i)) b
      = (precalcVarianceY n codes y w b)⁻¹ * binSum n codes (fun i => w i * (y i - pred i)) b := by
    rw [← binSum_mul n codes (fun b => (precalcVarianceY n codes y w b)⁻¹)]
    congr 1
    funext i
    ring
  have e2 : binSum n codes (fun i => w i / precalcVarianceY n codes y w (codes i)) b
      = (precalcVarianceY n codes y w b)⁻¹ * binSum n codes w b := by
    rw [← binSum_mul n codes (fun b => (precalcVarianceY n codes y w b)⁻¹)]
    congr 1
    funext i
    ring
  unfold locationParameter interceptParameter calcFactorsGeneric
  dsimp only
  rw [e1, e2]
  have : binSum n codes w b + 1 / 100 * precalcVarianceY n codes y w b ≠ 0 := by positivity
  field_simp
  ring

/-- **C111**, `CBLocationRegressor`: after a training that settled within `ε`, in every bin of a feature none of whose bins with weight are
smoothed, the weighted sum of the predictions exceeds the weighted sum of the targets by at most `0.001 + δ` times `G` and falls short
of it by at most `δ` times `G`, with `δ = 2 * (number of features + 1 / learning rate) * ε` and `G` the weight of the bin plus
0.01 times the variance estimate of the bin (see `C54_variance_posterior`). -/
theorem C111_location (m : FittedModel) (ε : ℝ) (h : SettledModel S locationEstimator D m ε)
    (learnable : ∀ f ∈ S.features, ∃ i < D.n, 0 < D.w i ∧
      (f.1.missingNotLearned = true → (f.1.cfg D.X D.n).bin i ≠ (f.1.cfg D.X D.n).nFinite))
    (weighted : ∀ f ∈ S.features, BinsHaveWeight D f.1.group)
    (f : FeatureSpec × SmootherKind) (hf : f ∈ S.features)
    (hu : ∀ i < D.n, D.w i ≠ 0 → Unsmoothed S D f ((f.1.cfg D.X D.n).bin i)) (b : ℕ) :
    let targets := sumInBin D f b fun i => D.w i * D.y i
    let predictions := sumInBin D f b fun i => D.w i * m.predict D.prior D.X i
    let G := sumInBin D f b D.w + 1 / 100 * precalcVarianceY D.n (f.1.cfg D.X D.n).bin D.y D.w b
    let δ := 2 * (S.features.length + 1 / S.learnRate m.iterations) * ε
    predictions - targets ≤ (1 / 1000 + δ) * G ∧ targets - predictions ≤ δ * G := by
  intro targets predictions G δ
  obtain ⟨j, hj⟩ := List.getElem?_of_mem hf
  obtain ⟨fuel, hfit⟩ := h.fitted
  have hmean := C127_mean S D h.aggregate h.columns h.binNumbers h.weights learnable weighted fuel m hfit
  obtain ⟨running, raw, hclose, hraw, hset⟩ := settled_location S D m ε h j f hj
  set cfg := f.1.cfg D.X D.n with hcfg
  set lr := S.learnRate m.iterations with hlr
  have hlr0 : 0 < lr := h.learning
  set N : ℝ := S.features.length * ε with hN
  have hN0 : 0 ≤ N := by have := h.nonneg; positivity
  have hw := h.weights
  have hε := h.nonneg
  have hη0 : 0 ≤ ε / lr := by positivity
  have hcol := h.columns f hf
  have hbin : ∀ i < D.n, cfg.bin i ≤ cfg.nFinite := fun i hi => cfg_bin_le f.1 hcol D.X D.n i hi
  obtain ⟨k, hk, hwk, -⟩ := learnable f hf
  have hW : 0 < ∑ i ∈ range D.n, D.w i := sum_pos' (fun i hi => hw i (mem_range.mp hi)) ⟨k, mem_range.mpr hk, hwk⟩
  set est := locationParameter D.n cfg.bin running D.y D.w with hest
  set R := fun c => binSum D.n cfg.bin (fun i => D.w i * (D.y i - running i)) c with hR
  set W := fun c => binSum D.n cfg.bin D.w c with hWb
  set Gb := fun c => W c + 1 / 100 * precalcVarianceY D.n cfg.bin D.y D.w c with hGb
  have hW0 : ∀ c, 0 ≤ W c := fun c => binSum_nonneg D.n cfg.bin D.w hw c
  have hG : ∀ c, W c ≤ Gb c := fun c => by
    have := C54_variance_pos D.n cfg.bin D.y D.w hw c
    simp only [hGb]; linarith
  have hsolve : ∀ c, est c * Gb c = R c := fun c => location_solves D.n cfg.bin running D.y D.w hw c
  -- a bin with weight holds a sample with weight
  have hsample : ∀ c, W c ≠ 0 → ∃ i < D.n, D.w i ≠ 0 ∧ cfg.bin i = c := by
    intro c hc
    by_contra hno
    push Not at hno
    refine hc ?_
    simp only [hWb, binSum]
    refine sum_eq_zero fun i hi => ?_
    split_ifs with hic
    · by_contra hwi
      exact hno i (mem_range.mp hi) hwi hic
    · rfl
  -- all intercepts of bins with weight are close to each other
  obtain ⟨κ, hκ⟩ : ∃ κ, ∀ c, W c ≠ 0 → |lr * est c - κ| ≤ ε := by
    cases hm : cfg.missingNotLearned with
    | true =>
      refine ⟨(∑ c ∈ range cfg.nFinite, raw c * W c) / ∑ c ∈ range cfg.nFinite, W c, fun c hc => ?_⟩
      obtain ⟨i, hi, hwi, rfl⟩ := hsample c hc
      have hlt : cfg.bin i < cfg.nFinite := by
        rcases hu i hi hwi with ⟨h1, -⟩ | ⟨-, h2⟩
        · exact h1
        · have : cfg.missingNotLearned = false := h2
          rw [hm] at this; cases this
      have := hset _ hlt.le
      rw [← hraw _ (hu i hi hwi)]
      unfold locCalibrate at this
      rwa [if_pos hm, if_pos hlt] at this
    | false =>
      refine ⟨(∑ c ∈ range (cfg.nFinite + 1), raw c * W c) / ∑ c ∈ range (cfg.nFinite + 1), W c, fun c hc => ?_⟩
      obtain ⟨i, hi, hwi, rfl⟩ := hsample c hc
      have := hset _ (hbin i hi)
      rw [← hraw _ (hu i hi hwi)]
      unfold locCalibrate at this
      rwa [if_neg (by rw [hm]; simp)] at this
  have hpair : ∀ c c', W c ≠ 0 → W c' ≠ 0 → est c - est c' ≤ 2 * (ε / lr) := by
    intro c c' hc hc'
    have h1 := (abs_le.mp (hκ c hc)).2
    have h2 := (abs_le.mp (hκ c' hc')).1
    rw [show 2 * (ε / lr) = (2 * ε) / lr by ring, le_div_iff₀ hlr0]
    linarith
  -- the sum of all residuals
  have hsumR : ∑ c ∈ range (cfg.nFinite + 1), R c = ∑ i ∈ range D.n, D.w i * (D.y i - running i) :=
    (sum_over_bins D.n cfg.nFinite cfg.bin hbin _).symm
  have hsumW : ∑ c ∈ range (cfg.nFinite + 1), W c = ∑ i ∈ range D.n, D.w i :=
    (sum_over_bins D.n cfg.nFinite cfg.bin hbin _).symm
  have hfinal : ∑ i ∈ range D.n, D.w i * (D.y i - m.predict D.prior D.X i) = -(1 / 1000) * ∑ i ∈ range D.n, D.w i := by
    have e : ∑ i ∈ range D.n, D.w i * (D.y i - m.predict D.prior D.X i)
        = ∑ i ∈ range D.n, D.w i * D.y i - ∑ i ∈ range D.n, D.w i * m.predict D.prior D.X i := by
      rw [← sum_sub_distrib]; exact sum_congr rfl fun i _ => by ring
    rw [div_eq_iff hW.ne', add_mul, div_mul_cancel₀ _ hW.ne'] at hmean
    rw [e, hmean]; ring
  have hdev : ∀ i < D.n, D.w i * (D.y i - running i) - D.w i * (D.y i - m.predict D.prior D.X i) ≤ D.w i * N ∧
      D.w i * (D.y i - m.predict D.prior D.X i) - D.w i * (D.y i - running i) ≤ D.w i * N := by
    intro i hi
    obtain ⟨c1, c2⟩ := abs_le.mp (hclose i hi)
    constructor <;> nlinarith [hw i hi]
  have htot1 : ∑ c ∈ range (cfg.nFinite + 1), R c ≤ (N - 1 / 1000) * ∑ i ∈ range D.n, D.w i := by
    have : ∑ i ∈ range D.n, D.w i * (D.y i - running i)
        ≤ ∑ i ∈ range D.n, (D.w i * (D.y i - m.predict D.prior D.X i) + D.w i * N) :=
      sum_le_sum fun i hi => by linarith [(hdev i (mem_range.mp hi)).1]
    rw [sum_add_distrib, hfinal, ← sum_mul] at this
    rw [hsumR]; linarith
  have htot2 : -(N + 1 / 1000) * ∑ i ∈ range D.n, D.w i ≤ ∑ c ∈ range (cfg.nFinite + 1), R c := by
    have : ∑ i ∈ range D.n, (D.w i * (D.y i - m.predict D.prior D.X i) - D.w i * N)
        ≤ ∑ i ∈ range D.n, D.w i * (D.y i - running i) :=
      sum_le_sum fun i hi => by linarith [(hdev i (mem_range.mp hi)).2]
    rw [sum_sub_distrib, hfinal, ← sum_mul] at this
    rw [hsumR]; linarith
  have hR0 : ∀ c, W c = 0 → R c = 0 := by
    intro c hc
    simp only [hR, hWb, binSum] at hc ⊢
    have hz := (sum_eq_zero_iff_of_nonneg (fun i hi => by
      split_ifs
      · exact hw i (mem_range.mp hi)
      · exact le_rfl)).mp hc
    refine sum_eq_zero fun i hi => ?_
    have := hz i hi
    split_ifs with hic
    · rw [if_pos hic] at this; rw [this, zero_mul]
    · rfl
  -- bounds for the intercepts
  have hub : ∀ c, W c ≠ 0 → est c ≤ N + 2 * (ε / lr) := by
    intro c hc
    by_contra hlt
    push Not at hlt
    have : (est c - 2 * (ε / lr)) * ∑ c' ∈ range (cfg.nFinite + 1), W c' ≤ ∑ c' ∈ range (cfg.nFinite + 1), R c' := by
      rw [mul_sum]
      refine sum_le_sum fun c' _ => ?_
      by_cases hc' : W c' = 0
      · rw [hc', hR0 c' hc', mul_zero]
      · rw [← hsolve c']
        have h1 := hpair c c' hc hc'
        have h2 : 0 ≤ est c - 2 * (ε / lr) := by linarith
        calc (est c - 2 * (ε / lr)) * W c' ≤ (est c - 2 * (ε / lr)) * Gb c' := mul_le_mul_of_nonneg_left (hG c') h2
          _ ≤ est c' * Gb c' := mul_le_mul_of_nonneg_right (by linarith) (le_trans (hW0 c') (hG c'))
    rw [hsumW] at this
    nlinarith
  have hlb : ∀ c, W c ≠ 0 → -(N + 1 / 1000 + 2 * (ε / lr)) ≤ est c := by
    intro c hc
    by_contra hlt
    push Not at hlt
    have : ∑ c' ∈ range (cfg.nFinite + 1), R c' ≤ (est c + 2 * (ε / lr)) * ∑ c' ∈ range (cfg.nFinite + 1), W c' := by
      rw [mul_sum]
      refine sum_le_sum fun c' _ => ?_
      by_cases hc' : W c' = 0
      · rw [hc', hR0 c' hc', mul_zero]
      · rw [← hsolve c']
        have h1 := hpair c' c hc' hc
        have h2 : est c + 2 * (ε / lr) ≤ 0 := by linarith
        calc est c' * Gb c' ≤ (est c + 2 * (ε / lr)) * Gb c' :=
              mul_le_mul_of_nonneg_right (by linarith) (le_trans (hW0 c') (hG c'))
          _ ≤ (est c + 2 * (ε / lr)) * W c' := mul_le_mul_of_nonpos_left (hG c') h2
    rw [hsumW] at this
    nlinarith
  -- the bin in question
  have hWs : sumInBin D f b D.w = W b := (sumInBin_binSum D f b D.w).symm
  have hGG : G = Gb b := by simp only [G, hGb, hWs]; rfl
  have hRb : |targets - predictions - R b| ≤ N * W b := by
    have e : targets - predictions = sumInBin D f b fun i => D.w i * (D.y i - m.predict D.prior D.X i) := by
      simp only [targets, predictions]
      unfold sumInBin
      rw [← sum_sub_distrib]; exact sum_congr rfl fun i _ => by ring
    have e2 : R b = sumInBin D f b fun i => D.w i * (D.y i - running i) := sumInBin_binSum D f b _
    rw [e, e2, ← hWs, ← sumInBin_mul]
    have u1 := sumInBin_le D f b (fun i => D.w i * (D.y i - m.predict D.prior D.X i) - D.w i * (D.y i - running i)) (fun i => N * D.w i)
      fun i hi => by linarith [(hdev i hi).2, mul_comm N (D.w i)]
    have u2 := sumInBin_le D f b (fun i => D.w i * (D.y i - running i) - D.w i * (D.y i - m.predict D.prior D.X i)) (fun i => N * D.w i)
      fun i hi => by linarith [(hdev i hi).1, mul_comm N (D.w i)]
    unfold sumInBin at u1 u2 ⊢
    rw [sum_sub_distrib] at u1 u2
    exact abs_le.mpr ⟨by linarith, u1⟩
  obtain ⟨r1, r2⟩ := abs_le.mp hRb
  have hδ : δ = 2 * N + 2 * (ε / lr) := by simp only [δ, hN]; ring
  rw [hGG, hδ]
  have hGn : 0 ≤ Gb b := le_trans (hW0 b) (hG b)
  have hNW : N * W b ≤ N * Gb b := mul_le_mul_of_nonneg_left (hG b) hN0
  by_cases hb : W b = 0
  · rw [hR0 b hb, hb] at r1 r2
    constructor <;> nlinarith [mul_nonneg hη0 hGn, mul_nonneg hN0 hGn]
  · have e1 := mul_le_mul_of_nonneg_right (hub b hb) hGn
    have e2 := mul_le_mul_of_nonneg_right (hlb b hb) hGn
    rw [hsolve b] at e1 e2
    constructor <;> nlinarith

end
end
end CB
