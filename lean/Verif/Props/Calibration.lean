import Verif.Lemmas.GammaMedian
import Verif.Props.CostDescent
import Verif.Props.Updates
import Verif.Props.Divergence
import Verif.Spec.Calibration

/-!
# C111: a model whose training has settled is calibrated in every bin
-/

set_option autoImplicit false
set_option linter.unusedSectionVars false

namespace CB
open Finset Spec

/-! ### The prediction during the last iteration -/

theorem storedSum_close (e : Bool) (ε : ℝ) (h0 : 0 ≤ ε) (i : ℕ) : ∀ (cfgs : List FeatureCfg) (A B : List (FState ℝ)),
    A.length = B.length →
    (∀ (j : ℕ) (cfg : FeatureCfg) (a b : FState ℝ), cfgs[j]? = some cfg → A[j]? = some a → B[j]? = some b →
      |stored b (cfg.bin i) - stored a (cfg.bin i)| ≤ ε) →
    |storedSum e cfgs A i - storedSum e cfgs B i| ≤ cfgs.length * ε
  | [], A, B, _, _ => by simp [storedSum]
  | c :: cfgs, [], B, hl, _ => by
    have : B = [] := List.length_eq_zero_iff.mp hl.symm
    subst this
    simp [storedSum]; positivity
  | c :: cfgs, a :: A, [], hl, _ => by simp at hl
  | c :: cfgs, a :: A, b :: B, hl, h => by
    have ih := storedSum_close e ε h0 i cfgs A B (by simpa using hl) fun j cfg x y h1 h2 h3 =>
      h (j + 1) cfg x y (by simpa using h1) (by simpa using h2) (by simpa using h3)
    have hb := h 0 c a b rfl rfl rfl
    have hs : ∀ (x : FState ℝ) (X : List (FState ℝ)), storedSum e (c :: cfgs) (x :: X) i =
        (if c.external = e then stored x (c.bin i) else 0) + storedSum e cfgs X i := by
      intro x X
      unfold storedSum
      rw [List.zip_cons_cons, List.filter_cons]
      by_cases hc : c.external = e
      · simp [hc]
      · have : (c.external == e) = false := by simpa using hc
        simp [this, hc]
    rw [hs, hs]
    push_cast [List.length_cons]
    rw [abs_le] at ih hb ⊢
    split_ifs
    · constructor <;> nlinarith [ih.1, ih.2, hb.1, hb.2]
    · constructor <;> nlinarith [ih.1, ih.2, hb.1, hb.2]

theorem getElem?_mixed {α : Type*} (A B : List α) (hl : A.length = B.length) (j k : ℕ) (x : α)
    (h : (B.take j ++ A.drop j)[k]? = some x) : A[k]? = some x ∨ B[k]? = some x := by
  rw [List.getElem?_append] at h
  split_ifs at h with hk
  · rw [List.getElem?_take] at h
    split_ifs at h
    · exact .inr h
  · rw [List.length_take, not_lt] at hk
    rw [List.getElem?_drop, List.length_take] at h
    left
    rcases le_total j B.length with hj | hj
    · rw [min_eq_left hj] at h hk
      rwa [show j + (k - j) = k by omega] at h
    · rw [List.getElem?_eq_none (by omega)] at h
      cases h

theorem trace_not_diverging (p : Params ℝ) (o : Oracle ℝ) (cfgs : List FeatureCfg) (prior : ℕ → ℝ) (past : List (TState ℝ))
    (s : TState ℝ) (h : Trace p o cfgs (startState o cfgs prior) past s) (hd : s.diverging = 0) : s.isDiverging = false := by
  cases h with
  | start => rfl
  | step ht hc hi =>
    obtain ⟨feats, pred, r, hfp, hcc, -⟩ := iterate_ok p o cfgs _ _ hi
    unfold checkConvergence at hcc
    split_ifs at hcc
    · simp only [Except.ok.injEq, Prod.mk.injEq] at hcc
      omega
    · simp only [Except.ok.injEq, Prod.mk.injEq] at hcc
      exact hcc.2.symm

/-- A clipped value strictly inside the limits was not clipped. -/
theorem isClip_inside {x lo hi y : ℝ} (h : IsClip x lo hi y) (h1 : lo < y) (h2 : y < hi) : y = x := by
  rcases lt_or_ge x lo with hx | hx
  · exact absurd (h.1 hx) h1.ne'
  · rcases lt_or_ge hi x with hy | hy
    · exact absurd (h.2.1 hy) h2.ne
    · exact h.2.2 hx hy

theorem not_skipped_at_stop (p : Params ℝ) (o : Oracle ℝ) (cfgs : List FeatureCfg) (prior : ℕ → ℝ) (past : List (TState ℝ))
    (s s' : TState ℝ) (h : Trace p o cfgs (startState o cfgs prior) (s :: past) s') (hstop : continues p s' = false)
    (cfg : FeatureCfg) : skipped p past.length cfg = false := by
  have hit := (trace_iterations p o cfgs prior _ _ h).1
  unfold continues checkStop at hstop
  unfold skipped
  cases hh : p.hierarchical with
  | none => rfl
  | some g =>
    rw [hh] at hstop
    simp only [Option.isSome_some, Bool.and_true, Bool.or_eq_false_iff, Bool.not_eq_false', Bool.and_eq_true,
      Bool.not_eq_true', decide_eq_false_iff_not, not_le] at hstop
    have := hstop.1.2
    rw [hit, List.length_cons] at this
    simp only [Bool.and_eq_false_iff, decide_eq_false_iff_not, not_lt]
    left; omega

section
variable {σ : Type*} (S : Setup σ) (E : Estimator) (D : TrainSet)

/-- What a settled training says about the estimates: in the last iteration the parameter estimated for an unsmoothed bin, from a
prediction close to the final one, was close to neutral. -/
theorem settled_fit (hagg : S.params.aggregate = true) (hc : S.params.consts = realConsts)
    (hcal : ∀ cfg bw fac, E.calibrate cfg bw fac = fac) (hg : ∀ f ∈ S.features, f.1.group ≠ [])
    (hint : ∀ f ∈ S.features, ∀ c, f.1.group = [c] → ∀ i < D.n, ∀ x : ℝ, D.X i c = .fin x → ∃ k : ℤ, x = (k : ℝ))
    (fuel : ℕ) (m : FittedModel) (h : S.fit E D fuel = some (.ok m)) (ε : ℝ) (h0 : 0 ≤ ε)
    (hnd : NeverDiverges S E D) (hset : ∀ a, E.scale D.n D.y D.w = .fin a → SettledWithin ε S E D (baseline E D a))
    (j : ℕ) (f : FeatureSpec × SmootherKind) (hf : S.features[j]? = some f) (b : ℕ) (hu : Unsmoothed S D f b)
    (hlr : 0 < S.learnRate m.iterations)
    (hlim : E.link = .log → ε < Real.log 2 ∧ ∀ g, m.features[j]? = some g →
      Real.log (minFactor f.1.external (f.1.group.length == 1)) < g.factors b ∧
        g.factors b < Real.log (maxFactor f.1.external (f.1.group.length == 1))) :
    ∃ (it : ℕ) (running final : ℕ → ℝ), (∀ i < D.n, |running i - final i| ≤ S.features.length * ε) ∧
      (∀ i < D.n, m.predict D.prior D.X i = E.link.toLink.unlink (final i)) ∧
      |(E.parameters it D.n (f.1.cfg D.X D.n).bin D.y D.w running b).1| ≤ ε / S.learnRate m.iterations := by
  obtain ⟨a, r, -, hs, hfit, hm⟩ := fit_ok S _ D fuel m h
  obtain ⟨past, s', ht, hcont, hfac, hpred, hiter⟩ := fitMain_ok _ _ _ _ fuel r hfit
  have hd' : s'.isDiverging = false := by
    unfold continues at hcont
    rw [Bool.or_eq_false_iff] at hcont
    exact hcont.2
  have hjlt : j < S.features.length := (List.getElem?_eq_some_iff.mp hf).1
  have hcfg : (S.cfgs D)[j]? = some (f.1.cfg D.X D.n) := by
    unfold Setup.cfgs
    rw [List.getElem?_map, hf]; rfl
  have hcl : (S.cfgs D).length = S.features.length := by unfold Setup.cfgs; rw [List.length_map]
  -- there was an iteration: otherwise the parameters would not be there
  match past, ht with
  | [], ht =>
    exfalso
    cases ht
    have : (startState (S.oracle E D) (S.cfgs D) (baseline E D a)).feats[j]? = some FState.init := by
      unfold startState
      simp only
      rw [List.getElem?_map, hcfg]; rfl
    have h1 : ((startState (S.oracle E D) (S.cfgs D) (baseline E D a)).feats.map fun fs => fs.agg)[j]? = some none := by
      rw [List.getElem?_map, this]; rfl
    rw [hfac, List.getElem?_map] at h1
    cases hrj : r.factors[j]? with
    | none => rw [hrj] at h1; cases h1
    | some x => rw [hrj] at h1; cases h1
  | s :: past, ht =>
    have hch := hset a hs past s s' ht hcont
    have hskip := not_skipped_at_stop _ _ _ _ past s s' ht hcont (f.1.cfg D.X D.n)
    have hlen' := (trace_iterations _ _ _ _ _ _ ht).1
    have hbook := C18_bookkeeping (S.paramsFor E) hagg _ _ _ _ _ ht
    have hw' := trace_WF _ _ _ _ _ _ ht
    have hj' : j < s'.feats.length := by rw [← hw'.1, hcl]; exact hjlt
    cases ht with
    | step ht hc1 hit =>
      have hw := trace_WF _ _ _ _ _ _ ht
      have hdv := hnd a hs past s ht
      have hd := trace_not_diverging _ _ _ _ _ _ ht hdv
      have hz : ∀ fs ∈ s.feats, fs.zeroSmoother = false := by
        intro fs hfs
        by_contra hz
        have := trace_zeroSmoother _ _ _ _ _ _ ht fs hfs (by simpa using hz)
        omega
      have hj : j < s.feats.length := by rw [← hw.1, hcl]; exact hjlt
      have hjs : s.feats[j]? = some s.feats[j] := List.getElem?_eq_getElem hj
      have hjs' : s'.feats[j]? = some s'.feats[j] := List.getElem?_eq_getElem hj'
      obtain ⟨running, input, raw, hrun, hraw, hupd⟩ := C66_update_aggregate (S.paramsFor E) hagg
        (by show S.params.consts.Ok; rw [hc]; exact realConsts_ok) (S.oracle E D) (S.cfgs D) (baseline E D a)
        (by
          intro it i fs
          unfold Setup.oracle
          dsimp only
          cases S.features[i]? with
          | none => rfl
          | some q => exact hcal _ _ _)
        past s s' ht hit hd hd' j _ _ _ hcfg hjs hjs' hskip
      have hbn : b ≤ (f.1.cfg D.X D.n).nFinite := by rcases hu with ⟨h, -⟩ | ⟨h, -⟩ <;> omega
      have hdiff := hch j _ _ _ hcfg hjs hjs' b hbn
      have hits : m.iterations = past.length + 1 := by rw [hm]; show r.iterations = _; rw [hiter, hlen']; rfl
      refine ⟨past.length, running.factors, s'.pred.factors, ?_, ?_, ?_⟩
      · intro i hi
        rw [(hrun i).1, (hbook i).1]
        have hll : s.feats.length = s'.feats.length := by rw [← hw.1, ← hw'.1]
        have := storedSum_close false ε h0 i (S.cfgs D) (s'.feats.take j ++ s.feats.drop j) s'.feats
          (by rw [List.length_append, List.length_take, List.length_drop]; omega) (by
            intro k cfg x y hk hx hy
            have hbin : cfg.bin i ≤ cfg.nFinite := by
              unfold Setup.cfgs at hk
              rw [List.getElem?_map] at hk
              cases hq : S.features[k]? with
              | none => rw [hq] at hk; cases hk
              | some q =>
                rw [hq] at hk
                simp only [Option.map_some, Option.some.injEq] at hk
                rw [← hk]
                exact cfg_bin_le q.1 (hg q (List.mem_of_getElem? hq)) D.X D.n i hi
            rcases getElem?_mixed _ _ hll j k x hx with h | h
            · exact hch k cfg x y hk h hy _ hbin
            · rw [hy] at h
              cases h
              simpa using h0)
        rw [hcl] at this
        rwa [add_sub_add_left_eq_sub]
      · intro i hi
        have hcfgs : S.cfgs D = (S.features.map (·.1)).map fun f => f.cfg D.X D.n := by
          unfold Setup.cfgs
          rw [List.map_map]; rfl
        rw [hcfgs] at hfit
        obtain ⟨h1, -⟩ := C19_predict_train (S.paramsFor E) hagg (S.oracle E D) D.X D.n
          (S.features.map (·.1)) (baseline E D a) fuel r hfit i hi
          (by
            intro f hf
            obtain ⟨q, hq, rfl⟩ := List.mem_map.mp hf
            exact hg q hq)
          (by
            intro f hf c hfc x hx
            obtain ⟨q, hq, rfl⟩ := List.mem_map.mp hf
            exact hint q hq c hfc i hi x hx)
        have hpi : r.prediction.factors i = s'.pred.factors i := by
          rw [hpred, trace_prediction _ _ _ _ _ s' (.step ht hc1 hit) hd']
        rw [hm]
        unfold FittedModel.predict
        dsimp only
        rw [← hpi, ← h1]
        rfl
      · have hrawb : |raw b| ≤ ε := by
          obtain ⟨u1, u2, u3⟩ := hupd b
          by_cases hl : E.link = .log
          · have hclip : (S.paramsFor E).clip = true := by simp [Setup.paramsFor, hl]
            obtain ⟨hε, hlim⟩ := hlim hl
            have hgj : ∃ g, m.features[j]? = some g ∧ g.factors b = stored s'.feats[j] b := by
              have h1 : (s'.feats.map fun fs => fs.agg)[j]? = some s'.feats[j].agg := by rw [List.getElem?_map, hjs']; rfl
              rw [hfac, List.getElem?_map] at h1
              cases hrj : r.factors[j]? with
              | none => rw [hrj] at h1; cases h1
              | some x =>
                rw [hrj] at h1
                simp only [Option.map_some, Option.some.injEq] at h1
                refine ⟨⟨f.1.group, f.1.external, (bindData D.X D.n f.1.group none).2, x⟩, ?_, ?_⟩
                · rw [hm]
                  dsimp only
                  unfold fittedFeatures
                  rw [List.getElem?_zipWith, List.getElem?_map, hf, hrj]; rfl
                · unfold stored; rw [← h1]
            obtain ⟨g, hg1, hg2⟩ := hgj
            obtain ⟨hlo, hhi⟩ := hlim g hg1
            rw [hg2] at hlo hhi
            have hcons : (S.paramsFor E).consts = realConsts := hc
            have hhalf : realConsts.logHalf = -Real.log 2 := by
              show Real.log 0.5 = _
              rw [← Real.log_inv]; norm_num
            rw [hcons] at u2 u3
            have hdl := abs_le.mp hdiff
            cases hfit' : s.feats[j].isFitted with
            | false =>
              have h2 := u2 hclip hfit'
              rw [hhalf, show realConsts.logTwo = Real.log 2 from rfl] at h2
              have hst : stored s.feats[j] b = 0 := by
                have hwf : s.feats[j].isFitted = true ↔ s.feats[j].agg.isSome = true := hw.2 _ (List.getElem_mem hj)
                unfold stored
                cases hag : s.feats[j].agg with
                | none => rfl
                | some x => exact absurd (hwf.mpr (by rw [hag]; rfl)) (by rw [hfit']; simp)
              rw [hst, sub_zero] at hdiff hdl
              have := isClip_inside h2 (by linarith) (by linarith)
              rw [← this]; exact hdiff
            | true =>
              obtain ⟨once, h2, h3⟩ := u3 hclip hfit'
              rw [hhalf, show realConsts.logTwo = Real.log 2 from rfl] at h2
              have e1 := isClip_inside h3
                (by show Real.log (minFactor f.1.external (f.1.group.length == 1)) - _ < _; linarith)
                (by show _ < Real.log (maxFactor f.1.external (f.1.group.length == 1)) - _; linarith)
              rw [e1] at hdl
              have e2 := isClip_inside h2 (by linarith) (by linarith)
              rw [← e2, ← e1]; exact hdiff
          · have hclip : (S.paramsFor E).clip = false := by simp [Setup.paramsFor, hl]
            rw [← u1 hclip]; exact hdiff
        have hz' := hz _ (List.getElem_mem hj)
        have hest : raw b = S.learnRate m.iterations *
            (E.parameters past.length D.n (f.1.cfg D.X D.n).bin D.y D.w running.factors b).1 := by
          have hestb : (S.oracle E D).estimate past.length j running s.feats[j] =
              fun b => (E.parameters past.length D.n (f.1.cfg D.X D.n).bin D.y D.w running.factors b).1 := by
            funext b
            unfold Setup.oracle
            dsimp only
            rw [hf]
          rw [hits]
          rcases hu with ⟨hb, hsm⟩ | ⟨hb, hl⟩
          · refine hraw.2.1 b _ hb hz' ?_
            rw [hestb]
            unfold Setup.oracle
            dsimp only
            rw [hf]
            exact hsm _ _
          · have := hraw.2.2.2.2 hl
            rw [hb, this, hestb]
            rfl
        rw [hest, abs_mul, abs_of_pos hlr] at hrawb
        rw [le_div_iff₀ hlr, mul_comm]
        exact hrawb

/-- The same for a settled model. -/
theorem settled_estimate (hcal : ∀ cfg bw fac, E.calibrate cfg bw fac = fac) (m : FittedModel) (ε : ℝ) (h : SettledModel S E D m ε)
    (j : ℕ) (f : FeatureSpec × SmootherKind) (hf : S.features[j]? = some f) (b : ℕ) (hu : Unsmoothed S D f b)
    (hlim : E.link = .log → InsideLimits m ε j f b) :
    ∃ (it : ℕ) (running final : ℕ → ℝ), (∀ i < D.n, |running i - final i| ≤ S.features.length * ε) ∧
      (∀ i < D.n, m.predict D.prior D.X i = E.link.toLink.unlink (final i)) ∧
      |(E.parameters it D.n (f.1.cfg D.X D.n).bin D.y D.w running b).1| ≤ ε / S.learnRate m.iterations := by
  obtain ⟨fuel, hfit⟩ := h.fitted
  exact settled_fit S E D h.aggregate h.limits hcal h.columns h.binNumbers fuel m hfit ε h.nonneg h.converging h.settled j f hf b hu h.learning hlim

end

/-! ### Poisson and negative binomial regression -/

theorem sumInBin_binSum (D : TrainSet) (f : FeatureSpec × SmootherKind) (b : ℕ) (x : ℕ → ℝ) :
    binSum D.n (f.1.cfg D.X D.n).bin x b = sumInBin D f b x := binSum_filter _ _ _ _

theorem sumInBin_le (D : TrainSet) (f : FeatureSpec × SmootherKind) (b : ℕ) (x y : ℕ → ℝ) (h : ∀ i < D.n, x i ≤ y i) :
    sumInBin D f b x ≤ sumInBin D f b y :=
  sum_le_sum fun i hi => h i (mem_range.mp (mem_filter.mp hi).1)

theorem sumInBin_congr (D : TrainSet) (f : FeatureSpec × SmootherKind) (b : ℕ) (x y : ℕ → ℝ) (h : ∀ i < D.n, x i = y i) :
    sumInBin D f b x = sumInBin D f b y :=
  sum_congr rfl fun i hi => h i (mem_range.mp (mem_filter.mp hi).1)

theorem sumInBin_mul (D : TrainSet) (f : FeatureSpec × SmootherKind) (b : ℕ) (c : ℝ) (x : ℕ → ℝ) :
    sumInBin D f b (fun i => c * x i) = c * sumInBin D f b x := by unfold sumInBin; rw [mul_sum]

theorem sumInBin_nonneg (D : TrainSet) (f : FeatureSpec × SmootherKind) (b : ℕ) (x : ℕ → ℝ) (h : ∀ i < D.n, 0 ≤ x i) :
    0 ≤ sumInBin D f b x := sum_nonneg fun i hi => h i (mem_range.mp (mem_filter.mp hi).1)

/-- The medians of the gamma distributions are less than their means and not more than 1/3 below them. -/
theorem GammaMedian.bounds {g : ℝ → ℝ} (hg : GammaMedian g) (a : ℝ) (ha : 2 ≤ a) : a - 1 / 3 ≤ g a ∧ g a ≤ a :=
  gammaMedian_bounds (by linarith) (hg a ha)

theorem posterior_neutral (g : ℝ → ℝ) (hg : GammaMedian g) (Y R η : ℝ) (hY : 0 ≤ Y) (hR : 0 ≤ R)
    (h : |(calcFactorsAndUncertainties g Y R).1| ≤ η) :
    Y + 5 / 3 ≤ Real.exp η * (R + 1.67834) ∧ R + 1.67834 ≤ Real.exp η * (Y + 2) := by
  unfold calcFactorsAndUncertainties calcFactorFromPosterior gammaPriors at h
  dsimp only at h
  have hc : (0 : ℝ) < R + 1.67834 := by norm_num; linarith
  have key : ∀ t : ℝ, Y + 5 / 3 ≤ t → t ≤ Y + 2 → |Real.log (t / (R + 1.67834))| ≤ η →
      Y + 5 / 3 ≤ Real.exp η * (R + 1.67834) ∧ R + 1.67834 ≤ Real.exp η * (Y + 2) := by
    intro t h1 h2 h3
    have ht : 0 < t := by linarith
    have hv : 0 < t / (R + 1.67834) := div_pos ht hc
    obtain ⟨l1, l2⟩ := abs_le.mp h3
    have u1 := (Real.log_le_iff_le_exp hv).mp l2
    have u2 := (Real.le_log_iff_exp_le hv).mp l1
    rw [div_le_iff₀ hc] at u1
    rw [Real.exp_neg, le_div_iff₀ hc, inv_mul_le_iff₀ (Real.exp_pos η)] at u2
    refine ⟨le_trans h1 u1, le_trans u2 ?_⟩
    exact mul_le_mul_of_nonneg_left h2 (Real.exp_pos η).le
  obtain ⟨g1, g2⟩ := GammaMedian.bounds hg (Y + 2) (by linarith)
  split_ifs at h
  · exact key _ (by linarith) g2 h
  · exact key _ (by linarith) le_rfl h

/-- Sums of predictions with a logarithmic link change by the exponential of the change of the link. -/
theorem sumInBin_exp_close (D : TrainSet) (f : FeatureSpec × SmootherKind) (b : ℕ) (hw : ∀ i < D.n, 0 ≤ D.w i) (u v : ℕ → ℝ) (d : ℝ)
    (h : ∀ i < D.n, |u i - v i| ≤ d) :
    sumInBin D f b (fun i => D.w i * Real.exp (u i)) ≤ Real.exp d * sumInBin D f b (fun i => D.w i * Real.exp (v i)) := by
  rw [← sumInBin_mul]
  refine sumInBin_le D f b _ _ fun i hi => ?_
  have : Real.exp (u i) ≤ Real.exp d * Real.exp (v i) := by
    rw [← Real.exp_add]
    exact Real.exp_le_exp.mpr (by have := (abs_le.mp (h i hi)).2; linarith)
  calc D.w i * Real.exp (u i) ≤ D.w i * (Real.exp d * Real.exp (v i)) := mul_le_mul_of_nonneg_left this (hw i hi)
    _ = _ := by ring

section
variable {σ : Type*} (S : Setup σ) (D : TrainSet) (m : FittedModel) (ε : ℝ)

/-- **C111.** `CBPoissonRegressor`: after a training that settled within `ε`, in every unsmoothed bin of every feature whose factor is
inside the limits, the sum of the weighted predictions and the sum of the weighted targets agree up to the constants of the prior and
a factor `exp δ`, with `δ = (number of features + 1 / learning rate) * ε`. -/
theorem C111_poisson (g : ℝ → ℝ) (hg : GammaMedian g) (h : SettledModel S (poissonEstimator g) D m ε) (hy : ∀ i < D.n, 0 ≤ D.y i)
    (j : ℕ) (f : FeatureSpec × SmootherKind) (hf : S.features[j]? = some f) (b : ℕ) (hu : Unsmoothed S D f b)
    (hlim : InsideLimits m ε j f b) :
    let targets := sumInBin D f b fun i => D.w i * D.y i
    let predictions := sumInBin D f b fun i => D.w i * m.predict D.prior D.X i
    let δ := (S.features.length + 1 / S.learnRate m.iterations) * ε
    targets + 5 / 3 ≤ Real.exp δ * (predictions + 1.67834) ∧ predictions + 1.67834 ≤ Real.exp δ * (targets + 2) := by
  obtain ⟨it, running, final, hclose, hpred, hest⟩ := settled_estimate S _ D (fun _ _ _ => rfl) m ε h j f hf b hu fun _ => hlim
  set d := (S.features.length : ℝ) * ε with hd
  set η := ε / S.learnRate m.iterations with hη
  intro targets predictions δ
  have hδ : δ = d + η := by simp only [δ, hd, hη]; ring
  have hP : predictions = sumInBin D f b fun i => D.w i * Real.exp (final i) :=
    sumInBin_congr D f b _ _ fun i hi => by rw [hpred i hi]; rfl
  have hT : sumInBin D f b (fun i => D.y i * D.w i) = targets := sumInBin_congr D f b _ _ fun i _ => mul_comm _ _
  change |(calcFactorsAndUncertainties g (binSum D.n _ (fun i => D.y i * D.w i) b) (binSum D.n _ (fun i => D.w i * Real.exp (running i)) b)).1| ≤ η at hest
  rw [sumInBin_binSum, sumInBin_binSum, hT] at hest
  have hT0 : 0 ≤ targets := sumInBin_nonneg D f b _ fun i hi => mul_nonneg (h.weights i hi) (hy i hi)
  have hR0 := sumInBin_nonneg D f b (fun i => D.w i * Real.exp (running i)) fun i hi => mul_nonneg (h.weights i hi) (Real.exp_pos _).le
  have hP0 : 0 ≤ predictions := by rw [hP]; exact sumInBin_nonneg D f b _ fun i hi => mul_nonneg (h.weights i hi) (Real.exp_pos _).le
  obtain ⟨h1, h2⟩ := posterior_neutral g hg _ _ η hT0 hR0 hest
  have hd0 : 0 ≤ d := by have := h.nonneg; positivity
  have c1 := sumInBin_exp_close D f b h.weights running final d hclose
  have c2 := sumInBin_exp_close D f b h.weights final running d fun i hi => by rw [abs_sub_comm]; exact hclose i hi
  rw [← hP] at c1 c2
  have he : 1 ≤ Real.exp d := Real.one_le_exp hd0
  have he' := Real.exp_pos η
  rw [hδ, Real.exp_add]
  refine ⟨le_trans h1 ?_, ?_⟩
  · rw [mul_comm (Real.exp d), mul_assoc]
    refine mul_le_mul_of_nonneg_left ?_ he'.le
    rw [mul_add]
    nlinarith
  · have : predictions + 1.67834 ≤ Real.exp d * (sumInBin D f b (fun i => D.w i * Real.exp (running i)) + 1.67834) := by
      rw [mul_add]; nlinarith
    refine le_trans this ?_
    rw [mul_assoc]
    exact mul_le_mul_of_nonneg_left h2 (le_trans zero_le_one he)

/-- **C111**, Poisson regression, training that changes nothing any more: in every such bin the sum of the predictions exceeds the sum
of the targets by at most 0.322 and falls short of it by at most 0.012. -/
theorem C111_poisson_fixed (g : ℝ → ℝ) (hg : GammaMedian g) (h : SettledModel S (poissonEstimator g) D m 0) (hy : ∀ i < D.n, 0 ≤ D.y i)
    (j : ℕ) (f : FeatureSpec × SmootherKind) (hf : S.features[j]? = some f) (b : ℕ) (hu : Unsmoothed S D f b)
    (hlim : InsideLimits m 0 j f b) :
    -0.012 ≤ sumInBin D f b (fun i => D.w i * m.predict D.prior D.X i) - sumInBin D f b (fun i => D.w i * D.y i) ∧
      sumInBin D f b (fun i => D.w i * m.predict D.prior D.X i) - sumInBin D f b (fun i => D.w i * D.y i) ≤ 0.322 := by
  obtain ⟨h1, h2⟩ := C111_poisson S D m 0 g hg h hy j f hf b hu hlim
  rw [mul_zero, Real.exp_zero, one_mul] at h1 h2
  norm_num at h1 h2 ⊢
  constructor <;> linarith

/-- **C111**, negative binomial regression, training that changes nothing any more: in every such bin the same holds for the sums
with the weights divided by `a + c * prediction`. -/
theorem C111_nbinom_fixed (g : ℝ → ℝ) (hg : GammaMedian g) (a c : ℝ) (ha : 0 < a) (hc : 0 ≤ c)
    (h : SettledModel S (nbinomEstimator g a c) D m 0) (hy : ∀ i < D.n, 0 ≤ D.y i)
    (j : ℕ) (f : FeatureSpec × SmootherKind) (hf : S.features[j]? = some f) (b : ℕ) (hu : Unsmoothed S D f b)
    (hlim : InsideLimits m 0 j f b) :
    let p := m.predict D.prior D.X
    let excess := sumInBin D f b (fun i => D.w i / (a + c * p i) * p i) - sumInBin D f b (fun i => D.w i / (a + c * p i) * D.y i)
    excess ≤ 0.322 ∧ -0.012 ≤ excess := by
  obtain ⟨it, running, final, hclose, hpred, hest⟩ := settled_estimate S _ D (fun _ _ _ => rfl) m 0 h j f hf b hu fun _ => hlim
  intro p excess
  have hrf : ∀ i < D.n, running i = final i := by
    intro i hi
    have := hclose i hi
    rw [mul_zero, abs_nonpos_iff, sub_eq_zero] at this
    exact this
  have hp : ∀ i < D.n, p i = Real.exp (running i) := fun i hi => by rw [hrf i hi]; exact hpred i hi
  change |(calcFactorsAndUncertainties g (binSum D.n _ (fun i => D.w i * D.y i / (a + c * Real.exp (running i))) b)
    (binSum D.n _ (fun i => D.w i * Real.exp (running i) / (a + c * Real.exp (running i))) b)).1| ≤ _ at hest
  rw [sumInBin_binSum, sumInBin_binSum] at hest
  have e1 : sumInBin D f b (fun i => D.w i * D.y i / (a + c * Real.exp (running i))) =
      sumInBin D f b fun i => D.w i / (a + c * p i) * D.y i :=
    sumInBin_congr D f b _ _ fun i hi => by rw [hp i hi]; ring
  have e2 : sumInBin D f b (fun i => D.w i * Real.exp (running i) / (a + c * Real.exp (running i))) =
      sumInBin D f b fun i => D.w i / (a + c * p i) * p i :=
    sumInBin_congr D f b _ _ fun i hi => by rw [hp i hi]; ring
  rw [e1, e2, zero_div] at hest
  have hpos : ∀ i < D.n, 0 ≤ D.w i / (a + c * p i) := fun i hi => by
    rw [hp i hi]
    exact div_nonneg (h.weights i hi) (by have := Real.exp_pos (running i); positivity)
  obtain ⟨h1, h2⟩ := posterior_neutral g hg _ _ 0
    (sumInBin_nonneg D f b _ fun i hi => mul_nonneg (hpos i hi) (hy i hi))
    (sumInBin_nonneg D f b _ fun i hi => mul_nonneg (hpos i hi) (by rw [hp i hi]; exact (Real.exp_pos _).le)) hest
  rw [Real.exp_zero, one_mul] at h1 h2
  norm_num at h1 h2 ⊢
  simp only [excess]
  constructor <;> linarith

/-- **C111**, background subtraction: after a training that settled within `ε`, the weighted residuals of every unsmoothed bin of
every feature sum to 0 up to a multiple of `ε`. -/
theorem C111_gbs (alpha : ℝ) (h : SettledModel S (gbsEstimator alpha) D m ε) (ha : 0 ≤ alpha)
    (j : ℕ) (f : FeatureSpec × SmootherKind) (hf : S.features[j]? = some f) (b : ℕ) (hu : Unsmoothed S D f b) :
    |sumInBin D f b fun i => D.w i * (D.y i - m.predict D.prior D.X i)| ≤
      ((1 + (1 + alpha) * sumInBin D f b D.w) / S.learnRate m.iterations + S.features.length * sumInBin D f b D.w) * ε := by
  obtain ⟨it, running, final, hclose, hpred, hest⟩ := settled_estimate S _ D (fun _ _ _ => rfl) m ε h j f hf b hu fun h => by cases h
  change |(binSum D.n _ (fun i => (D.y i - running i) * D.w i) b) / (binSum D.n _ (fun i => D.w i * (1 + alpha)) b + 1)| ≤ _ at hest
  rw [sumInBin_binSum, sumInBin_binSum, sumInBin_congr D f b (fun i => D.w i * (1 + alpha)) (fun i => (1 + alpha) * D.w i)
    (fun i _ => mul_comm _ _), sumInBin_mul] at hest
  have hW := sumInBin_nonneg D f b D.w h.weights
  have hden : 0 < (1 + alpha) * sumInBin D f b D.w + 1 := by positivity
  rw [abs_div, abs_of_pos hden, div_le_iff₀ hden] at hest
  have hdiff : |sumInBin D f b (fun i => D.w i * (D.y i - m.predict D.prior D.X i)) - sumInBin D f b (fun i => (D.y i - running i) * D.w i)| ≤
      S.features.length * ε * sumInBin D f b D.w := by
    unfold sumInBin
    rw [← sum_sub_distrib, mul_sum]
    refine le_trans (abs_sum_le_sum_abs _ _) (sum_le_sum fun i hi => ?_)
    have hi := mem_range.mp (mem_filter.mp hi).1
    rw [hpred i hi, show (gbsEstimator alpha).link.toLink.unlink (final i) = final i from rfl,
      show D.w i * (D.y i - final i) - (D.y i - running i) * D.w i = D.w i * (running i - final i) by ring, abs_mul,
      abs_of_nonneg (h.weights i hi), mul_comm]
    exact mul_le_mul_of_nonneg_right (hclose i hi) (h.weights i hi)
  have := abs_le.mp hest
  have h2 := abs_le.mp hdiff
  rw [add_mul, div_mul_eq_mul_div, mul_div_assoc, add_comm (1 : ℝ)]
  rw [abs_le]
  constructor <;> nlinarith [this.1, this.2, h2.1, h2.2]

end
end CB
