import Verif.Spec.Fit
import Verif.Props.Shift
import Verif.Props.Bounds
import Verif.Props.Monotone
import Verif.Props.UnseenBins

/-!
# End-to-end theorems about `fit` and `predict`

The theorems about training, smoothers and prediction put together for a whole fit: features made by `create_features`, any of
the modelled estimators, any training set.
-/

set_option autoImplicit false
set_option linter.unusedSectionVars false

namespace CB
open Finset Spec

section
variable {σ : Type*} (S : Setup σ) (E : Estimator) (D : TrainSet) (fuel : ℕ)

/-- The parts of a successful fit. -/
theorem fit_ok (m : FittedModel) (h : S.fit E D fuel = some (.ok m)) :
    ∃ a r, (∀ i < D.n, E.valid (D.y i)) ∧ E.scale D.n D.y D.w = .fin a ∧
      fitMain (S.paramsFor E) (S.oracle E D) (S.cfgs D) (baseline E D a) fuel = some (.ok r) ∧
      m = ⟨E.link, .fin a, E.offset D, fittedFeatures D.X D.n (S.features.map (·.1)) r.factors, r.iterations⟩ := by
  by_cases hv : ∀ i < D.n, E.valid (D.y i)
  · cases hs : E.scale D.n D.y D.w with
    | fin a =>
      rw [S.fit_finite D E fuel hv a hs,
        show (fun s => (priorPrediction E.link (.fin a) (E.offset D) D.prior s).getFin) = baseline E D a from rfl] at h
      cases hm : fitMain (S.paramsFor E) (S.oracle E D) (S.cfgs D) (baseline E D a) fuel with
      | none => rw [hm] at h; simp at h
      | some x =>
        rw [hm] at h
        cases x with
        | error e => simp at h
        | ok r =>
          simp only [Option.some.injEq, Except.ok.injEq] at h
          exact ⟨a, r, hv, rfl, hm, h.symm⟩
    | nan => rw [S.fit_notFinite D E fuel hv (by rw [hs]; rfl)] at h; simp at h
    | pinf => rw [S.fit_notFinite D E fuel hv (by rw [hs]; rfl)] at h; simp at h
    | ninf => rw [S.fit_notFinite D E fuel hv (by rw [hs]; rfl)] at h; simp at h
  · unfold Setup.fit at h
    rw [if_neg hv] at h
    simp at h

/-- **C21**, whole fit: `fit` ends for every data set and every estimator. -/
theorem C21_fit (hf : normalIterations S.params + 4 ≤ fuel) : ∃ r, S.fit E D fuel = some r := by
  by_cases hv : ∀ i < D.n, E.valid (D.y i)
  · cases hs : E.scale D.n D.y D.w with
    | fin a =>
      rw [S.fit_finite D E fuel hv a hs,
        show (fun s => (priorPrediction E.link (.fin a) (E.offset D) D.prior s).getFin) = baseline E D a from rfl]
      obtain ⟨r, hr⟩ := (C21_terminates (S.paramsFor E) (S.oracle E D) (S.cfgs D) (baseline E D a)).2 fuel hf
      rw [hr]
      cases r with
      | error e => exact ⟨_, rfl⟩
      | ok r => exact ⟨_, rfl⟩
    | nan => exact ⟨_, S.fit_notFinite D E fuel hv (by rw [hs]; rfl)⟩
    | pinf => exact ⟨_, S.fit_notFinite D E fuel hv (by rw [hs]; rfl)⟩
    | ninf => exact ⟨_, S.fit_notFinite D E fuel hv (by rw [hs]; rfl)⟩
  · unfold Setup.fit
    rw [if_neg hv]
    exact ⟨_, rfl⟩

/-- Every feature that is visited has aggregated factors afterwards. -/
theorem pass_some (p : Params ℝ) (o : Oracle ℝ) (hh : p.hierarchical = none) (it d : ℕ) (id : Bool) (il : Flt ℝ) :
    ∀ (cfgs : List FeatureCfg) (i : ℕ) (fss : List (FState ℝ)) (pred : Pred ℝ),
      ∀ fs ∈ (featurePass p o it d id il i cfgs fss pred).1, fs.agg.isSome := by
  intro cfgs
  induction cfgs with
  | nil => intro i fss pred fs h; simp [featurePass] at h
  | cons cfg cfgs ih =>
    intro i fss pred fs h
    cases fss with
    | nil => simp [featurePass] at h
    | cons fs0 fss =>
      have hs : skipped p it cfg = false := by simp [skipped, hh]
      simp only [featurePass, hs, Bool.false_eq_true, if_false, List.mem_cons] at h
      rcases h with rfl | h
      · simp only [featureIteration, visitFactors, Option.isSome_some]
      · exact ih _ _ _ fs h

theorem prepare_some (fss : List (FState ℝ)) (h : ∀ fs ∈ fss, fs.agg.isSome) : ∃ l, prepareFeatures fss = .ok l ∧ l.length = fss.length := by
  induction fss with
  | nil => exact ⟨_, rfl, rfl⟩
  | cons fs fss ih =>
    obtain ⟨l, hl, hlen⟩ := ih fun f hf => h f (List.mem_cons_of_mem _ hf)
    obtain ⟨agg, hagg⟩ := Option.isSome_iff_exists.mp (h fs (List.mem_cons_self))
    simp only [prepareFeatures, hagg, hl]
    exact ⟨_, rfl, by simp [hlen]⟩

/-- When the loop fails, an iteration failed. -/
theorem loop_failed (p : Params ℝ) (o : Oracle ℝ) (cfgs : List FeatureCfg) (s0 : TState ℝ) (e : TErr) :
    ∀ (fuel : ℕ) (s : TState ℝ) (past : List (TState ℝ)), Trace p o cfgs s0 past s → loop p o cfgs fuel s = .failed e →
      ∃ past' s', Trace p o cfgs s0 past' s' ∧ iterate p o cfgs s' = .error e := by
  intro fuel
  induction fuel with
  | zero =>
    intro s past _ h
    rw [loop] at h
    split at h <;> simp at h
  | succ fuel ih =>
    intro s past ht h
    rw [loop] at h
    split at h
    · rename_i hc
      cases hi : iterate p o cfgs s with
      | error e' =>
        rw [hi] at h
        simp only [LoopResult.failed.injEq] at h
        subst h
        exact ⟨past, s, ht, hi⟩
      | ok s' =>
        rw [hi] at h
        exact ih s' (s :: past) (.step ht hc hi) h
    · simp at h

/-- A fit in which no pass over the features ever doubles the loss succeeds (at least one iteration, no hierarchical features,
stop criteria below the values with which training starts). -/
theorem fit_succeeds (a : ℝ) (hv : ∀ i < D.n, E.valid (D.y i)) (hs : E.scale D.n D.y D.w = .fin a)
    (hm : 1 ≤ S.params.maximalIterations) (hh : S.params.hierarchical = none)
    (hf : S.params.minimalFactorChange < 100) (hlc : S.params.minimalLossChange < 100000000000000000000)
    (hnd : ∀ past s, Trace (S.paramsFor E) (S.oracle E D) (S.cfgs D) (startState (S.oracle E D) (S.cfgs D) (baseline E D a)) past s →
      isDiverged s.initialLoss s.loss = false ∧
      isDiverged s.initialLoss ((S.oracle E D).loss (featurePass (S.paramsFor E) (S.oracle E D) s.iteration s.diverging
        s.isDiverging s.initialLoss 0 (S.cfgs D) s.feats s.pred).2) = false)
    (hfuel : normalIterations S.params + 4 ≤ fuel) : ∃ m, S.fit E D fuel = some (.ok m) := by
  have hit : ∀ s, isDiverged s.initialLoss ((S.oracle E D).loss (featurePass (S.paramsFor E) (S.oracle E D) s.iteration s.diverging
        s.isDiverging s.initialLoss 0 (S.cfgs D) s.feats s.pred).2) = false →
      ∃ s', iterate (S.paramsFor E) (S.oracle E D) (S.cfgs D) s = .ok s' ∧
        s'.feats = (featurePass (S.paramsFor E) (S.oracle E D) s.iteration s.diverging s.isDiverging s.initialLoss 0 (S.cfgs D)
          s.feats s.pred).1 := by
    intro s hd
    unfold iterate
    simp only [checkConvergence, hd, Bool.false_eq_true, if_false]
    exact ⟨_, rfl, rfl⟩
  have hm' : 1 ≤ (S.paramsFor E).maximalIterations := hm
  have hh' : (S.paramsFor E).hierarchical = none := hh
  have hf' : (S.paramsFor E).minimalFactorChange < 100 := hf
  have hl' : (S.paramsFor E).minimalLossChange < 100000000000000000000 := hlc
  have hc0 : continues (S.paramsFor E) (startState (S.oracle E D) (S.cfgs D) (baseline E D a)) = true := by
    simp only [continues, checkStop, startState, Flt.absLe]
    simp [show (S.paramsFor E).maximalIterations ≠ 0 by omega, not_le.mpr hf', hl']
  rw [S.fit_finite D E fuel hv a hs,
    show (fun s => (priorPrediction E.link (.fin a) (E.offset D) D.prior s).getFin) = baseline E D a from rfl]
  obtain ⟨r, hr⟩ := (C21_terminates (S.paramsFor E) (S.oracle E D) (S.cfgs D) (baseline E D a)).2 fuel hfuel
  rw [hr]
  cases r with
  | ok r => exact ⟨_, rfl⟩
  | error e =>
    exfalso
    unfold fitMain at hr
    cases hl : loop (S.paramsFor E) (S.oracle E D) (S.cfgs D) fuel (startState (S.oracle E D) (S.cfgs D) (baseline E D a)) with
    | outOfFuel => rw [hl] at hr; simp at hr
    | failed e' =>
      obtain ⟨past, s, ht, hi⟩ := loop_failed _ _ _ _ e' fuel _ [] .start hl
      obtain ⟨s', h', -⟩ := hit s (hnd past s ht).2
      rw [h'] at hi
      simp at hi
    | done s =>
      rw [hl] at hr
      obtain ⟨past, ht, hc⟩ := loop_done _ _ _ _ fuel _ s [] .start hl
      have hagg : ∀ fs ∈ s.feats, fs.agg.isSome := by
        cases ht with
        | start => rw [hc0] at hc; simp at hc
        | step ht' _ hi =>
          obtain ⟨s'', h', hfe⟩ := hit _ (hnd _ _ ht').2
          rw [h', Except.ok.injEq] at hi
          subst hi
          rw [hfe]
          exact pass_some (S.paramsFor E) _ hh' _ _ _ _ _ _ _ _
      obtain ⟨l, hl', -⟩ := prepare_some s.feats hagg
      simp only [hl', checkConvergence, (hnd past s ht).1, Bool.false_eq_true, if_false] at hr
      simp at hr

/-- The columns and factors of a fitted feature come from one feature and its final state. -/
theorem fittedFeatures_get (X : Table ℝ) (n : ℕ) (specs : List FeatureSpec) (factors : List (ℕ → ℝ)) (g : FittedFeature ℝ)
    (hg : g ∈ fittedFeatures X n specs factors) :
    ∃ (j : ℕ) (f : FeatureSpec) (fac : ℕ → ℝ), specs[j]? = some f ∧ factors[j]? = some fac ∧
      g = ⟨f.group, f.external, (bindData X n f.group none).2, fac⟩ := by
  obtain ⟨j, hj⟩ := List.getElem?_of_mem hg
  unfold fittedFeatures at hj
  rw [List.getElem?_zipWith] at hj
  cases h1 : specs[j]? with
  | none => rw [h1] at hj; simp at hj
  | some f =>
    cases h2 : factors[j]? with
    | none => rw [h1, h2] at hj; simp at hj
    | some fac =>
      rw [h1, h2] at hj
      simp only [Option.some.injEq] at hj
      exact ⟨j, f, fac, h1, h2, hj.symm⟩

/-- What a fitted feature predicts is one of its factors, or neutral. -/
theorem predict_factor_or_zero (g : FittedFeature ℝ) (row : List (Flt ℝ)) :
    g.predict row = 0 ∨ ∃ b, g.predict row = g.factors b := by
  have h1 : ∀ len, predictOneDim len g.factors row = none ∨ ∃ b, predictOneDim len g.factors row = some (g.factors b) := by
    intro len
    unfold predictOneDim
    split
    · split
      · exact Or.inr ⟨_, rfl⟩
      · exact Or.inl rfl
    · exact Or.inl rfl
  have h2 : ∀ ns, predictMultiDim ns g.factors row = none ∨ ∃ b, predictMultiDim ns g.factors row = some (g.factors b) := by
    intro ns
    unfold predictMultiDim
    split
    · exact Or.inr ⟨_, rfl⟩
    · exact Or.inl rfl
  unfold FittedFeature.predict
  by_cases hf : finiteSemiPositive row = true
  · rw [if_pos hf]
    unfold FittedFeature.smoother
    by_cases h0 : g.nFinite = 0
    · rw [if_pos h0]; exact Or.inl rfl
    · rw [if_neg h0]
      by_cases hl : g.group.length < 2
      · rw [if_pos hl]
        dsimp only
        rcases h1 g.nFinite with h | ⟨b, h⟩ <;> rw [h]
        · exact Or.inl rfl
        · exact Or.inr ⟨b, one_mul _⟩
      · rw [if_neg hl]
        dsimp only
        rcases h2 (setNBins g.group.length (arangeMulti g.nBins)) with h | ⟨b, h⟩ <;> rw [h]
        · exact Or.inl rfl
        · exact Or.inr ⟨b, one_mul _⟩
  · rw [if_neg hf]; exact Or.inr ⟨_, rfl⟩

/-- The final factors of a training without divergence are the stored ones of its last state. -/
theorem final_stored (p : Params ℝ) (o : Oracle ℝ) (cfgs : List FeatureCfg) (prior : ℕ → ℝ) (r : FitResult ℝ)
    (h : fitMain p o cfgs prior fuel = some (.ok r)) :
    ∃ past s, Trace p o cfgs (startState o cfgs prior) past s ∧
      ∀ (j : ℕ) (fac : ℕ → ℝ) (fs : FState ℝ), r.factors[j]? = some fac → s.feats[j]? = some fs → stored fs = fac := by
  obtain ⟨past, st, htr, -, hfac, -⟩ := fitMain_ok p o _ prior fuel r h
  refine ⟨past, st, htr, fun j fac fs hj hfs => ?_⟩
  have h1 : (st.feats.map (fun fs => fs.agg))[j]? = (r.factors.map some)[j]? := by rw [hfac]
  rw [List.getElem?_map, List.getElem?_map, hfs, hj] at h1
  simp only [Option.map_some, Option.some.injEq] at h1
  unfold stored
  rw [h1]

/-- **C23**, whole fit: in a model with logarithmic link whose training never diverged, the multiplicative contribution of
every feature to every prediction, on any row, lies between 0.01 and 1000, for interactions between 0.1 and 100. -/
theorem C23_fit (hagg : S.params.aggregate = true) (hc : S.params.consts = realConsts) (hE : E.link = .log)
    (hstd : ∀ f ∈ S.features, f.1.external = false)
    (m : FittedModel) (h : S.fit E D fuel = some (.ok m)) (hnd : NeverDiverges S E D) (g : FittedFeature ℝ)
    (hg : g ∈ m.features) (row : List (Flt ℝ)) :
    (if g.group.length = 1 then 0.01 else 0.1) ≤ Real.exp (g.predict row) ∧
      Real.exp (g.predict row) ≤ (if g.group.length = 1 then 1000 else 100) := by
  obtain ⟨a, r, -, hs, hr, rfl⟩ := fit_ok S E D fuel m h
  dsimp only at hg
  obtain ⟨j, f, fac, hj, hfj, rfl⟩ := fittedFeatures_get _ _ _ _ _ hg
  obtain ⟨past, s, htr, hst⟩ := final_stored fuel _ _ _ _ r hr
  have hjc : (S.cfgs D)[j]? = some (f.cfg D.X D.n) := by
    rw [List.getElem?_map] at hj
    unfold Setup.cfgs
    rw [List.getElem?_map]
    cases hS : S.features[j]? with
    | none => rw [hS] at hj; simp at hj
    | some q => rw [hS] at hj; simp only [Option.map_some, Option.some.injEq] at hj ⊢; rw [hj]
  obtain ⟨fs, hfs, hb, -⟩ := C23_factor_bounds (S.paramsFor E) hagg (by simp [Setup.paramsFor, hE]) hc (S.oracle E D) (S.cfgs D) _
    past s htr (hnd a hs past s htr) j _ hjc
  have hfac := hst j fac fs hfj hfs
  rw [hfac] at hb
  have hext : f.external = false := by
    rw [List.getElem?_map] at hj
    cases hS : S.features[j]? with
    | none => rw [hS] at hj; simp at hj
    | some q =>
      rw [hS] at hj
      simp only [Option.map_some, Option.some.injEq] at hj
      rw [← hj]; exact hstd q (List.mem_of_getElem? hS)
  have e1 : minFactor (f.cfg D.X D.n).external ((f.cfg D.X D.n).group.length == 1)
      = if f.group.length = 1 then 0.01 else 0.1 := by
    show minFactor f.external (f.group.length == 1) = _
    rw [hext]
    by_cases hl : f.group.length = 1
    · simp [hl, minFactor]
    · rw [show (f.group.length == 1) = false by simpa using hl, if_neg hl]; rfl
  have e2 : maxFactor (f.cfg D.X D.n).external ((f.cfg D.X D.n).group.length == 1)
      = if f.group.length = 1 then 1000 else 100 := by
    show maxFactor f.external (f.group.length == 1) = _
    rw [hext]
    by_cases hl : f.group.length = 1
    · simp [hl, maxFactor]
    · rw [show (f.group.length == 1) = false by simpa using hl, if_neg hl]; rfl
  rw [e1, e2] at hb
  dsimp only
  rcases predict_factor_or_zero ⟨f.group, f.external, (bindData D.X D.n f.group none).2, fac⟩ row with h0 | ⟨b, h0⟩
  · rw [h0, Real.exp_zero]
    split <;> norm_num
  · rw [h0]; exact hb b

end

/-! ### `create_features` -/

/-- Each group gets one feature, with the smoother chosen for it. -/
theorem createFeatures_get (c : Choice) (props : Option (List (String × ℕ))) :
    ∀ (groups : List (List String)) (fs : List (FeatureSpec × SmootherKind)), createFeatures c props groups = .ok fs →
      ∀ j : ℕ, (groups[j]? = none ∧ fs[j]? = none) ∨
        ∃ (g : List String) (q : FeatureSpec × SmootherKind), groups[j]? = some g ∧ fs[j]? = some q ∧ q.1.group = g ∧
          q.1.external = false ∧ smootherForGroup c props g = .ok q.2 := by
  intro groups
  induction groups with
  | nil =>
    intro fs h j
    unfold createFeatures at h
    cases h
    exact Or.inl ⟨rfl, rfl⟩
  | cons g groups ih =>
    intro fs h j
    unfold createFeatures at h
    cases hk : smootherForGroup c props g with
    | error e => rw [hk] at h; simp at h
    | ok kind =>
      rw [hk] at h
      dsimp only at h
      cases hr : createFeatures c props groups with
      | error e => rw [hr] at h; simp at h
      | ok rest =>
        rw [hr] at h
        simp only [Except.ok.injEq] at h
        subst h
        cases j with
        | zero => exact Or.inr ⟨g, _, rfl, rfl, rfl, rfl, hk⟩
        | succ j => simpa using ih rest hr j

/-- Estimators whose factors are used as they are: all but `CBLocationRegressor`. -/
def NoCalibration (E : Estimator) : Prop := ∀ cfg bw factors, E.calibrate cfg bw factors = factors

theorem noCalibration_of_modelled (E : Estimator) (h : (∃ g, E = poissonEstimator g) ∨ (∃ g a c, E = nbinomEstimator g a c) ∨
    (∃ p c, E = classifierEstimator p c) ∨ E = locPoissonEstimator ∨ ∃ a, E = gbsEstimator a) : NoCalibration E := by
  rcases h with ⟨g, rfl⟩ | ⟨g, a, c, rfl⟩ | ⟨p, c, rfl⟩ | rfl | ⟨a, rfl⟩ <;> exact fun _ _ _ => rfl

theorem unlink_mono (k : LinkKind) : Monotone k.toLink.unlink := by
  intro x y h
  cases k with
  | log => exact Real.exp_le_exp.mpr h
  | identity => exact h
  | logit =>
    show 1 / (1 + Real.exp (-x)) ≤ 1 / (1 + Real.exp (-y))
    have hy := Real.exp_pos (-y)
    exact one_div_le_one_div_of_le (by linarith) (by linarith [Real.exp_le_exp.mpr (neg_le_neg h)])

/-- **C73**, whole fit: let the column `col` be used by exactly one feature, alone, with a property that asks for a direction,
and without a smoother given explicitly. If training never diverged, then for all bin numbers `k ≤ k'` up to the largest one in
the training data the predictions of two rows that only differ in `col`, being `k` and `k'`, are in the requested order. -/
theorem C73_fit (S : Setup (List (ℝ × ℝ × ℝ))) (c : Choice) (props : List (String × ℕ)) (groups : List (List String))
    (hS : createFeatures c (some props) groups = .ok S.features) (hagg : S.params.aggregate = true)
    (hok : S.params.consts.Ok) (hlr : ∀ it, 0 ≤ S.learnRate it) (E : Estimator) (hE : NoCalibration E)
    (inc : Bool) (reg : List (ℝ × ℝ × ℝ) → ℝ → ℝ) (hreg : IsIsotonic inc reg)
    (hbase : S.base (.isotonic (some inc)) = isotonicSmoother reg) (hk : c.kind ≠ .noSmoother)
    (col : String) (hex : Spec.NoExplicit c [col]) (fp : ℕ) (hfp : AsksDirection inc fp) (hprop : props.lookup col = some fp)
    (j : ℕ) (hcol : groups[j]? = some [col]) (hother : ∀ i g, groups[i]? = some g → col ∈ g → i = j)
    (D : TrainSet) (fuel : ℕ) (m : FittedModel) (h : S.fit E D fuel = some (.ok m)) (hnd : NeverDiverges S E D)
    (X1 X2 : Table ℝ) (s : ℕ) (hsame : ∀ c', c' ≠ col → X1 s c' = X2 s c') (k k' : ℕ) (hkk : k ≤ k')
    (h1 : X1 s col = .fin k) (h2 : X2 s col = .fin k') (hseen : ∃ i < D.n, ∃ v : ℝ, D.X i col = .fin v ∧ (k' : ℝ) ≤ v)
    (prior : Option (ℕ → Flt ℝ)) :
    InOrder inc (m.predict prior X1 s) (m.predict prior X2 s) := by
  obtain ⟨a, r, -, hs, hr, rfl⟩ := fit_ok S E D fuel m h
  rcases createFeatures_get c (some props) groups S.features hS j with ⟨h0, -⟩ | ⟨g, q, hg, hq, hqg, -, hkind⟩
  · rw [hcol] at h0; cases h0
  rw [hcol, Option.some.injEq] at hg
  subst hg
  have hcfgs : S.cfgs D = (S.features.map (·.1)).map fun f => f.cfg D.X D.n := by
    unfold Setup.cfgs
    rw [List.map_map]; rfl
  rw [hcfgs] at hr
  have hkind' : c.choose [col] [fp] = .ok q.2 := by
    have : readFeatureProperty (some props) [col] Flags.HAS_MISSING = [fp] := by
      unfold readFeatureProperty
      simp [hprop]
    unfold smootherForGroup at hkind
    rw [this] at hkind
    exact hkind
  have hns : (bindData D.X D.n q.1.group none).2 = [(q.1.cfg D.X D.n).nFinite] := by
    have hl := bindData_length D.X D.n q.1.group
    rw [hqg] at hl ⊢
    show _ = [(bindData D.X D.n q.1.group none).2.prod]
    rw [hqg]
    generalize (bindData D.X D.n [col] none).2 = ns at hl
    match ns, hl with
    | [x], _ => simp
  have hin : rint (k' : ℝ) < ((q.1.cfg D.X D.n).nFinite : ℤ) := by
    obtain ⟨i, hi, v, hv, hkv⟩ := hseen
    have hk0 : (0 : ℝ) ≤ k' := Nat.cast_nonneg k'
    obtain ⟨x, hx, hlt⟩ := C25_seen_range D.X D.n q.1.group (by rw [hqg]; simp) i hi (by
      intro b hb
      rw [hqg] at hb
      simp only [Table.row, List.map_cons, List.map_nil, List.mem_singleton] at hb
      exact ⟨v, by rw [hb, hv], le_trans hk0 hkv⟩) 0 (by rw [hqg]; simp [Table.row]) (by rw [bindData_length, hqg]; simp)
    simp only [hqg, Table.row, List.map_cons, List.getElem_cons_zero] at hx
    rw [hv, Flt.fin.injEq] at hx
    subst hx
    simp only [hns, List.getElem_cons_zero] at hlt
    have : k' < (q.1.cfg D.X D.n).nFinite := by
      have : (k' : ℝ) < ((q.1.cfg D.X D.n).nFinite : ℝ) := lt_of_le_of_lt hkv hlt
      exact_mod_cast this
    have e : rint (k' : ℝ) = k' := by
      unfold rint
      simp
    rw [e]
    exact_mod_cast this
  have hmain := C73_prediction (S.paramsFor E) hagg hok (S.oracle E D) D.X D.n (S.features.map (·.1)) (baseline E D a)
    (by
      intro it i fs
      unfold Setup.oracle
      dsimp only
      cases S.features[i]? with
      | none => rfl
      | some f => exact hE _ _ _)
    hlr j q.1 (by rw [List.getElem?_map, hq]; rfl) col hqg
    (by
      intro i g hi hm
      rw [List.getElem?_map] at hi
      rcases createFeatures_get c (some props) groups S.features hS i with ⟨-, h0⟩ | ⟨g', q', hg', hq', hqg', -⟩
      · rw [h0] at hi; cases hi
      · rw [hq'] at hi
        simp only [Option.map_some, Option.some.injEq] at hi
        subst hi
        exact hother i g' hg' (by rw [← hqg']; exact hm))
    inc reg hreg S.base hbase c hk hex fp hfp q.2 hkind'
    (by
      intro it pr fs est
      refine ⟨binSum D.n (q.1.cfg D.X D.n).bin D.w,
        fun b => (E.parameters it D.n (q.1.cfg D.X D.n).bin D.y D.w pr.factors b).2, fun b _ => ?_⟩
      unfold Setup.oracle
      dsimp only
      rw [hq]
      dsimp only
      rw [hns])
    fuel r hr
    (by
      intro past st ht
      refine hnd a hs past st ?_
      rw [hcfgs]; exact ht)
    X1 X2 s hsame k k' h1 h2 (Nat.cast_nonneg k) (by exact_mod_cast hkk) hin
    (fun s => (priorPrediction E.link (.fin a) (E.offset D) prior s).getFin)
  unfold FittedModel.predict
  dsimp only
  unfold InOrder at hmain ⊢
  cases inc with
  | true =>
    rw [if_pos rfl] at hmain ⊢
    exact unlink_mono _ hmain
  | false =>
    rw [if_neg (by simp)] at hmain ⊢
    exact unlink_mono _ hmain

/-- A usable row lies in the cells of its rounded down components. -/
theorem inCell_of_floor (row : List (Flt ℝ)) (h : finiteSemiPositive row = true) (t : List ℕ) (ht : row.map floorComp = t) :
    ∃ x : List ℝ, row = x.map Flt.fin ∧ InCell x t := by
  subst ht
  induction row with
  | nil => exact ⟨[], rfl, rfl, by simp⟩
  | cons b row ih =>
    rw [finiteSemiPositive_iff] at h
    obtain ⟨v, rfl, hv⟩ := h b (List.mem_cons_self ..)
    obtain ⟨x, hx, hl, hc⟩ := ih ((finiteSemiPositive_iff row).mpr fun b hb => h b (List.mem_cons_of_mem _ hb))
    refine ⟨v :: x, by rw [List.map_cons, hx], by simp [hl], ?_⟩
    intro i h1 h2
    cases i with
    | zero =>
      simp only [List.map_cons, List.getElem_cons_zero, floorComp]
      have h0 : 0 ≤ ⌊v⌋ := Int.floor_nonneg.mpr hv
      have e : ((⌊v⌋.toNat : ℕ) : ℝ) = (⌊v⌋ : ℝ) := by
        have : ((⌊v⌋.toNat : ℕ) : ℤ) = ⌊v⌋ := Int.toNat_of_nonneg h0
        exact_mod_cast this
      rw [e]
      exact ⟨Int.floor_le v, Int.lt_floor_add_one v⟩
    | succ i =>
      have := hc i (by simpa using h1) (by simpa using h2)
      simp only [List.map_cons, List.getElem_cons_succ]
      exact this

/-- **C74**, whole fit: let a feature have a categorical column among its columns, with default settings for the smoothers
(regression types in use, no group-by smoothers). If training never diverged, every bin of the feature in which the training data
have no weight contributes nothing to the predictions. -/
theorem C74_fit {σ : Type*} (S : Setup σ) (c : Choice) (props : List (String × ℕ)) (groups : List (List String))
    (hS : createFeatures c (some props) groups = .ok S.features) (hagg : S.params.aggregate = true)
    (hok : S.params.consts.Ok) (E : Estimator) (hE : NoCalibration E) (hr : c.useRegressionType = true) (hgb : c.kind ≠ .groupBy)
    (j : ℕ) (group : List String) (hj : groups[j]? = some group) (col : String) (hcol : col ∈ group)
    (fp : ℕ) (hprop : props.lookup col = some fp) (hcat : IsCategorical fp)
    (D : TrainSet) (fuel : ℕ) (m : FittedModel) (h : S.fit E D fuel = some (.ok m)) (hnd : NeverDiverges S E D)
    (t : List ℕ) (ht : IsBinTuple (bindData D.X D.n group none).2 t)
    (hempty : ∀ i < D.n, (∃ x : List ℝ, D.X.row group i = x.map Flt.fin ∧ InCell x t) → D.w i = 0)
    (x : List ℝ) (hx : BelongsTo x t) :
    ∃ g, m.features[j]? = some g ∧ g.group = group ∧ g.predict (x.map Flt.fin) = 0 := by
  obtain ⟨a, r, -, hs, hfit, rfl⟩ := fit_ok S E D fuel m h
  rcases createFeatures_get c (some props) groups S.features hS j with ⟨h0, -⟩ | ⟨g, q, hg, hq, hqg, -, hkind⟩
  · rw [hj] at h0; cases h0
  rw [hj, Option.some.injEq] at hg
  subst hg
  have hcfgs : S.cfgs D = (S.features.map (·.1)).map fun f => f.cfg D.X D.n := by
    unfold Setup.cfgs
    rw [List.map_map]; rfl
  rw [hcfgs] at hfit
  have hne : group ≠ [] := List.ne_nil_of_mem hcol
  have hmem : fp ∈ readFeatureProperty (some props) group Flags.HAS_MISSING := by
    unfold readFeatureProperty
    rw [List.mem_map]
    exact ⟨col, hcol, by simp [hprop]⟩
  obtain ⟨f, hf, hfg, hf0⟩ := C74_prediction (S.paramsFor E) hagg hok (S.oracle E D) D.X D.n D.w (S.features.map (·.1)) (baseline E D a)
    (by
      intro it i fs
      unfold Setup.oracle
      dsimp only
      cases S.features[i]? with
      | none => rfl
      | some f => exact hE _ _ _)
    j q.1 (by rw [List.getElem?_map, hq]; rfl) (by rw [hqg]; exact hne) c hr _ fp hmem hcat (Or.inl hgb) q.2
    (by rw [hqg]; exact hkind) S.base
    (by
      intro it pr fs est
      refine ⟨fun b => (E.parameters it D.n (q.1.cfg D.X D.n).bin D.y D.w pr.factors b).2, fun b _ => ?_⟩
      unfold Setup.oracle
      dsimp only
      rw [hq])
    fuel r hfit
    (by
      intro past st ht
      refine hnd a hs past st ?_
      rw [hcfgs]; exact ht)
    t (by rw [hqg]; exact ht)
    (by
      intro i hi hb
      apply hempty i hi
      have hcode := bindData_code D.X D.n q.1.group (by rw [hqg]; exact hne) i hi
      by_cases hfs : finiteSemiPositive (D.X.row q.1.group i) = true
      · rw [if_pos hfs] at hcode
        have hv := bindData_valid D.X D.n q.1.group (by rw [hqg]; exact hne) i hi hfs
        have htup := validRow_tuple _ _ (by rw [bindData_length]; simp [Table.row]) hv
        have htup' : IsBinTuple (bindData D.X D.n q.1.group none).2 t := by rw [hqg]; exact ht
        have e := encode_inj _ _ _ htup htup' (hcode.symm.trans hb)
        rw [hqg] at hfs e
        exact inCell_of_floor _ hfs t e
      · rw [if_neg hfs] at hcode
        have hlt := encode_lt (bindData D.X D.n q.1.group none).2 t (by rw [hqg]; exact ht)
        have : (bindData D.X D.n q.1.group none).2.prod = encode (bindData D.X D.n q.1.group none).2 t := hcode.symm.trans hb
        omega)
    x hx
  exact ⟨f, hf, by rw [hfg, hqg], hf0⟩

end CB
