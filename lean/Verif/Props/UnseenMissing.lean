import Verif.Props.PipelineMissing
import Verif.Props.UnseenBins
import Verif.Props.PredictMore
import Verif.Props.Calibration
import Verif.Props.GammaPrior
import Verif.Props.Gbs
import Verif.Props.Classifier
import Verif.Props.Nbinom
import Verif.Props.Quantile
import Verif.Model.GenericFit
import Verif.Model.DispersionFit
import Verif.Spec.SwapClasses
import Verif.Spec.UnseenMissing

/-!
# C128: missing values that training has not seen
-/

set_option autoImplicit false
set_option linter.unusedSectionVars false

namespace CB
open Finset Spec

noncomputable section

theorem clip_between (x l h y lo hi : ℝ) (hc : IsClip x l h y) (hl : l ≤ 0) (hh : 0 ≤ h) (hlo : lo ≤ 0) (hhi : 0 ≤ hi)
    (h1 : lo ≤ x) (h2 : x ≤ hi) : lo ≤ y ∧ y ≤ hi ∧ l ≤ y ∧ y ≤ h := by
  rcases lt_or_ge x l with hx | hx
  · rw [hc.1 hx]; exact ⟨by linarith, by linarith, le_rfl, by linarith⟩
  · rcases lt_or_ge h x with hx2 | hx2
    · rw [hc.2.1 hx2]; exact ⟨by linarith, by linarith, by linarith, le_rfl⟩
    · rw [hc.2.2 hx hx2]; exact ⟨h1, h2, hx, hx2⟩

section
variable (p : Params ℝ) (hp : p.aggregate = true) (hok : p.consts.Ok) (o : Oracle ℝ) (cfgs : List FeatureCfg) (prior : ℕ → ℝ)
  (hcal : ∀ it i (fs : FState ℝ), o.calibrate it i fs = fs.factors)
  (j : ℕ) (cfg : FeatureCfg) (hj : cfgs[j]? = some cfg)
include hp hok hcal hj

/-- A step of training without divergence: the feature is left out and keeps its factors, or it is updated. -/
theorem step_cases (past : List (TState ℝ)) (s s' : TState ℝ) (h : Trace p o cfgs (startState o cfgs prior) past s)
    (hc : continues p s = true) (hit : iterate p o cfgs s = .ok s') (hnd : s'.diverging = 0) (fs : FState ℝ)
    (hfs : s.feats[j]? = some fs) :
    s.diverging = 0 ∧ ∃ fs', s'.feats[j]? = some fs' ∧
      ((skipped p past.length cfg = true ∧ ∀ b, stored fs' b = stored fs b) ∨
      skipped p past.length cfg = false ∧ ∃ (running : Pred ℝ) (raw : ℕ → ℝ),
        (cfg.missingNotLearned = true → raw cfg.nFinite = 0) ∧
        (cfg.missingNotLearned = false → raw cfg.nFinite = o.learnRate (past.length + 1) * o.estimate past.length j running fs cfg.nFinite) ∧
        ∀ b, (p.clip = false → stored fs' b - stored fs b = raw b) ∧
        (p.clip = true → fs.isFitted = false → IsClip (raw b) p.consts.logHalf p.consts.logTwo (stored fs' b)) ∧
        (p.clip = true → fs.isFitted = true → ∃ once, IsClip (raw b) p.consts.logHalf p.consts.logTwo once ∧
          IsClip once (p.consts.logMin cfg.external (cfg.group.length == 1) - stored fs b)
            (p.consts.logMax cfg.external (cfg.group.length == 1) - stored fs b) (stored fs' b - stored fs b))) := by
  have hjl : j < cfgs.length := by
    by_contra hc
    rw [List.getElem?_eq_none (not_lt.mp hc)] at hj; cases hj
  obtain ⟨_, _, _, _, hcc, _⟩ := iterate_ok p o cfgs _ _ hit
  obtain ⟨_, h2, _⟩ := checkConvergence_ok _ _ _ _ _ hcc
  have hd' : s'.isDiverging = false := trace_not_diverging p o cfgs prior _ _ (.step h hc hit) hnd
  rw [hd'] at h2
  simp only [Bool.false_eq_true, if_false] at h2
  have hnd0 : s.diverging = 0 := by omega
  have hd := trace_not_diverging p o cfgs prior _ _ h hnd0
  have hw' := trace_WF p o cfgs prior _ s' (.step h hc hit)
  have hl' : j < s'.feats.length := by rw [← hw'.1]; exact hjl
  refine ⟨hnd0, s'.feats[j], List.getElem?_eq_getElem hl', ?_⟩
  have hfs' := List.getElem?_eq_getElem hl'
  generalize s'.feats[j] = fs' at hfs'
  cases hsk : skipped p past.length cfg with
  | true =>
    refine Or.inl ⟨rfl, ?_⟩
    have hiter := (trace_iterations p o cfgs prior past s h).1
    obtain ⟨feats, pred, r, hfp, _, hr, hf, _⟩ := iterate_ok p o cfgs _ _ hit
    rw [hd'] at hr
    simp only [Bool.false_eq_true, if_false, Except.ok.injEq] at hr
    obtain ⟨fs1, fs0, pred', g1, g2, g3⟩ := featurePass_get p o s.iteration s.diverging s.isDiverging s.initialLoss
      cfgs 0 s.feats s.pred j cfg fs hj hfs
    rw [reset_noop p o cfgs prior past s h fs (List.mem_of_getElem? hfs)] at g2
    subst g2
    rw [hfp] at g1
    rw [hf, ← hr] at hfs'
    simp only at g1 hfs'
    rw [g1, Option.some.injEq] at hfs'
    rw [hiter, hsk] at g3
    rcases g3 with ⟨-, g3⟩ | ⟨g3, -⟩
    · rw [← hfs', g3]; exact fun _ => rfl
    · cases g3
  | false =>
    obtain ⟨running, input, raw, -, ⟨-, -, -, r4, r5⟩, hupd⟩ := C66_update_aggregate p hp hok o cfgs prior hcal past s s' h hit
      hd hd' j cfg fs fs' hj hfs hfs' hsk
    exact Or.inr ⟨rfl, running, raw, r4, r5, hupd⟩

/-- Estimates between `lo` and `hi` for the missing values: so are `past.length` updates together. -/
theorem missing_interval (lo hi : ℝ) (hlo : lo ≤ 0) (hhi : 0 ≤ hi) (hlr : ∀ t, 0 ≤ o.learnRate t ∧ o.learnRate t ≤ 1)
    (hest : ∀ it pr fs, lo ≤ o.estimate it j pr fs cfg.nFinite ∧ o.estimate it j pr fs cfg.nFinite ≤ hi)
    (past : List (TState ℝ)) (s : TState ℝ) (h : Trace p o cfgs (startState o cfgs prior) past s) (hnd : s.diverging = 0) :
    ∃ fs, s.feats[j]? = some fs ∧ past.length * lo ≤ stored fs cfg.nFinite ∧ stored fs cfg.nFinite ≤ past.length * hi ∧
      (p.clip = true → p.consts.logMin cfg.external (cfg.group.length == 1) ≤ stored fs cfg.nFinite ∧
        stored fs cfg.nFinite ≤ p.consts.logMax cfg.external (cfg.group.length == 1)) := by
  have m1 := hok.min_le cfg.external (cfg.group.length == 1)
  have m2 := hok.le_max cfg.external (cfg.group.length == 1)
  have m3 := hok.half
  have m4 := hok.two
  induction h with
  | start =>
    refine ⟨FState.init, ?_, ?_⟩
    · unfold startState
      simp only [List.getElem?_map, hj, Option.map_some]
    · have : stored (FState.init : FState ℝ) cfg.nFinite = 0 := rfl
      rw [this]
      refine ⟨by simp, by simp, fun _ => ⟨by linarith, by linarith⟩⟩
  | @step past s s' htr hcont hit ih =>
    have hd0 : s.diverging = 0 := by
      obtain ⟨_, _, _, _, hcc, _⟩ := iterate_ok p o cfgs _ _ hit
      obtain ⟨_, h2, _⟩ := checkConvergence_ok _ _ _ _ _ hcc
      have hd' : s'.isDiverging = false := trace_not_diverging p o cfgs prior _ _ (.step htr hcont hit) hnd
      rw [hd'] at h2
      simp only [Bool.false_eq_true, if_false] at h2
      omega
    obtain ⟨fs, hfs, i1, i2, i3⟩ := ih hd0
    obtain ⟨-, fs', hfs', hcases⟩ := step_cases p hp hok o cfgs prior hcal j cfg hj past s s' htr hcont hit hnd fs hfs
    refine ⟨fs', hfs', ?_⟩
    have hlen : ∀ x : ℝ, ((s :: past).length : ℝ) * x = past.length * x + x := by
      intro x; rw [List.length_cons]; push_cast; ring
    have n1 : (past.length : ℝ) * lo ≤ 0 := mul_nonpos_of_nonneg_of_nonpos (Nat.cast_nonneg _) hlo
    have n2 : 0 ≤ (past.length : ℝ) * hi := mul_nonneg (Nat.cast_nonneg _) hhi
    rw [hlen, hlen]
    rcases hcases with ⟨-, hsame⟩ | ⟨-, running, raw, r4, r5, hupd⟩
    · rw [hsame]
      exact ⟨by linarith, by linarith, i3⟩
    · have hraw : lo ≤ raw cfg.nFinite ∧ raw cfg.nFinite ≤ hi := by
        cases hm : cfg.missingNotLearned with
        | true => rw [r4 hm]; exact ⟨hlo, hhi⟩
        | false =>
          rw [r5 hm]
          obtain ⟨l0, l1⟩ := hlr (past.length + 1)
          obtain ⟨e0, e1⟩ := hest past.length running fs
          constructor
          · nlinarith
          · nlinarith
      obtain ⟨u1, u2, u3⟩ := hupd cfg.nFinite
      cases hc : p.clip with
      | false =>
        have := u1 hc
        exact ⟨by linarith [hraw.1], by linarith [hraw.2], fun h => by cases h⟩
      | true =>
        cases hfit : fs.isFitted with
        | false =>
          obtain ⟨a1, a2, a3, a4⟩ := clip_between _ _ _ _ lo hi (u2 hc hfit) m3 m4 hlo hhi hraw.1 hraw.2
          exact ⟨by linarith, by linarith, fun _ => ⟨by linarith, by linarith⟩⟩
        | true =>
          obtain ⟨once, o1, o2⟩ := u3 hc hfit
          obtain ⟨a1, a2, -, -⟩ := clip_between _ _ _ _ lo hi o1 m3 m4 hlo hhi hraw.1 hraw.2
          obtain ⟨c1, c2⟩ := i3 hc
          obtain ⟨b1, b2, b3, b4⟩ := clip_between _ _ _ _ lo hi o2 (by linarith) (by linarith) hlo hhi a1 a2
          exact ⟨by linarith, by linarith, fun _ => ⟨by linarith, by linarith⟩⟩

/-- Estimates that depend on the iteration only, without limits for the factors: their weighted sum is stored. -/
theorem missing_sum (v : ℕ → ℝ) (hclip : p.clip = false) (hh : p.hierarchical = none) (hm : cfg.missingNotLearned = false)
    (hest : ∀ it pr fs, o.estimate it j pr fs cfg.nFinite = v it)
    (past : List (TState ℝ)) (s : TState ℝ) (h : Trace p o cfgs (startState o cfgs prior) past s) (hnd : s.diverging = 0) :
    ∃ fs, s.feats[j]? = some fs ∧ stored fs cfg.nFinite = ∑ t ∈ range past.length, o.learnRate (t + 1) * v t := by
  induction h with
  | start =>
    refine ⟨FState.init, ?_, ?_⟩
    · unfold startState
      simp only [List.getElem?_map, hj, Option.map_some]
    · simp [stored, FState.init]
  | @step past s s' htr hcont hit ih =>
    have hd0 : s.diverging = 0 := by
      obtain ⟨_, _, _, _, hcc, _⟩ := iterate_ok p o cfgs _ _ hit
      obtain ⟨_, h2, _⟩ := checkConvergence_ok _ _ _ _ _ hcc
      have hd' : s'.isDiverging = false := trace_not_diverging p o cfgs prior _ _ (.step htr hcont hit) hnd
      rw [hd'] at h2
      simp only [Bool.false_eq_true, if_false] at h2
      omega
    obtain ⟨fs, hfs, i1⟩ := ih hd0
    obtain ⟨-, fs', hfs', hcases⟩ := step_cases p hp hok o cfgs prior hcal j cfg hj past s s' htr hcont hit hnd fs hfs
    refine ⟨fs', hfs', ?_⟩
    rcases hcases with ⟨hs, -⟩ | ⟨-, running, raw, -, r5, hupd⟩
    · unfold skipped at hs
      rw [hh] at hs
      cases hs
    · have := (hupd cfg.nFinite).1 hclip
      rw [r5 hm, hest, i1] at this
      rw [List.length_cons, sum_range_succ]
      linarith

end

section
variable {σ : Type*} (S : Setup σ) (E : Estimator) (D : TrainSet)

/-- What a fitted feature predicts for rows that lack a bin number is the factor stored for missing values at the end of training. -/
theorem fitted_missing (fuel : ℕ) (m : FittedModel) (h : S.fit E D fuel = some (.ok m)) (j : ℕ) (f : FeatureSpec × SmootherKind)
    (hj : S.features[j]? = some f) :
    ∃ (a : ℝ) (past : List (TState ℝ)) (st : TState ℝ), E.scale D.n D.y D.w = .fin a ∧
      Trace (S.paramsFor E) (S.oracle E D) (S.cfgs D) (startState (S.oracle E D) (S.cfgs D) (baseline E D a)) past st ∧
      m.iterations = past.length ∧
      ∀ fs, st.feats[j]? = some fs → ∃ g, m.features[j]? = some g ∧ g.group = f.1.group ∧
        ∀ row, LacksBin row → g.predict row = stored fs (f.1.cfg D.X D.n).nFinite := by
  obtain ⟨a, r, -, hs, hfit, rfl⟩ := fit_ok S E D fuel m h
  obtain ⟨past, st, htr, -, hfac, -, hit⟩ := fitMain_ok _ _ _ _ fuel r hfit
  refine ⟨a, past, st, hs, htr, hit.trans (trace_iterations _ _ _ _ _ _ htr).1, fun fs hfs => ?_⟩
  have h1 : (st.feats.map (fun fs => fs.agg))[j]? = (r.factors.map some)[j]? := by rw [hfac]
  rw [List.getElem?_map, List.getElem?_map, hfs] at h1
  cases hrj : r.factors[j]? with
  | none => rw [hrj] at h1; simp at h1
  | some fac =>
    rw [hrj] at h1
    simp only [Option.map_some, Option.some.injEq] at h1
    refine ⟨⟨f.1.group, f.1.external, (bindData D.X D.n f.1.group none).2, fac⟩, ?_, rfl, fun row hrow => ?_⟩
    · unfold fittedFeatures
      rw [List.getElem?_zipWith, List.getElem?_map, hj, hrj]
      rfl
    · rw [C25_missing _ row hrow]
      unfold stored
      rw [h1]
      rfl

theorem oracle_no_calibration (hE : NoCalibration E) (it i : ℕ) (fs : FState ℝ) : (S.oracle E D).calibrate it i fs = fs.factors := by
  unfold Setup.oracle
  dsimp only
  cases S.features[i]? with
  | none => rfl
  | some f => exact hE _ _ _

theorem no_missing_bin (f : FeatureSpec) (hg : f.group ≠ []) (hmiss : NoMissing D f.group) :
    ∀ i < D.n, (f.cfg D.X D.n).bin i ≠ (f.cfg D.X D.n).nFinite :=
  fun i hi => ((C19_missing_bin f hg D.X D.n i hi).2 (hmiss i hi)).ne

/-- **C128**, bounds: if the estimates of `E` for bins without samples are between `lo ≤ 0` and `hi ≥ 0`, a missing value that
did not occur in the training data contributes between `iterations · lo` and `iterations · hi`. -/
theorem unseen_missing_bounds (hS : S.params.aggregate = true) (hok : S.params.consts.Ok) (hE : NoCalibration E)
    (hlr : ∀ t, 0 ≤ S.learnRate t ∧ S.learnRate t ≤ 1) (lo hi : ℝ) (hlo : lo ≤ 0) (hhi : 0 ≤ hi)
    (hest : ∀ it codes pred b, (∀ i < D.n, codes i ≠ b) →
      lo ≤ (E.parameters it D.n codes D.y D.w pred b).1 ∧ (E.parameters it D.n codes D.y D.w pred b).1 ≤ hi)
    (fuel : ℕ) (m : FittedModel) (h : S.fit E D fuel = some (.ok m)) (hnd : NeverDiverges S E D)
    (j : ℕ) (f : FeatureSpec × SmootherKind) (hj : S.features[j]? = some f) (hg : f.1.group ≠ []) (hmiss : NoMissing D f.1.group) :
    ∃ g, m.features[j]? = some g ∧ g.group = f.1.group ∧
      ∀ row, LacksBin row → m.iterations * lo ≤ g.predict row ∧ g.predict row ≤ m.iterations * hi := by
  obtain ⟨a, past, st, hs, htr, hit, hpred⟩ := fitted_missing S E D fuel m h j f hj
  have hcfg : (S.cfgs D)[j]? = some (f.1.cfg D.X D.n) := by
    unfold Setup.cfgs
    rw [List.getElem?_map, hj]
    rfl
  obtain ⟨fs, hfs, b1, b2, -⟩ := missing_interval (S.paramsFor E) hS hok (S.oracle E D) (S.cfgs D) _ (oracle_no_calibration S E D hE) j _ hcfg
    lo hi hlo hhi hlr (fun it pr fs => by
      simp only [Setup.oracle, hj]
      exact hest _ _ _ _ (no_missing_bin D f.1 hg hmiss)) past st htr (hnd a hs past st htr)
  obtain ⟨g, g1, g2, g3⟩ := hpred fs hfs
  refine ⟨g, g1, g2, fun row hrow => ?_⟩
  rw [g3 row hrow, hit]
  exact ⟨b1, b2⟩

/-- **C128**, sum: if the estimates of `E` for bins without samples depend on the iteration only and factors are not limited. -/
theorem unseen_missing_sum (hS : S.params.aggregate = true) (hok : S.params.consts.Ok) (hh : S.params.hierarchical = none)
    (hE : NoCalibration E) (hlink : E.link ≠ .log) (v : ℕ → ℝ)
    (hest : ∀ it codes pred b, (∀ i < D.n, codes i ≠ b) → (E.parameters it D.n codes D.y D.w pred b).1 = v it)
    (fuel : ℕ) (m : FittedModel) (h : S.fit E D fuel = some (.ok m)) (hnd : NeverDiverges S E D)
    (j : ℕ) (f : FeatureSpec × SmootherKind) (hj : S.features[j]? = some f) (hg : f.1.group ≠ []) (hm : f.1.missingNotLearned = false)
    (hmiss : NoMissing D f.1.group) :
    ∃ g, m.features[j]? = some g ∧ g.group = f.1.group ∧
      ∀ row, LacksBin row → g.predict row = ∑ t ∈ range m.iterations, S.learnRate (t + 1) * v t := by
  obtain ⟨a, past, st, hs, htr, hit, hpred⟩ := fitted_missing S E D fuel m h j f hj
  have hcfg : (S.cfgs D)[j]? = some (f.1.cfg D.X D.n) := by
    unfold Setup.cfgs
    rw [List.getElem?_map, hj]
    rfl
  obtain ⟨fs, hfs, b1⟩ := missing_sum (S.paramsFor E) hS hok (S.oracle E D) (S.cfgs D) _ (oracle_no_calibration S E D hE) j _ hcfg
    v (by simp [Setup.paramsFor, hlink]) hh hm (fun it pr fs => by
      simp only [Setup.oracle, hj]
      exact hest _ _ _ _ (no_missing_bin D f.1 hg hmiss)) past st htr (hnd a hs past st htr)
  obtain ⟨g, g1, g2, g3⟩ := hpred fs hfs
  refine ⟨g, g1, g2, fun row hrow => ?_⟩
  rw [g3 row hrow, hit, b1]
  rfl

/-! ### Estimates for bins without samples -/

theorem binSum_without (n : ℕ) (codes : ℕ → ℕ) (b : ℕ) (hb : ∀ i < n, codes i ≠ b) (u : ℕ → ℝ) : binSum n codes u b = 0 := by
  unfold binSum
  exact sum_eq_zero (fun i hi => if_neg (hb i (mem_range.mp hi)))

theorem locPoisson_without (n : ℕ) (codes : ℕ → ℕ) (y w pred : ℕ → ℝ) (b : ℕ) (hb : ∀ i < n, codes i ≠ b) :
    (locPoissonParameter n codes pred y w b).1 = 0 := by
  simp only [locPoissonParameter, binSum_without n codes b hb]
  simp [regularizeSummand]

theorem binMembers_without (n : ℕ) (codes : ℕ → ℕ) (b : ℕ) (hb : ∀ i < n, codes i ≠ b) : binMembers n codes b = [] := by
  unfold binMembers
  rw [List.filter_eq_nil_iff]
  intro i hi
  simp [hb i (List.mem_range.mp hi)]

theorem generic_without (costs : List (ℝ × ℝ × ℝ) → Flt ℝ) (minimize : (ℝ → Flt ℝ) → ℝ → ℝ) (hmin : KeepsStart minimize)
    (un : List (ℝ × ℝ) → ℝ) (link : Link) (mult : Bool) (n : ℕ) (codes : ℕ → ℕ) (y w pred : ℕ → ℝ) (b : ℕ) (hb : ∀ i < n, codes i ≠ b) :
    (genericParameters costs minimize un link mult n codes y w pred b).1 = genericParamLink link (link.unlink 0) := by
  have : binObjective costs link mult n codes y w pred b = fun _ => costs [] := by
    funext p
    unfold binObjective
    rw [binMembers_without n codes b hb]
    rfl
  unfold genericParameters
  rw [this, hmin]

/-- The estimators for which bins without samples are exactly neutral. The target of `CBLocPoissonRegressor` must vary: its
estimates are NaN for a constant target. -/
inductive NeutralWithoutSamples (D : TrainSet) : Estimator → Prop
  | gbs (ra : ℝ) : NeutralWithoutSamples D (gbsEstimator ra)
  | locPoisson (h : 0 < weightedStddev D.n D.y D.w) : NeutralWithoutSamples D locPoissonEstimator
  | classifier (betaPpf : ℝ → ℝ → ℝ → ℝ) (coef : ℝ → ℝ) (h : SymmetricQuantiles betaPpf coef) :
      NeutralWithoutSamples D (classifierEstimator betaPpf coef)
  | quantile (mult : Bool) (q : ℝ) (minimize : (ℝ → Flt ℝ) → ℝ → ℝ) (h : KeepsStart minimize) :
      NeutralWithoutSamples D (quantileEstimator mult q minimize)
  | generic (mult : Bool) (costs : List (ℝ × ℝ × ℝ) → Flt ℝ) (minimize : (ℝ → Flt ℝ) → ℝ → ℝ) (h : KeepsStart minimize) :
      NeutralWithoutSamples D (genericEstimator mult costs minimize)
  | dispersion (A : DispersionArgs) (mu : ℕ → ℝ) (h : A.bayes = true) : NeutralWithoutSamples D (dispersionEstimator A mu)

theorem neutral_estimate (D : TrainSet) (E : Estimator) (hE : NeutralWithoutSamples D E) (it n : ℕ) (codes : ℕ → ℕ) (y w pred : ℕ → ℝ) (b : ℕ)
    (hb : ∀ i < n, codes i ≠ b) : (E.parameters it n codes y w pred b).1 = 0 := by
  have hgen : ∀ mult : Bool, genericParamLink (if mult = true then LinkKind.log else LinkKind.identity).toLink
      ((if mult = true then LinkKind.log else LinkKind.identity).toLink.unlink 0) = 0 := by
    intro mult
    cases mult
    · exact (C55_additive_partial 0 0).2
    · exact (C55_multiplicative_partial 1 1 (by norm_num) (by norm_num)).2
  cases hE with
  | gbs ra => exact (C46_empty_bin ra n codes y pred w b hb).1
  | locPoisson h => exact locPoisson_without n codes y w pred b hb
  | classifier betaPpf coef h =>
    exact C35_empty_bin_neutral betaPpf coef (fun a p ha h0 h1 => h.inside a a p ha ha h0 h1) (fun a p ha h0 h1 => h.beta a a p ha ha h0 h1)
      h.normal (h.normalStrict _ _ (by norm_num) (by norm_num) (by norm_num)) n codes y w pred b hb
  | quantile mult q minimize h => exact (generic_without _ minimize h _ _ _ n codes y w pred b hb).trans (hgen mult)
  | generic mult costs minimize h => exact (generic_without _ minimize h _ _ _ n codes y w pred b hb).trans (hgen mult)
  | dispersion A mu h =>
    show (nbinomCCalcParameters nbinomLogPmf A.gamma A.bayes A.nSteps it n codes y mu pred b).1 = 0
    rw [h]
    exact C62_bayes_neutral_partial nbinomLogPmf A.gamma A.nSteps it n codes y mu pred b hb

theorem neutral_noCalibration (D : TrainSet) (E : Estimator) (hE : NeutralWithoutSamples D E) : NoCalibration E := by
  cases hE <;> exact fun _ _ _ => rfl

/-- **C128**, neutral: for `CBGBSRegressor`, `CBLocPoissonRegressor`, `CBClassifier`, the quantile regressors, the regressors with
a loss of the user and `CBNBinomC` with Bayesian averaging, a missing value contributes nothing if the training data have none in
the columns of the feature. -/
theorem C128_neutral_partial (hS : S.params.aggregate = true) (hok : S.params.consts.Ok) (hlr : ∀ t, 0 ≤ S.learnRate t ∧ S.learnRate t ≤ 1)
    (hE : NeutralWithoutSamples D E) (fuel : ℕ) (m : FittedModel) (h : S.fit E D fuel = some (.ok m)) (hnd : NeverDiverges S E D)
    (j : ℕ) (f : FeatureSpec × SmootherKind) (hj : S.features[j]? = some f) (hg : f.1.group ≠ []) (hmiss : NoMissing D f.1.group) :
    ∃ g, m.features[j]? = some g ∧ g.group = f.1.group ∧ ∀ row, LacksBin row → g.predict row = 0 := by
  obtain ⟨g, g1, g2, g3⟩ := unseen_missing_bounds S E D hS hok (neutral_noCalibration D E hE) hlr 0 0 le_rfl le_rfl
    (fun it codes pred b hb => by rw [neutral_estimate D E hE it D.n codes D.y D.w pred b hb]; exact ⟨le_rfl, le_rfl⟩)
    fuel m h hnd j f hj hg hmiss
  refine ⟨g, g1, g2, fun row hrow => ?_⟩
  have := g3 row hrow
  simp only [mul_zero] at this
  exact le_antisymm this.2 this.1

/-- **C128**, Poisson: for `CBPoissonRegressor` and `CBNBinomRegressor` such a missing value multiplies the prediction by at least
1 and at most exp(6e-6) per iteration. -/
theorem C128_poisson_partial (gammaincinv : ℝ → ℝ) (hg : IsGamma2Median (gammaincinv 2))
    (hE : E = poissonEstimator gammaincinv ∨ ∃ a c, E = nbinomEstimator gammaincinv a c)
    (hS : S.params.aggregate = true) (hok : S.params.consts.Ok) (hlr : ∀ t, 0 ≤ S.learnRate t ∧ S.learnRate t ≤ 1)
    (fuel : ℕ) (m : FittedModel) (h : S.fit E D fuel = some (.ok m)) (hnd : NeverDiverges S E D)
    (j : ℕ) (f : FeatureSpec × SmootherKind) (hj : S.features[j]? = some f) (hgr : f.1.group ≠ []) (hmiss : NoMissing D f.1.group) :
    ∃ g, m.features[j]? = some g ∧ g.group = f.1.group ∧
      ∀ row, LacksBin row → 0 ≤ g.predict row ∧ g.predict row ≤ m.iterations * 6e-6 := by
  obtain ⟨g, g1, g2, g3⟩ := unseen_missing_bounds S E D hS hok
    (by rcases hE with rfl | ⟨a, c, rfl⟩ <;> exact fun _ _ _ => rfl) hlr 0 6e-6 le_rfl (by norm_num)
    (fun it codes pred b hb => by
      rcases hE with rfl | ⟨a, c, rfl⟩
      · have hz := binSum_without D.n codes b hb
        have e : (poissonEstimator gammaincinv).parameters it D.n codes D.y D.w pred b
            = nbinomCalcParameters gammaincinv 0 1 D.n codes D.y D.w pred b := by
          show poissonCalcParameters gammaincinv D.n codes D.w pred (poissonPrecalc D.n codes D.y D.w) b = _
          unfold poissonCalcParameters nbinomCalcParameters poissonPrecalc
          simp only [hz]
        rw [e]
        obtain ⟨e1, e2, -⟩ := C57_empty_bin gammaincinv hg 0 1 D.n codes D.y D.w pred b hb
        exact ⟨e1.le, e2.le⟩
      · obtain ⟨e1, e2, -⟩ := C57_empty_bin gammaincinv hg a c D.n codes D.y D.w pred b hb
        exact ⟨e1.le, e2.le⟩)
    fuel m h hnd j f hj hgr hmiss
  refine ⟨g, g1, g2, fun row hrow => ?_⟩
  have := g3 row hrow
  rwa [mul_zero] at this

/-- **C128** fails for `CBGenericClassifier`: such a missing value divides the odds by 2 in every iteration (to the power of the
learning rate). -/
theorem C128_generic_classifier_drift (betaPpf : ℝ → ℝ → ℝ → ℝ) (coef : ℝ → ℝ) (costs : List (ℝ × ℝ × ℝ) → Flt ℝ)
    (minimize : (ℝ → Flt ℝ) → ℝ → ℝ) (hmin : KeepsStart minimize)
    (hS : S.params.aggregate = true) (hok : S.params.consts.Ok) (hh : S.params.hierarchical = none)
    (fuel : ℕ) (m : FittedModel) (h : S.fit (genericClassifierEstimator betaPpf coef costs minimize) D fuel = some (.ok m))
    (hnd : NeverDiverges S (genericClassifierEstimator betaPpf coef costs minimize) D)
    (j : ℕ) (f : FeatureSpec × SmootherKind) (hj : S.features[j]? = some f) (hg : f.1.group ≠ []) (hm : f.1.missingNotLearned = false)
    (hmiss : NoMissing D f.1.group) :
    ∃ g, m.features[j]? = some g ∧ g.group = f.1.group ∧
      ∀ row, LacksBin row → g.predict row = -Real.log 2 * ∑ t ∈ range m.iterations, S.learnRate (t + 1) := by
  obtain ⟨g, g1, g2, g3⟩ := unseen_missing_sum S _ D hS hok hh (fun _ _ _ => rfl) (by simp [genericClassifierEstimator])
    (fun _ => Real.log (1 / 2)) (fun it codes pred b hb =>
      (generic_without costs minimize hmin _ _ _ D.n codes D.y D.w pred b hb).trans C55_classifier_counterexample.1)
    fuel m h hnd j f hj hg hm hmiss
  refine ⟨g, g1, g2, fun row hrow => ?_⟩
  rw [g3 row hrow, ← sum_mul, one_div, Real.log_inv, mul_comm]

/-- **C128** fails for `CBNBinomC` without Bayesian averaging: iteration `k` moves the dispersion for such missing values by
-10^(1/k) in logit space. -/
theorem C128_dispersion_drift (A : DispersionArgs) (mu : ℕ → ℝ) (hb : A.bayes = false) (D : TrainSet)
    (hS : S.params.aggregate = true) (hok : S.params.consts.Ok) (hh : S.params.hierarchical = none)
    (fuel : ℕ) (m : FittedModel) (h : S.fit (dispersionEstimator A mu) D fuel = some (.ok m)) (hsteps : 2 * m.iterations ≤ A.nSteps)
    (hnd : NeverDiverges S (dispersionEstimator A mu) D)
    (j : ℕ) (f : FeatureSpec × SmootherKind) (hj : S.features[j]? = some f) (hg : f.1.group ≠ []) (hm : f.1.missingNotLearned = false)
    (hmiss : NoMissing D f.1.group) :
    ∃ g, m.features[j]? = some g ∧ g.group = f.1.group ∧
      ∀ row, LacksBin row → g.predict row = -∑ t ∈ range m.iterations, S.learnRate (t + 1) * (10 : ℝ) ^ (1 / ((t + 1 : ℕ) : ℝ)) := by
  obtain ⟨g, g1, g2, g3⟩ := unseen_missing_sum S _ D hS hok hh (fun _ _ _ => rfl) (by simp [dispersionEstimator])
    (fun t => bestOffset (fun _ => 0) (newCLink (t + 1) A.nSteps)) (fun it codes pred b he => by
      show (nbinomCCalcParameters nbinomLogPmf A.gamma A.bayes A.nSteps it D.n codes D.y mu pred b).1 = _
      rw [hb]
      have hc : (nbinomCCalcParameters nbinomLogPmf A.gamma false A.nSteps it D.n codes D.y mu pred b).1
          = bestOffset (fun c => binnedLoss nbinomLogPmf A.gamma D.n codes D.y mu pred c b) (newCLink (it + 1) A.nSteps) := rfl
      rw [hc]
      simp only [binnedLoss_empty nbinomLogPmf A.gamma D.n codes D.y mu pred _ b he])
    fuel m h hnd j f hj hg hm hmiss
  refine ⟨g, g1, g2, fun row hrow => ?_⟩
  rw [g3 row hrow, ← sum_neg_distrib]
  refine sum_congr rfl fun t ht => ?_
  have he := C62_default_mode_not_neutral nbinomLogPmf A.gamma A.nSteps t 0 (by have := mem_range.mp ht; omega) (fun _ => 0)
    (fun _ => 0) (fun _ => 0) (fun _ => 0) 1 (by simp)
  have hc : (nbinomCCalcParameters nbinomLogPmf A.gamma false A.nSteps t 0 (fun _ => 0) (fun _ => 0) (fun _ => 0) (fun _ => 0) 1).1
      = bestOffset (fun c => binnedLoss nbinomLogPmf A.gamma 0 (fun _ => 0) (fun _ => 0) (fun _ => 0) (fun _ => 0) c 1)
        (newCLink (t + 1) A.nSteps) := rfl
  rw [hc] at he
  simp only [binnedLoss_empty nbinomLogPmf A.gamma 0 (fun _ => 0) (fun _ => 0) (fun _ => 0) (fun _ => 0) _ 1 (by simp)] at he
  rw [he, mul_neg]

end
end
end CB
