import Verif.Props.TrainingExamples
import Mathlib.Analysis.SpecialFunctions.Log.Basic

set_option autoImplicit false
set_option linter.unusedSectionVars false

/-!
C23: bounds of the factors in multiplicative models; C18: rolled back iterations.
-/
namespace CB

open Spec

/-- What is needed of the clipping constants. -/
structure ClipConsts.Ok {K : Type*} [Field K] [LinearOrder K] (c : ClipConsts K) : Prop where
  half : c.logHalf ≤ 0
  two : 0 ≤ c.logTwo
  min_le : ∀ e one, c.logMin e one ≤ c.logHalf
  le_max : ∀ e one, c.logTwo ≤ c.logMax e one

section
variable {K : Type*} [Field K] [LinearOrder K] [IsStrictOrderedRing K]

theorem clipTo_mem (x lo hi : K) (h : lo ≤ hi) : lo ≤ clipTo x lo hi ∧ clipTo x lo hi ≤ hi := by
  unfold clipTo
  exact ⟨le_min (le_max_right _ _) h, min_le_right _ _⟩

theorem clipTo_between (x lo hi a b : K) (hlo : lo ≤ b) (hhi : a ≤ hi) (ha : a ≤ x) (hb : x ≤ b) :
    a ≤ clipTo x lo hi ∧ clipTo x lo hi ≤ b := by
  unfold clipTo
  exact ⟨le_min (le_trans ha (le_max_left _ _)) hhi, le_trans (min_le_left _ _) (max_le hb hlo)⟩

/-- The two clips: the update stays between the logarithms of 1/2 and 2, and it keeps a fitted feature within its limits. -/
theorem clipUpdate_bounds (c : ClipConsts K) (hc : c.Ok) (cfg : FeatureCfg) (fs : FState K) (hw : fs.WF) (b : ℕ)
    (hin : c.logMin cfg.external (cfg.group.length == 1) ≤ stored fs b ∧
      stored fs b ≤ c.logMax cfg.external (cfg.group.length == 1)) :
    (c.logHalf ≤ clipUpdate c cfg fs b ∧ clipUpdate c cfg fs b ≤ c.logTwo) ∧
      c.logMin cfg.external (cfg.group.length == 1) ≤ stored fs b + clipUpdate c cfg fs b ∧
      stored fs b + clipUpdate c cfg fs b ≤ c.logMax cfg.external (cfg.group.length == 1) := by
  have hht : c.logHalf ≤ c.logTwo := le_trans hc.half hc.two
  obtain ⟨h1, h2⟩ := clipTo_mem (fs.factors b) c.logHalf c.logTwo hht
  unfold FState.WF at hw
  cases ha : fs.agg with
  | some agg =>
    have hf : fs.isFitted = true := hw.mpr (by rw [ha]; rfl)
    have hst : stored fs b = agg b := by unfold stored; rw [ha]
    have hcu : clipUpdate c cfg fs b = clipTo (clipTo (fs.factors b) c.logHalf c.logTwo)
        (c.logMin cfg.external (cfg.group.length == 1) - agg b)
        (c.logMax cfg.external (cfg.group.length == 1) - agg b) := by
      unfold clipUpdate; simp only [hf, ha]
    rw [hst] at hin ⊢
    rw [hcu]
    obtain ⟨h3, h4⟩ := clipTo_mem (clipTo (fs.factors b) c.logHalf c.logTwo)
      (c.logMin cfg.external (cfg.group.length == 1) - agg b) (c.logMax cfg.external (cfg.group.length == 1) - agg b)
      (by linarith)
    refine ⟨clipTo_between _ _ _ _ _ (by linarith [hc.two]) (by linarith [hc.half]) h1 h2, by linarith,
      by linarith⟩
  | none =>
    have hst : stored fs b = 0 := by unfold stored; rw [ha]
    have hf : fs.isFitted = false := by
      cases h : fs.isFitted with
      | false => rfl
      | true => have := hw.mp h; rw [ha] at this; cases this
    have hcu : clipUpdate c cfg fs b = clipTo (fs.factors b) c.logHalf c.logTwo := by
      unfold clipUpdate; simp only [hf, ha]
    rw [hst, hcu]
    have h5 := hc.min_le cfg.external (cfg.group.length == 1)
    have h6 := hc.le_max cfg.external (cfg.group.length == 1)
    exact ⟨⟨h1, h2⟩, by linarith, by linarith⟩

/-- A feature iteration while training is not diverging: the new factors are clipped ones. -/
theorem featureIteration_clipped (p : Params K) (o : Oracle K) (it i : ℕ) (cfg : FeatureCfg) (dv : ℕ)
    (il : Flt K) (fs : FState K) (pred : Pred K) (hp : p.aggregate = true) (hclip : p.clip = true) :
    ∃ f : ℕ → K, (featureIteration p o it i cfg dv false il fs pred).1.factors =
      clipUpdate p.consts cfg { fs with factorsOld := fs.factors, factors := f } := by
  unfold featureIteration visitFactors
  simp only [hp, hclip, Bool.and_self, if_true, Bool.false_eq_true, if_false]
  exact ⟨_, rfl⟩

/-- The stored factors of one feature over an iteration that starts without divergence: unchanged or changed by a clipped
update. -/
theorem pass_bounds (p : Params K) (o : Oracle K) (cfgs : List FeatureCfg) (s : TState K) (hp : p.aggregate = true)
    (hclip : p.clip = true) (hc : p.consts.Ok) (hw : s.WF cfgs) (hd : s.isDiverging = false) (j : ℕ) (cfg : FeatureCfg)
    (fs : FState K) (hj : cfgs[j]? = some cfg) (hf : s.feats[j]? = some fs)
    (hin : ∀ b, p.consts.logMin cfg.external (cfg.group.length == 1) ≤ stored fs b ∧
      stored fs b ≤ p.consts.logMax cfg.external (cfg.group.length == 1)) :
    ∃ fs', (featurePass p o s.iteration s.diverging s.isDiverging s.initialLoss 0 cfgs s.feats s.pred).1[j]? = some fs' ∧
      ∀ b, (p.consts.logMin cfg.external (cfg.group.length == 1) ≤ stored fs' b ∧
          stored fs' b ≤ p.consts.logMax cfg.external (cfg.group.length == 1)) ∧
        p.consts.logHalf ≤ stored fs' b - stored fs b ∧ stored fs' b - stored fs b ≤ p.consts.logTwo := by
  obtain ⟨fs', fs0, pred', h1, h2, h3⟩ :=
    featurePass_get p o s.iteration s.diverging s.isDiverging s.initialLoss cfgs 0 s.feats s.pred j cfg fs hj hf
  refine ⟨fs', h1, fun b => ?_⟩
  have hs0 : stored fs0 = stored fs := by rw [h2]; split <;> rfl
  have hfw : fs.WF := hw.2 fs (List.mem_of_getElem? hf)
  have hw0 : fs0.WF := by rw [h2]; split <;> exact hfw
  rcases h3 with ⟨_, h3⟩ | ⟨_, h3⟩
  · have : stored fs' = stored fs := by rw [h3, ← hs0]; rfl
    rw [this]
    exact ⟨hin b, by linarith [hc.half], by linarith [hc.two]⟩
  · rw [hd] at h3
    obtain ⟨_, hagg⟩ := featureIteration_aggregate p o s.iteration (0 + j) cfg s.diverging false s.initialLoss fs0 pred' hp hw0
    obtain ⟨f, hcl⟩ := featureIteration_clipped p o s.iteration (0 + j) cfg s.diverging s.initialLoss fs0 pred' hp hclip
    rw [← h3] at hagg hcl
    have hb := clipUpdate_bounds p.consts hc cfg { fs0 with factorsOld := fs0.factors, factors := f } hw0 b
      (by have : stored ({ fs0 with factorsOld := fs0.factors, factors := f } : FState K) = stored fs := by rw [← hs0]; rfl
          rw [this]; exact hin b)
    have hst : stored ({ fs0 with factorsOld := fs0.factors, factors := f } : FState K) = stored fs := by rw [← hs0]; rfl
    rw [hst, ← hcl] at hb
    have := hagg b
    rw [hs0] at this
    obtain ⟨⟨a1, a2⟩, a3, a4⟩ := hb
    exact ⟨⟨by linarith, by linarith⟩, by linarith, by linarith⟩

/-- **C18**, rolled back iterations: an iteration that is rolled back because the loss diverged leaves the stored factors of
every feature and the running prediction exactly as they were before. -/
theorem C18_rollback (p : Params K) (hp : p.aggregate = true) (o : Oracle K) (cfgs : List FeatureCfg) (prior : ℕ → K)
    (past : List (TState K)) (s s' : TState K) (h : Trace p o cfgs (startState o cfgs prior) past s)
    (hit : iterate p o cfgs s = .ok s') (hd : s'.isDiverging = true) :
    s'.pred = s.pred ∧
      ∀ (j : ℕ) (fs : FState K), s.feats[j]? = some fs → ∃ fs', s'.feats[j]? = some fs' ∧ stored fs' = stored fs := by
  have hw := trace_WF p o cfgs prior past s h
  have hw' := iterate_WF p o cfgs s s' hit hw
  obtain ⟨feats, pred, r, hfp, _, hr, hf, hpr, _⟩ := iterate_ok p o cfgs s s' hit
  rw [hd] at hr
  simp only [if_true] at hr
  have hlen : feats.length = cfgs.length := by
    have := featurePass_length p o s.iteration s.diverging s.isDiverging s.initialLoss cfgs 0 s.feats s.pred hw.1
    rw [hfp] at this; exact this
  obtain ⟨hl, hget⟩ := removePreds_get cfgs feats pred r hr hlen.symm
  have hfeat : ∀ (j : ℕ) (fs : FState K), s.feats[j]? = some fs →
      ∃ fs', s'.feats[j]? = some fs' ∧ stored fs' = stored fs := by
    intro j fs hj
    have hjl : j < cfgs.length := by
      rw [hw.1]
      by_contra hcon
      rw [List.getElem?_eq_none (not_lt.mp hcon)] at hj
      cases hj
    obtain ⟨fs', fs0, pred', h1, h2, h3⟩ := featurePass_get p o s.iteration s.diverging s.isDiverging s.initialLoss cfgs 0
      s.feats s.pred j cfgs[j] fs (List.getElem?_eq_getElem hjl) hj
    rw [hfp] at h1
    obtain ⟨agg, ha, hb⟩ := hget j fs' h1
    refine ⟨_, by rw [hf]; exact hb, ?_⟩
    have hs0 : stored fs0 = stored fs := by rw [h2]; split <;> rfl
    have hfw : fs.WF := hw.2 fs (List.mem_of_getElem? hj)
    have hw0 : fs0.WF := by rw [h2]; split <;> exact hfw
    rcases h3 with ⟨hsk, h3⟩ | ⟨_, h3⟩
    · -- a skipped feature has never been fitted, so the rollback would have failed
      exfalso
      obtain ⟨groups, hg⟩ : ∃ groups, p.hierarchical = some groups := by
        unfold skipped at hsk
        split at hsk
        · exact ⟨_, by assumption⟩
        · cases hsk
      unfold skipped at hsk
      rw [hg] at hsk
      simp only [Bool.and_eq_true, decide_eq_true_eq, Bool.not_eq_true', List.contains_eq_mem,
        decide_eq_false_iff_not] at hsk
      obtain ⟨g, hg1, _, hg3⟩ := C22_only_hierarchical p groups hg o cfgs prior past s h
        (by rw [← (trace_iterations p o cfgs prior past s h).1]; omega) j cfgs[j] (List.getElem?_eq_getElem hjl) hsk.2
      rw [hj, Option.some.injEq] at hg1
      subst hg1
      have : fs'.agg = none := by rw [h3, h2]; split <;> exact hg3
      rw [this] at ha; cases ha
    · obtain ⟨_, hagg⟩ := featureIteration_aggregate p o s.iteration (0 + j) cfgs[j] s.diverging s.isDiverging s.initialLoss fs0
        pred' hp hw0
      rw [← h3] at hagg
      funext b
      have h4 : stored ({ fs' with agg := some (fun b => agg b - fs'.factors b) } : FState K) b
          = stored fs' b - fs'.factors b := by
        unfold stored; rw [ha]
      rw [h4, hagg b, hs0]
      ring
  refine ⟨?_, hfeat⟩
  have hlens : s'.feats.length = s.feats.length := by rw [← hw'.1, ← hw.1]
  have hsum : ∀ (e : Bool) (i : ℕ), storedSum e cfgs s'.feats i = storedSum e cfgs s.feats i := by
    intro e i
    have gen : ∀ (cs : List FeatureCfg) (as bs : List (FState K)), as.length = bs.length →
        (∀ (j : ℕ) (fs : FState K), bs[j]? = some fs → ∃ fs', as[j]? = some fs' ∧ stored fs' = stored fs) →
        storedSum e cs as i = storedSum e cs bs i := by
      intro cs
      induction cs with
      | nil => intro as bs _ _; rw [storedSum_nil_left, storedSum_nil_left]
      | cons c cs ih =>
        intro as bs hl hall
        cases as with
        | nil =>
          cases bs with
          | nil => rfl
          | cons b bs => simp at hl
        | cons a as =>
          cases bs with
          | nil => simp at hl
          | cons b bs =>
            rw [storedSum_cons, storedSum_cons]
            obtain ⟨a', ha1, ha2⟩ := hall 0 b rfl
            simp only [List.getElem?_cons_zero, Option.some.injEq] at ha1
            subst ha1
            rw [ha2, ih as bs (by simpa using hl) (fun j fs hj => by
              have := hall (j + 1) fs (by simpa using hj)
              simpa using this)]
    exact gen cfgs s'.feats s.feats hlens hfeat
  have hcol : ∀ (e : Bool) (i : ℕ), s'.pred.col e i = s.pred.col e i := by
    intro e i
    have := (iterate_balance p o cfgs s s' hp hw hit e i).1
    rw [hsum e i] at this
    linarith
  have hF := fun i => hcol false i
  have hE := fun i => hcol true i
  simp only [Pred.col, if_true, Bool.false_eq_true, if_false] at hF hE
  cases hs' : s'.pred with
  | mk f' e' =>
    cases hs : s.pred with
    | mk f e =>
      rw [hs', hs] at hF hE
      congr
      · funext i; exact hF i
      · funext i; exact hE i

/-- **C23**, general form: in log-link aggregate mode, in any training history without divergence, all stored factors lie within
the limits of their feature, and the next iteration changes each by an amount between `logHalf` and `logTwo`. -/
theorem C23_bounds_link (p : Params K) (hp : p.aggregate = true) (hclip : p.clip = true) (hc : p.consts.Ok)
    (o : Oracle K) (cfgs : List FeatureCfg) (prior : ℕ → K) (past : List (TState K)) (s : TState K)
    (h : Trace p o cfgs (startState o cfgs prior) past s) (hnd : s.diverging = 0) (j : ℕ) (cfg : FeatureCfg)
    (hj : cfgs[j]? = some cfg) :
    ∃ fs, s.feats[j]? = some fs ∧ (∀ b, p.consts.logMin cfg.external (cfg.group.length == 1) ≤ stored fs b ∧
        stored fs b ≤ p.consts.logMax cfg.external (cfg.group.length == 1)) ∧
      ∀ s', iterate p o cfgs s = .ok s' → ∃ fs', s'.feats[j]? = some fs' ∧
        ∀ b, p.consts.logHalf ≤ stored fs' b - stored fs b ∧ stored fs' b - stored fs b ≤ p.consts.logTwo := by
  -- without divergence the flag is not set
  have hflag : ∀ (past : List (TState K)) (s : TState K), Trace p o cfgs (startState o cfgs prior) past s →
      s.diverging = 0 → s.isDiverging = false := by
    intro past s h hnd
    cases h with
    | start => rfl
    | step ht hc' hit =>
      obtain ⟨_, _, _, _, hcc, _⟩ := iterate_ok p o cfgs _ _ hit
      obtain ⟨_, h2, _⟩ := checkConvergence_ok _ _ _ _ _ hcc
      cases hd : s.isDiverging with
      | false => rfl
      | true => rw [hd] at h2; simp only [if_true] at h2; omega
  have hbound : ∃ fs, s.feats[j]? = some fs ∧ (∀ b, p.consts.logMin cfg.external (cfg.group.length == 1) ≤ stored fs b ∧
      stored fs b ≤ p.consts.logMax cfg.external (cfg.group.length == 1)) := by
    induction h with
    | start =>
      refine ⟨FState.init, ?_, ?_⟩
      · unfold startState
        simp only [List.getElem?_map, hj, Option.map_some]
      · intro b
        have h1 := hc.min_le cfg.external (cfg.group.length == 1)
        have h2 := hc.le_max cfg.external (cfg.group.length == 1)
        have h3 := hc.half
        have h4 := hc.two
        simp only [stored, FState.init]
        exact ⟨by linarith, by linarith⟩
    | @step past s s' ht hc' hit ih =>
      obtain ⟨feats, pred, r, hfp, hcc, hr, hf, _⟩ := iterate_ok p o cfgs _ _ hit
      obtain ⟨_, h2, _⟩ := checkConvergence_ok _ _ _ _ _ hcc
      have hd' : s'.isDiverging = false := hflag _ _ (.step ht hc' hit) hnd
      rw [hd'] at h2 hr
      simp only [Bool.false_eq_true, if_false, Except.ok.injEq] at h2 hr
      obtain ⟨fs, hfs, hin⟩ := ih (by omega)
      have hw := trace_WF p o cfgs prior past s ht
      obtain ⟨fs', h1, h3⟩ := pass_bounds p o cfgs s hp hclip hc hw (hflag _ _ ht (by omega)) j cfg fs hj hfs hin
      rw [hfp] at h1
      refine ⟨fs', by rw [hf, ← hr]; exact h1, fun b => (h3 b).1⟩
  obtain ⟨fs, hfs, hin⟩ := hbound
  refine ⟨fs, hfs, hin, ?_⟩
  intro s' hit
  have hw := trace_WF p o cfgs prior past s h
  cases hd' : s'.isDiverging with
  | true =>
    obtain ⟨fs', h1, h2⟩ := (C18_rollback p hp o cfgs prior past s s' h hit hd').2 j fs hfs
    refine ⟨fs', h1, fun b => ?_⟩
    rw [h2]
    have h3 := hc.half
    have h4 := hc.two
    exact ⟨by linarith, by linarith⟩
  | false =>
    obtain ⟨feats, pred, r, hfp, _, hr, hf, _⟩ := iterate_ok p o cfgs _ _ hit
    rw [hd'] at hr
    simp only [Bool.false_eq_true, if_false, Except.ok.injEq] at hr
    obtain ⟨fs', h1, h3⟩ := pass_bounds p o cfgs s hp hclip hc hw (hflag _ _ h hnd) j cfg fs hj hfs hin
    rw [hfp] at h1
    exact ⟨fs', by rw [hf, ← hr]; exact h1, fun b => (h3 b).2⟩

end

/-! ### The constants of the code -/

/-- `min_f` of `_set_factors_per_feature`, `base.py` lines 572-587. -/
noncomputable def minFactor (external oneDim : Bool) : ℝ :=
  match external, oneDim with
  | true, true => 0.05
  | true, false => 0.1
  | false, true => 0.01
  | false, false => 0.1

/-- `max_f` of `_set_factors_per_feature`, `base.py` lines 572-587. -/
noncomputable def maxFactor (external oneDim : Bool) : ℝ :=
  match external, oneDim with
  | true, true => 20
  | true, false => 5
  | false, true => 1000
  | false, false => 100

/-- The clipping constants of `visit_factors`, `base.py` lines 596-608 and 633-637. -/
noncomputable def realConsts : ClipConsts ℝ :=
  { logHalf := Real.log 0.5
    logTwo := Real.log 2
    logMin := fun e one => Real.log (minFactor e one)
    logMax := fun e one => Real.log (maxFactor e one)
    logLow := Real.log 0.8
    logHigh := Real.log 1.2 }

theorem minFactor_pos (e one : Bool) : 0 < minFactor e one := by
  unfold minFactor; cases e <;> cases one <;> norm_num

theorem maxFactor_pos (e one : Bool) : 0 < maxFactor e one := by
  unfold maxFactor; cases e <;> cases one <;> norm_num

theorem realConsts_ok : realConsts.Ok := by
  refine ⟨?_, ?_, ?_, ?_⟩
  · exact Real.log_nonpos (by norm_num) (by norm_num)
  · exact Real.log_nonneg (by norm_num)
  · intro e one
    apply Real.log_le_log (minFactor_pos e one)
    unfold minFactor; cases e <;> cases one <;> norm_num
  · intro e one
    apply Real.log_le_log (by norm_num)
    unfold maxFactor; cases e <;> cases one <;> norm_num

/-- **C23.** For a model with log link in aggregate mode: in any training history without divergence, the stored factor
(`exp` of the value in link space) of every bin lies between the limits of its feature, which are 0.01 and 1000 for a standard
one-dimensional feature, and one more iteration multiplies it by a number between 1/2 and 2. -/
theorem C23_factor_bounds (p : Params ℝ) (hp : p.aggregate = true) (hclip : p.clip = true) (hconsts : p.consts = realConsts)
    (o : Oracle ℝ) (cfgs : List FeatureCfg) (prior : ℕ → ℝ) (past : List (TState ℝ)) (s : TState ℝ)
    (h : Trace p o cfgs (startState o cfgs prior) past s) (hnd : s.diverging = 0) (j : ℕ) (cfg : FeatureCfg)
    (hj : cfgs[j]? = some cfg) :
    ∃ fs, s.feats[j]? = some fs ∧
      (∀ b, minFactor cfg.external (cfg.group.length == 1) ≤ Real.exp (stored fs b) ∧
        Real.exp (stored fs b) ≤ maxFactor cfg.external (cfg.group.length == 1)) ∧
      ∀ s', iterate p o cfgs s = .ok s' → ∃ fs', s'.feats[j]? = some fs' ∧
        ∀ b, 1 / 2 * Real.exp (stored fs b) ≤ Real.exp (stored fs' b) ∧
          Real.exp (stored fs' b) ≤ 2 * Real.exp (stored fs b) := by
  obtain ⟨fs, h1, h2, h3⟩ := C23_bounds_link p hp hclip (by rw [hconsts]; exact realConsts_ok) o cfgs prior past s h hnd j cfg hj
  rw [hconsts] at h2 h3
  refine ⟨fs, h1, ?_, ?_⟩
  · intro b
    obtain ⟨a, c⟩ := h2 b
    constructor
    · rw [← Real.exp_log (minFactor_pos cfg.external (cfg.group.length == 1))]
      exact Real.exp_le_exp.mpr a
    · rw [← Real.exp_log (maxFactor_pos cfg.external (cfg.group.length == 1))]
      exact Real.exp_le_exp.mpr c
  · intro s' hit
    obtain ⟨fs', h4, h5⟩ := h3 s' hit
    refine ⟨fs', h4, fun b => ?_⟩
    obtain ⟨a, c⟩ := h5 b
    constructor
    · have : (1 / 2 : ℝ) = Real.exp (Real.log 0.5) := by rw [Real.exp_log (by norm_num)]; norm_num
      rw [this, ← Real.exp_add]
      apply Real.exp_le_exp.mpr
      have a' : Real.log 0.5 ≤ stored fs' b - stored fs b := a
      linarith
    · have : (2 : ℝ) = Real.exp (Real.log 2) := by rw [Real.exp_log (by norm_num)]
      rw [this, ← Real.exp_add]
      apply Real.exp_le_exp.mpr
      have c' : stored fs' b - stored fs b ≤ Real.log 2 := c
      linarith

/-- Witness for C23: the hypotheses on the constants hold for the rational stand-ins, and a run without divergence whose
estimates are larger than the limits ends at the clipped values. -/
example : toyConsts.Ok ∧ (runN (toyParams true none) (toyOracle (fun _ => 5) (fun _ => .fin 1)) toyFeatures 1
      (startState (toyOracle (fun _ => 5) (fun _ => .fin 1)) toyFeatures (fun _ => 1/2))).map
      (fun s => (s.diverging, s.feats.map (fun fs => stored fs 0))) = some (0, [7/10, 7/10]) := by
  refine ⟨⟨?_, ?_, ?_, ?_⟩, by decide +kernel⟩
  · norm_num [toyConsts]
  · norm_num [toyConsts]
  · intro e one; norm_num [toyConsts]
  · intro e one; norm_num [toyConsts]

end CB
