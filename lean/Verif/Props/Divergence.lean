import Verif.Props.Updates

set_option autoImplicit false
set_option linter.unusedSectionVars false

/-!
C65: treatment of features while training diverges.
-/
namespace CB

open Spec

section
variable {K : Type*} [Field K] [LinearOrder K] [IsStrictOrderedRing K]

theorem visitFactors_diverging (p : Params K) (hp : p.aggregate = true) (hclip : p.clip = true) (o : Oracle K)
    (cfg : FeatureCfg) (dv : ℕ) (il : Flt K) (u : ℕ → K) (fs : FState K) (pred : Pred K) (f : ℕ → K)
    (hf : f = (visitFactors p o cfg dv false il u fs pred).1.factors) (d : Bool)
    (hd : isDiverged il (o.loss (pred.update cfg (fun s => f (cfg.bin s)))) = d) :
    (visitFactors p o cfg dv true il u fs pred).1.factors =
      (if d = true then
        (if dv > 1 then (match fs.agg with | some agg => fun b => -agg b | none => f)
          else fun b => clipTo (f b) (u b + p.consts.logLow) (u b + p.consts.logHigh))
      else f) ∧
    (visitFactors p o cfg dv true il u fs pred).1.zeroSmoother =
      (if d = true ∧ dv > 1 ∧ fs.agg.isSome = true then true else fs.zeroSmoother) := by
  have hf' : f = clipUpdate p.consts cfg fs := by
    rw [hf]; unfold visitFactors; simp [hp, hclip]
  subst hf'
  have hd' : isDiverged il (o.loss (pred.update cfg
      (predInSample cfg { fs with factors := clipUpdate p.consts cfg fs }))) = d := hd
  unfold visitFactors
  simp only [hp, hclip, Bool.and_self, if_true]
  rw [hd']
  cases d with
  | false => simp
  | true =>
    by_cases hdv : dv > 1
    · simp only [hdv, if_true]
      cases ha : fs.agg with
      | none => simp
      | some agg => simp
    · simp [hdv]

/-- A feature iteration while training is diverging, compared with the ordinary one. -/
theorem featureIteration_diverging (p : Params K) (hp : p.aggregate = true) (hclip : p.clip = true) (o : Oracle K) (it i : ℕ)
    (cfg : FeatureCfg) (dv : ℕ) (il : Flt K) (fs : FState K) (pred : Pred K) (f : ℕ → K)
    (hf : f = (featureIteration p o it i cfg dv false il fs pred).1.factors) (d : Bool)
    (hd : isDiverged il (o.loss (pred.update cfg (fun s => f (cfg.bin s)))) = d) :
    (featureIteration p o it i cfg dv true il fs pred).1.factors =
      (if d = true then
        (if dv > 1 then (match fs.agg with | some agg => fun b => -agg b | none => f)
          else fun b => clipTo (f b) (o.estimate it i pred fs b + p.consts.logLow) (o.estimate it i pred fs b + p.consts.logHigh))
      else f) ∧
    (featureIteration p o it i cfg dv true il fs pred).1.zeroSmoother =
      (if d = true ∧ dv > 1 ∧ fs.agg.isSome = true then true else fs.zeroSmoother) := by
  unfold featureIteration at hf ⊢
  simp only [hp, if_true] at hf ⊢
  exact visitFactors_diverging p hp hclip o cfg dv il _ _ pred f hf d hd

/-- **C65**, one feature while the training is marked as diverging (`dv` counts the diverging iterations so far). Compared with
the ordinary update `ordinary` of the feature:
* if the prediction with the ordinary update does not have a diverging loss, the ordinary update is made;
* otherwise, in the first diverging phase, the update is brought within `logLow` and `logHigh` (the logarithms of 0.8 and 1.2) of
  the estimates;
* otherwise, from the second diverging iteration on, all stored factors of the feature become zero (neutral) and its smoother is
  replaced by one that always gives zero. -/
theorem C65_diverging_update (p : Params K) (hp : p.aggregate = true) (hclip : p.clip = true)
    (hlh : p.consts.logLow ≤ p.consts.logHigh) (o : Oracle K) (it i : ℕ)
    (cfg : FeatureCfg) (dv : ℕ) (il : Flt K) (fs : FState K) (hfit : fs.isFitted = true) (hw : fs.WF) (pred : Pred K)
    (ordinary result : FState K) (hord : ordinary = (featureIteration p o it i cfg dv false il fs pred).1)
    (hres : result = (featureIteration p o it i cfg dv true il fs pred).1) :
    (¬ LossDoubled il (o.loss (pred.update cfg (fun s => ordinary.factors (cfg.bin s)))) →
      stored result = stored ordinary ∧ result.zeroSmoother = fs.zeroSmoother) ∧
    (LossDoubled il (o.loss (pred.update cfg (fun s => ordinary.factors (cfg.bin s)))) → dv ≤ 1 →
      (∀ b, IsClip (stored ordinary b - stored fs b) (o.estimate it i pred fs b + p.consts.logLow)
        (o.estimate it i pred fs b + p.consts.logHigh) (stored result b - stored fs b)) ∧
      result.zeroSmoother = fs.zeroSmoother) ∧
    (LossDoubled il (o.loss (pred.update cfg (fun s => ordinary.factors (cfg.bin s)))) → 1 < dv →
      (∀ b, stored result b = 0) ∧ result.zeroSmoother = true) := by
  obtain ⟨h1, h2⟩ := featureIteration_diverging p hp hclip o it i cfg dv il fs pred ordinary.factors (by rw [hord]) _ rfl
  obtain ⟨_, a1⟩ := featureIteration_aggregate p o it i cfg dv false il fs pred hp hw
  obtain ⟨_, a2⟩ := featureIteration_aggregate p o it i cfg dv true il fs pred hp hw
  obtain ⟨agg, ha⟩ := Option.isSome_iff_exists.mp (hw.mp hfit)
  rw [← hord] at a1
  rw [← hres] at h1 h2 a2
  rw [ha] at h1 h2
  rw [← isDiverged_iff]
  refine ⟨?_, ?_, ?_⟩
  · intro hn
    rw [if_neg hn] at h1
    rw [if_neg (by tauto)] at h2
    refine ⟨?_, h2⟩
    funext b
    rw [a1, a2, h1]
  · intro hy hdv
    rw [if_pos hy, if_neg (by omega)] at h1
    rw [if_neg (by omega)] at h2
    refine ⟨fun b => ?_, h2⟩
    have e1 : stored ordinary b - stored fs b = ordinary.factors b := by rw [a1]; ring
    have e2 : stored result b - stored fs b = result.factors b := by rw [a2]; ring
    rw [e1, e2, h1]
    exact clipTo_isClip _ _ _ (by linarith)
  · intro hy hdv
    rw [if_pos hy, if_pos hdv] at h1
    rw [if_pos ⟨hy, hdv, by simp⟩] at h2
    refine ⟨fun b => ?_, h2⟩
    rw [a2, h1]
    simp only
    unfold stored
    rw [ha]
    ring

theorem visitFactors_zeroSmoother (p : Params K) (o : Oracle K) (cfg : FeatureCfg) (dv : ℕ) (isd : Bool) (il : Flt K)
    (u : ℕ → K) (fs : FState K) (pred : Pred K) :
    (fs.zeroSmoother = true → (visitFactors p o cfg dv isd il u fs pred).1.zeroSmoother = true) ∧
    ((visitFactors p o cfg dv isd il u fs pred).1.zeroSmoother = true → fs.zeroSmoother = true ∨ 1 < dv) := by
  unfold visitFactors
  simp only
  split
  · split
    · split
      · split
        · split
          · rename_i h _ _ _; exact ⟨fun _ => rfl, fun _ => Or.inr h⟩
          · exact ⟨id, Or.inl⟩
        · exact ⟨id, Or.inl⟩
      · exact ⟨id, Or.inl⟩
    · exact ⟨id, Or.inl⟩
  · exact ⟨id, Or.inl⟩

theorem featureIteration_zeroSmoother (p : Params K) (o : Oracle K) (it i : ℕ) (cfg : FeatureCfg) (dv : ℕ) (isd : Bool)
    (il : Flt K) (fs : FState K) (pred : Pred K) :
    (fs.zeroSmoother = true → (featureIteration p o it i cfg dv isd il fs pred).1.zeroSmoother = true) ∧
    ((featureIteration p o it i cfg dv isd il fs pred).1.zeroSmoother = true → fs.zeroSmoother = true ∨ 1 < dv) := by
  unfold featureIteration
  simp only
  generalize hu : o.estimate it i (if p.aggregate = true then pred else pred.remove cfg (predInSample cfg fs)) fs = u
  have h := visitFactors_zeroSmoother p o cfg dv isd il u
    { updateFactors cfg fs u (o.learnRate (it + 1)) with
      factors := o.calibrate it i
        { updateFactors cfg fs u (o.learnRate (it + 1)) with
          factors := predictFactors cfg (updateFactors cfg fs u (o.learnRate (it + 1)))
            (o.smooth it i (if p.aggregate = true then pred else pred.remove cfg (predInSample cfg fs))
              (updateFactors cfg fs u (o.learnRate (it + 1))) u) (o.learnRate (it + 1)) } }
    (if p.aggregate = true then pred else pred.remove cfg (predInSample cfg fs))
  exact h

theorem clipTo_zero (lo hi : K) (h1 : lo ≤ 0) (h2 : 0 ≤ hi) : clipTo 0 lo hi = 0 := by
  unfold clipTo
  rw [max_eq_left h1, min_eq_left h2]

/-- The ordinary update of a neutralised feature is zero in the finite bins, as long as its stored factors are within the
limits. -/
theorem featureIteration_zero (p : Params K) (hp : p.aggregate = true) (hclip : p.clip = true) (hok : p.consts.Ok) (o : Oracle K)
    (hcal : ∀ it i (fs : FState K), o.calibrate it i fs = fs.factors) (it i : ℕ)
    (cfg : FeatureCfg) (dv : ℕ) (il : Flt K) (fs : FState K) (pred : Pred K) (hz : fs.zeroSmoother = true) (hw : fs.WF) (b : ℕ)
    (hb : b < cfg.nFinite) (hin : p.consts.logMin cfg.external (cfg.group.length == 1) ≤ stored fs b ∧
      stored fs b ≤ p.consts.logMax cfg.external (cfg.group.length == 1)) :
    (featureIteration p o it i cfg dv false il fs pred).1.factors b = 0 := by
  unfold featureIteration visitFactors
  simp only [hp, hclip, Bool.and_self, if_true, Bool.false_eq_true, if_false, hcal]
  have hraw := (rawUpdate cfg fs (o.smooth it i pred (updateFactors cfg fs (o.estimate it i pred fs) (o.learnRate (it + 1)))
    (o.estimate it i pred fs)) (o.estimate it i pred fs) (o.learnRate (it + 1))).1 b hb hz
  unfold clipUpdate
  simp only
  cases ha : fs.agg with
  | none =>
    have hf : fs.isFitted = false := by
      cases h : fs.isFitted with
      | false => rfl
      | true => have := hw.mp h; rw [ha] at this; cases this
    have h1 : (updateFactors cfg fs (o.estimate it i pred fs) (o.learnRate (it + 1))).isFitted = false := hf
    have h2 : (updateFactors cfg fs (o.estimate it i pred fs) (o.learnRate (it + 1))).agg = none := ha
    simp only [h1, h2]
    rw [hraw, clipTo_zero _ _ hok.half hok.two]
  | some agg =>
    have hf : fs.isFitted = true := hw.mpr (by rw [ha]; rfl)
    have hst : stored fs b = agg b := by unfold stored; rw [ha]
    rw [hst] at hin
    have h1 : (updateFactors cfg fs (o.estimate it i pred fs) (o.learnRate (it + 1))).isFitted = true := hf
    have h2 : (updateFactors cfg fs (o.estimate it i pred fs) (o.learnRate (it + 1))).agg = some agg := ha
    simp only [h1, h2]
    rw [hraw, clipTo_zero _ _ hok.half hok.two]
    exact clipTo_zero _ _ (by linarith [hin.1]) (by linarith [hin.2])

/-- In any training history, a feature whose smoother has been replaced has seen at least two diverging iterations. -/
theorem trace_zeroSmoother (p : Params K) (o : Oracle K) (cfgs : List FeatureCfg) (prior : ℕ → K) (past : List (TState K))
    (s : TState K) (h : Trace p o cfgs (startState o cfgs prior) past s) (fs : FState K) (hfs : fs ∈ s.feats)
    (hz : fs.zeroSmoother = true) : 1 < s.diverging := by
  induction h generalizing fs with
  | start =>
    unfold startState at hfs
    simp only [List.mem_map] at hfs
    obtain ⟨_, _, rfl⟩ := hfs
    cases hz
  | @step past s s' ht hc hit ih =>
    obtain ⟨feats, pred, r, hfp, hcc, hr, hf, _⟩ := iterate_ok p o cfgs _ _ hit
    obtain ⟨_, h2, _⟩ := checkConvergence_ok _ _ _ _ _ hcc
    have hw := trace_WF p o cfgs prior past s ht
    have hle : s.diverging ≤ s'.diverging := by rw [h2]; omega
    have hlen : feats.length = cfgs.length := by
      have := featurePass_length p o s.iteration s.diverging s.isDiverging s.initialLoss cfgs 0 s.feats s.pred hw.1
      rw [hfp] at this; exact this
    obtain ⟨j, hj⟩ := List.mem_iff_getElem?.mp hfs
    obtain ⟨fs1, hg, hz1⟩ : ∃ fs1, feats[j]? = some fs1 ∧ fs1.zeroSmoother = true := by
      rw [hf] at hj
      split at hr
      · obtain ⟨hl, hget⟩ := removePreds_get cfgs feats pred r hr hlen.symm
        have hjl : j < feats.length := by
          rw [← hl]
          by_contra hcon
          rw [List.getElem?_eq_none (not_lt.mp hcon)] at hj
          cases hj
        obtain ⟨agg, _, hb⟩ := hget j feats[j] (List.getElem?_eq_getElem hjl)
        rw [hj, Option.some.injEq] at hb
        exact ⟨feats[j], List.getElem?_eq_getElem hjl, by rw [hb] at hz; exact hz⟩
      · injection hr with hr
        rw [← hr] at hj
        exact ⟨fs, hj, hz⟩
    have hjl : j < cfgs.length := by
      rw [← hlen]
      by_contra hcon
      rw [List.getElem?_eq_none (not_lt.mp hcon)] at hg
      cases hg
    have hj2 : s.feats[j]? = some (s.feats[j]'(by rw [← hw.1]; exact hjl)) := List.getElem?_eq_getElem _
    obtain ⟨fs2, fs0, pred', g1, g2, g3⟩ := featurePass_get p o s.iteration s.diverging s.isDiverging s.initialLoss cfgs 0
      s.feats s.pred j cfgs[j] _ (List.getElem?_eq_getElem hjl) hj2
    rw [hfp] at g1
    simp only at g1
    rw [hg, Option.some.injEq] at g1
    subst g1
    rw [reset_noop p o cfgs prior past s ht _ (List.getElem_mem _)] at g2
    subst g2
    rcases g3 with ⟨_, g3⟩ | ⟨_, g3⟩
    · have := ih _ (List.getElem_mem _) (by rw [g3] at hz1; exact hz1)
      omega
    · rw [g3] at hz1
      rcases (featureIteration_zeroSmoother p o _ _ _ _ _ _ _ _).2 hz1 with h3 | h3
      · have := ih _ (List.getElem_mem _) h3
        omega
      · omega

/-- **C65**, an ignored feature is no longer learned: once the smoother of a feature has been replaced, an iteration leaves the
stored factor of each finite bin (if it is within the limits of the feature) as it is or makes it zero. -/
theorem C65_frozen (p : Params K) (hp : p.aggregate = true) (hclip : p.clip = true) (hok : p.consts.Ok) (o : Oracle K)
    (hcal : ∀ it i (fs : FState K), o.calibrate it i fs = fs.factors) (cfgs : List FeatureCfg) (prior : ℕ → K)
    (past : List (TState K)) (s s' : TState K) (h : Trace p o cfgs (startState o cfgs prior) past s)
    (hit : iterate p o cfgs s = .ok s') (j : ℕ) (cfg : FeatureCfg) (fs : FState K)
    (hcfg : cfgs[j]? = some cfg) (hj : s.feats[j]? = some fs) (hz : fs.zeroSmoother = true) :
    ∃ fs', s'.feats[j]? = some fs' ∧ fs'.zeroSmoother = true ∧
      ∀ b, b < cfg.nFinite → p.consts.logMin cfg.external (cfg.group.length == 1) ≤ stored fs b →
        stored fs b ≤ p.consts.logMax cfg.external (cfg.group.length == 1) →
        stored fs' b = stored fs b ∨ stored fs' b = 0 := by
  obtain ⟨feats, pred, r, hfp, hcc, hr, hf, _⟩ := iterate_ok p o cfgs _ _ hit
  have hw := trace_WF p o cfgs prior past s h
  have hdv := trace_zeroSmoother p o cfgs prior past s h fs (List.mem_of_getElem? hj) hz
  have hlen : feats.length = cfgs.length := by
    have := featurePass_length p o s.iteration s.diverging s.isDiverging s.initialLoss cfgs 0 s.feats s.pred hw.1
    rw [hfp] at this; exact this
  obtain ⟨fs2, fs0, pred', g1, g2, g3⟩ := featurePass_get p o s.iteration s.diverging s.isDiverging s.initialLoss cfgs 0
    s.feats s.pred j cfg _ hcfg hj
  rw [hfp] at g1
  simp only at g1
  rw [reset_noop p o cfgs prior past s h _ (List.mem_of_getElem? hj)] at g2
  subst g2
  have hfw : fs0.WF := hw.2 fs0 (List.mem_of_getElem? hj)
  have hz2 : fs2.zeroSmoother = true := by
    rcases g3 with ⟨_, g3⟩ | ⟨_, g3⟩
    · rw [g3]; exact hz
    · rw [g3]; exact (featureIteration_zeroSmoother p o _ _ _ _ _ _ _ _).1 hz
  cases hd' : s'.isDiverging with
  | true =>
    obtain ⟨fs', h1, h2⟩ := (C18_rollback p hp o cfgs prior past s s' h hit hd').2 j fs0 hj
    refine ⟨fs', h1, ?_, fun b _ _ _ => Or.inl (by rw [h2])⟩
    rw [hd'] at hr
    simp only [if_true] at hr
    obtain ⟨hl, hget⟩ := removePreds_get cfgs feats pred r hr hlen.symm
    obtain ⟨agg, _, hb⟩ := hget j fs2 g1
    rw [hf, hb, Option.some.injEq] at h1
    rw [← h1]; exact hz2
  | false =>
    rw [hd'] at hr
    simp only [Bool.false_eq_true, if_false, Except.ok.injEq] at hr
    refine ⟨fs2, by rw [hf, ← hr]; exact g1, hz2, ?_⟩
    intro b hb hlo hhi
    rcases g3 with ⟨_, g3⟩ | ⟨_, g3⟩
    · left; rw [g3]; rfl
    · have hord := featureIteration_zero p hp hclip hok o hcal s.iteration (0 + j) cfg s.diverging s.initialLoss fs0 pred' hz hfw
        b hb ⟨hlo, hhi⟩
      cases hd : s.isDiverging with
      | false =>
        rw [hd] at g3
        left
        rw [g3, (featureIteration_aggregate p o s.iteration (0 + j) cfg s.diverging false s.initialLoss fs0 pred' hp hfw).2 b,
          hord, add_zero]
      | true =>
        rw [hd] at g3
        obtain ⟨d, hd0⟩ : ∃ d, isDiverged s.initialLoss (o.loss (pred'.update cfg (fun i => (featureIteration p o s.iteration
          (0 + j) cfg s.diverging false s.initialLoss fs0 pred').1.factors (cfg.bin i)))) = d := ⟨_, rfl⟩
        obtain ⟨f1, _⟩ := featureIteration_diverging p hp hclip o s.iteration (0 + j) cfg s.diverging s.initialLoss fs0 pred' _
          rfl d hd0
        have hst := (featureIteration_aggregate p o s.iteration (0 + j) cfg s.diverging true s.initialLoss fs0 pred' hp hfw).2 b
        rw [← g3] at f1 hst
        cases d with
        | true =>
          rw [if_pos rfl, if_pos hdv] at f1
          cases ha : fs0.agg with
          | none =>
            rw [ha] at f1
            left
            rw [hst, f1]
            simp only
            rw [hord, add_zero]
          | some agg =>
            rw [ha] at f1
            right
            rw [hst, f1]
            simp only
            unfold stored
            rw [ha]
            ring
        | false =>
          rw [if_neg (by simp)] at f1
          left
          rw [hst, f1, hord, add_zero]

/-- **C65**, neutral for good: a feature whose smoother has been replaced and whose stored factor of a finite bin is zero keeps
the factor zero through any further training history, so in the final model this bin has no effect. -/
theorem C65_neutral_for_good (p : Params K) (hp : p.aggregate = true) (hclip : p.clip = true) (hok : p.consts.Ok)
    (o : Oracle K) (hcal : ∀ it i (fs : FState K), o.calibrate it i fs = fs.factors) (cfgs : List FeatureCfg) (prior : ℕ → K)
    (past : List (TState K)) (s : TState K) (h : Trace p o cfgs (startState o cfgs prior) past s)
    (later : List (TState K)) (s' : TState K) (h' : Trace p o cfgs s later s') (j : ℕ) (cfg : FeatureCfg) (fs : FState K)
    (hcfg : cfgs[j]? = some cfg) (hj : s.feats[j]? = some fs) (hz : fs.zeroSmoother = true) (b : ℕ) (hb : b < cfg.nFinite)
    (h0 : stored fs b = 0) : ∃ fs', s'.feats[j]? = some fs' ∧ stored fs' b = 0 := by
  have key : ∃ past', Trace p o cfgs (startState o cfgs prior) past' s' ∧
      ∃ fs', s'.feats[j]? = some fs' ∧ fs'.zeroSmoother = true ∧ stored fs' b = 0 := by
    induction h' with
    | start => exact ⟨past, h, fs, hj, hz, h0⟩
    | step ht hc hit ih =>
      obtain ⟨past', h1, fs1, h2, h3, h4⟩ := ih
      obtain ⟨fs2, k1, k2, k3⟩ := C65_frozen p hp hclip hok o hcal cfgs prior past' _ _ h1 hit j cfg fs1 hcfg h2 h3
      refine ⟨_, .step h1 hc hit, fs2, k1, k2, ?_⟩
      have l1 := hok.min_le cfg.external (cfg.group.length == 1)
      have l2 := hok.le_max cfg.external (cfg.group.length == 1)
      have l3 := hok.half
      have l4 := hok.two
      rcases k3 b hb (by rw [h4]; linarith) (by rw [h4]; linarith) with k | k
      · rw [k, h4]
      · exact k
  obtain ⟨_, _, fs', h1, _, h2⟩ := key
  exact ⟨fs', h1, h2⟩

end

/-- Three features with one bin each. -/
def threeFeatures : List FeatureCfg :=
  [⟨["a"], false, 1, fun _ => 0, false⟩, ⟨["b"], false, 1, fun _ => 0, false⟩, ⟨["c"], false, 1, fun _ => 0, false⟩]

/-- A loss that is large for the predictions 3/5, 9/20, 1/2 and 1/4 of sample 0. -/
def spikyLoss (pred : Pred ℚ) : Flt ℚ :=
  .fin (if pred.factors 0 ∈ [(3 : ℚ)/5, 9/20, 1/2, 1/4] then 100 else 1)

/-- Estimates 1/10 in the first three iterations, 3/20 in the fourth, then 0. -/
def spikyOracle : Oracle ℚ :=
  { estimate := fun it _ _ _ _ => if it ≤ 2 then 1/10 else if it = 3 then 3/20 else 0
    smooth := fun _ _ _ _ unfitted b => some (unfitted b)
    learnRate := fun _ => 1
    calibrate := fun _ _ fs => fs.factors
    loss := spikyLoss }

/-- A run with five iterations. -/
def spikyParams : Params ℚ := { toyParams true none with maximalIterations := 7, minimalFactorChange := -1, minimalLossChange := -1 }

/-- **C65**, consequence to be aware of: when the iteration in which a feature is neutralised is itself rolled back, the previous
factors of the feature come back although its smoother stays replaced: the feature keeps its factors in the model (here 1/10),
contrary to the warning that it will be ignored. -/
theorem C65_rolled_back_counterexample :
    ∃ (past : List (TState ℚ)) (s : TState ℚ),
      Trace spikyParams spikyOracle threeFeatures (startState spikyOracle threeFeatures (fun _ => 0)) past s ∧
        s.isDiverging = false ∧ past.length = 5 ∧
        s.feats.map (fun fs => (fs.zeroSmoother, stored fs 0)) = [(true, 1/10), (false, 1/10), (true, 1/10)] := by
  have h : (runN spikyParams spikyOracle threeFeatures 5 (startState spikyOracle threeFeatures (fun _ => 0))).map
      (fun s => (s.isDiverging, s.feats.map (fun fs => (fs.zeroSmoother, stored fs 0))))
      = some (false, [(true, 1/10), (false, 1/10), (true, 1/10)]) := by decide +kernel
  rw [Option.map_eq_some_iff] at h
  obtain ⟨s, hs, hv⟩ := h
  obtain ⟨past, ht, hl⟩ := runN_trace _ _ _ _ _ _ hs
  simp only [Prod.mk.injEq] at hv
  exact ⟨past, s, ht, hv.1, hl, hv.2⟩

/-- Witness for C65: a run in which a feature ("b" of two features) is neutralised in an accepted iteration. -/
example : (runN { toyParams true none with maximalIterations := 7, minimalFactorChange := -1, minimalLossChange := -1 }
      (toyOracle (fun _ => 1/2) (fun pred => .fin (if (1 : ℚ) < pred.factors 0 then 100 else 1))) toyFeatures 4
      (startState (toyOracle (fun _ => 1/2) (fun pred => .fin (if (1 : ℚ) < pred.factors 0 then 100 else 1))) toyFeatures
        (fun _ => 0))).map (fun s => (s.diverging, s.isDiverging, s.feats.map (fun fs => (fs.zeroSmoother, stored fs 0))))
    = some (2, false, [(false, 1), (true, 0)]) := by decide +kernel

end CB
