import Verif.Props.Stopping

set_option autoImplicit false
set_option linter.unusedSectionVars false

/-!
C65: treatment of features while training diverges; C66: what one update of a feature does.
-/
namespace CB

open Spec

section
variable {K : Type*} [Field K] [LinearOrder K] [IsStrictOrderedRing K]

theorem clipTo_isClip (x lo hi : K) (h : lo ≤ hi) : IsClip x lo hi (clipTo x lo hi) := by
  unfold IsClip clipTo
  refine ⟨fun h1 => ?_, fun h1 => ?_, fun h1 h2 => ?_⟩
  · rw [max_eq_right h1.le, min_eq_left h]
  · rw [max_eq_left (by linarith), min_eq_right h1.le]
  · rw [max_eq_left h1, min_eq_left h2]

/-! ### C66: one update -/

theorem rawUpdate (cfg : FeatureCfg) (fs : FState K) (smoothed : ℕ → Option K) (estimate : ℕ → K)
    (lr : K) : IsRawUpdate cfg lr fs.zeroSmoother smoothed estimate
      (predictFactors cfg (updateFactors cfg fs estimate lr) smoothed lr) := by
  unfold IsRawUpdate predictFactors updateFactors
  refine ⟨?_, ?_, ?_, ?_, ?_⟩
  · intro b hb hz; simp [hb, hz]
  · intro b v hb hz hs; simp [hb, hz, hs]
  · intro b hb hz hs; simp [hb, hz, hs]
  · intro hm; simp [hm]
  · intro hm; simp [hm, mul_comm]

theorem storedSum_take_succ (e : Bool) (i : ℕ) :
    ∀ (cfgs : List FeatureCfg) (as bs : List (FState K)) (j : ℕ), cfgs.length = as.length → as.length = bs.length →
      storedSum e cfgs (as.take j ++ bs.drop j) i =
        storedSum e (cfgs.take j) (as.take j) i + (storedSum e cfgs bs i - storedSum e (cfgs.take j) (bs.take j) i) := by
  intro cfgs
  induction cfgs with
  | nil => intro as bs j _ _; simp [storedSum_nil_left]
  | cons c cs ih =>
    intro as bs j h1 h2
    cases as with
    | nil => simp at h1
    | cons a as =>
      cases bs with
      | nil => simp at h2
      | cons b bs =>
        cases j with
        | zero => simp [storedSum_nil_left]
        | succ j =>
          rw [List.take_succ_cons, List.take_succ_cons, List.take_succ_cons, List.drop_succ_cons, List.cons_append,
            storedSum_cons, storedSum_cons, storedSum_cons, storedSum_cons,
            ih as bs j (by simpa using h1) (by simpa using h2)]
          ring

/-- The same as `featurePass_get`, with the running prediction seen by feature `j` (aggregate mode). -/
theorem featurePass_get_pred (p : Params K) (hp : p.aggregate = true) (o : Oracle K) (it dv : ℕ) (isd : Bool) (il : Flt K) :
    ∀ (cfgs : List FeatureCfg) (i : ℕ) (fss : List (FState K)) (pred : Pred K) (j : ℕ) (cfg : FeatureCfg)
      (fs : FState K), (∀ fs ∈ fss, fs.WF) → cfgs[j]? = some cfg → fss[j]? = some fs →
      ∃ (fs' fs0 : FState K) (pred' : Pred K), (featurePass p o it dv isd il i cfgs fss pred).1[j]? = some fs' ∧
        fs0 = (if it = 0 then { fs with factors := fun _ => 0 } else fs) ∧
        ((skipped p it cfg = true ∧ fs' = { fs0 with factorsOld := fs0.factors }) ∨
          (skipped p it cfg = false ∧ fs' = (featureIteration p o it (i + j) cfg dv isd il fs0 pred').1)) ∧
        ∀ (e : Bool) (s : ℕ), pred'.col e s = pred.col e s +
          (storedSum e (cfgs.take j) ((featurePass p o it dv isd il i cfgs fss pred).1.take j) s -
            storedSum e (cfgs.take j) (fss.take j) s) := by
  intro cfgs
  induction cfgs with
  | nil => intro i fss pred j cfg fs _ h; simp at h
  | cons cfg0 cfgs ih =>
    intro i fss pred j cfg fs hw h1 h2
    cases fss with
    | nil => simp at h2
    | cons fs1 fss =>
      rw [featurePass]
      simp only
      cases j with
      | zero =>
        simp only [List.getElem?_cons_zero, Option.some.injEq] at h1 h2
        subst h1 h2
        refine ⟨_, _, pred, rfl, rfl, ?_, ?_⟩
        · cases hsk : skipped p it cfg0 with
          | true => left; simp
          | false => right; simp
        · intro e s; simp [storedSum_nil_left]
      | succ j =>
        simp only [List.getElem?_cons_succ] at h1 h2
        simp only [List.getElem?_cons_succ]
        generalize hfs0 : (if it = 0 then { fs1 with factors := fun _ => 0 } else fs1 : FState K) = fs0
        have hs0 : stored fs0 = stored fs1 := by rw [← hfs0]; split <;> rfl
        have hw1 : fs0.WF := by
          have := hw fs1 (by simp)
          rw [← hfs0]; split <;> exact this
        obtain ⟨fs', fs2, pred', a, b, c, d⟩ := ih (i + 1) fss
          (if skipped p it cfg0 = true then (({ fs0 with factorsOld := fs0.factors } : FState K), pred)
            else featureIteration p o it i cfg0 dv isd il fs0 pred).2 j cfg fs (fun g hg => hw g (by simp [hg])) h1 h2
        refine ⟨fs', fs2, pred', a, b, by rw [show i + (j + 1) = i + 1 + j by ring]; exact c, ?_⟩
        intro e s
        rw [d e s, List.take_succ_cons, List.take_succ_cons, List.take_succ_cons, storedSum_cons, storedSum_cons]
        cases hsk : skipped p it cfg0 with
        | true =>
          simp only [if_true]
          have h3 : stored ({ fs0 with factorsOld := fs0.factors } : FState K) = stored fs0 := rfl
          rw [h3, hs0]
          ring
        | false =>
          simp only [Bool.false_eq_true, if_false]
          obtain ⟨g1, g2⟩ := featureIteration_aggregate p o it i cfg0 dv isd il fs0 pred hp hw1
          generalize hF : featureIteration p o it i cfg0 dv isd il fs0 pred = F at g1 g2
          have h3 : F.2.col e s = pred.col e s + (if cfg0.external = e then F.1.factors (cfg0.bin s) else 0) := by
            rw [g1, col_update]
            rfl
          rw [h3, g2 (cfg0.bin s), hs0]
          split <;> ring

/-- A feature in a training history: at the start of the first iteration its factors are already neutral. -/
theorem reset_noop (p : Params K) (o : Oracle K) (cfgs : List FeatureCfg) (prior : ℕ → K)
    (past : List (TState K)) (s : TState K) (h : Trace p o cfgs (startState o cfgs prior) past s) (fs : FState K)
    (hfs : fs ∈ s.feats) : (if s.iteration = 0 then { fs with factors := fun _ => 0 } else fs : FState K) = fs := by
  split
  · rename_i h0
    have := trace_start_updates p o cfgs prior past s h h0 fs hfs
    cases fs
    simp_all
  · rfl

/-- **C66**, one update in aggregate mode: let an iteration start without divergence and be accepted. For every feature `j` that
is trained in it, the estimates are computed with the running prediction that already contains this iteration's updates of the
features before `j` and the previous factors of the features from `j` on. The stored factors then change by the learning rate
times the smoothed estimates (finite bins; nothing where the smoother gives no number) and by the learning rate times the
estimate (bin of missing values; nothing if missing values are not learned), clipped to the limits of the update and of
the feature if the model has a log link. -/
theorem C66_update_aggregate (p : Params K) (hp : p.aggregate = true) (hok : p.consts.Ok) (o : Oracle K)
    (cfgs : List FeatureCfg) (prior : ℕ → K)
    (hcal : ∀ it i (fs : FState K), o.calibrate it i fs = fs.factors)
    (past : List (TState K)) (s s' : TState K) (h : Trace p o cfgs (startState o cfgs prior) past s)
    (hit : iterate p o cfgs s = .ok s') (hd : s.isDiverging = false) (hd' : s'.isDiverging = false)
    (j : ℕ) (cfg : FeatureCfg) (fs fs' : FState K) (hcfg : cfgs[j]? = some cfg)
    (hj : s.feats[j]? = some fs) (hj' : s'.feats[j]? = some fs') (htr : skipped p past.length cfg = false) :
    ∃ (running : Pred K) (input : FState K) (raw : ℕ → K),
      (∀ i, running.factors i = prior i + storedSum false cfgs (s'.feats.take j ++ s.feats.drop j) i ∧
        running.exponents i = storedSum true cfgs (s'.feats.take j ++ s.feats.drop j) i) ∧
      IsRawUpdate cfg (o.learnRate (past.length + 1)) fs.zeroSmoother
        (o.smooth past.length j running input (o.estimate past.length j running fs)) (o.estimate past.length j running fs) raw ∧
      ∀ b, (p.clip = false → stored fs' b - stored fs b = raw b) ∧
        (p.clip = true → fs.isFitted = false → IsClip (raw b) p.consts.logHalf p.consts.logTwo (stored fs' b)) ∧
        (p.clip = true → fs.isFitted = true → ∃ once, IsClip (raw b) p.consts.logHalf p.consts.logTwo once ∧
          IsClip once (p.consts.logMin cfg.external (cfg.group.length == 1) - stored fs b)
            (p.consts.logMax cfg.external (cfg.group.length == 1) - stored fs b) (stored fs' b - stored fs b)) := by
  have hiter := (trace_iterations p o cfgs prior past s h).1
  obtain ⟨feats, pred, r, hfp, _, hr, hf, _⟩ := iterate_ok p o cfgs _ _ hit
  rw [hd'] at hr
  simp only [Bool.false_eq_true, if_false, Except.ok.injEq] at hr
  have hw := trace_WF p o cfgs prior past s h
  obtain ⟨fs1, fs0, running, g1, g2, g3, g4⟩ := featurePass_get_pred p hp o s.iteration s.diverging s.isDiverging s.initialLoss
    cfgs 0 s.feats s.pred j cfg fs hw.2 hcfg hj
  rw [reset_noop p o cfgs prior past s h fs (List.mem_of_getElem? hj)] at g2
  subst g2
  have hlen : feats.length = cfgs.length := by
    have := featurePass_length p o s.iteration s.diverging s.isDiverging s.initialLoss cfgs 0 s.feats s.pred hw.1
    rw [hfp] at this; exact this
  rw [hfp] at g1 g4
  have hfeats : s'.feats = feats := by rw [hf, ← hr]
  rw [hfeats] at hj' ⊢
  simp only at g1
  rw [g1, Option.some.injEq] at hj'
  subst hj'
  have hfw : fs0.WF := hw.2 fs0 (List.mem_of_getElem? hj)
  rw [hiter] at g3
  rcases g3 with ⟨hsk, _⟩ | ⟨_, g3⟩
  · rw [htr] at hsk; cases hsk
  rw [Nat.zero_add, hd] at g3
  obtain ⟨_, hagg⟩ := featureIteration_aggregate p o past.length j cfg s.diverging false s.initialLoss fs0 running hp hfw
  rw [← g3] at hagg
  set est := o.estimate past.length j running fs0 with hest
  set lr := o.learnRate (past.length + 1) with hlr
  set inp := updateFactors cfg fs0 est lr with hinp
  set raw := predictFactors cfg inp (o.smooth past.length j running inp est) lr with hraw
  refine ⟨running, inp, raw, ?_, rawUpdate cfg fs0 _ est lr, ?_⟩
  · intro i
    have hb := C18_bookkeeping p hp o cfgs prior past s h i
    have e0 := g4 false i
    have e1 := g4 true i
    simp only [Pred.col, if_true, Bool.false_eq_true, if_false] at e0 e1
    rw [storedSum_take_succ false i cfgs feats s.feats j hlen.symm (by rw [hlen, hw.1]),
      storedSum_take_succ true i cfgs feats s.feats j hlen.symm (by rw [hlen, hw.1]), e0, e1, hb.1, hb.2]
    constructor <;> ring
  · intro b
    have hfac : fs1.factors = if p.clip then clipUpdate p.consts cfg { inp with factors := raw } else raw := by
      rw [g3]
      unfold featureIteration visitFactors
      simp only [hp, if_true, hcal, Bool.and_true, Bool.false_eq_true, if_false]
      split <;> rfl
    have hht : p.consts.logHalf ≤ p.consts.logTwo := le_trans hok.half hok.two
    have hup : stored fs1 b - stored fs0 b = fs1.factors b := by rw [hagg b]; ring
    refine ⟨?_, ?_, ?_⟩
    · intro hc
      rw [hup, hfac, hc]
      simp
    · intro hc hfit
      have hst : stored fs0 b = 0 := by
        have : fs0.agg = none := by
          cases ha : fs0.agg with
          | none => rfl
          | some agg => have := hfw.mpr (by rw [ha]; rfl); rw [hfit] at this; cases this
        unfold stored; rw [this]
      rw [hst, sub_zero] at hup
      rw [hup, hfac, hc]
      simp only [if_true]
      have : clipUpdate p.consts cfg { inp with factors := raw } b = clipTo (raw b) p.consts.logHalf p.consts.logTwo := by
        unfold clipUpdate
        have : inp.isFitted = false := hfit
        simp only [this]
      rw [this]
      exact clipTo_isClip _ _ _ hht
    · intro hc hfit
      obtain ⟨agg, ha⟩ := Option.isSome_iff_exists.mp (hfw.mp hfit)
      have hst : stored fs0 b = agg b := by unfold stored; rw [ha]
      refine ⟨clipTo (raw b) p.consts.logHalf p.consts.logTwo, clipTo_isClip _ _ _ hht, ?_⟩
      rw [hup, hfac, hc, hst]
      simp only [if_true]
      have : clipUpdate p.consts cfg { inp with factors := raw } b = clipTo (clipTo (raw b) p.consts.logHalf p.consts.logTwo)
          (p.consts.logMin cfg.external (cfg.group.length == 1) - agg b)
          (p.consts.logMax cfg.external (cfg.group.length == 1) - agg b) := by
        unfold clipUpdate
        have h1 : inp.isFitted = true := hfit
        have h2 : inp.agg = some agg := ha
        simp only [h1, h2]
      rw [this]
      apply clipTo_isClip
      have h1 := hok.min_le cfg.external (cfg.group.length == 1)
      have h2 := hok.le_max cfg.external (cfg.group.length == 1)
      linarith

/-- In non-aggregate mode without divergence the stored factors are those of the last iteration. -/
theorem nonaggregate_current (p : Params K) (hp : p.aggregate = false) (o : Oracle K) (cfgs : List FeatureCfg)
    (prior : ℕ → K) (past : List (TState K)) (s : TState K) (h : Trace p o cfgs (startState o cfgs prior) past s)
    (hnd : s.diverging = 0) :
    (∀ fs ∈ s.feats, ∀ b, stored fs b = fs.factors b) ∧ (s.iteration = 0 → ∀ fs ∈ s.feats, ∀ b, stored fs b = 0) := by
  induction h with
  | start =>
    have hinit : ∀ fs ∈ (startState o cfgs prior).feats, fs = FState.init := by
      intro fs hfs
      unfold startState at hfs
      simp only [List.mem_map] at hfs
      obtain ⟨_, _, rfl⟩ := hfs
      rfl
    refine ⟨?_, ?_⟩
    · intro fs hfs b; rw [hinit fs hfs]; rfl
    · intro _ fs hfs b; rw [hinit fs hfs]; rfl
  | @step past s s' ht hc hit ih =>
    obtain ⟨feats, pred, r, hfp, hcc, hr, hf, hpr, hi, _⟩ := iterate_ok p o cfgs _ _ hit
    obtain ⟨_, h2, _⟩ := checkConvergence_ok _ _ _ _ _ hcc
    have hd : s'.isDiverging = false := by
      cases hd : s'.isDiverging with
      | false => rfl
      | true => rw [hd] at h2; simp only [if_true] at h2; omega
    rw [hd] at h2 hr
    simp only [Bool.false_eq_true, if_false, Except.ok.injEq] at h2 hr
    obtain ⟨ih2, ih3⟩ := ih (by omega)
    obtain ⟨_, b⟩ := featurePass_replace p o s.iteration s.diverging s.isDiverging s.initialLoss hp true 0 cfgs 0 s.feats
      s.pred ih2 ih3
    rw [hfp] at b
    rw [hf, ← hr]
    exact ⟨b, by intro h0; omega⟩

/-- The running prediction seen by feature `j` in non-aggregate mode. -/
theorem featurePass_get_pred_replace (p : Params K) (hp : p.aggregate = false) (o : Oracle K) (it dv : ℕ) (isd : Bool)
    (il : Flt K) :
    ∀ (cfgs : List FeatureCfg) (i : ℕ) (fss : List (FState K)) (pred : Pred K) (j : ℕ) (cfg : FeatureCfg)
      (fs : FState K), (∀ fs ∈ fss, ∀ b, stored fs b = fs.factors b) → (it = 0 → ∀ fs ∈ fss, ∀ b, stored fs b = 0) →
      cfgs[j]? = some cfg → fss[j]? = some fs →
      ∃ (fs' fs0 : FState K) (pred' : Pred K), (featurePass p o it dv isd il i cfgs fss pred).1[j]? = some fs' ∧
        fs0 = (if it = 0 then { fs with factors := fun _ => 0 } else fs) ∧
        ((skipped p it cfg = true ∧ fs' = { fs0 with factorsOld := fs0.factors }) ∨
          (skipped p it cfg = false ∧ fs' = (featureIteration p o it (i + j) cfg dv isd il fs0 pred').1)) ∧
        ∀ (e : Bool) (s : ℕ), pred'.col e s = pred.col e s +
          (storedSum e (cfgs.take j) ((featurePass p o it dv isd il i cfgs fss pred).1.take j) s -
            storedSum e (cfgs.take j) (fss.take j) s) := by
  intro cfgs
  induction cfgs with
  | nil => intro i fss pred j cfg fs _ _ h; simp at h
  | cons cfg0 cfgs ih =>
    intro i fss pred j cfg fs hcur hz h1 h2
    cases fss with
    | nil => simp at h2
    | cons fs1 fss =>
      rw [featurePass]
      simp only
      cases j with
      | zero =>
        simp only [List.getElem?_cons_zero, Option.some.injEq] at h1 h2
        subst h1 h2
        refine ⟨_, _, pred, rfl, rfl, ?_, ?_⟩
        · cases hsk : skipped p it cfg0 with
          | true => left; simp
          | false => right; simp
        · intro e s; simp [storedSum_nil_left]
      | succ j =>
        simp only [List.getElem?_cons_succ] at h1 h2
        simp only [List.getElem?_cons_succ]
        generalize hfs0 : (if it = 0 then { fs1 with factors := fun _ => 0 } else fs1 : FState K) = fs0
        have hs0 : stored fs0 = stored fs1 := by rw [← hfs0]; split <;> rfl
        have hc0 : ∀ b, stored fs0 b = fs0.factors b := by
          intro b
          rw [hs0, ← hfs0]
          split
          · rename_i h0; exact hz h0 fs1 (by simp) b
          · exact hcur fs1 (by simp) b
        obtain ⟨fs', fs2, pred', a, b, c, d⟩ := ih (i + 1) fss
          (if skipped p it cfg0 = true then (({ fs0 with factorsOld := fs0.factors } : FState K), pred)
            else featureIteration p o it i cfg0 dv isd il fs0 pred).2 j cfg fs (fun g hg => hcur g (by simp [hg]))
          (fun h0 g hg => hz h0 g (by simp [hg])) h1 h2
        refine ⟨fs', fs2, pred', a, b, by rw [show i + (j + 1) = i + 1 + j by ring]; exact c, ?_⟩
        intro e s
        rw [d e s, List.take_succ_cons, List.take_succ_cons, List.take_succ_cons, storedSum_cons, storedSum_cons]
        cases hsk : skipped p it cfg0 with
        | true =>
          simp only [if_true]
          have h3 : stored ({ fs0 with factorsOld := fs0.factors } : FState K) = stored fs0 := rfl
          rw [h3, hs0]
          ring
        | false =>
          simp only [Bool.false_eq_true, if_false]
          obtain ⟨g1, g2⟩ := featureIteration_replace p o it i cfg0 dv isd il fs0 pred hp
          generalize hF : featureIteration p o it i cfg0 dv isd il fs0 pred = F at g1 g2
          have h3 : F.2.col e s = pred.col e s - (if cfg0.external = e then stored fs1 (cfg0.bin s) else 0)
              + (if cfg0.external = e then F.1.factors (cfg0.bin s) else 0) := by
            rw [g1, col_update, col_remove]
            unfold predInSample
            rw [← hs0, hc0]
          rw [h3, g2 (cfg0.bin s)]
          split <;> ring

/-- **C66**, one update in non-aggregate mode, in a training without divergence: the estimates of a feature are computed with
the running prediction without this feature's own contribution (features before it with the factors of this iteration,
features after it with those of the previous one), and the stored factors are replaced by the learning rate times the smoothed
estimates (the estimate itself in the bin of missing values). -/
theorem C66_update_replace (p : Params K) (hp : p.aggregate = false) (o : Oracle K)
    (cfgs : List FeatureCfg) (prior : ℕ → K)
    (hcal : ∀ it i (fs : FState K), o.calibrate it i fs = fs.factors)
    (past : List (TState K)) (s s' : TState K) (h : Trace p o cfgs (startState o cfgs prior) past s)
    (hit : iterate p o cfgs s = .ok s') (hd : s.diverging = 0) (hd' : s'.isDiverging = false)
    (j : ℕ) (cfg : FeatureCfg) (fs fs' : FState K) (hcfg : cfgs[j]? = some cfg)
    (hj : s.feats[j]? = some fs) (hj' : s'.feats[j]? = some fs') (htr : skipped p past.length cfg = false) :
    ∃ (running : Pred K) (input : FState K),
      (∀ i, running.factors i + (if cfg.external then 0 else stored fs (cfg.bin i)) =
          prior i + storedSum false cfgs (s'.feats.take j ++ s.feats.drop j) i ∧
        running.exponents i + (if cfg.external then stored fs (cfg.bin i) else 0) =
          storedSum true cfgs (s'.feats.take j ++ s.feats.drop j) i) ∧
      IsRawUpdate cfg (o.learnRate (past.length + 1)) fs.zeroSmoother
        (o.smooth past.length j running input (o.estimate past.length j running fs)) (o.estimate past.length j running fs)
        (stored fs') := by
  have hiter := (trace_iterations p o cfgs prior past s h).1
  obtain ⟨hcur, hz⟩ := nonaggregate_current p hp o cfgs prior past s h hd
  obtain ⟨feats, pred, r, hfp, _, hr, hf, _⟩ := iterate_ok p o cfgs _ _ hit
  rw [hd'] at hr
  simp only [Bool.false_eq_true, if_false, Except.ok.injEq] at hr
  have hw := trace_WF p o cfgs prior past s h
  obtain ⟨fs1, fs0, running, g1, g2, g3, g4⟩ := featurePass_get_pred_replace p hp o s.iteration s.diverging s.isDiverging
    s.initialLoss cfgs 0 s.feats s.pred j cfg fs hcur hz hcfg hj
  rw [reset_noop p o cfgs prior past s h fs (List.mem_of_getElem? hj)] at g2
  subst g2
  have hlen : feats.length = cfgs.length := by
    have := featurePass_length p o s.iteration s.diverging s.isDiverging s.initialLoss cfgs 0 s.feats s.pred hw.1
    rw [hfp] at this; exact this
  rw [hfp] at g1 g4
  have hfeats : s'.feats = feats := by rw [hf, ← hr]
  rw [hfeats] at hj' ⊢
  simp only at g1
  rw [g1, Option.some.injEq] at hj'
  subst hj'
  rw [hiter] at g3
  rcases g3 with ⟨hsk, _⟩ | ⟨_, g3⟩
  · rw [htr] at hsk; cases hsk
  rw [Nat.zero_add] at g3
  have hst : stored fs1 = fs1.factors := by
    funext b
    rw [g3]
    exact (featureIteration_replace p o past.length j cfg s.diverging s.isDiverging s.initialLoss fs0 running hp).2 b
  set run0 := running.remove cfg (predInSample cfg fs0) with hrun0
  set est := o.estimate past.length j run0 fs0 with hest
  set lr := o.learnRate (past.length + 1) with hlr
  set inp := updateFactors cfg fs0 est lr with hinp
  have hfac : fs1.factors = predictFactors cfg inp (o.smooth past.length j run0 inp est) lr := by
    rw [g3]
    unfold featureIteration visitFactors
    simp only [hp, hcal, Bool.and_false, Bool.false_eq_true, if_false]
    rfl
  refine ⟨run0, inp, ?_, ?_⟩
  · intro i
    have hb := C20_replace_partial p hp o cfgs prior past s h hd i
    have e0 := g4 false i
    have e1 := g4 true i
    have r0 := col_remove running cfg (predInSample cfg fs0) false i
    have r1 := col_remove running cfg (predInSample cfg fs0) true i
    rw [← hrun0] at r0 r1
    simp only [Pred.col, if_true, Bool.false_eq_true, if_false] at e0 e1 r0 r1
    have hcu := hcur fs0 (List.mem_of_getElem? hj) (cfg.bin i)
    rw [storedSum_take_succ false i cfgs feats s.feats j hlen.symm (by rw [hlen, hw.1]),
      storedSum_take_succ true i cfgs feats s.feats j hlen.symm (by rw [hlen, hw.1]), r0, r1, e0, e1, hb.1, hb.2, hcu]
    unfold predInSample
    cases cfg.external <;> simp <;> constructor <;> ring
  · rw [hst, hfac]
    exact rawUpdate cfg fs0 _ est lr

end

/-- Witness for C66: an accepted iteration of a run without divergence, with learning rate 1/2. Feature "a" has
the estimates 1/3 and 4/3 in its bins (the second is clipped), feature "b" does not learn missing values. -/
example :
    (runN (toyParams true none) { toyOracle (fun _ => 1/3) (fun pred => .fin (10 - pred.factors 0)) with learnRate := fun _ => 1/2 }
      toyFeatures 2 (startState { toyOracle (fun _ => 1/3) (fun pred => .fin (10 - pred.factors 0)) with learnRate := fun _ => 1/2 }
      toyFeatures (fun _ => 0))).map (fun s => (s.diverging, s.isDiverging,
        s.feats.map (fun fs => [stored fs 0, stored fs 1, stored fs 2])))
    = some (0, false, [[1/3, 4/3, 7/5], [4/3, 0, 0]]) := by decide +kernel

/-- Witness for C66 in non-aggregate mode. -/
example : (runN (toyParams false none) (toyOracle (fun it => 1 / (it + 1)) toyLoss) toyFeatures 2
      (startState (toyOracle (fun it => 1 / (it + 1)) toyLoss) toyFeatures (fun _ => -1))).map
      (fun s => (s.diverging, s.feats.map (fun fs => [stored fs 0, stored fs 1]))) = some (0, [[1/2, 3/2], [3/2, 0]]) := by
  decide +kernel

end CB
