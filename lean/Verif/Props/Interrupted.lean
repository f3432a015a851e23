import Verif.Model.Interrupted
import Verif.Model.Fit
import Mathlib.Algebra.Order.BigOperators.Group.List
import Mathlib.Tactic.Ring
import Mathlib.Tactic.Linarith
import Mathlib.Tactic.NormNum
import Mathlib.Data.Rat.Cast.Order

/-!
# C173: predictions after a fit that did not finish
-/

set_option autoImplicit false
set_option linter.unusedSectionVars false

namespace CB

section
variable {K : Type*} [Field K] [LinearOrder K]

/-- A feature whose factors are still `None` makes `predict` raise. -/
theorem livePredict_none (rows : List ℕ) (cfgs : List FeatureCfg) (lives : List (LiveFeature K)) (pred : Pred K)
    (hl : lives.length = cfgs.length) (h : ∃ f ∈ lives, f.missing = none) : ∃ e, livePredict rows cfgs lives pred = .error e := by
  induction cfgs generalizing lives pred with
  | nil =>
    obtain ⟨f, hf, -⟩ := h
    rw [List.length_nil, List.length_eq_zero_iff] at hl
    subst hl
    simp at hf
  | cons cfg cfgs ih =>
    match lives, hl with
    | f :: fs, hl =>
      unfold livePredict
      cases hv : f.predict cfg rows with
      | error e => exact ⟨e, rfl⟩
      | ok v =>
        refine ih fs _ (by simpa using hl) ?_
        obtain ⟨g, hg, hm⟩ := h
        rcases List.mem_cons.mp hg with rfl | hg
        · exfalso
          unfold LiveFeature.predict at hv
          rw [hm] at hv
          cases hs : g.smoother <;> rw [hs] at hv <;>
            cases hr : (rows.any fun s => decide (cfg.bin s < cfg.nFinite)) <;> rw [hr] at hv <;> simp at hv
        · exact ⟨g, hg, hm⟩

theorem livePass_length (p : Params K) (o : Oracle K) (it dv : ℕ) (isd : Bool) (il : Flt K) (stop m : ℕ) (i : ℕ)
    (cfgs : List FeatureCfg) (fss : List (FState K)) (lives : List (LiveFeature K)) (pred : Pred K) :
    (livePass p o it dv isd il stop m i cfgs fss lives pred).length = lives.length := by
  induction cfgs generalizing i fss lives pred with
  | nil => unfold livePass; rfl
  | cons cfg cfgs ih =>
    match fss, lives with
    | [], _ => unfold livePass; rfl
    | _ :: _, [] => unfold livePass; rfl
    | fs :: fss, live :: lives =>
      unfold livePass
      dsimp only
      split_ifs <;> simp [ih]

/-- A feature that an interrupted pass has not reached is unchanged. -/
theorem livePass_later (p : Params K) (o : Oracle K) (it dv : ℕ) (isd : Bool) (il : Flt K) (stop m : ℕ) (i : ℕ)
    (cfgs : List FeatureCfg) (fss : List (FState K)) (lives : List (LiveFeature K)) (pred : Pred K) (j : ℕ) (hi : i ≤ stop)
    (hj : stop < i + j) :
    (livePass p o it dv isd il stop m i cfgs fss lives pred)[j]? = lives[j]? := by
  induction cfgs generalizing i fss lives pred j with
  | nil => unfold livePass; rfl
  | cons cfg cfgs ih =>
    match fss, lives with
    | [], _ => unfold livePass; rfl
    | _ :: _, [] => unfold livePass; rfl
    | fs :: fss, live :: lives =>
      obtain ⟨j, rfl⟩ : ∃ j', j = j' + 1 := ⟨j - 1, by omega⟩
      unfold livePass
      dsimp only
      generalize (if it = 0 then { fs with factors := fun _ => 0 } else fs) = fs₀
      by_cases h1 : i = stop
      · rw [if_pos h1, List.getElem?_cons_succ, List.getElem?_cons_succ]
      rw [if_neg h1]
      cases skipped p it cfg <;> simp only [if_true, if_false, Bool.false_eq_true]
      · rw [List.getElem?_cons_succ, List.getElem?_cons_succ]
        exact ih (i + 1) _ _ _ j (by omega) (by omega)
      · rw [List.getElem?_cons_succ, List.getElem?_cons_succ]
        exact ih (i + 1) _ _ _ j (by omega) (by omega)

/-- **C173, first iteration.** If a fit is interrupted before its first iteration has reached the last feature, `predict` raises,
for every table (also if the estimator had been fitted before: the features are created anew). -/
theorem C173_first_iteration (p : Params K) (o : Oracle K) (cfgs : List FeatureCfg) (prior : ℕ → K) (stop m : ℕ)
    (h : stop + 1 < cfgs.length ∨ stop + 1 = cfgs.length ∧ m = 0) (rows : List ℕ) (start : Pred K) :
    ∃ e, livePredict rows cfgs (livePass p o 0 0 false (startState o cfgs prior).initialLoss stop m 0 cfgs
      (startState o cfgs prior).feats (cfgs.map fun _ => LiveFeature.init) (startState o cfgs prior).pred) start = .error e := by
  refine livePredict_none rows cfgs _ start (by rw [livePass_length, List.length_map]) ?_
  rcases h with h | ⟨h, rfl⟩
  · refine ⟨LiveFeature.init, List.mem_of_getElem? (i := cfgs.length - 1) ?_, rfl⟩
    rw [livePass_later _ _ _ _ _ _ _ _ _ _ _ _ _ _ (Nat.zero_le _) (by omega), List.getElem?_map,
      List.getElem?_eq_getElem (by omega)]
    rfl
  · suffices hx : ∀ (i : ℕ) (cs : List FeatureCfg) (fss : List (FState K)) (lives : List (LiveFeature K)) (pred : Pred K),
        i ≤ stop → stop + 1 = i + cs.length → fss.length = cs.length → lives = cs.map (fun _ => LiveFeature.init) →
        ∃ f ∈ livePass p o 0 0 false (startState o cfgs prior).initialLoss stop 0 i cs fss lives pred, f.missing = none by
      exact hx 0 cfgs _ _ _ (Nat.zero_le _) (by omega) (by simp [startState]) rfl
    intro i cs
    induction cs generalizing i with
    | nil => intro fss lives pred h1 h2; simp at h2; omega
    | cons cfg cs ih =>
      intro fss lives pred h1 h2 h3 h4
      match fss, h3 with
      | fs :: fss, h3 =>
        subst h4
        rw [List.map_cons]
        unfold livePass
        dsimp only
        generalize (if (0 : ℕ) = 0 then { fs with factors := fun _ => 0 } else fs) = fs₀
        by_cases h1' : i = stop
        · rw [if_pos h1']
          refine ⟨_, List.mem_cons_self, ?_⟩
          simp [updateSteps, LiveFeature.init]
        rw [if_neg h1']
        simp only [List.length_cons] at h2 h3
        cases skipped p 0 cfg
        · obtain ⟨f, hf, hm⟩ := ih (i + 1) fss _ (featureIteration p o 0 i cfg 0 false (startState o cfgs prior).initialLoss
            fs₀ pred).2 (by omega) (by omega) (by omega) rfl
          exact ⟨f, List.mem_cons_of_mem _ hf, hm⟩
        · obtain ⟨f, hf, hm⟩ := ih (i + 1) fss _ pred (by omega) (by omega) (by omega) rfl
          exact ⟨f, List.mem_cons_of_mem _ hf, hm⟩

/-- An update that is neither clipped nor calibrated: the factors are what the smoother predicts, times the learning rate. -/
theorem featureIteration_unclipped (p : Params K) (o : Oracle K) (hclip : (p.clip && p.aggregate) = false)
    (hcal : ∀ it i fs, o.calibrate it i fs = fs.factors) (it i : ℕ) (cfg : FeatureCfg) (dv : ℕ) (isd : Bool) (il : Flt K)
    (fs : FState K) (pred : Pred K) :
    let before := if p.aggregate then pred else pred.remove cfg (predInSample cfg fs)
    let updated := updateFactors cfg fs (o.estimate it i before fs) (o.learnRate (it + 1))
    let r := featureIteration p o it i cfg dv isd il fs pred
    r.1.factors = predictFactors cfg updated (o.smooth it i before updated (o.estimate it i before fs)) (o.learnRate (it + 1)) ∧
    r.1.zeroSmoother = fs.zeroSmoother ∧ r.2 = before.update cfg (predInSample cfg r.1) := by
  intro before updated r
  have hv : ∀ (fs : FState K) (u : ℕ → K) (pred : Pred K), (visitFactors p o cfg dv isd il u fs pred).1.factors = fs.factors ∧
      (visitFactors p o cfg dv isd il u fs pred).1.zeroSmoother = fs.zeroSmoother ∧
      (visitFactors p o cfg dv isd il u fs pred).2 = pred := by
    intro fs u pred
    unfold visitFactors
    rw [hclip]
    exact ⟨rfl, rfl, rfl⟩
  refine ⟨?_, ?_, ?_⟩
  · show (featureIteration p o it i cfg dv isd il fs pred).1.factors = _
    unfold featureIteration
    dsimp only
    rw [(hv _ _ _).1, hcal]
  · show (featureIteration p o it i cfg dv isd il fs pred).1.zeroSmoother = _
    unfold featureIteration
    dsimp only
    rw [(hv _ _ _).2.1]
    rfl
  · show (featureIteration p o it i cfg dv isd il fs pred).2 = before.update cfg
      (predInSample cfg (featureIteration p o it i cfg dv isd il fs pred).1)
    unfold featureIteration
    dsimp only
    rw [(hv _ _ _).2.2]

/-- After such an update `predict` uses exactly the factors of this update. -/
theorem updateSteps_value (p : Params K) (o : Oracle K) (hclip : (p.clip && p.aggregate) = false)
    (hcal : ∀ it i fs, o.calibrate it i fs = fs.factors) (it i : ℕ) (cfg : FeatureCfg) (dv : ℕ) (isd : Bool) (il : Flt K)
    (fs : FState K) (live : LiveFeature K) (pred : Pred K) (rows : List ℕ) :
    ∃ v, (updateSteps p o it i cfg dv isd il fs live pred 6).predict cfg rows = .ok v ∧
      ∀ s, cfg.bin s ≤ cfg.nFinite → v s = predInSample cfg (featureIteration p o it i cfg dv isd il fs pred).1 s := by
  obtain ⟨h1, h2, -⟩ := featureIteration_unclipped p o hclip hcal it i cfg dv isd il fs pred
  unfold updateSteps LiveFeature.predict
  dsimp only
  rw [h2]
  cases hz : fs.zeroSmoother
  all_goals
    simp only [if_true, if_false, Bool.false_eq_true]
    refine ⟨_, rfl, fun s hs => ?_⟩
    unfold predInSample
    by_cases hb : cfg.bin s < cfg.nFinite
    · rw [if_pos hb, h1]
      unfold predictFactors
      rw [if_pos hb]
      rw [show (updateFactors cfg fs (o.estimate it i (if p.aggregate then pred else pred.remove cfg (predInSample cfg fs)) fs)
        (o.learnRate (it + 1))).zeroSmoother = fs.zeroSmoother from rfl, hz]
      rfl
    · rw [if_neg hb, show cfg.bin s = cfg.nFinite by omega]

/-- **C173, within an update.** For an update that is neither clipped nor calibrated, an interruption at any point after the fit of the
smoother leaves the feature as the whole update does, and one before the learning rate is set leaves it as it was before (from the
second iteration on). In between, the new learning rate meets the old smoother. -/
theorem C173_within_update (p : Params K) (o : Oracle K) (hclip : (p.clip && p.aggregate) = false)
    (hcal : ∀ it i fs, o.calibrate it i fs = fs.factors) (it i : ℕ) (cfg : FeatureCfg) (dv : ℕ) (isd : Bool) (il : Flt K)
    (fs : FState K) (live : LiveFeature K) (pred : Pred K) :
    (∀ m, 4 ≤ m → updateSteps p o it i cfg dv isd il fs live pred m = updateSteps p o it i cfg dv isd il fs live pred 6) ∧
    (live.missing = some (fs.factors cfg.nFinite) → ∀ m, m ≤ 1 → updateSteps p o it i cfg dv isd il fs live pred m = live) ∧
    (updateSteps p o it i cfg dv isd il fs live pred 2).smoother = live.smoother ∧
    (updateSteps p o it i cfg dv isd il fs live pred 2).learnRate = o.learnRate (it + 1) := by
  obtain ⟨h1, h2, -⟩ := featureIteration_unclipped p o hclip hcal it i cfg dv isd il fs pred
  refine ⟨fun m hm => ?_, fun hl m hm => ?_, rfl, rfl⟩
  · obtain ⟨m, rfl⟩ : ∃ m', m = m' + 4 := ⟨m - 4, by omega⟩
    have hlast : (featureIteration p o it i cfg dv isd il fs pred).1.factors cfg.nFinite = (updateFactors cfg fs
        (o.estimate it i (if p.aggregate then pred else pred.remove cfg (predInSample cfg fs)) fs) (o.learnRate (it + 1))).factors
          cfg.nFinite := by
      rw [h1]
      unfold predictFactors
      rw [if_neg (lt_irrefl _)]
    match m with
    | 0 => simp only [updateSteps]; rw [h2, hlast]
    | 1 =>
      simp only [updateSteps]
      rw [h2, hlast, hcal]
      simp [predictFactors]
    | m + 2 => rfl
  · match m, hm with
    | 0, _ => rfl
    | 1, _ =>
      simp only [updateSteps]
      rw [← hl]

/-- What a feature adds to the two columns. -/
theorem update_factors (q : Pred K) (cfg : FeatureCfg) (v : ℕ → K) (s : ℕ) :
    (q.update cfg v).factors s = q.factors s + (if cfg.external then 0 else v s) ∧
    (q.update cfg v).exponents s = q.exponents s + (if cfg.external then v s else 0) := by
  unfold Pred.update
  cases cfg.external <;> simp

theorem remove_factors (q : Pred K) (cfg : FeatureCfg) (v : ℕ → K) (s : ℕ) :
    (q.remove cfg v).factors s = q.factors s - (if cfg.external then 0 else v s) ∧
    (q.remove cfg v).exponents s = q.exponents s - (if cfg.external then v s else 0) := by
  unfold Pred.remove
  cases cfg.external <;> simp

/-- The contributions of the features that an estimator in the middle of training predicts are those of their last updates. -/
theorem livePass_predict (p : Params K) (o : Oracle K) (hclip : (p.clip && p.aggregate) = false)
    (hcal : ∀ it i fs, o.calibrate it i fs = fs.factors) (it dv : ℕ) (isd : Bool) (il : Flt K) (rows : List ℕ) (stop : ℕ) (i : ℕ)
    (cfgs : List FeatureCfg) (hskip : ∀ cfg ∈ cfgs, skipped p it cfg = false) (hstop : i + cfgs.length ≤ stop)
    (fss : List (FState K)) (lives : List (LiveFeature K)) (hf : fss.length = cfgs.length) (hl : lives.length = cfgs.length)
    (pred start : Pred K) :
    ∃ q, livePredict rows cfgs (livePass p o it dv isd il stop 0 i cfgs fss lives pred) start = .ok q ∧
      ∀ s, (∀ cfg ∈ cfgs, cfg.bin s ≤ cfg.nFinite) →
        q.factors s = start.factors s + (List.zipWith (fun cfg fs => if cfg.external then 0 else predInSample cfg fs s) cfgs
          (featurePass p o it dv isd il i cfgs fss pred).1).sum ∧
        q.exponents s = start.exponents s + (List.zipWith (fun cfg fs => if cfg.external then predInSample cfg fs s else 0) cfgs
          (featurePass p o it dv isd il i cfgs fss pred).1).sum := by
  induction cfgs generalizing i fss lives pred start with
  | nil =>
    refine ⟨start, ?_, fun s _ => by simp⟩
    unfold livePass livePredict
    rfl
  | cons cfg cfgs ih =>
    match fss, lives, hf, hl with
    | fs :: fss, live :: lives, hf, hl =>
      unfold livePass featurePass
      dsimp only
      rw [if_neg (by simp at hstop; omega), hskip cfg List.mem_cons_self]
      simp only [Bool.false_eq_true, if_false]
      generalize (if it = 0 then { fs with factors := fun _ => 0 } else fs) = fs₀
      obtain ⟨v, hv, hvs⟩ := updateSteps_value p o hclip hcal it i cfg dv isd il fs₀ live pred rows
      obtain ⟨q, hq, hqs⟩ := ih (i + 1) (fun c hc => hskip c (List.mem_cons_of_mem _ hc)) (by simp at hstop; omega) fss lives
        (by simpa using hf) (by simpa using hl) (featureIteration p o it i cfg dv isd il fs₀ pred).2 (start.update cfg v)
      refine ⟨q, ?_, fun s hs => ?_⟩
      · unfold livePredict
        rw [hv]
        exact hq
      · obtain ⟨e1, e2⟩ := hqs s (fun c hc => hs c (List.mem_cons_of_mem _ hc))
        obtain ⟨u1, u2⟩ := update_factors start cfg v s
        rw [e1, e2, u1, u2, hvs s (hs cfg List.mem_cons_self)]
        simp only [List.zipWith_cons_cons, List.sum_cons]
        exact ⟨by ring, by ring⟩

/-- What a pass over the features changes about the prediction of an estimator that adds up its updates. -/
theorem featurePass_adds (p : Params K) (o : Oracle K) (hagg : p.aggregate = true) (hclip : p.clip = false)
    (hcal : ∀ it i fs, o.calibrate it i fs = fs.factors) (it dv : ℕ) (isd : Bool) (il : Flt K) (i : ℕ)
    (cfgs : List FeatureCfg) (hskip : ∀ cfg ∈ cfgs, skipped p it cfg = false)
    (fss : List (FState K)) (hf : fss.length = cfgs.length) (pred : Pred K) (s : ℕ) :
    (featurePass p o it dv isd il i cfgs fss pred).2.factors s = pred.factors s +
      (List.zipWith (fun cfg fs => if cfg.external then 0 else predInSample cfg fs s) cfgs
        (featurePass p o it dv isd il i cfgs fss pred).1).sum ∧
    (featurePass p o it dv isd il i cfgs fss pred).2.exponents s = pred.exponents s +
      (List.zipWith (fun cfg fs => if cfg.external then predInSample cfg fs s else 0) cfgs
        (featurePass p o it dv isd il i cfgs fss pred).1).sum := by
  induction cfgs generalizing i fss pred with
  | nil => simp [featurePass]
  | cons cfg cfgs ih =>
    match fss, hf with
    | fs :: fss, hf =>
      unfold featurePass
      dsimp only
      rw [hskip cfg List.mem_cons_self]
      simp only [Bool.false_eq_true, if_false]
      generalize (if it = 0 then { fs with factors := fun _ => 0 } else fs) = fs₀
      obtain ⟨-, -, h3⟩ := featureIteration_unclipped p o (by rw [hclip]; rfl) hcal it i cfg dv isd il fs₀ pred
      obtain ⟨e1, e2⟩ := ih (i + 1) (fun c hc => hskip c (List.mem_cons_of_mem _ hc)) fss (by simpa using hf)
        (featureIteration p o it i cfg dv isd il fs₀ pred).2
      rw [hagg, if_pos rfl] at h3
      obtain ⟨u1, u2⟩ := update_factors pred cfg (predInSample cfg (featureIteration p o it i cfg dv isd il fs₀ pred).1) s
      rw [← h3] at u1 u2
      simp only [List.zipWith_cons_cons, List.sum_cons]
      rw [e1, e2, u1, u2]
      exact ⟨by ring, by ring⟩

theorem featurePass_feats_length (p : Params K) (o : Oracle K) (it dv : ℕ) (isd : Bool) (il : Flt K) (i : ℕ)
    (cfgs : List FeatureCfg) (fss : List (FState K)) (hf : fss.length = cfgs.length) (pred : Pred K) :
    (featurePass p o it dv isd il i cfgs fss pred).1.length = cfgs.length := by
  induction cfgs generalizing i fss pred with
  | nil => simp [featurePass]
  | cons cfg cfgs ih =>
    match fss, hf with
    | fs :: fss, hf =>
      unfold featurePass
      dsimp only
      rw [List.length_cons, ih _ _ (by simpa using hf)]
      rfl

theorem removePreds_length (cfgs : List FeatureCfg) (fss fss' : List (FState K)) (hf : fss.length = cfgs.length) (pred pred' : Pred K)
    (h : removePreds cfgs fss pred = .ok (fss', pred')) : fss'.length = cfgs.length := by
  induction cfgs generalizing fss fss' pred with
  | nil => simp [removePreds] at h; simp [← h.1]
  | cons cfg cfgs ih =>
    match fss, hf with
    | fs :: fss, hf =>
      unfold removePreds at h
      cases ha : fs.agg with
      | none => rw [ha] at h; simp at h
      | some agg =>
        rw [ha] at h
        dsimp only at h
        split at h
        · simp at h
        · rename_i rest pr hr
          simp only [Except.ok.injEq, Prod.mk.injEq] at h
          rw [← h.1, List.length_cons, List.length_cons, ih fss rest (by simpa using hf) _ (by rw [hr, h.2])]

theorem iterate_parts (p : Params K) (o : Oracle K) (cfgs : List FeatureCfg) (s s' : TState K) (h : iterate p o cfgs s = .ok s') :
    s'.iteration = s.iteration + 1 ∧ s'.initialLoss = s.initialLoss ∧
    s'.prediction = (featurePass p o s.iteration s.diverging s.isDiverging s.initialLoss 0 cfgs s.feats s.pred).2 ∧
    (s'.isDiverging = false →
      s'.feats = (featurePass p o s.iteration s.diverging s.isDiverging s.initialLoss 0 cfgs s.feats s.pred).1 ∧
      s'.pred = (featurePass p o s.iteration s.diverging s.isDiverging s.initialLoss 0 cfgs s.feats s.pred).2) ∧
    (s.feats.length = cfgs.length → s'.feats.length = cfgs.length) := by
  unfold iterate at h
  dsimp only at h
  split at h
  · simp at h
  · rename_i dv isd hc
    split at h
    · simp at h
    · rename_i feats' pred' hr
      simp only [Except.ok.injEq] at h
      subst h
      refine ⟨rfl, rfl, rfl, fun hd => ?_, fun hlen => ?_⟩
      · dsimp only at hd
        rw [hd] at hr
        simp only [Bool.false_eq_true, if_false, Except.ok.injEq, Prod.mk.injEq] at hr
        exact ⟨hr.1.symm, hr.2.symm⟩
      · dsimp only
        have h1 := featurePass_feats_length p o s.iteration s.diverging s.isDiverging s.initialLoss 0 cfgs s.feats hlen s.pred
        cases isd
        · simp only [Bool.false_eq_true, if_false, Except.ok.injEq, Prod.mk.injEq] at hr
          rw [← hr.1, h1]
        · exact removePreds_length cfgs _ feats' h1 _ pred' (by simpa using hr)

theorem underway_length (p : Params K) (o : Oracle K) (cfgs : List FeatureCfg) (prior : ℕ → K) (k : ℕ) (s : TState K)
    (lives : List (LiveFeature K)) (h : Underway p o cfgs prior k s lives) :
    s.feats.length = cfgs.length ∧ lives.length = cfgs.length ∧ s.iteration = k := by
  induction h with
  | start => simp [startState]
  | next k s s' lives h hc hs ih =>
    obtain ⟨h1, -, -, -, h5⟩ := iterate_parts p o cfgs s s' hs
    exact ⟨h5 ih.1, by unfold liveIterate; rw [livePass_length, ih.2.1], by rw [h1, ih.2.2]⟩

/-- **C173, updates that are added up.** Interrupted after an iteration, an estimator that adds up its updates (the default) without
clipping them predicts without an exception, but not what training has reached: the prior prediction and what the last iteration
alone has changed. Missing: the predictions of the training so far, see `C173_counterexample`. -/
theorem C173_last_update_partial (p : Params K) (o : Oracle K) (cfgs : List FeatureCfg) (prior : ℕ → K) (hagg : p.aggregate = true)
    (hclip : p.clip = false) (hcal : ∀ it i fs, o.calibrate it i fs = fs.factors) (hh : p.hierarchical = none)
    (k : ℕ) (s s' : TState K) (lives : List (LiveFeature K)) (h : Underway p o cfgs prior k s lives)
    (hs : iterate p o cfgs s = .ok s') (hd : s'.isDiverging = false) (rows : List ℕ) :
    ∃ q, livePredict rows cfgs (liveIterate p o cfgs s lives) ⟨prior, fun _ => 0⟩ = .ok q ∧
      ∀ x, (∀ cfg ∈ cfgs, cfg.bin x ≤ cfg.nFinite) →
        q.factors x = prior x + (s'.pred.factors x - s.pred.factors x) ∧
        q.exponents x = s'.pred.exponents x - s.pred.exponents x := by
  obtain ⟨l1, l2, -⟩ := underway_length p o cfgs prior k s lives h
  obtain ⟨-, -, -, h4, -⟩ := iterate_parts p o cfgs s s' hs
  obtain ⟨-, hp⟩ := h4 hd
  have hskip : ∀ cfg ∈ cfgs, skipped p s.iteration cfg = false := fun cfg _ => by unfold skipped; rw [hh]
  obtain ⟨q, hq, hqs⟩ := livePass_predict p o (by rw [hclip]; rfl) hcal s.iteration s.diverging s.isDiverging s.initialLoss rows
    cfgs.length 0 cfgs hskip (by omega) s.feats lives l1 l2 s.pred ⟨prior, fun _ => 0⟩
  refine ⟨q, hq, fun x hx => ?_⟩
  obtain ⟨e1, e2⟩ := hqs x hx
  obtain ⟨f1, f2⟩ := featurePass_adds p o hagg hclip hcal s.iteration s.diverging s.isDiverging s.initialLoss 0 cfgs hskip s.feats l1
    s.pred x
  rw [hp, e1, e2, f1, f2]
  exact ⟨by ring, by ring⟩

/-- What a pass over the features changes about the prediction of an estimator that replaces its updates. -/
theorem featurePass_replaces (p : Params K) (o : Oracle K) (hagg : p.aggregate = false)
    (hcal : ∀ it i fs, o.calibrate it i fs = fs.factors) (it dv : ℕ) (isd : Bool) (il : Flt K) (i : ℕ)
    (cfgs : List FeatureCfg) (hskip : ∀ cfg ∈ cfgs, skipped p it cfg = false)
    (fss : List (FState K)) (hf : fss.length = cfgs.length) (h0 : it = 0 → ∀ fs ∈ fss, fs.factors = fun _ => 0) (pred : Pred K) (s : ℕ) :
    (featurePass p o it dv isd il i cfgs fss pred).2.factors s = pred.factors s +
      (List.zipWith (fun cfg fs => if cfg.external then 0 else predInSample cfg fs s) cfgs
        (featurePass p o it dv isd il i cfgs fss pred).1).sum -
      (List.zipWith (fun cfg fs => if cfg.external then 0 else predInSample cfg fs s) cfgs fss).sum ∧
    (featurePass p o it dv isd il i cfgs fss pred).2.exponents s = pred.exponents s +
      (List.zipWith (fun cfg fs => if cfg.external then predInSample cfg fs s else 0) cfgs
        (featurePass p o it dv isd il i cfgs fss pred).1).sum -
      (List.zipWith (fun cfg fs => if cfg.external then predInSample cfg fs s else 0) cfgs fss).sum := by
  induction cfgs generalizing i fss pred with
  | nil => simp [featurePass]
  | cons cfg cfgs ih =>
    match fss, hf with
    | fs :: fss, hf =>
      have hfs : (if it = 0 then { fs with factors := fun _ => 0 } else fs) = fs := by
        split_ifs with hz
        · rw [← h0 hz fs List.mem_cons_self]
        · rfl
      unfold featurePass
      dsimp only
      rw [hskip cfg List.mem_cons_self, hfs]
      simp only [Bool.false_eq_true, if_false]
      obtain ⟨-, -, h3⟩ := featureIteration_unclipped p o (by rw [hagg, Bool.and_false]) hcal it i cfg dv isd il fs pred
      obtain ⟨e1, e2⟩ := ih (i + 1) (fun c hc => hskip c (List.mem_cons_of_mem _ hc)) fss (by simpa using hf)
        (fun hz f hfm => h0 hz f (List.mem_cons_of_mem _ hfm)) (featureIteration p o it i cfg dv isd il fs pred).2
      rw [hagg] at h3
      simp only [Bool.false_eq_true, if_false] at h3
      obtain ⟨u1, u2⟩ := update_factors (pred.remove cfg (predInSample cfg fs)) cfg
        (predInSample cfg (featureIteration p o it i cfg dv isd il fs pred).1) s
      obtain ⟨v1, v2⟩ := remove_factors pred cfg (predInSample cfg fs) s
      rw [← h3] at u1 u2
      simp only [List.zipWith_cons_cons, List.sum_cons]
      rw [e1, e2, u1, u2, v1, v2]
      exact ⟨by ring, by ring⟩

/-- The running prediction of an estimator that replaces its updates is always the prior prediction and the current factors. -/
theorem underway_replace (p : Params K) (o : Oracle K) (cfgs : List FeatureCfg) (prior : ℕ → K) (hagg : p.aggregate = false)
    (hcal : ∀ it i fs, o.calibrate it i fs = fs.factors) (hh : p.hierarchical = none) (k : ℕ)
    (s : TState K) (lives : List (LiveFeature K)) (h : Underway p o cfgs prior k s lives)
    (hd : ∀ j t l, j ≤ k → Underway p o cfgs prior j t l → t.isDiverging = false) (x : ℕ) :
    s.pred.factors x = prior x + (List.zipWith (fun cfg fs => if cfg.external then 0 else predInSample cfg fs x) cfgs s.feats).sum ∧
    s.pred.exponents x = (List.zipWith (fun cfg fs => if cfg.external then predInSample cfg fs x else 0) cfgs s.feats).sum := by
  induction h with
  | start =>
    have hz : ∀ (g : FeatureCfg → FState K → K), (∀ cfg, g cfg FState.init = 0) → ∀ cs : List FeatureCfg,
        (List.zipWith g cs (cs.map fun _ => FState.init)).sum = 0 := by
      intro g hg cs
      induction cs with
      | nil => simp
      | cons c cs ih =>
        rw [List.map_cons, List.zipWith_cons_cons, List.sum_cons, hg, ih, add_zero]
    unfold startState
    dsimp only
    rw [hz _ (fun cfg => by simp [predInSample, FState.init]), hz _ (fun cfg => by simp [predInSample, FState.init])]
    exact ⟨by ring, rfl⟩
  | next k s s' lives h hc hs ih =>
    obtain ⟨l1, l2, l3⟩ := underway_length p o cfgs prior k s lives h
    obtain ⟨-, -, -, h4, -⟩ := iterate_parts p o cfgs s s' hs
    obtain ⟨hfe, hp⟩ := h4 (hd (k + 1) s' _ le_rfl (.next k s s' lives h hc hs))
    obtain ⟨i1, i2⟩ := ih (fun j t l hj ht => hd j t l (by omega) ht)
    have h0 : s.iteration = 0 → ∀ fs ∈ s.feats, fs.factors = fun _ => 0 := by
      intro hz
      rw [l3] at hz
      subst hz
      cases h with
      | start =>
        intro fs hfs
        simp only [startState, List.mem_map] at hfs
        obtain ⟨_, _, rfl⟩ := hfs
        rfl
    obtain ⟨f1, f2⟩ := featurePass_replaces p o hagg hcal s.iteration s.diverging s.isDiverging s.initialLoss 0 cfgs
      (fun cfg _ => by unfold skipped; rw [hh]) s.feats l1 h0 s.pred x
    rw [hfe, hp, f1, f2, i1, i2]
    exact ⟨by ring, by ring⟩

/-- **C173, updates that replace each other.** Interrupted between two iterations (other than before the first), an estimator that was
constructed with `aggregate=False` and has not diverged predicts what training has reached. -/
theorem C173_replaced_partial (p : Params K) (o : Oracle K) (cfgs : List FeatureCfg) (prior : ℕ → K) (hagg : p.aggregate = false)
    (hcal : ∀ it i fs, o.calibrate it i fs = fs.factors) (hh : p.hierarchical = none) (k : ℕ) (hk : 1 ≤ k)
    (s : TState K) (lives : List (LiveFeature K)) (h : Underway p o cfgs prior k s lives)
    (hd : ∀ j t l, j ≤ k → Underway p o cfgs prior j t l → t.isDiverging = false) (rows : List ℕ) :
    ∃ q, livePredict rows cfgs lives ⟨prior, fun _ => 0⟩ = .ok q ∧
      ∀ x, (∀ cfg ∈ cfgs, cfg.bin x ≤ cfg.nFinite) → q.factors x = s.pred.factors x ∧ q.exponents x = s.pred.exponents x := by
  have hr := underway_replace p o cfgs prior hagg hcal hh k s lives h hd
  cases h with
  | start => omega
  | next k s₀ s' lives h hc hs =>
    obtain ⟨l1, l2, l3⟩ := underway_length p o cfgs prior k s₀ lives h
    obtain ⟨-, -, -, h4, -⟩ := iterate_parts p o cfgs s₀ s hs
    obtain ⟨hfe, -⟩ := h4 (hd (k + 1) s _ le_rfl (.next k s₀ s lives h hc hs))
    obtain ⟨q, hq, hqs⟩ := livePass_predict p o (by rw [hagg, Bool.and_false]) hcal s₀.iteration s₀.diverging s₀.isDiverging
      s₀.initialLoss rows cfgs.length 0 cfgs (fun cfg _ => by unfold skipped; rw [hh]) (by omega) s₀.feats lives l1 l2 s₀.pred
      ⟨prior, fun _ => 0⟩
    refine ⟨q, hq, fun x hx => ?_⟩
    obtain ⟨e1, e2⟩ := hqs x hx
    obtain ⟨r1, r2⟩ := hr x
    rw [e1, e2, r1, r2, hfe]
    exact ⟨rfl, by ring⟩

/-- Every feature shows `predict` its current factors. -/
def ShowsFactors (rows : List ℕ) : List FeatureCfg → List (FState K) → List (LiveFeature K) → Prop
  | cfg :: cfgs, fs :: fss, live :: lives =>
    (∃ v, live.predict cfg rows = .ok v ∧ ∀ x, cfg.bin x ≤ cfg.nFinite → v x = predInSample cfg fs x) ∧ ShowsFactors rows cfgs fss lives
  | [], [], [] => True
  | _, _, _ => False

theorem livePass_shows (p : Params K) (o : Oracle K) (hclip : (p.clip && p.aggregate) = false)
    (hcal : ∀ it i fs, o.calibrate it i fs = fs.factors) (it dv : ℕ) (isd : Bool) (il : Flt K) (rows : List ℕ) (stop : ℕ) (i : ℕ)
    (cfgs : List FeatureCfg) (hskip : ∀ cfg ∈ cfgs, skipped p it cfg = false) (hstop : i + cfgs.length ≤ stop)
    (fss : List (FState K)) (lives : List (LiveFeature K)) (hf : fss.length = cfgs.length) (hl : lives.length = cfgs.length)
    (pred : Pred K) :
    ShowsFactors rows cfgs (featurePass p o it dv isd il i cfgs fss pred).1 (livePass p o it dv isd il stop 0 i cfgs fss lives pred) := by
  induction cfgs generalizing i fss lives pred with
  | nil =>
    rw [List.length_nil, List.length_eq_zero_iff] at hf hl
    subst hf hl
    unfold featurePass livePass
    trivial
  | cons cfg cfgs ih =>
    match fss, lives, hf, hl with
    | fs :: fss, live :: lives, hf, hl =>
      unfold livePass featurePass
      dsimp only
      have hne : ¬ i = stop := by simp at hstop; omega
      rw [if_neg hne, hskip cfg List.mem_cons_self]
      simp only [Bool.false_eq_true, if_false]
      exact ⟨updateSteps_value p o hclip hcal it i cfg dv isd il _ live pred rows,
        ih (i + 1) (fun c hc => hskip c (List.mem_cons_of_mem _ hc)) (by simp at hstop; omega) fss lives
          (by simpa using hf) (by simpa using hl) _⟩

theorem shows_predict (rows : List ℕ) (cfgs : List FeatureCfg) (fss : List (FState K)) (lives : List (LiveFeature K))
    (h : ShowsFactors rows cfgs fss lives) (start : Pred K) :
    ∃ q, livePredict rows cfgs lives start = .ok q ∧
      ∀ x, (∀ cfg ∈ cfgs, cfg.bin x ≤ cfg.nFinite) →
        q.factors x = start.factors x + (List.zipWith (fun cfg fs => if cfg.external then 0 else predInSample cfg fs x) cfgs fss).sum ∧
        q.exponents x = start.exponents x + (List.zipWith (fun cfg fs => if cfg.external then predInSample cfg fs x else 0) cfgs fss).sum := by
  induction cfgs generalizing fss lives start with
  | nil =>
    refine ⟨start, ?_, fun x _ => by simp⟩
    unfold livePredict
    rfl
  | cons cfg cfgs ih =>
    match fss, lives, h with
    | fs :: fss, live :: lives, h =>
      obtain ⟨⟨v, hv, hvx⟩, h⟩ := h
      obtain ⟨q, hq, hqs⟩ := ih fss lives h (start.update cfg v)
      refine ⟨q, ?_, fun x hb => ?_⟩
      · unfold livePredict
        rw [hv]
        exact hq
      · obtain ⟨e1, e2⟩ := hqs x fun c hc => hb c (List.mem_cons_of_mem _ hc)
        obtain ⟨u1, u2⟩ := update_factors start cfg v x
        rw [e1, e2, u1, u2, hvx x (hb cfg List.mem_cons_self)]
        simp only [List.zipWith_cons_cons, List.sum_cons]
        exact ⟨by ring, by ring⟩

/-- A pass that is interrupted between two features. -/
theorem cutPass_predict (p : Params K) (o : Oracle K) (hagg : p.aggregate = false)
    (hcal : ∀ it i fs, o.calibrate it i fs = fs.factors) (it : ℕ) (hit : it ≠ 0) (dv : ℕ) (isd : Bool) (il : Flt K) (rows : List ℕ)
    (stop : ℕ) (i : ℕ) (hi : i ≤ stop) (cfgs : List FeatureCfg) (hskip : ∀ cfg ∈ cfgs, skipped p it cfg = false)
    (fss : List (FState K)) (lives : List (LiveFeature K)) (h : ShowsFactors rows cfgs fss lives) (pred start : Pred K) (ok : ℕ → Prop)
    (hok : ∀ x, ok x → ∀ cfg ∈ cfgs, cfg.bin x ≤ cfg.nFinite)
    (hpred : ∀ x, ok x →
      pred.factors x = start.factors x + (List.zipWith (fun cfg fs => if cfg.external then 0 else predInSample cfg fs x) cfgs fss).sum ∧
      pred.exponents x = start.exponents x +
        (List.zipWith (fun cfg fs => if cfg.external then predInSample cfg fs x else 0) cfgs fss).sum) :
    ∃ q, livePredict rows cfgs (livePass p o it dv isd il stop 0 i cfgs fss lives pred) start = .ok q ∧
      ∀ x, ok x →
        q.factors x = (featurePass p o it dv isd il i (cfgs.take (stop - i)) (fss.take (stop - i)) pred).2.factors x ∧
        q.exponents x = (featurePass p o it dv isd il i (cfgs.take (stop - i)) (fss.take (stop - i)) pred).2.exponents x := by
  induction cfgs generalizing i fss lives pred start with
  | nil =>
    refine ⟨start, ?_, fun x hx => ?_⟩
    · unfold livePass livePredict
      rfl
    · obtain ⟨h1, h2⟩ := hpred x hx
      simp only [List.take_nil, featurePass, List.zipWith_nil_left, List.sum_nil, add_zero] at h1 h2 ⊢
      exact ⟨h1.symm, h2.symm⟩
  | cons cfg cfgs ih =>
    match fss, lives, h with
    | fs :: fss, live :: lives, h =>
      by_cases hs : i = stop
      · subst hs
        obtain ⟨q, hq, hqs⟩ := shows_predict rows (cfg :: cfgs) (fs :: fss) (live :: lives) h start
        refine ⟨q, ?_, fun x hx => ?_⟩
        · rw [← hq]
          unfold livePass
          simp [updateSteps]
        · obtain ⟨e1, e2⟩ := hqs x (hok x hx)
          obtain ⟨h1, h2⟩ := hpred x hx
          rw [e1, e2, ← h1, ← h2, Nat.sub_self]
          simp [featurePass]
      · obtain ⟨-, hrest⟩ := h
        obtain ⟨v, hv, hvx⟩ := updateSteps_value p o (by rw [hagg, Bool.and_false]) hcal it i cfg dv isd il fs live pred rows
        obtain ⟨-, -, h3⟩ := featureIteration_unclipped p o (by rw [hagg, Bool.and_false]) hcal it i cfg dv isd il fs pred
        rw [hagg] at h3
        simp only [Bool.false_eq_true, if_false] at h3
        obtain ⟨q, hq, hqs⟩ := ih (i + 1) (by omega) (fun c hc => hskip c (List.mem_cons_of_mem _ hc)) fss lives hrest
          (featureIteration p o it i cfg dv isd il fs pred).2 (start.update cfg v)
          (fun x hx c hc => hok x hx c (List.mem_cons_of_mem _ hc)) (fun x hx => by
            obtain ⟨u1, u2⟩ := update_factors (pred.remove cfg (predInSample cfg fs)) cfg
              (predInSample cfg (featureIteration p o it i cfg dv isd il fs pred).1) x
            obtain ⟨v1, v2⟩ := remove_factors pred cfg (predInSample cfg fs) x
            obtain ⟨w1, w2⟩ := update_factors start cfg v x
            rw [← h3] at u1 u2
            obtain ⟨h1, h2⟩ := hpred x hx
            simp only [List.zipWith_cons_cons, List.sum_cons] at h1 h2
            rw [u1, u2, v1, v2, w1, w2, h1, h2, hvx x (hok x hx cfg List.mem_cons_self)]
            exact ⟨by ring, by ring⟩)
        refine ⟨q, ?_, fun x hx => ?_⟩
        · unfold livePass livePredict
          dsimp only
          rw [if_neg hit, if_neg hs, hskip cfg List.mem_cons_self]
          simp only [Bool.false_eq_true, if_false]
          rw [hv]
          exact hq
        · obtain ⟨e1, e2⟩ := hqs x hx
          rw [e1, e2, show stop - i = (stop - (i + 1)) + 1 by omega, List.take_succ_cons, List.take_succ_cons]
          conv_rhs => unfold featurePass
          dsimp only
          rw [if_neg hit, hskip cfg List.mem_cons_self]
          conv =>
            congr
            · rhs
              unfold featurePass
            · rhs
              unfold featurePass
          dsimp only
          rw [if_neg hit, hskip cfg List.mem_cons_self]
          exact ⟨rfl, rfl⟩

/-- **C173, updates that replace each other, between two features.** Interrupted after the updates of some of the features in a later
iteration, an estimator that was constructed with `aggregate=False` and has not diverged predicts what training has reached: the
running prediction after these updates. -/
theorem C173_between_features_partial (p : Params K) (o : Oracle K) (cfgs : List FeatureCfg) (prior : ℕ → K) (hagg : p.aggregate = false)
    (hcal : ∀ it i fs, o.calibrate it i fs = fs.factors) (hh : p.hierarchical = none) (k : ℕ) (hk : 1 ≤ k)
    (s : TState K) (lives : List (LiveFeature K)) (h : Underway p o cfgs prior k s lives)
    (hd : ∀ j t l, j ≤ k → Underway p o cfgs prior j t l → t.isDiverging = false) (stop : ℕ) (rows : List ℕ) :
    ∃ q, livePredict rows cfgs (livePass p o s.iteration s.diverging s.isDiverging s.initialLoss stop 0 0 cfgs s.feats lives s.pred)
        ⟨prior, fun _ => 0⟩ = .ok q ∧
      ∀ x, (∀ cfg ∈ cfgs, cfg.bin x ≤ cfg.nFinite) →
        q.factors x = (featurePass p o s.iteration s.diverging s.isDiverging s.initialLoss 0 (cfgs.take stop) (s.feats.take stop)
          s.pred).2.factors x ∧
        q.exponents x = (featurePass p o s.iteration s.diverging s.isDiverging s.initialLoss 0 (cfgs.take stop) (s.feats.take stop)
          s.pred).2.exponents x := by
  have hr := underway_replace p o cfgs prior hagg hcal hh k s lives h hd
  obtain ⟨-, -, hit⟩ := underway_length p o cfgs prior k s lives h
  have hshow : ShowsFactors rows cfgs s.feats lives := by
    cases h with
    | start => omega
    | next k s₀ s' lives h hc hs =>
      obtain ⟨l1, l2, l3⟩ := underway_length p o cfgs prior k s₀ lives h
      obtain ⟨-, -, -, h4, -⟩ := iterate_parts p o cfgs s₀ s hs
      obtain ⟨hfe, -⟩ := h4 (hd (k + 1) s _ le_rfl (.next k s₀ s lives h hc hs))
      rw [hfe]
      exact livePass_shows p o (by rw [hagg, Bool.and_false]) hcal s₀.iteration s₀.diverging s₀.isDiverging s₀.initialLoss rows
        cfgs.length 0 cfgs (fun cfg _ => by unfold skipped; rw [hh]) (by omega) s₀.feats lives l1 l2 s₀.pred
  exact cutPass_predict p o hagg hcal s.iteration (by omega) s.diverging s.isDiverging s.initialLoss rows stop 0 (Nat.zero_le _) cfgs
    (fun cfg _ => by unfold skipped; rw [hh]) s.feats lives hshow s.pred ⟨prior, fun _ => 0⟩
    (fun x => ∀ cfg ∈ cfgs, cfg.bin x ≤ cfg.nFinite) (fun x hx => hx) (fun x _ => by
      obtain ⟨r1, r2⟩ := hr x
      exact ⟨r1, by rw [r2]; exact (zero_add _).symm⟩)

/-- **C173, after the loop.** Once the features have been prepared (an observer that raises when it is called for the last time, or the
last test of convergence), `predict` does what it does after a complete fit: it adds the final factors to the prior prediction. -/
theorem C173_prepared (cfgs : List FeatureCfg) (feats : List (FState K)) (lives : List (LiveFeature K)) (prior : ℕ → K)
    (hf : feats.length = cfgs.length) (hl : lives.length = cfgs.length) (final : List (ℕ → K))
    (h : prepareFeatures feats = .ok final) (rows : List ℕ) :
    ∃ q, livePredict rows cfgs (livePrepare cfgs.length cfgs feats lives) ⟨prior, fun _ => 0⟩ = .ok q ∧
      ∀ x, (∀ cfg ∈ cfgs, cfg.bin x ≤ cfg.nFinite) →
        q.factors x = prior x + (List.zipWith (fun cfg f => if cfg.external then 0 else f (cfg.bin x)) cfgs final).sum ∧
        q.exponents x = (List.zipWith (fun cfg f => if cfg.external then f (cfg.bin x) else 0) cfgs final).sum := by
  suffices hx : ∀ (start : Pred K), ∃ q, livePredict rows cfgs (livePrepare cfgs.length cfgs feats lives) start = .ok q ∧
      ∀ x, (∀ cfg ∈ cfgs, cfg.bin x ≤ cfg.nFinite) →
        q.factors x = start.factors x + (List.zipWith (fun cfg f => if cfg.external then 0 else f (cfg.bin x)) cfgs final).sum ∧
        q.exponents x = start.exponents x + (List.zipWith (fun cfg f => if cfg.external then f (cfg.bin x) else 0) cfgs final).sum by
    obtain ⟨q, hq, hqs⟩ := hx ⟨prior, fun _ => 0⟩
    refine ⟨q, hq, fun x hb => ⟨(hqs x hb).1, ?_⟩⟩
    rw [(hqs x hb).2]
    exact zero_add _
  induction cfgs generalizing feats lives final with
  | nil =>
    intro start
    rw [List.length_nil, List.length_eq_zero_iff] at hf
    subst hf
    simp only [prepareFeatures, Except.ok.injEq] at h
    subst h
    refine ⟨start, ?_, fun x _ => by simp⟩
    unfold livePrepare livePredict
    rfl
  | cons cfg cfgs ih =>
    match feats, lives, hf, hl with
    | fs :: feats, live :: lives, hf, hl =>
      intro start
      unfold prepareFeatures at h
      cases ha : fs.agg with
      | none => rw [ha] at h; simp at h
      | some agg =>
        rw [ha] at h
        dsimp only at h
        cases hp : prepareFeatures feats with
        | error e => rw [hp] at h; simp at h
        | ok rest =>
          rw [hp] at h
          simp only [Except.ok.injEq] at h
          subst h
          have hv : ∃ v, (⟨1, .fitted fun b => some (agg b), some (agg cfg.nFinite)⟩ : LiveFeature K).predict cfg rows = .ok v ∧
              ∀ x, cfg.bin x ≤ cfg.nFinite → v x = agg (cfg.bin x) := by
            refine ⟨_, rfl, fun x hb => ?_⟩
            by_cases hlt : cfg.bin x < cfg.nFinite
            · simp [hlt]
            · simp [show cfg.bin x = cfg.nFinite by omega]
          obtain ⟨v, hv, hvx⟩ := hv
          obtain ⟨q, hq, hqs⟩ := ih feats lives (by simpa using hf) (by simpa using hl) rest hp (start.update cfg v)
          refine ⟨q, ?_, fun x hb => ?_⟩
          · rw [List.length_cons]
            unfold livePrepare livePredict
            rw [ha]
            dsimp only
            rw [hv]
            exact hq
          · obtain ⟨e1, e2⟩ := hqs x fun c hc => hb c (List.mem_cons_of_mem _ hc)
            obtain ⟨u1, u2⟩ := update_factors start cfg v x
            rw [e1, e2, u1, u2, hvx x (hb cfg List.mem_cons_self)]
            simp only [List.zipWith_cons_cons, List.sum_cons]
            exact ⟨by ring, by ring⟩

end

/-- **C173, which estimators.** The background-subtraction regressor and the classifier neither clip nor calibrate their updates, so
`C173_last_update_partial` is about them if they are constructed with the default `aggregate=True`; and with `aggregate=False`
`C173_replaced_partial` is about them and the multiplicative regressors. -/
theorem C173_estimators {σ : Type*} (S : Setup σ) (D : TrainSet) (ra : ℝ) (ppf : ℝ → ℝ → ℝ → ℝ) (coef gam : ℝ → ℝ) (a c : ℝ) (it i : ℕ)
    (fs : FState ℝ) :
    (∀ E ∈ [gbsEstimator ra, classifierEstimator ppf coef],
      (S.paramsFor E).clip = false ∧ (S.oracle E D).calibrate it i fs = fs.factors) ∧
    (∀ E ∈ [poissonEstimator gam, nbinomEstimator gam a c], (S.oracle E D).calibrate it i fs = fs.factors) := by
  constructor
  · intro E hE
    simp only [List.mem_cons, List.not_mem_nil, or_false] at hE
    rcases hE with rfl | rfl
    · exact ⟨by simp [Setup.paramsFor, gbsEstimator], by simp only [Setup.oracle, gbsEstimator]; split <;> rfl⟩
    · exact ⟨by simp [Setup.paramsFor, classifierEstimator], by simp only [Setup.oracle, classifierEstimator]; split <;> rfl⟩
  · intro E hE
    simp only [List.mem_cons, List.not_mem_nil, or_false] at hE
    rcases hE with rfl | rfl
    · simp only [Setup.oracle, poissonEstimator]; split <;> rfl
    · simp only [Setup.oracle, nbinomEstimator]; split <;> rfl

/-- One feature with two bins, sample 0 in the first and sample 1 in the second. -/
def twoBins : FeatureCfg := ⟨["weekday"], false, 2, fun s => s, false⟩

/-- Updates that are added up or not, without clipping and early stopping. -/
def plainParams (aggregate : Bool) : Params ℚ :=
  ⟨aggregate, false, ⟨0, 0, fun _ _ => 0, fun _ _ => 0, 0, 0⟩, 10, -1, -1, none, 0⟩

/-- The targets 0 and 2 with weight 1: the estimate of a bin is the mean of what its samples lack (as for the background-subtraction
regressor without regularization), no smoothing, the learning rate is 1 and the loss is the mean squared deviation. -/
def twoTargets : Oracle ℚ where
  estimate _ _ pred _ b := if b = 0 then 0 - pred.factors 0 else if b = 1 then 2 - pred.factors 1 else 0
  smooth _ _ _ _ unfitted b := some (unfitted b)
  learnRate _ := 1
  calibrate _ _ fs := fs.factors
  loss pred := .fin (((pred.factors 0 - 0) ^ 2 + (pred.factors 1 - 2) ^ 2) / 2)

/-- What each iteration of the counterexample leaves behind. -/
structure TwoTargets (s : TState ℚ) : Prop where
  feats : ∃ fs, s.feats = [fs] ∧ fs.zeroSmoother = false
  initialLoss : s.initialLoss = .fin 1
  notDiverging : s.isDiverging = false
  delta : -1 < s.delta

theorem twoTargets_iterate (a : Bool) (s : TState ℚ) (h : TwoTargets s) :
    ∃ s', iterate (plainParams a) twoTargets [twoBins] s = .ok s' ∧ TwoTargets s' ∧
      s'.pred.factors 0 = 0 ∧ s'.pred.factors 1 = 2 ∧ s'.iteration = s.iteration + 1 := by
  obtain ⟨fs, hfs, hz⟩ := h.feats
  set fs₀ : FState ℚ := if s.iteration = 0 then { fs with factors := fun _ => 0 } else fs with hfs₀
  have hz₀ : fs₀.zeroSmoother = false := by rw [hfs₀]; split_ifs <;> exact hz
  obtain ⟨h1, h2, h3⟩ := featureIteration_unclipped (plainParams a) twoTargets (by rfl) (fun _ _ _ => rfl) s.iteration 0 twoBins s.diverging
    s.isDiverging s.initialLoss fs₀ s.pred
  set before := if (plainParams a).aggregate then s.pred else s.pred.remove twoBins (predInSample twoBins fs₀) with hbefore
  set r := featureIteration (plainParams a) twoTargets s.iteration 0 twoBins s.diverging s.isDiverging s.initialLoss fs₀ s.pred
  have hpass : featurePass (plainParams a) twoTargets s.iteration s.diverging s.isDiverging s.initialLoss 0 [twoBins] s.feats s.pred
      = ([r.1], r.2) := by
    rw [hfs]
    rfl
  have hb : ∀ b, b < 2 → r.1.factors b = (if b = 0 then 0 - before.factors 0 else if b = 1 then 2 - before.factors 1 else 0) := by
    intro b hlt
    rw [h1]
    simp only [predictFactors, twoBins, hlt, if_true, updateFactors, hz₀, Bool.false_eq_true, if_false, twoTargets, one_mul]
  have e0 : r.2.factors 0 = 0 := by
    rw [h3, (update_factors _ _ _ 0).1]
    show before.factors 0 + r.1.factors 0 = 0
    rw [hb 0 (by norm_num)]
    simp
  have e1 : r.2.factors 1 = 2 := by
    rw [h3, (update_factors _ _ _ 1).1]
    show before.factors 1 + r.1.factors 1 = 2
    rw [hb 1 (by norm_num)]
    simp
  have hloss : twoTargets.loss r.2 = .fin 0 := by
    show Flt.fin (((r.2.factors 0 - 0) ^ 2 + (r.2.factors 1 - 2) ^ 2) / 2) = .fin 0
    rw [e0, e1]
    norm_num
  have hcc : checkConvergence s.initialLoss (twoTargets.loss r.2) s.diverging = .ok (s.diverging, false) := by
    unfold checkConvergence isDiverged
    rw [hloss, h.initialLoss]
    simp [Flt.gt, Flt.twice]
  have hdelta : (-1 : ℚ) < factorsDeviation [twoBins] [r.1] := by
    have : (0 : ℚ) ≤ factorsDeviation [twoBins] [r.1] := by
      simp only [factorsDeviation, factorDeviation, List.zipWith_cons_cons, List.zipWith_nil_right, List.sum_cons, List.sum_nil,
        add_zero]
      refine div_nonneg (div_nonneg (List.sum_nonneg fun x hx => ?_) (Nat.cast_nonneg _)) (Nat.cast_nonneg _)
      obtain ⟨b, -, rfl⟩ := List.mem_map.mp hx
      exact abs_nonneg _
    linarith
  have hiter : iterate (plainParams a) twoTargets [twoBins] s = .ok { s with
      iteration := s.iteration + 1
      pred := r.2
      feats := [r.1]
      diverging := s.diverging
      isDiverging := false
      loss := twoTargets.loss r.2
      lossChange := lossChange s.loss (twoTargets.loss r.2)
      delta := factorsDeviation [twoBins] [r.1]
      prediction := r.2 } := by
    unfold iterate
    rw [hpass]
    dsimp only
    rw [hcc]
    rfl
  exact ⟨_, hiter, ⟨⟨r.1, rfl, by rw [h2, hz₀]⟩, h.initialLoss, rfl, hdelta⟩, e0, e1, rfl⟩

theorem twoTargets_continues (a : Bool) (s : TState ℚ) (hit : s.iteration < 10) (h : TwoTargets s) :
    continues (plainParams a) s = true := by
  have hl : Flt.absLe s.lossChange (-1 : ℚ) = false := by
    unfold Flt.absLe
    cases s.lossChange with
    | fin a => exact decide_eq_false (by have := abs_nonneg a; intro hx; linarith)
    | _ => rfl
  simp only [continues, checkStop, plainParams, hl, not_le.mpr hit, not_le.mpr h.delta]
  simp [hit]

theorem twoTargets_start : TwoTargets (startState twoTargets [twoBins] fun _ => (1 : ℚ)) :=
  ⟨⟨_, rfl, rfl⟩, by simp only [startState, twoTargets]; norm_num, rfl, by simp only [startState]; norm_num⟩

theorem twoTargets_underway (a : Bool) (k : ℕ) (s : TState ℚ) (lives : List (LiveFeature ℚ))
    (h : Underway (plainParams a) twoTargets [twoBins] (fun _ => 1) k s lives) : TwoTargets s := by
  induction h with
  | start => exact twoTargets_start
  | next k s s' lives h hc hs ih =>
    obtain ⟨s₁, i1, t1, -⟩ := twoTargets_iterate a s ih
    rw [hs, Except.ok.injEq] at i1
    rw [i1]
    exact t1

/-- **C173, counterexample.** The targets of two samples in different bins are 0 and 2, so that training starts from the mean 1 and
predicts the targets exactly after one iteration. Interrupted after the second iteration, the estimator predicts the mean 1 for both,
without an exception, although training still predicts 0 and 2. -/
theorem C173_counterexample :
    ∃ (s : TState ℚ) (lives : List (LiveFeature ℚ)) (q : Pred ℚ),
      Underway (plainParams true) twoTargets [twoBins] (fun _ => 1) 2 s lives ∧
      s.pred.factors 0 = 0 ∧ s.pred.factors 1 = 2 ∧
      livePredict [0, 1] [twoBins] lives ⟨fun _ => 1, fun _ => 0⟩ = .ok q ∧ q.factors 0 = 1 ∧ q.factors 1 = 1 := by
  have h0 := twoTargets_start
  obtain ⟨s₁, i1, t1, p1, p1', n1⟩ := twoTargets_iterate true _ h0
  obtain ⟨s₂, i2, t2, p2, p2', n2⟩ := twoTargets_iterate true s₁ t1
  have hn : s₁.iteration < 10 := by rw [n1]; simp [startState]
  have u1 := Underway.next 0 _ s₁ _ (Underway.start (p := plainParams true) (o := twoTargets) (cfgs := [twoBins]) (prior := fun _ => 1))
    (twoTargets_continues true _ (by simp [startState]) h0) i1
  have u2 := Underway.next 1 s₁ s₂ _ u1 (twoTargets_continues true s₁ hn t1) i2
  obtain ⟨q, hq, hqs⟩ := C173_last_update_partial (plainParams true) twoTargets [twoBins] (fun _ => 1) rfl rfl (fun _ _ _ => rfl) rfl 1 s₁ s₂ _
    u1 i2 t2.notDiverging [0, 1]
  refine ⟨s₂, _, q, u2, p2, p2', hq, ?_, ?_⟩
  · rw [(hqs 0 (by simp [twoBins])).1, p2, p1]; norm_num
  · rw [(hqs 1 (by simp [twoBins])).1, p2', p1']; norm_num

/-- The same training with `aggregate=False`: interrupted after the second iteration, the estimator predicts the targets. -/
example : ∃ (s : TState ℚ) (lives : List (LiveFeature ℚ)) (q : Pred ℚ),
    Underway (plainParams false) twoTargets [twoBins] (fun _ => 1) 2 s lives ∧
    livePredict [0, 1] [twoBins] lives ⟨fun _ => 1, fun _ => 0⟩ = .ok q ∧ q.factors 0 = 0 ∧ q.factors 1 = 2 := by
  have h0 := twoTargets_start
  obtain ⟨s₁, i1, t1, -, -, n1⟩ := twoTargets_iterate false _ h0
  obtain ⟨s₂, i2, t2, p2, p2', n2⟩ := twoTargets_iterate false s₁ t1
  have hn : s₁.iteration < 10 := by rw [n1]; simp [startState]
  have u1 := Underway.next 0 _ s₁ _ (Underway.start (p := plainParams false) (o := twoTargets) (cfgs := [twoBins]) (prior := fun _ => 1))
    (twoTargets_continues false _ (by simp [startState]) h0) i1
  have u2 := Underway.next 1 s₁ s₂ _ u1 (twoTargets_continues false s₁ hn t1) i2
  obtain ⟨q, hq, hqs⟩ := C173_replaced_partial (plainParams false) twoTargets [twoBins] (fun _ => 1) rfl (fun _ _ _ => rfl) rfl 2
    (by norm_num) s₂ _ u2 (fun j t l _ ht => (twoTargets_underway false j t l ht).notDiverging) [0, 1]
  refine ⟨s₂, _, q, u2, hq, ?_, ?_⟩
  · rw [(hqs 0 (by simp [twoBins])).1, p2]
  · rw [(hqs 1 (by simp [twoBins])).1, p2']

/-- Interrupted before the only feature has been reached: `predict` raises for a table with both samples. -/
example : ∃ e, livePredict [0, 1] [twoBins] [(LiveFeature.init : LiveFeature ℚ)] ⟨fun _ => 1, fun _ => 0⟩ = .error e :=
  C173_first_iteration (plainParams true) twoTargets [twoBins] (fun _ => 1) 0 0 (Or.inr ⟨rfl, rfl⟩) [0, 1] _

/-- Two prepared features: the final factors are added up. -/
example : ∃ q, livePredict [0, 1] [twoBins, twoBins]
    (livePrepare 2 [twoBins, twoBins] [⟨fun _ => 0, fun _ => 0, some fun b => (b : ℚ), true, false⟩,
      ⟨fun _ => 0, fun _ => 0, some fun _ => 5, true, false⟩] [LiveFeature.init, LiveFeature.init]) ⟨fun _ => 1, fun _ => 0⟩ = .ok q ∧
    q.factors 1 = 7 := by
  obtain ⟨q, hq, hqs⟩ := C173_prepared [twoBins, twoBins] [⟨fun _ => 0, fun _ => 0, some fun b => (b : ℚ), true, false⟩,
      ⟨fun _ => 0, fun _ => 0, some fun _ => 5, true, false⟩] [LiveFeature.init, LiveFeature.init] (fun _ => 1) rfl rfl
      [fun b => (b : ℚ), fun _ => 5] rfl [0, 1]
  refine ⟨q, hq, ?_⟩
  rw [(hqs 1 (by simp [twoBins])).1]
  simp [twoBins]
  norm_num

end CB
