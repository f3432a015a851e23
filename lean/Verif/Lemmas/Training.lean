import Verif.Model.Training
import Verif.Spec.Training
import Mathlib.Tactic.Ring
import Mathlib.Tactic.Linarith
import Mathlib.Algebra.BigOperators.Group.List.Basic

set_option autoImplicit false
set_option linter.unusedSectionVars false

namespace CB

open Spec

variable {K : Type*} [Field K] [LinearOrder K] [IsStrictOrderedRing K]

/-- `is_fitted` is set exactly when there are aggregated factors. -/
def FState.WF (fs : FState K) : Prop := fs.isFitted = true ↔ fs.agg.isSome = true

theorem remove_update (pred : Pred K) (cfg : FeatureCfg) (v : ℕ → K) : (pred.update cfg v).remove cfg v = pred := by
  unfold Pred.update Pred.remove
  cases pred
  split <;> simp

theorem visitFactors_pred (p : Params K) (o : Oracle K) (cfg : FeatureCfg) (dv : ℕ) (isd : Bool) (il : Flt K)
    (u : ℕ → K) (fs : FState K) (pred : Pred K) : (visitFactors p o cfg dv isd il u fs pred).2 = pred := by
  unfold visitFactors
  simp only [remove_update]
  split
  · split
    · split
      · split
        · split <;> rfl
        · rfl
      · rfl
    · rfl
  · rfl

/-- The result of `visit_factors` on the feature, case by case: new factors, and the aggregation rule. -/
theorem visitFactors_agg (p : Params K) (o : Oracle K) (cfg : FeatureCfg) (dv : ℕ) (isd : Bool) (il : Flt K)
    (u : ℕ → K) (fs : FState K) (pred : Pred K) (hp : p.aggregate = true) (hw : fs.WF) (b : ℕ) :
    stored (visitFactors p o cfg dv isd il u fs pred).1 b =
      stored fs b + (visitFactors p o cfg dv isd il u fs pred).1.factors b := by
  unfold FState.WF at hw
  have key : ∀ g : FState K, g.isFitted = fs.isFitted → g.agg = fs.agg →
      stored ({ g with
        agg := some (match g.isFitted, p.aggregate, g.agg with
          | true, true, some agg => fun b => agg b + g.factors b
          | _, _, _ => g.factors)
        isFitted := true } : FState K) b = stored fs b + g.factors b := by
    intro g h1 h2
    rw [h1, h2, hp]
    unfold stored
    cases hf : fs.isFitted with
    | true =>
      rw [hf] at hw
      cases ha : fs.agg with
      | none => rw [ha] at hw; simp at hw
      | some agg => simp
    | false =>
      rw [hf] at hw
      cases ha : fs.agg with
      | none => simp
      | some agg => rw [ha] at hw; simp at hw
  unfold visitFactors
  split
  rename_i x g pr heq
  have hg : g.isFitted = fs.isFitted ∧ g.agg = fs.agg := by
    revert heq
    simp only
    split
    · split
      · split
        · split
          · split
            · intro h; rw [← (Prod.mk.inj h).1]; exact ⟨rfl, rfl⟩
            · intro h; rw [← (Prod.mk.inj h).1]; exact ⟨rfl, rfl⟩
          · intro h; rw [← (Prod.mk.inj h).1]; exact ⟨rfl, rfl⟩
        · intro h; rw [← (Prod.mk.inj h).1]; exact ⟨rfl, rfl⟩
      · intro h; rw [← (Prod.mk.inj h).1]; exact ⟨rfl, rfl⟩
    · intro h; rw [← (Prod.mk.inj h).1]; exact ⟨rfl, rfl⟩
  exact key g hg.1 hg.2

theorem visitFactors_WF (p : Params K) (o : Oracle K) (cfg : FeatureCfg) (dv : ℕ) (isd : Bool) (il : Flt K)
    (u : ℕ → K) (fs : FState K) (pred : Pred K) : (visitFactors p o cfg dv isd il u fs pred).1.WF := by
  unfold FState.WF visitFactors
  simp

/-- A feature iteration leaves a fitted feature. -/
theorem featureIteration_WF (p : Params K) (o : Oracle K) (it i : ℕ) (cfg : FeatureCfg) (dv : ℕ) (isd : Bool)
    (il : Flt K) (fs : FState K) (pred : Pred K) : (featureIteration p o it i cfg dv isd il fs pred).1.WF := by
  unfold featureIteration
  simp only
  exact visitFactors_WF _ _ _ _ _ _ _ _ _

theorem featureIteration_fitted (p : Params K) (o : Oracle K) (it i : ℕ) (cfg : FeatureCfg) (dv : ℕ) (isd : Bool)
    (il : Flt K) (fs : FState K) (pred : Pred K) :
    (featureIteration p o it i cfg dv isd il fs pred).1.isFitted = true := by
  unfold featureIteration visitFactors
  simp

/-- In aggregate mode a feature iteration adds the new factors both to the stored factors and to the prediction. -/
theorem featureIteration_aggregate (p : Params K) (o : Oracle K) (it i : ℕ) (cfg : FeatureCfg) (dv : ℕ) (isd : Bool)
    (il : Flt K) (fs : FState K) (pred : Pred K) (hp : p.aggregate = true) (hw : fs.WF) :
    (featureIteration p o it i cfg dv isd il fs pred).2 =
        pred.update cfg (predInSample cfg (featureIteration p o it i cfg dv isd il fs pred).1) ∧
      ∀ b, stored (featureIteration p o it i cfg dv isd il fs pred).1 b =
        stored fs b + (featureIteration p o it i cfg dv isd il fs pred).1.factors b := by
  constructor
  · unfold featureIteration
    simp only [visitFactors_pred, hp, if_true]
  · intro b
    unfold featureIteration
    simp only [hp, if_true]
    rw [visitFactors_agg p o cfg dv isd il _ _ _ hp]
    · rfl
    · exact hw

/-- The column of the prediction that features of one type contribute to. -/
def Pred.col (pred : Pred K) (external : Bool) : ℕ → K := if external then pred.exponents else pred.factors

theorem col_update (pred : Pred K) (cfg : FeatureCfg) (v : ℕ → K) (e : Bool) (s : ℕ) :
    (pred.update cfg v).col e s = pred.col e s + (if cfg.external = e then v s else 0) := by
  unfold Pred.update Pred.col
  cases cfg.external <;> cases e <;> simp

theorem col_remove (pred : Pred K) (cfg : FeatureCfg) (v : ℕ → K) (e : Bool) (s : ℕ) :
    (pred.remove cfg v).col e s = pred.col e s - (if cfg.external = e then v s else 0) := by
  unfold Pred.remove Pred.col
  cases cfg.external <;> cases e <;> simp

theorem storedSum_cons (e : Bool) (cfg : FeatureCfg) (cfgs : List FeatureCfg) (fs : FState K) (fss : List (FState K))
    (s : ℕ) : storedSum e (cfg :: cfgs) (fs :: fss) s =
      (if cfg.external = e then stored fs (cfg.bin s) else 0) + storedSum e cfgs fss s := by
  unfold storedSum
  rw [List.zip_cons_cons, List.filter_cons]
  by_cases h : cfg.external = e
  · simp [h]
  · simp [h]

theorem storedSum_nil_left (e : Bool) (fss : List (FState K)) (s : ℕ) : storedSum e [] fss s = 0 := by
  simp [storedSum]

theorem storedSum_nil_right (e : Bool) (cfgs : List FeatureCfg) (s : ℕ) :
    storedSum e cfgs ([] : List (FState K)) s = 0 := by
  simp [storedSum]

/-- In aggregate mode a pass over the features changes prediction and stored factors by the same amount. -/
theorem featurePass_balance (p : Params K) (o : Oracle K) (it dv : ℕ) (isd : Bool) (il : Flt K)
    (hp : p.aggregate = true) (e : Bool) (s : ℕ) :
    ∀ (cfgs : List FeatureCfg) (i : ℕ) (fss : List (FState K)) (pred : Pred K), (∀ fs ∈ fss, fs.WF) →
      (featurePass p o it dv isd il i cfgs fss pred).2.col e s - pred.col e s =
        storedSum e cfgs (featurePass p o it dv isd il i cfgs fss pred).1 s - storedSum e cfgs fss s := by
  intro cfgs
  induction cfgs with
  | nil => intro i fss pred _; simp [featurePass, storedSum_nil_left]
  | cons cfg cfgs ih =>
    intro i fss pred hw
    cases fss with
    | nil => simp [featurePass, storedSum_nil_right]
    | cons fs fss =>
      have hw0 : fs.WF := hw fs (by simp)
      have hws : ∀ g ∈ fss, g.WF := fun g hg => hw g (by simp [hg])
      rw [featurePass]
      simp only
      generalize hfs0 : (if it = 0 then { fs with factors := fun _ => 0 } else fs : FState K) = fs0
      have hs0 : stored fs0 = stored fs := by rw [← hfs0]; split <;> rfl
      have hw1 : fs0.WF := by rw [← hfs0]; split <;> exact hw0
      cases hsk : skipped p it cfg with
      | true =>
        simp only [if_true]
        rw [storedSum_cons, storedSum_cons]
        have := ih (i + 1) fss pred hws
        have h2 : stored ({ fs0 with factorsOld := fs0.factors } : FState K) = stored fs0 := rfl
        rw [h2, hs0]
        linarith
      | false =>
        simp only [Bool.false_eq_true, if_false]
        obtain ⟨h1, h2⟩ := featureIteration_aggregate p o it i cfg dv isd il fs0 pred hp hw1
        rw [storedSum_cons, storedSum_cons]
        generalize hF : featureIteration p o it i cfg dv isd il fs0 pred = F at h1 h2
        have := ih (i + 1) fss F.2 hws
        have h3 : F.2.col e s = pred.col e s + (if cfg.external = e then F.1.factors (cfg.bin s) else 0) := by
          rw [h1, col_update]
          rfl
        rw [h2 (cfg.bin s), hs0]
        split at h3
        · rename_i he
          rw [if_pos he, if_pos he]
          linarith
        · rename_i he
          rw [if_neg he, if_neg he]
          linarith

theorem featurePass_WF (p : Params K) (o : Oracle K) (it dv : ℕ) (isd : Bool) (il : Flt K) :
    ∀ (cfgs : List FeatureCfg) (i : ℕ) (fss : List (FState K)) (pred : Pred K), (∀ fs ∈ fss, fs.WF) →
      ∀ fs ∈ (featurePass p o it dv isd il i cfgs fss pred).1, fs.WF := by
  intro cfgs
  induction cfgs with
  | nil => intro i fss pred _; simp [featurePass]
  | cons cfg cfgs ih =>
    intro i fss pred hw
    cases fss with
    | nil => simp [featurePass]
    | cons fs fss =>
      rw [featurePass]
      simp only
      intro g hg
      rcases List.mem_cons.mp hg with rfl | hg
      · have hw0 : fs.WF := hw fs (by simp)
        split
        · split
          · exact hw0
          · exact hw0
        · exact featureIteration_WF _ _ _ _ _ _ _ _ _ _
      · exact ih _ _ _ (fun g hg => hw g (by simp [hg])) g hg

/-- Each feature comes out of a pass either skipped or after a feature iteration. -/
theorem featurePass_get (p : Params K) (o : Oracle K) (it dv : ℕ) (isd : Bool) (il : Flt K) :
    ∀ (cfgs : List FeatureCfg) (i : ℕ) (fss : List (FState K)) (pred : Pred K) (j : ℕ) (cfg : FeatureCfg)
      (fs : FState K), cfgs[j]? = some cfg → fss[j]? = some fs →
      ∃ (fs' fs0 : FState K) (pred' : Pred K), (featurePass p o it dv isd il i cfgs fss pred).1[j]? = some fs' ∧
        fs0 = (if it = 0 then { fs with factors := fun _ => 0 } else fs) ∧
        ((skipped p it cfg = true ∧ fs' = { fs0 with factorsOld := fs0.factors }) ∨
          (skipped p it cfg = false ∧ fs' = (featureIteration p o it (i + j) cfg dv isd il fs0 pred').1)) := by
  intro cfgs
  induction cfgs with
  | nil => intro i fss pred j cfg fs h; simp at h
  | cons cfg0 cfgs ih =>
    intro i fss pred j cfg fs h1 h2
    cases fss with
    | nil => simp at h2
    | cons fs1 fss =>
      rw [featurePass]
      simp only
      cases j with
      | zero =>
        simp only [List.getElem?_cons_zero, Option.some.injEq] at h1 h2
        subst h1 h2
        refine ⟨_, _, pred, rfl, rfl, ?_⟩
        cases hsk : skipped p it cfg0 with
        | true => left; simp
        | false => right; simp
      | succ j =>
        simp only [List.getElem?_cons_succ] at h1 h2
        simp only [List.getElem?_cons_succ]
        obtain ⟨fs', fs0, pred', a, b, c⟩ := ih (i + 1) fss
          (if skipped p it cfg0 = true then
              (({ (if it = 0 then { fs1 with factors := fun _ => 0 } else fs1 : FState K) with
                factorsOld := (if it = 0 then { fs1 with factors := fun _ => 0 } else fs1 : FState K).factors } : FState K),
                pred)
            else featureIteration p o it i cfg0 dv isd il
              (if it = 0 then { fs1 with factors := fun _ => 0 } else fs1) pred).2 j cfg fs h1 h2
        exact ⟨fs', fs0, pred', a, b, by rw [show i + (j + 1) = i + 1 + j by ring]; exact c⟩

theorem featurePass_length (p : Params K) (o : Oracle K) (it dv : ℕ) (isd : Bool) (il : Flt K) :
    ∀ (cfgs : List FeatureCfg) (i : ℕ) (fss : List (FState K)) (pred : Pred K), cfgs.length = fss.length →
      (featurePass p o it dv isd il i cfgs fss pred).1.length = cfgs.length := by
  intro cfgs
  induction cfgs with
  | nil => intro i fss pred _; simp [featurePass]
  | cons cfg cfgs ih =>
    intro i fss pred h
    cases fss with
    | nil => simp at h
    | cons fs fss =>
      rw [featurePass]
      simp only [List.length_cons]
      rw [ih _ _ _ (by simpa using h)]

/-- `remove_preds` changes prediction and stored factors by the same amount. -/
theorem removePreds_balance (e : Bool) (s : ℕ) :
    ∀ (cfgs : List FeatureCfg) (fss : List (FState K)) (pred : Pred K) (r : List (FState K) × Pred K),
      removePreds cfgs fss pred = .ok r →
      r.2.col e s - pred.col e s = storedSum e cfgs r.1 s - storedSum e cfgs fss s := by
  intro cfgs
  induction cfgs with
  | nil =>
    intro fss pred r h
    simp only [removePreds, Except.ok.injEq] at h
    rw [← h]; simp [storedSum_nil_left]
  | cons cfg cfgs ih =>
    intro fss pred r h
    cases fss with
    | nil =>
      simp only [removePreds, Except.ok.injEq] at h
      rw [← h]; simp [storedSum_nil_right]
    | cons fs fss =>
      rw [removePreds] at h
      split at h
      · cases h
      · rename_i agg hagg
        simp only at h
        split at h
        · cases h
        · rename_i rest pr hr
          have := ih fss _ _ hr
          injection h with h
          rw [← h, storedSum_cons, storedSum_cons]
          simp only at this ⊢
          rw [col_remove] at this
          have h1 : stored ({ fs with agg := some (fun b => agg b - fs.factors b) } : FState K) (cfg.bin s)
              = stored fs (cfg.bin s) - fs.factors (cfg.bin s) := by
            unfold stored; rw [hagg]
          rw [h1]
          unfold predInSample at this
          split
          · rename_i he; rw [if_pos he] at this; linarith
          · rename_i he; rw [if_neg he] at this; linarith

theorem removePreds_get :
    ∀ (cfgs : List FeatureCfg) (fss : List (FState K)) (pred : Pred K) (r : List (FState K) × Pred K),
      removePreds cfgs fss pred = .ok r → cfgs.length = fss.length →
      r.1.length = fss.length ∧ ∀ (j : ℕ) (fs : FState K), fss[j]? = some fs →
        ∃ agg : ℕ → K, fs.agg = some agg ∧ r.1[j]? = some { fs with agg := some (fun b => agg b - fs.factors b) } := by
  intro cfgs
  induction cfgs with
  | nil =>
    intro fss pred r h hl
    have : fss = [] := by simpa using hl.symm
    subst this
    simp only [removePreds, Except.ok.injEq] at h
    rw [← h]; simp
  | cons cfg cfgs ih =>
    intro fss pred r h hl
    cases fss with
    | nil => simp at hl
    | cons fs fss =>
      rw [removePreds] at h
      split at h
      · cases h
      · rename_i agg hagg
        simp only at h
        split at h
        · cases h
        · rename_i rest pr hr
          obtain ⟨h1, h2⟩ := ih fss _ _ hr (by simpa using hl)
          injection h with h
          rw [← h]
          refine ⟨by simpa using h1, ?_⟩
          intro j g hg
          cases j with
          | zero =>
            simp only [List.getElem?_cons_zero, Option.some.injEq] at hg
            subst hg
            exact ⟨agg, hagg, by simp⟩
          | succ j =>
            simp only [List.getElem?_cons_succ] at hg ⊢
            exact h2 j g hg

theorem removePreds_WF (cfgs : List FeatureCfg) (fss : List (FState K)) (pred : Pred K) (r : List (FState K) × Pred K)
    (h : removePreds cfgs fss pred = .ok r) (hl : cfgs.length = fss.length) (hw : ∀ fs ∈ fss, fs.WF) :
    ∀ fs ∈ r.1, fs.WF := by
  obtain ⟨h1, h2⟩ := removePreds_get cfgs fss pred r h hl
  intro fs hfs
  obtain ⟨j, hj⟩ := List.mem_iff_getElem?.mp hfs
  have hj' : j < fss.length := by
    rw [← h1]
    by_contra hc
    rw [List.getElem?_eq_none (not_lt.mp hc)] at hj
    cases hj
  obtain ⟨agg, ha, hb⟩ := h2 j fss[j] (List.getElem?_eq_getElem hj')
  rw [hj, Option.some.injEq] at hb
  rw [hb]
  have := hw fss[j] (List.getElem_mem hj')
  unfold FState.WF at this ⊢
  rw [ha] at this
  simpa using this

/-- `remove_preds` succeeds exactly when every feature has been fitted. -/
theorem removePreds_ok_iff :
    ∀ (cfgs : List FeatureCfg) (fss : List (FState K)) (pred : Pred K), cfgs.length = fss.length →
      ((∃ r, removePreds cfgs fss pred = .ok r) ↔ ∀ fs ∈ fss, fs.agg.isSome = true) ∧
      ((∃ fs ∈ fss, fs.agg = none) → removePreds cfgs fss pred = .error .typeError) := by
  intro cfgs
  induction cfgs with
  | nil =>
    intro fss pred hl
    have : fss = [] := by simpa using hl.symm
    subst this
    simp [removePreds]
  | cons cfg cfgs ih =>
    intro fss pred hl
    cases fss with
    | nil => simp at hl
    | cons fs fss =>
      rw [removePreds]
      cases ha : fs.agg with
      | none => simp [ha]
      | some agg =>
        simp only
        obtain ⟨h1, h2⟩ := ih fss (pred.remove cfg (predInSample cfg fs)) (by simpa using hl)
        constructor
        · constructor
          · rintro ⟨r, hr⟩
            split at hr
            · cases hr
            · rename_i rest pr hrr
              have := h1.mp ⟨_, hrr⟩
              intro g hg
              rcases List.mem_cons.mp hg with rfl | hg
              · simp [ha]
              · exact this g hg
          · intro hall
            obtain ⟨r, hr⟩ := h1.mpr (fun g hg => hall g (by simp [hg]))
            rw [hr]
            exact ⟨_, rfl⟩
        · rintro ⟨g, hg, hn⟩
          rcases List.mem_cons.mp hg with rfl | hg
          · rw [ha] at hn; cases hn
          · rw [h2 ⟨g, hg, hn⟩]

/-- The ingredients of a successful iteration. -/
theorem iterate_ok (p : Params K) (o : Oracle K) (cfgs : List FeatureCfg) (s s' : TState K)
    (h : iterate p o cfgs s = .ok s') :
    ∃ (feats : List (FState K)) (pred : Pred K) (r : List (FState K) × Pred K),
      featurePass p o s.iteration s.diverging s.isDiverging s.initialLoss 0 cfgs s.feats s.pred = (feats, pred) ∧
      checkConvergence s.initialLoss (o.loss pred) s.diverging = .ok (s'.diverging, s'.isDiverging) ∧
      (if s'.isDiverging then removePreds cfgs feats pred else .ok (feats, pred)) = .ok r ∧
      s'.feats = r.1 ∧ s'.pred = r.2 ∧ s'.iteration = s.iteration + 1 ∧ s'.initialLoss = s.initialLoss ∧
      s'.loss = o.loss pred ∧ s'.prediction = pred ∧ s'.delta = factorsDeviation cfgs feats ∧
      s'.lossChange = lossChange s.loss (o.loss pred) := by
  unfold iterate at h
  simp only at h
  split at h
  · cases h
  · rename_i dv isd hcc
    split at h
    · cases h
    · rename_i f pr hr
      injection h with h
      subst h
      exact ⟨_, _, (f, pr), rfl, hcc, hr, rfl, rfl, rfl, rfl, rfl, rfl, rfl, rfl⟩

/-- Training invariant: as many feature states as features, all well formed. -/
def TState.WF (cfgs : List FeatureCfg) (s : TState K) : Prop :=
  cfgs.length = s.feats.length ∧ ∀ fs ∈ s.feats, fs.WF

theorem startState_WF (o : Oracle K) (cfgs : List FeatureCfg) (prior : ℕ → K) :
    (startState o cfgs prior).WF cfgs := by
  unfold TState.WF startState
  refine ⟨by simp, ?_⟩
  intro fs hfs
  simp only [List.mem_map] at hfs
  obtain ⟨_, _, rfl⟩ := hfs
  unfold FState.WF FState.init
  simp

theorem iterate_WF (p : Params K) (o : Oracle K) (cfgs : List FeatureCfg) (s s' : TState K)
    (h : iterate p o cfgs s = .ok s') (hw : s.WF cfgs) : s'.WF cfgs := by
  obtain ⟨feats, pred, r, hfp, _, hr, hf, _, _⟩ := iterate_ok p o cfgs s s' h
  have hlen : feats.length = cfgs.length := by
    have := featurePass_length p o s.iteration s.diverging s.isDiverging s.initialLoss cfgs 0 s.feats s.pred hw.1
    rw [hfp] at this; exact this
  have hwf : ∀ fs ∈ feats, fs.WF := by
    have := featurePass_WF p o s.iteration s.diverging s.isDiverging s.initialLoss cfgs 0 s.feats s.pred hw.2
    rw [hfp] at this; exact this
  unfold TState.WF
  rw [hf]
  split at hr
  · refine ⟨?_, removePreds_WF cfgs feats pred r hr hlen.symm hwf⟩
    rw [(removePreds_get cfgs feats pred r hr hlen.symm).1, hlen]
  · injection hr with hr
    rw [← hr]
    exact ⟨hlen.symm, hwf⟩

theorem trace_WF (p : Params K) (o : Oracle K) (cfgs : List FeatureCfg) (prior : ℕ → K) (past : List (TState K))
    (s : TState K) (h : Trace p o cfgs (startState o cfgs prior) past s) : s.WF cfgs := by
  induction h with
  | start => exact startState_WF o cfgs prior
  | step _ _ hit ih => exact iterate_WF p o cfgs _ _ hit ih

/-- A finished loop went through a trace and stopped because its condition failed. -/
theorem loop_done (p : Params K) (o : Oracle K) (cfgs : List FeatureCfg) (s0 : TState K) :
    ∀ (fuel : ℕ) (s s' : TState K) (past : List (TState K)), Trace p o cfgs s0 past s →
      loop p o cfgs fuel s = .done s' →
      ∃ past', Trace p o cfgs s0 past' s' ∧ continues p s' = false := by
  intro fuel
  induction fuel with
  | zero =>
    intro s s' past ht h
    rw [loop] at h
    split at h
    · cases h
    · rename_i hc
      injection h with h
      subst h
      exact ⟨past, ht, by simpa using hc⟩
  | succ fuel ih =>
    intro s s' past ht h
    rw [loop] at h
    split at h
    · rename_i hc
      split at h
      · cases h
      · rename_i s1 hit
        exact ih s1 s' (s :: past) (.step ht hc hit) h
    · rename_i hc
      injection h with h
      subst h
      exact ⟨past, ht, by simpa using hc⟩

end CB
