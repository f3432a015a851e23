import Verif.Model.Training
import Mathlib.Tactic.Ring
import Mathlib.Tactic.Linarith
import Mathlib.Algebra.BigOperators.Ring.List
import Mathlib.Algebra.Order.Ring.Abs

/-!
# Two trainings in different units

If everything training computes per bin is multiplied by a constant, so are the factors.
-/

set_option autoImplicit false
set_option linter.unusedSectionVars false

namespace CB

section
variable {K : Type*} [Field K] [LinearOrder K] [IsStrictOrderedRing K]

/-- A running prediction in other units. -/
def Pred.scaled (c : K) (p : Pred K) : Pred K := ⟨fun s => c * p.factors s, fun s => c * p.exponents s⟩

/-- The state of a feature in other units. -/
def FState.scaled (c : K) (fs : FState K) : FState K :=
  ⟨fun b => c * fs.factors b, fun b => c * fs.factorsOld b, fs.agg.map fun g b => c * g b, fs.isFitted, fs.zeroSmoother⟩

/-- A loss in other units. -/
def lossScaled (k : K) : Flt K → Flt K
  | .fin a => .fin (k * a)
  | x => x

/-- Two oracles in different units. -/
structure OracleScaled (c : K) (o o' : Oracle K) : Prop where
  estimate : ∀ it i p fs, o'.estimate it i (p.scaled c) (fs.scaled c) = fun b => c * o.estimate it i p fs b
  smooth : ∀ it i p fs (u : ℕ → K), o'.smooth it i (p.scaled c) (fs.scaled c) (fun b => c * u b) =
    fun b => (o.smooth it i p fs u b).map (c * ·)
  learnRate : o'.learnRate = o.learnRate
  calibrate : ∀ it i fs, o'.calibrate it i (fs.scaled c) = fun b => c * o.calibrate it i fs b
  loss : ∀ p, o'.loss (p.scaled c) = lossScaled (c ^ 2) (o.loss p)

/-- Parameters that differ only in the limit for the change of the factors. -/
structure ParamsScaled (c : K) (p p' : Params K) : Prop where
  aggregate : p'.aggregate = p.aggregate
  noClip : p.clip = false
  noClip' : p'.clip = false
  maximalIterations : p'.maximalIterations = p.maximalIterations
  factorChange : p'.minimalFactorChange = |c| * p.minimalFactorChange
  start : 100 ≤ p'.minimalFactorChange ↔ 100 ≤ p.minimalFactorChange
  lossChange : p'.minimalLossChange = p.minimalLossChange
  hierarchical : p'.hierarchical = p.hierarchical
  hierarchicalIterations : p'.hierarchicalIterations = p.hierarchicalIterations

theorem scaled_update (c : K) (cfg : FeatureCfg) (p : Pred K) (v : ℕ → K) :
    (p.scaled c).update cfg (fun s => c * v s) = (p.update cfg v).scaled c := by
  unfold Pred.update Pred.scaled
  split <;> simp only [mul_add]

theorem scaled_remove (c : K) (cfg : FeatureCfg) (p : Pred K) (v : ℕ → K) :
    (p.scaled c).remove cfg (fun s => c * v s) = (p.remove cfg v).scaled c := by
  unfold Pred.remove Pred.scaled
  split <;> simp only [mul_sub]

theorem scaled_updateFactors (c : K) (cfg : FeatureCfg) (fs : FState K) (u : ℕ → K) (lr : K) :
    updateFactors cfg (fs.scaled c) (fun b => c * u b) lr = (updateFactors cfg fs u lr).scaled c := by
  unfold updateFactors FState.scaled
  simp only [FState.mk.injEq, true_and, and_true]
  funext b
  split_ifs <;> ring

theorem scaled_predictFactors (c : K) (cfg : FeatureCfg) (fs : FState K) (sm : ℕ → Option K) (lr : K) :
    predictFactors cfg (fs.scaled c) (fun b => (sm b).map (c * ·)) lr = fun b => c * predictFactors cfg fs sm lr b := by
  funext b
  unfold predictFactors FState.scaled
  dsimp only
  split_ifs
  · ring
  · cases sm b with
    | none => simp
    | some v => simp only [Option.map_some]; ring
  · rfl

variable {c : K} {p p' : Params K} {o o' : Oracle K}

theorem scaled_visitFactors (hp : ParamsScaled c p p') (cfg : FeatureCfg) (dv : ℕ) (isd : Bool) (il il' : Flt K) (u : ℕ → K)
    (fs : FState K) (pr : Pred K) :
    visitFactors p' o' cfg dv isd il' (fun b => c * u b) (fs.scaled c) (pr.scaled c) =
      ((visitFactors p o cfg dv isd il u fs pr).1.scaled c, (visitFactors p o cfg dv isd il u fs pr).2.scaled c) := by
  unfold visitFactors
  simp only [hp.noClip, hp.noClip', Bool.false_and, Bool.false_eq_true, if_false, hp.aggregate]
  obtain ⟨f, fo, agg, fit, z⟩ := fs
  cases fit <;> cases p.aggregate <;> cases agg <;> simp [FState.scaled, mul_add]

theorem scaled_featureIteration (hp : ParamsScaled c p p') (ho : OracleScaled c o o') (it i : ℕ) (cfg : FeatureCfg) (dv : ℕ)
    (isd : Bool) (il il' : Flt K) (fs : FState K) (pr : Pred K) :
    featureIteration p' o' it i cfg dv isd il' (fs.scaled c) (pr.scaled c) =
      ((featureIteration p o it i cfg dv isd il fs pr).1.scaled c, (featureIteration p o it i cfg dv isd il fs pr).2.scaled c) := by
  unfold featureIteration
  dsimp only
  have hq : (if p'.aggregate then pr.scaled c else (pr.scaled c).remove cfg (predInSample cfg (fs.scaled c))) =
      (if p.aggregate then pr else pr.remove cfg (predInSample cfg fs)).scaled c := by
    rw [hp.aggregate]
    split
    · rfl
    · exact scaled_remove c cfg pr (predInSample cfg fs)
  rw [hq]
  generalize (if p.aggregate then pr else pr.remove cfg (predInSample cfg fs)) = q
  rw [ho.estimate, ho.learnRate, scaled_updateFactors, ho.smooth, scaled_predictFactors]
  generalize o.estimate it i q fs = u
  generalize updateFactors cfg fs u (o.learnRate (it + 1)) = fs1
  generalize predictFactors cfg fs1 _ _ = g
  have h1 : ({ fs1.scaled c with factors := fun b => c * g b } : FState K) = FState.scaled c { fs1 with factors := g } := rfl
  rw [h1, ho.calibrate]
  generalize o.calibrate it i { fs1 with factors := g } = g'
  have h2 := scaled_visitFactors (o := o) (o' := o') hp cfg dv isd il il' u { fs1 with factors := g' } q
  unfold FState.scaled at h2 ⊢
  dsimp only at h2 ⊢
  rw [h2]
  generalize visitFactors p o cfg dv isd il u { fs1 with factors := g' } q = r
  exact Prod.ext rfl (scaled_update c cfg r.2 (predInSample cfg r.1))

theorem scaled_featurePass (hp : ParamsScaled c p p') (ho : OracleScaled c o o') (it dv : ℕ) (isd : Bool) (il il' : Flt K) :
    ∀ (i : ℕ) (cfgs : List FeatureCfg) (fss : List (FState K)) (pr : Pred K),
      featurePass p' o' it dv isd il' i cfgs (fss.map (·.scaled c)) (pr.scaled c) =
        ((featurePass p o it dv isd il i cfgs fss pr).1.map (·.scaled c), (featurePass p o it dv isd il i cfgs fss pr).2.scaled c) := by
  intro i cfgs
  induction cfgs generalizing i with
  | nil => intro fss pr; rfl
  | cons cfg cfgs ih =>
    intro fss pr
    cases fss with
    | nil => rfl
    | cons fs fss =>
      rw [List.map_cons]
      unfold featurePass
      dsimp only
      have hsk : skipped p' it cfg = skipped p it cfg := by unfold skipped; rw [hp.hierarchical, hp.hierarchicalIterations]
      have h0 : (if it = 0 then { fs.scaled c with factors := fun _ => 0 } else fs.scaled c : FState K) =
          (if it = 0 then { fs with factors := fun _ => 0 } else fs : FState K).scaled c := by
        split
        · unfold FState.scaled; simp only [mul_zero]
        · rfl
      rw [hsk, h0]
      generalize (if it = 0 then { fs with factors := fun _ => 0 } else fs : FState K) = fs1
      by_cases hs : skipped p it cfg = true
      · simp only [hs, if_true, ih, List.map_cons]
        rfl
      · simp only [hs]
        rw [if_neg (by simp), if_neg (by simp), scaled_featureIteration (o := o) hp ho it i cfg dv isd il il']
        simp only [ih, List.map_cons]

theorem scaled_removePreds : ∀ (cfgs : List FeatureCfg) (fss : List (FState K)) (pr : Pred K),
    removePreds cfgs (fss.map (·.scaled c)) (pr.scaled c) =
      (removePreds cfgs fss pr).map fun r => (r.1.map (·.scaled c), r.2.scaled c) := by
  intro cfgs
  induction cfgs with
  | nil => intro fss pr; rfl
  | cons cfg cfgs ih =>
    intro fss pr
    cases fss with
    | nil => rfl
    | cons fs fss =>
      rw [List.map_cons]
      unfold removePreds
      obtain ⟨f, fo, agg, fit, z⟩ := fs
      cases agg with
      | none => rfl
      | some agg =>
        simp only [FState.scaled, Option.map_some]
        have := ih fss (pr.remove cfg (predInSample cfg ⟨f, fo, some agg, fit, z⟩))
        rw [← scaled_remove] at this
        unfold predInSample FState.scaled at *
        dsimp only at this ⊢
        rw [this]
        cases removePreds cfgs fss _ with
        | error e => rfl
        | ok r => simp only [Except.map, List.map_cons, FState.scaled, Option.map_some, mul_sub]

theorem scaled_factorsDeviation (cfgs : List FeatureCfg) (fss : List (FState K)) :
    factorsDeviation cfgs (fss.map (·.scaled c)) = |c| * factorsDeviation cfgs fss := by
  unfold factorsDeviation
  rw [← mul_div_assoc]
  congr 1
  induction cfgs generalizing fss with
  | nil => simp
  | cons cfg cfgs ih =>
    cases fss with
    | nil => simp
    | cons fs fss =>
      rw [List.map_cons, List.zipWith_cons_cons, List.zipWith_cons_cons, List.sum_cons, List.sum_cons, ih, mul_add]
      congr 1
      unfold factorDeviation
      rw [← mul_div_assoc, ← List.sum_map_mul_left]
      congr 3
      funext b
      show |c * _ - c * _| = _
      rw [← mul_sub, abs_mul]

theorem scaled_isDiverged {k : K} (hk : 0 < k) (a b : Flt K) : isDiverged (lossScaled k a) (lossScaled k b) = isDiverged a b := by
  unfold isDiverged
  cases a <;> cases b <;> simp [lossScaled, Flt.twice, Flt.gt]
  rw [mul_assoc]
  exact mul_lt_mul_iff_right₀ hk

theorem scaled_lossChange {k : K} (hk : 0 < k) (a b : Flt K) (h : k = 1 ∨ (a = .fin 0 → b = .fin 0)) :
    lossChange (lossScaled k a) (lossScaled k b) = lossChange a b := by
  rcases h with rfl | h
  · have : ∀ x : Flt K, lossScaled 1 x = x := by intro x; cases x <;> simp [lossScaled]
    rw [this, this]
  · unfold lossChange
    cases a with
    | fin a =>
      by_cases ha : a = 0
      · rw [h (by rw [ha])]
        simp [lossScaled, ha, Flt.neZero, Flt.sub]
      · cases b with
        | fin b =>
          simp [lossScaled, Flt.neZero, Flt.sub, Flt.div, ha, hk.ne']
          rw [← mul_sub, mul_div_mul_left _ _ hk.ne']
        | nan => simp [lossScaled, Flt.neZero, Flt.sub, Flt.div, ha, hk.ne']
        | pinf => simp [lossScaled, Flt.neZero, Flt.sub, Flt.div, ha, hk.ne', hk]
        | ninf => simp [lossScaled, Flt.neZero, Flt.sub, Flt.div, ha, hk.ne', hk]
    | nan => cases b <;> simp [lossScaled, Flt.neZero, Flt.sub, Flt.div]
    | pinf => cases b <;> simp [lossScaled, Flt.neZero, Flt.sub, Flt.div]
    | ninf => cases b <;> simp [lossScaled, Flt.neZero, Flt.sub, Flt.div]

/-- States of trainings in different units. -/
structure StateScaled (c : K) (p p' : Params K) (s s' : TState K) : Prop where
  iteration : s'.iteration = s.iteration
  pred : s'.pred = s.pred.scaled c
  feats : s'.feats = s.feats.map (·.scaled c)
  diverging : s'.diverging = s.diverging
  isDiverging : s'.isDiverging = s.isDiverging
  loss : s'.loss = lossScaled (c ^ 2) s.loss
  initialLoss : s'.initialLoss = lossScaled (c ^ 2) s.initialLoss
  lossChange : s'.lossChange = s.lossChange
  delta : s'.delta ≤ p'.minimalFactorChange ↔ s.delta ≤ p.minimalFactorChange
  prediction : s'.prediction = s.prediction.scaled c

/-- A training whose loss is 0 stays at 0: what it takes for a change of units not to matter for the change of the loss. -/
structure StaysZero (p : Params K) (o : Oracle K) (cfgs : List FeatureCfg) (prior : ℕ → K) : Prop where
  pass : ∀ it dv isd il fss pr, o.loss pr = .fin 0 → o.loss (featurePass p o it dv isd il 0 cfgs fss pr).2 = .fin 0
  start : isDiverged (o.loss ⟨prior, fun _ => 0⟩) (.fin 0) = false

/-- The loss of the state belongs to its prediction, unless the training diverges. -/
structure LossOf (o : Oracle K) (il : Flt K) (s : TState K) : Prop where
  initial : s.initialLoss = il
  same : s.isDiverging = false → o.loss s.pred = s.loss
  diverging : s.isDiverging = true → isDiverged il s.loss = true

theorem scaled_iterate (hc : c ≠ 0) (hp : ParamsScaled c p p') (ho : OracleScaled c o o') (cfgs : List FeatureCfg) (prior : ℕ → K)
    (hz : c ^ 2 = 1 ∨ StaysZero p o cfgs prior) (s s' : TState K) (h : StateScaled c p p' s s')
    (hl : LossOf o (o.loss ⟨prior, fun _ => 0⟩) s) :
    (∃ e, iterate p o cfgs s = .error e ∧ iterate p' o' cfgs s' = .error e) ∨
    (∃ t t', iterate p o cfgs s = .ok t ∧ iterate p' o' cfgs s' = .ok t' ∧ StateScaled c p p' t t' ∧
      LossOf o (o.loss ⟨prior, fun _ => 0⟩) t) := by
  have hk : 0 < c ^ 2 := by positivity
  unfold iterate
  have hpass := scaled_featurePass hp ho s.iteration s.diverging s.isDiverging s.initialLoss s'.initialLoss 0 cfgs s.feats s.pred
  rw [← h.pred, ← h.feats] at hpass
  rw [h.iteration, h.diverging, h.isDiverging]
  have hzero : s.loss = .fin 0 → c ^ 2 = 1 ∨
      o.loss (featurePass p o s.iteration s.diverging s.isDiverging s.initialLoss 0 cfgs s.feats s.pred).2 = .fin 0 := by
    intro h0
    rcases hz with hz | hz
    · exact .inl hz
    · right
      refine hz.pass _ _ _ _ _ _ ?_
      cases hd : s.isDiverging with
      | false => rw [hl.same hd, h0]
      | true =>
        have := hl.diverging hd
        rw [h0, hz.start] at this
        cases this
  rw [hpass]
  generalize featurePass p o s.iteration s.diverging s.isDiverging s.initialLoss 0 cfgs s.feats s.pred = r at hzero
  obtain ⟨f, q⟩ := r
  simp only at hzero
  dsimp only
  rw [ho.loss, h.initialLoss, scaled_factorsDeviation]
  have hcc : checkConvergence (lossScaled (c ^ 2) s.initialLoss) (lossScaled (c ^ 2) (o.loss q)) s.diverging =
      checkConvergence s.initialLoss (o.loss q) s.diverging := by
    unfold checkConvergence
    rw [scaled_isDiverged hk]
  have hlc : CB.lossChange s'.loss (lossScaled (c ^ 2) (o.loss q)) = CB.lossChange s.loss (o.loss q) := by
    rw [h.loss]
    refine scaled_lossChange hk _ _ ?_
    by_cases h1 : c ^ 2 = 1
    · exact .inl h1
    · exact .inr fun h0 => (hzero h0).resolve_left h1
  have hdelta : |c| * factorsDeviation cfgs f ≤ p'.minimalFactorChange ↔ factorsDeviation cfgs f ≤ p.minimalFactorChange := by
    rw [hp.factorChange]
    exact mul_le_mul_iff_right₀ (abs_pos.mpr hc)
  rw [hcc, hlc]
  have hdiv : ∀ r, checkConvergence s.initialLoss (o.loss q) s.diverging = .ok r → r.2 = isDiverged s.initialLoss (o.loss q) := by
    intro r hr
    unfold checkConvergence at hr
    split_ifs at hr with h1 h2
    · simp only [Except.ok.injEq] at hr; rw [← hr, h1]
    · simp only [Except.ok.injEq] at hr; rw [← hr]; simpa using h1
  cases hcv : checkConvergence s.initialLoss (o.loss q) s.diverging with
  | error e => exact Or.inl ⟨e, rfl, rfl⟩
  | ok r =>
    have hr := hdiv r hcv
    obtain ⟨d, isd⟩ := r
    simp only at hr
    dsimp only
    cases isd with
    | false =>
      exact Or.inr ⟨_, _, rfl, rfl, ⟨rfl, rfl, rfl, rfl, rfl, rfl, rfl, rfl, hdelta, rfl⟩,
        ⟨hl.initial, fun _ => rfl, fun h => nomatch h⟩⟩
    | true =>
      simp only [if_true]
      rw [scaled_removePreds]
      cases removePreds cfgs f q with
      | error e => exact Or.inl ⟨e, rfl, rfl⟩
      | ok r =>
        exact Or.inr ⟨_, _, rfl, rfl, ⟨rfl, rfl, rfl, rfl, rfl, rfl, rfl, rfl, hdelta, rfl⟩,
          ⟨hl.initial, (fun h => nomatch h), fun _ => by rw [← hl.initial]; exact hr.symm⟩⟩

theorem StateScaled.continues (hp : ParamsScaled c p p') {s s' : TState K} (h : StateScaled c p p' s s') :
    CB.continues p' s' = CB.continues p s := by
  unfold CB.continues checkStop
  simp only [h.iteration, h.isDiverging, h.lossChange, h.delta, hp.maximalIterations, hp.lossChange, hp.hierarchical,
    hp.hierarchicalIterations]

theorem scaled_loop (hc : c ≠ 0) (hp : ParamsScaled c p p') (ho : OracleScaled c o o') (cfgs : List FeatureCfg) (prior : ℕ → K)
    (hz : c ^ 2 = 1 ∨ StaysZero p o cfgs prior) : ∀ (fuel : ℕ) (s s' : TState K), StateScaled c p p' s s' →
    LossOf o (o.loss ⟨prior, fun _ => 0⟩) s →
    (loop p o cfgs fuel s = .outOfFuel ∧ loop p' o' cfgs fuel s' = .outOfFuel) ∨
    (∃ e, loop p o cfgs fuel s = .failed e ∧ loop p' o' cfgs fuel s' = .failed e) ∨
    (∃ t t', loop p o cfgs fuel s = .done t ∧ loop p' o' cfgs fuel s' = .done t' ∧ StateScaled c p p' t t') := by
  intro fuel
  induction fuel with
  | zero =>
    intro s s' h _
    unfold loop
    rw [h.continues hp]
    split
    · exact Or.inl ⟨rfl, rfl⟩
    · exact Or.inr (Or.inr ⟨s, s', rfl, rfl, h⟩)
  | succ fuel ih =>
    intro s s' h hl
    unfold loop
    rw [h.continues hp]
    split
    · rcases scaled_iterate hc hp ho cfgs prior hz s s' h hl with ⟨e, e1, e2⟩ | ⟨t, t', e1, e2, ht, hlt⟩
      · rw [e1, e2]; exact Or.inr (Or.inl ⟨e, rfl, rfl⟩)
      · rw [e1, e2]; exact ih t t' ht hlt
    · exact Or.inr (Or.inr ⟨s, s', rfl, rfl, h⟩)

theorem scaled_prepareFeatures : ∀ fss : List (FState K), prepareFeatures (fss.map (·.scaled c)) =
    (prepareFeatures fss).map fun l => l.map fun g b => c * g b := by
  intro fss
  induction fss with
  | nil => rfl
  | cons fs fss ih =>
    obtain ⟨f, fo, agg, fit, z⟩ := fs
    rw [List.map_cons]
    unfold prepareFeatures
    cases agg with
    | none => rfl
    | some agg =>
      simp only [FState.scaled, Option.map_some]
      unfold FState.scaled at ih
      rw [ih]
      cases prepareFeatures fss <;> rfl

/-- The outcome of `_fit_main` in other units. -/
theorem scaled_fitMain (hc : c ≠ 0) (hp : ParamsScaled c p p') (ho : OracleScaled c o o') (cfgs : List FeatureCfg) (prior : ℕ → K)
    (hz : c ^ 2 = 1 ∨ StaysZero p o cfgs prior) (fuel : ℕ) :
    (fitMain p o cfgs prior fuel = none ∧ fitMain p' o' cfgs (fun s => c * prior s) fuel = none) ∨
    (∃ e, fitMain p o cfgs prior fuel = some (.error e) ∧ fitMain p' o' cfgs (fun s => c * prior s) fuel = some (.error e)) ∨
    (∃ r r', fitMain p o cfgs prior fuel = some (.ok r) ∧ fitMain p' o' cfgs (fun s => c * prior s) fuel = some (.ok r') ∧
      r'.factors = r.factors.map (fun g b => c * g b) ∧ r'.iterations = r.iterations ∧ r'.prediction = r.prediction.scaled c) := by
  have h0 : (⟨fun s => c * prior s, fun _ => 0⟩ : Pred K) = Pred.scaled c ⟨prior, fun _ => 0⟩ := by
    unfold Pred.scaled; simp only [mul_zero]
  have hs : StateScaled c p p' (startState o cfgs prior) (startState o' cfgs fun s => c * prior s) := by
    unfold startState
    rw [h0]
    refine ⟨rfl, rfl, ?_, rfl, rfl, ho.loss _, ho.loss _, rfl, hp.start, rfl⟩
    dsimp only
    rw [List.map_map]
    congr 1
    funext _
    simp [FState.scaled, FState.init]
  have hl : LossOf o (o.loss ⟨prior, fun _ => 0⟩) (startState o cfgs prior) := ⟨rfl, fun _ => rfl, fun h => nomatch h⟩
  have hk : 0 < c ^ 2 := by positivity
  unfold fitMain
  rcases scaled_loop hc hp ho cfgs prior hz fuel _ _ hs hl with ⟨e1, e2⟩ | ⟨e, e1, e2⟩ | ⟨t, t', e1, e2, ht⟩
  · rw [e1, e2]; exact Or.inl ⟨rfl, rfl⟩
  · rw [e1, e2]; exact Or.inr (Or.inl ⟨e, rfl, rfl⟩)
  · rw [e1, e2]
    dsimp only
    rw [ht.feats, scaled_prepareFeatures]
    cases prepareFeatures t.feats with
    | error e => exact Or.inr (Or.inl ⟨e, rfl, rfl⟩)
    | ok fac =>
      dsimp only [Except.map]
      have hcc : checkConvergence t'.initialLoss t'.loss t'.diverging = checkConvergence t.initialLoss t.loss t.diverging := by
        rw [ht.initialLoss, ht.loss, ht.diverging]
        unfold checkConvergence
        rw [scaled_isDiverged hk]
      rw [hcc]
      cases checkConvergence t.initialLoss t.loss t.diverging with
      | error e => exact Or.inr (Or.inl ⟨e, rfl, rfl⟩)
      | ok r => exact Or.inr (Or.inr ⟨_, _, rfl, rfl, rfl, ht.iteration, ht.prediction⟩)

end
end CB
