import Verif.Model.Training
import Mathlib.Data.List.Forall2

/-!
# Two trainings that run in parallel

If two data sets are related such that everything training computes per bin agrees, the trainings give the same factors.
-/

set_option autoImplicit false
set_option linter.unusedSectionVars false

namespace CB

section
variable {K : Type*} [Field K] [LinearOrder K]

/-- Two bound features that agree up to the samples; `R` relates running predictions. -/
structure CfgSim (R : Pred K → Pred K → Prop) (c c' : FeatureCfg) : Prop where
  group : c'.group = c.group
  external : c'.external = c.external
  nFinite : c'.nFinite = c.nFinite
  missing : c'.missingNotLearned = c.missingNotLearned
  update : ∀ (v : ℕ → K) p p', R p p' → R (p.update c fun s => v (c.bin s)) (p'.update c' fun s => v (c'.bin s))
  remove : ∀ (v : ℕ → K) p p', R p p' → R (p.remove c fun s => v (c.bin s)) (p'.remove c' fun s => v (c'.bin s))

/-- Two oracles that agree on related predictions. -/
structure OracleSim (R : Pred K → Pred K → Prop) (o o' : Oracle K) : Prop where
  estimate : ∀ it i p p' fs, R p p' → o'.estimate it i p' fs = o.estimate it i p fs
  smooth : ∀ it i p p' fs u, R p p' → o'.smooth it i p' fs u = o.smooth it i p fs u
  learnRate : o'.learnRate = o.learnRate
  calibrate : o'.calibrate = o.calibrate
  loss : ∀ p p', R p p' → o'.loss p' = o.loss p

variable {R : Pred K → Pred K → Prop}

theorem sim_updateFactors {c c' : FeatureCfg} (hc : CfgSim R c c') (fs : FState K) (u : ℕ → K) (lr : K) :
    updateFactors c' fs u lr = updateFactors c fs u lr := by
  unfold updateFactors
  rw [hc.nFinite, hc.missing]

theorem sim_predictFactors {c c' : FeatureCfg} (hc : CfgSim R c c') (fs : FState K) (sm : ℕ → Option K) (lr : K) :
    predictFactors c' fs sm lr = predictFactors c fs sm lr := by
  unfold predictFactors
  rw [hc.nFinite]

theorem sim_clipUpdate {c c' : FeatureCfg} (hc : CfgSim R c c') (k : ClipConsts K) (fs : FState K) :
    clipUpdate k c' fs = clipUpdate k c fs := by
  unfold clipUpdate
  rw [hc.group, hc.external]

theorem sim_visitFactors (p : Params K) {o o' : Oracle K} (ho : OracleSim R o o') {c c' : FeatureCfg} (hc : CfgSim R c c')
    (dv : ℕ) (isd : Bool) (il : Flt K) (u : ℕ → K) (fs : FState K) (pr pr' : Pred K) (h : R pr pr') :
    (visitFactors p o' c' dv isd il u fs pr').1 = (visitFactors p o c dv isd il u fs pr).1 ∧
      R (visitFactors p o c dv isd il u fs pr).2 (visitFactors p o' c' dv isd il u fs pr').2 := by
  unfold visitFactors
  rw [sim_clipUpdate hc]
  have h1 := hc.update (clipUpdate p.consts c fs) pr pr' h
  have h2 := hc.remove (clipUpdate p.consts c fs) _ _ h1
  have hl := ho.loss _ _ h1
  unfold predInSample
  dsimp only
  rw [hl]
  cases (p.clip && p.aggregate) with
  | false =>
    simp only [Bool.false_eq_true, if_false]
    exact ⟨trivial, h⟩
  | true =>
    cases isd with
    | false =>
      simp only [Bool.false_eq_true, if_false, if_true]
      exact ⟨trivial, h⟩
    | true =>
      simp only [if_true]
      split
      · split
        · split
          · exact ⟨rfl, h2⟩
          · exact ⟨rfl, h2⟩
        · exact ⟨rfl, h2⟩
      · exact ⟨rfl, h2⟩

theorem sim_featureIteration (p : Params K) {o o' : Oracle K} (ho : OracleSim R o o') (it i : ℕ) {c c' : FeatureCfg}
    (hc : CfgSim R c c') (dv : ℕ) (isd : Bool) (il : Flt K) (fs : FState K) (pr pr' : Pred K) (h : R pr pr') :
    (featureIteration p o' it i c' dv isd il fs pr').1 = (featureIteration p o it i c dv isd il fs pr).1 ∧
      R (featureIteration p o it i c dv isd il fs pr).2 (featureIteration p o' it i c' dv isd il fs pr').2 := by
  unfold featureIteration
  dsimp only
  have hq : R (if p.aggregate then pr else pr.remove c (predInSample c fs))
      (if p.aggregate then pr' else pr'.remove c' (predInSample c' fs)) := by
    split
    · exact h
    · exact hc.remove fs.factors pr pr' h
  generalize (if p.aggregate then pr else pr.remove c (predInSample c fs)) = q at hq
  generalize (if p.aggregate then pr' else pr'.remove c' (predInSample c' fs)) = q' at hq
  rw [ho.estimate it i q q' fs hq, ho.learnRate, sim_updateFactors hc, sim_predictFactors hc, ho.calibrate,
    ho.smooth it i q q' _ _ hq]
  generalize (o.estimate it i q fs) = u
  generalize updateFactors c fs u (o.learnRate (it + 1)) = fs1
  have hv := fun f => sim_visitFactors p ho hc dv isd il u f q q' hq
  refine ⟨(hv _).1, ?_⟩
  unfold predInSample
  rw [(hv _).1]
  exact hc.update _ _ _ (hv _).2

theorem sim_featurePass (p : Params K) {o o' : Oracle K} (ho : OracleSim R o o') (it dv : ℕ) (isd : Bool) (il : Flt K) :
    ∀ (i : ℕ) (cfgs cfgs' : List FeatureCfg), List.Forall₂ (CfgSim R) cfgs cfgs' → ∀ (fss : List (FState K)) (pr pr' : Pred K),
      R pr pr' →
      (featurePass p o' it dv isd il i cfgs' fss pr').1 = (featurePass p o it dv isd il i cfgs fss pr).1 ∧
        R (featurePass p o it dv isd il i cfgs fss pr).2 (featurePass p o' it dv isd il i cfgs' fss pr').2 := by
  intro i cfgs cfgs' hf
  induction hf generalizing i with
  | nil => intro fss pr pr' h; exact ⟨rfl, h⟩
  | @cons c c' cfgs cfgs' hc _ ih =>
    intro fss pr pr' h
    cases fss with
    | nil => exact ⟨rfl, h⟩
    | cons fs fss =>
      unfold featurePass
      dsimp only
      have hsk : skipped p it c' = skipped p it c := by unfold skipped; rw [hc.group]
      rw [hsk]
      generalize (if it = 0 then { fs with factors := fun _ => 0 } else fs : FState K) = fs1
      by_cases hs : skipped p it c = true
      · simp only [hs, if_true]
        have := ih (i + 1) fss pr pr' h
        exact ⟨by rw [this.1], this.2⟩
      · simp only [hs]
        have h1 := sim_featureIteration p ho it i hc dv isd il fs1 pr pr' h
        have := ih (i + 1) fss _ _ h1.2
        exact ⟨by rw [if_neg (by simp), if_neg (by simp)]; rw [this.1, h1.1], this.2⟩

theorem sim_removePreds : ∀ (cfgs cfgs' : List FeatureCfg), List.Forall₂ (CfgSim R) cfgs cfgs' →
    ∀ (fss : List (FState K)) (pr pr' : Pred K), R pr pr' →
      (∃ e, removePreds cfgs fss pr = .error e ∧ removePreds cfgs' fss pr' = .error e) ∨
      (∃ f q q', removePreds cfgs fss pr = .ok (f, q) ∧ removePreds cfgs' fss pr' = .ok (f, q') ∧ R q q') := by
  intro cfgs cfgs' hf
  induction hf with
  | nil => intro fss pr pr' h; exact Or.inr ⟨[], pr, pr', rfl, rfl, h⟩
  | @cons c c' cfgs cfgs' hc _ ih =>
    intro fss pr pr' h
    cases fss with
    | nil => exact Or.inr ⟨[], pr, pr', rfl, rfl, h⟩
    | cons fs fss =>
      unfold removePreds
      cases hagg : fs.agg with
      | none => exact Or.inl ⟨_, rfl, rfl⟩
      | some agg =>
        dsimp only
        have h1 := hc.remove fs.factors pr pr' h
        rcases ih fss _ _ h1 with ⟨e, e1, e2⟩ | ⟨f, q, q', e1, e2, hq⟩
        · left; refine ⟨e, ?_, ?_⟩
          · unfold predInSample; rw [e1]
          · unfold predInSample; rw [e2]
        · right
          refine ⟨{ fs with agg := some fun b => agg b - fs.factors b } :: f, q, q', ?_, ?_, hq⟩
          · unfold predInSample; rw [e1]
          · unfold predInSample; rw [e2]

theorem sim_factorsDeviation : ∀ (cfgs cfgs' : List FeatureCfg), List.Forall₂ (CfgSim R) cfgs cfgs' →
    ∀ fss : List (FState K), factorsDeviation cfgs' fss = factorsDeviation cfgs fss := by
  intro cfgs cfgs' hf fss
  unfold factorsDeviation
  rw [hf.length_eq]
  congr 2
  induction hf generalizing fss with
  | nil => rfl
  | cons hc _ ih =>
    cases fss with
    | nil => rfl
    | cons fs fss =>
      rw [List.zipWith_cons_cons, List.zipWith_cons_cons, ih]
      unfold factorDeviation
      rw [hc.nFinite]

/-- States of the two trainings that agree up to the samples. -/
structure StateSim (R : Pred K → Pred K → Prop) (s s' : TState K) : Prop where
  rest : { s' with pred := s.pred, prediction := s.prediction } = s
  pred : R s.pred s'.pred
  prediction : R s.prediction s'.prediction

theorem sim_iterate (p : Params K) {o o' : Oracle K} (ho : OracleSim R o o') (cfgs cfgs' : List FeatureCfg)
    (hf : List.Forall₂ (CfgSim R) cfgs cfgs') (s s' : TState K) (h : StateSim R s s') :
    (∃ e, iterate p o cfgs s = .error e ∧ iterate p o' cfgs' s' = .error e) ∨
    (∃ t t', iterate p o cfgs s = .ok t ∧ iterate p o' cfgs' s' = .ok t' ∧ StateSim R t t') := by
  obtain ⟨it, pr, fs, dv, isd, l, il, lc, dl, pn⟩ := s
  obtain ⟨it', pr', fs', dv', isd', l', il', lc', dl', pn'⟩ := s'
  obtain ⟨hr, hp, hpn⟩ := h
  simp only [TState.mk.injEq, true_and, and_true] at hr
  obtain ⟨rfl, rfl, rfl, rfl, rfl, rfl, rfl, rfl⟩ := hr
  unfold iterate
  dsimp only at hp ⊢
  have h1 := sim_featurePass p ho it' dv' isd' il' 0 cfgs cfgs' hf fs' pr pr' hp
  generalize featurePass p o it' dv' isd' il' 0 cfgs fs' pr = a at h1
  generalize featurePass p o' it' dv' isd' il' 0 cfgs' fs' pr' = a' at h1
  obtain ⟨f, q⟩ := a
  obtain ⟨f', q'⟩ := a'
  obtain ⟨h1, h2⟩ := h1
  simp only at h1 h2
  subst h1
  rw [ho.loss q q' h2, sim_factorsDeviation cfgs cfgs' hf]
  dsimp only
  cases checkConvergence il' (o.loss q) dv' with
  | error e => exact Or.inl ⟨e, rfl, rfl⟩
  | ok r =>
    obtain ⟨d, isd⟩ := r
    dsimp only
    cases isd with
    | false => exact Or.inr ⟨_, _, rfl, rfl, ⟨rfl, h2, h2⟩⟩
    | true =>
      simp only [if_true]
      rcases sim_removePreds cfgs cfgs' hf f' q q' h2 with ⟨e, e1, e2⟩ | ⟨g, t, t', e1, e2, ht⟩
      · rw [e1, e2]; exact Or.inl ⟨e, rfl, rfl⟩
      · rw [e1, e2]; exact Or.inr ⟨_, _, rfl, rfl, ⟨rfl, ht, h2⟩⟩

theorem StateSim.fields {s s' : TState K} (h : StateSim R s s') :
    s'.iteration = s.iteration ∧ s'.delta = s.delta ∧ s'.lossChange = s.lossChange ∧ s'.isDiverging = s.isDiverging ∧
      s'.feats = s.feats ∧ s'.initialLoss = s.initialLoss ∧ s'.loss = s.loss ∧ s'.diverging = s.diverging := by
  have h0 := h.rest
  refine ⟨?_, ?_, ?_, ?_, ?_, ?_, ?_, ?_⟩ <;> rw [← h0]

theorem sim_loop (p : Params K) {o o' : Oracle K} (ho : OracleSim R o o') (cfgs cfgs' : List FeatureCfg)
    (hf : List.Forall₂ (CfgSim R) cfgs cfgs') : ∀ (fuel : ℕ) (s s' : TState K), StateSim R s s' →
    (loop p o cfgs fuel s = .outOfFuel ∧ loop p o' cfgs' fuel s' = .outOfFuel) ∨
    (∃ e, loop p o cfgs fuel s = .failed e ∧ loop p o' cfgs' fuel s' = .failed e) ∨
    (∃ t t', loop p o cfgs fuel s = .done t ∧ loop p o' cfgs' fuel s' = .done t' ∧ StateSim R t t') := by
  intro fuel
  induction fuel with
  | zero =>
    intro s s' h
    have hcont : continues p s' = continues p s := by
      obtain ⟨h1, h2, h3, h4, -⟩ := h.fields
      unfold continues
      rw [h1, h2, h3, h4]
    unfold loop
    rw [hcont]
    split
    · exact Or.inl ⟨rfl, rfl⟩
    · exact Or.inr (Or.inr ⟨s, s', rfl, rfl, h⟩)
  | succ fuel ih =>
    intro s s' h
    have hcont : continues p s' = continues p s := by
      obtain ⟨h1, h2, h3, h4, -⟩ := h.fields
      unfold continues
      rw [h1, h2, h3, h4]
    unfold loop
    rw [hcont]
    split
    · rcases sim_iterate p ho cfgs cfgs' hf s s' h with ⟨e, e1, e2⟩ | ⟨t, t', e1, e2, ht⟩
      · rw [e1, e2]; exact Or.inr (Or.inl ⟨e, rfl, rfl⟩)
      · rw [e1, e2]; exact ih t t' ht
    · exact Or.inr (Or.inr ⟨s, s', rfl, rfl, h⟩)

/-- The outcome of `_fit_main` is the same up to the samples. -/
theorem sim_fitMain (p : Params K) {o o' : Oracle K} (ho : OracleSim R o o') (cfgs cfgs' : List FeatureCfg)
    (hf : List.Forall₂ (CfgSim R) cfgs cfgs') (prior prior' : ℕ → K) (h0 : R ⟨prior, fun _ => 0⟩ ⟨prior', fun _ => 0⟩)
    (fuel : ℕ) :
    (fitMain p o cfgs prior fuel = none ∧ fitMain p o' cfgs' prior' fuel = none) ∨
    (∃ e, fitMain p o cfgs prior fuel = some (.error e) ∧ fitMain p o' cfgs' prior' fuel = some (.error e)) ∨
    (∃ r r', fitMain p o cfgs prior fuel = some (.ok r) ∧ fitMain p o' cfgs' prior' fuel = some (.ok r') ∧
      r'.factors = r.factors ∧ r'.iterations = r.iterations ∧ R r.prediction r'.prediction) := by
  have hs : StateSim R (startState o cfgs prior) (startState o' cfgs' prior') := by
    refine ⟨?_, h0, h0⟩
    unfold startState
    have : (cfgs'.map fun _ => (FState.init : FState K)) = cfgs.map fun _ => FState.init := by
      rw [List.map_const', List.map_const', hf.length_eq]
    dsimp only
    rw [this, ho.loss _ _ h0]
  unfold fitMain
  rcases sim_loop p ho cfgs cfgs' hf fuel _ _ hs with ⟨e1, e2⟩ | ⟨e, e1, e2⟩ | ⟨t, t', e1, e2, ht⟩
  · rw [e1, e2]; exact Or.inl ⟨rfl, rfl⟩
  · rw [e1, e2]; exact Or.inr (Or.inl ⟨e, rfl, rfl⟩)
  · rw [e1, e2]
    dsimp only
    obtain ⟨h1, -, -, -, h5, h6, h7, h8⟩ := ht.fields
    rw [h5]
    cases prepareFeatures t.feats with
    | error e => exact Or.inr (Or.inl ⟨e, rfl, rfl⟩)
    | ok fac =>
      dsimp only
      rw [h6, h7, h8]
      cases checkConvergence t.initialLoss t.loss t.diverging with
      | error e => exact Or.inr (Or.inl ⟨e, rfl, rfl⟩)
      | ok r => exact Or.inr (Or.inr ⟨_, _, rfl, rfl, rfl, h1, ht.prediction⟩)

end
end CB
