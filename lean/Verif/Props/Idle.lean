import Verif.Spec.Idle
import Verif.Props.WholeFit
import Verif.Props.CostDescent
import Verif.Props.SmootherCentres

/-!
# C112: a prediction that is already right is left alone
-/

set_option autoImplicit false
set_option linter.unusedSectionVars false

namespace CB
open Finset Spec

section
variable {K : Type*} [Field K] [LinearOrder K] [IsStrictOrderedRing K] [FloorRing K]

/-- A fitted feature whose factors are all neutral contributes nothing, whatever the row. -/
theorem predict_neutral (f : FittedFeature K) (hpos : 1 ≤ f.group.length) (hlen : f.nBins.length = f.group.length)
    (row : List (Flt K)) (hr : row.length = f.group.length) (h : ∀ b ≤ f.nFinite, f.factors b = 0) : f.predict row = 0 := by
  by_cases hf : finiteSemiPositive row = true
  · by_cases h2 : 2 ≤ f.group.length
    · rw [predict_multi f hlen h2 row hr hf]
      split_ifs with hv
      · exact h _ (encode_lt _ _ (validRow_tuple _ _ (by omega) hv)).le
      · rfl
    · obtain ⟨n, hn⟩ := List.length_eq_one_iff.mp (show f.nBins.length = 1 by omega)
      obtain ⟨b, hb⟩ := List.length_eq_one_iff.mp (show row.length = 1 by omega)
      obtain ⟨x, hx, hx0⟩ := (finiteSemiPositive_iff row).mp hf b (by rw [hb]; simp)
      rw [hb, hx, predict_one f n hn (by omega) x hx0]
      split_ifs with hlt
      · refine h _ ?_
        unfold FittedFeature.nFinite
        rw [hn, List.prod_singleton]
        omega
      · rfl
  · unfold FittedFeature.predict
    rw [if_neg hf]
    exact h _ le_rfl

end

theorem clipUpdate_zero (c : ClipConsts ℝ) (hok : c.Ok) (cfg : FeatureCfg) (fs : FState ℝ) (b : ℕ) (h0 : fs.factors b = 0)
    (hst : stored fs b = 0) : clipUpdate c cfg fs b = 0 := by
  have hzero : clipTo 0 c.logHalf c.logTwo = 0 := clipTo_zero _ _ hok.half hok.two
  unfold stored at hst
  unfold clipUpdate
  cases hi : fs.isFitted with
  | false => simp only; rw [h0, hzero]
  | true =>
    cases ha : fs.agg with
    | none => simp only; rw [h0, hzero]
    | some agg =>
      rw [ha] at hst
      simp only at hst
      simp only
      rw [h0, hzero, hst, sub_zero, sub_zero]
      exact clipTo_zero _ _ (le_trans (hok.min_le _ _) hok.half) (le_trans hok.two (hok.le_max _ _))

/-- A visit of a feature with neutral estimates. -/
theorem idle_feature (p : Params ℝ) (hp : p.aggregate = true) (hc : p.clip = true → p.consts.Ok) (o : Oracle ℝ) (it i : ℕ)
    (cfg : FeatureCfg) (dv : ℕ) (il : Flt ℝ) (fs : FState ℝ) (pred : Pred ℝ) (hbin : ∀ s, cfg.bin s ≤ cfg.nFinite)
    (hest : ∀ b ≤ cfg.nFinite, o.estimate it i pred fs b = 0)
    (hsm : ∀ fs', ∀ b < cfg.nFinite, ∀ v, o.smooth it i pred fs' (o.estimate it i pred fs) b = some v → v = 0)
    (hcal : ∀ fs' : FState ℝ, (∀ b ≤ cfg.nFinite, fs'.factors b = 0) → ∀ b ≤ cfg.nFinite, o.calibrate it i fs' b = 0)
    (hw : fs.WF) (hst : ∀ b ≤ cfg.nFinite, stored fs b = 0) :
    (∀ b ≤ cfg.nFinite, stored (featureIteration p o it i cfg dv false il fs pred).1 b = 0) ∧
      (featureIteration p o it i cfg dv false il fs pred).2 = pred := by
  have hfac : ∀ b ≤ cfg.nFinite, (featureIteration p o it i cfg dv false il fs pred).1.factors b = 0 := by
    unfold featureIteration visitFactors
    simp only [hp, if_true, Bool.false_eq_true, if_false, Bool.and_true]
    set fs1 := updateFactors cfg fs (o.estimate it i pred fs) (o.learnRate (it + 1)) with hfs1
    have h1 : ∀ b ≤ cfg.nFinite, predictFactors cfg fs1 (o.smooth it i pred fs1 (o.estimate it i pred fs)) (o.learnRate (it + 1)) b = 0 := by
      intro b hb
      unfold predictFactors
      split_ifs with hlt hz
      · rw [mul_zero]
      · cases hv : o.smooth it i pred fs1 (o.estimate it i pred fs) b with
        | none => rfl
        | some v => rw [hsm _ _ hlt _ hv]; simp
      · rw [hfs1]
        unfold updateFactors
        simp only [if_true]
        split_ifs
        · rfl
        · rw [hest _ le_rfl, zero_mul]
    have h2 := hcal { fs1 with factors := predictFactors cfg fs1 (o.smooth it i pred fs1 (o.estimate it i pred fs)) (o.learnRate (it + 1)) } h1
    intro b hb
    by_cases hcl : p.clip = true
    · have hok := hc hcl
      simp only [hcl, if_true]
      exact clipUpdate_zero _ hok cfg _ b (h2 b hb) (hst b hb)
    · simp only [hcl]
      exact h2 b hb
  obtain ⟨h1, h2⟩ := featureIteration_aggregate p o it i cfg dv false il fs pred hp hw
  refine ⟨fun b hb => by rw [h2, hst b hb, hfac b hb, add_zero], ?_⟩
  rw [h1]
  have : predInSample cfg (featureIteration p o it i cfg dv false il fs pred).1 = fun _ => 0 := by
    funext s
    exact hfac _ (hbin s)
  rw [this]
  unfold Pred.update
  cases pred
  split <;> simp

/-- A pass over features with neutral estimates. -/
theorem idle_pass (p : Params ℝ) (o : Oracle ℝ) (I : FeatureCfg → FState ℝ → Prop) (it dv : ℕ) (il : Flt ℝ) (pred : Pred ℝ)
    (hI : ∀ cfg fs f g, I cfg fs → I cfg { fs with factors := f, factorsOld := g }) :
    ∀ (cfgs : List FeatureCfg) (k : ℕ) (fss : List (FState ℝ)),
      (∀ (j : ℕ) cfg fs, cfgs[j]? = some cfg → fss[j]? = some fs → I cfg fs) →
      (∀ (j : ℕ) cfg, cfgs[j]? = some cfg → ∀ fs, I cfg fs →
        I cfg (featureIteration p o it (k + j) cfg dv false il fs pred).1 ∧
          (featureIteration p o it (k + j) cfg dv false il fs pred).2 = pred) →
      (∀ (j : ℕ) cfg fs, cfgs[j]? = some cfg → (featurePass p o it dv false il k cfgs fss pred).1[j]? = some fs → I cfg fs) ∧
        (featurePass p o it dv false il k cfgs fss pred).2 = pred
  | [], k, fss, _, _ => ⟨fun j cfg fs h => by simp at h, by simp [featurePass]⟩
  | cfg :: cfgs, k, [], _, _ => ⟨fun j c fs _ h => by simp [featurePass] at h, by simp [featurePass]⟩
  | cfg :: cfgs, k, fs :: fss, hin, h => by
    obtain ⟨ih1, ih2⟩ := idle_pass p o I it dv il pred hI cfgs (k + 1) fss
      (fun j c f hj hf => hin (j + 1) c f (by simpa using hj) (by simpa using hf))
      (fun j c hj fs hf => by
        have := h (j + 1) c (by simpa using hj) fs hf
        rwa [show k + (j + 1) = k + 1 + j by omega] at this)
    have h0 : I cfg (if it = 0 then { fs with factors := fun _ => 0 } else fs) := by
      have := hin 0 cfg fs rfl rfl
      split_ifs
      · exact hI cfg fs _ fs.factorsOld this
      · exact this
    obtain ⟨g1, g2⟩ := h 0 cfg (by simp) _ h0
    unfold featurePass
    by_cases hsk : skipped p it cfg = true
    · simp only [hsk, if_true]
      refine ⟨fun j c f hj hf => ?_, ih2⟩
      cases j with
      | zero =>
        simp only [List.getElem?_cons_zero, Option.some.injEq] at hj hf
        rw [← hj, ← hf]
        exact hI cfg _ _ _ h0
      | succ j => exact ih1 j c f (by simpa using hj) (by simpa using hf)
    · simp only [hsk]
      rw [add_zero] at g1 g2
      simp only [Bool.false_eq_true, if_false]
      rw [g2]
      refine ⟨fun j c f hj hf => ?_, ih2⟩
      cases j with
      | zero =>
        simp only [List.getElem?_cons_zero, Option.some.injEq] at hj hf
        rw [← hj, ← hf]
        exact g1
      | succ j => exact ih1 j c f (by simpa using hj) (by simpa using hf)

section
variable {σ : Type*} (S : Setup σ) (E : Estimator) (D : TrainSet)

theorem cfg_bin_le_all (f : FeatureSpec) (hg : f.group ≠ []) (X : Table ℝ) (n s : ℕ) : (f.cfg X n).bin s ≤ (f.cfg X n).nFinite := by
  by_cases hs : s < n
  · exact cfg_bin_le f hg X n s hs
  · have : (f.cfg X n).bin s = 0 := by
      show (bindData X n f.group none).1.getD s 0 = 0
      refine List.getD_eq_default _ _ ?_
      have : (bindData X n f.group none).1.length = n := by
        unfold bindData lexBinnos
        simp
      omega
    omega

/-- One pass over the features when there is nothing to learn. -/
theorem idle_featurePass (hagg : S.params.aggregate = true) (hc : S.params.consts = realConsts)
    (hcal : ∀ cfg bw fac, (∀ b ≤ cfg.nFinite, fac b = 0) → ∀ b ≤ cfg.nFinite, E.calibrate cfg bw fac b = 0)
    (hg : ∀ f ∈ S.features, f.1.group ≠ []) (hsm : SmoothersKeepZero S D) (prior : ℕ → ℝ) (hn : NothingToLearn S E D prior)
    (it : ℕ) (il : Flt ℝ) (feats : List (FState ℝ))
    (h6 : ∀ (j : ℕ) cfg fs, (S.cfgs D)[j]? = some cfg → feats[j]? = some fs → fs.WF ∧ ∀ b ≤ cfg.nFinite, stored fs b = 0) :
    (∀ (j : ℕ) cfg fs, (S.cfgs D)[j]? = some cfg →
      (featurePass (S.paramsFor E) (S.oracle E D) it 0 false il 0 (S.cfgs D) feats ⟨prior, fun _ => 0⟩).1[j]? = some fs →
        fs.WF ∧ ∀ b ≤ cfg.nFinite, stored fs b = 0) ∧
      (featurePass (S.paramsFor E) (S.oracle E D) it 0 false il 0 (S.cfgs D) feats ⟨prior, fun _ => 0⟩).2 = ⟨prior, fun _ => 0⟩ := by
  refine idle_pass (S.paramsFor E) (S.oracle E D) (fun cfg fs => fs.WF ∧ ∀ b ≤ cfg.nFinite, stored fs b = 0)
    it 0 il ⟨prior, fun _ => 0⟩ (fun cfg fs f g hI => hI) (S.cfgs D) 0 feats h6 ?_
  intro j cfg hj fs hI
  unfold Setup.cfgs at hj
  rw [List.getElem?_map] at hj
  obtain ⟨f, hfj, rfl⟩ := Option.map_eq_some_iff.mp hj
  have hfm := List.mem_of_getElem? hfj
  rw [zero_add]
  have := idle_feature (S.paramsFor E) hagg (fun _ => by
      show S.params.consts.Ok
      rw [hc]; exact realConsts_ok) (S.oracle E D) it j (f.1.cfg D.X D.n) 0 il fs
    ⟨prior, fun _ => 0⟩ (cfg_bin_le_all f.1 (hg f hfm) D.X D.n)
    (fun b hb => by
      unfold Setup.oracle
      simp only [hfj]
      exact hn f hfm _ b hb)
    (fun fs' b hb v hv => by
      unfold Setup.oracle at hv
      simp only [hfj] at hv
      exact hsm f hfm _ _ (fun b hb => hn f hfm _ b hb.le) b hb v hv)
    (fun fs' h0 b hb => by
      unfold Setup.oracle
      simp only [hfj]
      exact hcal _ _ _ h0 b hb)
    hI.1 hI.2
  exact ⟨⟨featureIteration_WF _ _ _ _ _ _ _ _ _ _, this.1⟩, this.2⟩

/-- A training that has nothing to learn leaves everything as it is, at every iteration. -/
theorem idle_trace (hagg : S.params.aggregate = true) (hc : S.params.consts = realConsts)
    (hcal : ∀ cfg bw fac, (∀ b ≤ cfg.nFinite, fac b = 0) → ∀ b ≤ cfg.nFinite, E.calibrate cfg bw fac b = 0)
    (hg : ∀ f ∈ S.features, f.1.group ≠ []) (hsm : SmoothersKeepZero S D) (prior : ℕ → ℝ) (hn : NothingToLearn S E D prior)
    (hloss : isDiverged ((S.oracle E D).loss ⟨prior, fun _ => 0⟩) ((S.oracle E D).loss ⟨prior, fun _ => 0⟩) = false)
    (past : List (TState ℝ)) (s : TState ℝ)
    (h : Trace (S.paramsFor E) (S.oracle E D) (S.cfgs D) (startState (S.oracle E D) (S.cfgs D) prior) past s) :
    s.diverging = 0 ∧ s.isDiverging = false ∧ s.pred = ⟨prior, fun _ => 0⟩ ∧
      s.initialLoss = (S.oracle E D).loss ⟨prior, fun _ => 0⟩ ∧ s.loss = (S.oracle E D).loss ⟨prior, fun _ => 0⟩ ∧
      ∀ (j : ℕ) cfg fs, (S.cfgs D)[j]? = some cfg → s.feats[j]? = some fs → fs.WF ∧ ∀ b ≤ cfg.nFinite, stored fs b = 0 := by
  induction h with
  | start =>
    refine ⟨rfl, rfl, rfl, rfl, rfl, fun j cfg fs hj hf => ?_⟩
    unfold startState at hf
    simp only [List.getElem?_map, hj, Option.map_some, Option.some.injEq] at hf
    rw [← hf]
    exact ⟨by unfold FState.WF FState.init; simp, fun b _ => rfl⟩
  | @step past s s' htr hcont hit ih =>
    obtain ⟨h1, h2, h3, h4, h5, h6⟩ := ih
    obtain ⟨feats, pred, r, hfp, hcc, hr, hf, hp, -, hil, hl, -, -, -⟩ := iterate_ok _ _ _ s s' hit
    rw [h1, h2, h3] at hfp
    obtain ⟨g1, g2⟩ := idle_featurePass S E D hagg hc hcal hg hsm prior hn s.iteration s.initialLoss s.feats h6
    rw [hfp] at g1 g2
    simp only at g1 g2
    rw [h4, g2] at hcc
    unfold checkConvergence at hcc
    rw [hloss] at hcc
    simp only [Bool.false_eq_true, if_false, Except.ok.injEq, Prod.mk.injEq] at hcc
    rw [← hcc.2] at hr
    simp only [Bool.false_eq_true, if_false, Except.ok.injEq] at hr
    refine ⟨by rw [← hcc.1, h1], hcc.2.symm, by rw [hp, ← hr]; exact g2, by rw [hil, h4], by rw [hl, g2], ?_⟩
    rw [hf, ← hr]
    exact g1

/-- **C112.** If the prediction from which training starts is already such that the estimates of all bins of all features are neutral,
training changes nothing: the fitted model predicts, for every table and every prior prediction, what it would predict without
features. -/
theorem C112_left_alone (hagg : S.params.aggregate = true) (hc : S.params.consts = realConsts)
    (hcal : ∀ cfg bw fac, (∀ b ≤ cfg.nFinite, fac b = 0) → ∀ b ≤ cfg.nFinite, E.calibrate cfg bw fac b = 0)
    (hg : ∀ f ∈ S.features, f.1.group ≠ []) (hsm : SmoothersKeepZero S D) (a : ℝ) (hs : E.scale D.n D.y D.w = .fin a)
    (hn : NothingToLearn S E D (baseline E D a))
    (hloss : isDiverged (E.loss D.n (fun i => E.link.toLink.unlink (baseline E D a i)) D.y D.w)
      (E.loss D.n (fun i => E.link.toLink.unlink (baseline E D a i)) D.y D.w) = false)
    (fuel : ℕ) (m : FittedModel) (h : S.fit E D fuel = some (.ok m)) (prior : Option (ℕ → Flt ℝ)) (X : Table ℝ) (i : ℕ) :
    m.predict prior X i = E.link.toLink.unlink (priorPrediction E.link (.fin a) (E.offset D) prior i).getFin := by
  obtain ⟨a', r, -, hs', hfit, rfl⟩ := fit_ok S E D fuel m h
  rw [hs, Flt.fin.injEq] at hs'
  subst hs'
  obtain ⟨past, s, ht, -, hfac, -, -⟩ := fitMain_ok _ _ _ _ fuel r hfit
  obtain ⟨-, -, -, -, -, h6⟩ := idle_trace S E D hagg hc hcal hg hsm _ hn hloss past s ht
  unfold FittedModel.predict
  simp only
  rw [(C24_link_space _ _ _ _).1]
  have : contributionSum false (fittedFeatures D.X D.n (S.features.map (·.1)) r.factors) X i = 0 := by
    unfold contributionSum
    refine List.sum_eq_zero fun v hv => ?_
    obtain ⟨g, hgm, rfl⟩ := List.mem_map.mp hv
    obtain ⟨j, hj⟩ := List.getElem?_of_mem (List.mem_of_mem_filter hgm)
    unfold fittedFeatures at hj
    rw [List.getElem?_zipWith, List.getElem?_map] at hj
    cases hfj : S.features[j]? with
    | none => rw [hfj] at hj; simp at hj
    | some f =>
      cases hrj : r.factors[j]? with
      | none => rw [hfj, hrj] at hj; simp at hj
      | some fac =>
        rw [hfj, hrj] at hj
        simp only [Option.map_some, Option.some.injEq] at hj
        rw [← hj]
        have hg' := hg f (List.mem_of_getElem? hfj)
        have hfs : (s.feats.map fun fs => fs.agg)[j]? = some (some fac) := by rw [hfac, List.getElem?_map, hrj]; rfl
        rw [List.getElem?_map] at hfs
        obtain ⟨fs, hfs, hagg'⟩ := Option.map_eq_some_iff.mp hfs
        have hst := (h6 j (f.1.cfg D.X D.n) fs (by unfold Setup.cfgs; rw [List.getElem?_map, hfj]; rfl) hfs).2
        refine predict_neutral _ ?_ ?_ _ (by simp [Table.row]) ?_
        · exact List.length_pos_of_ne_nil hg'
        · exact bindData_length D.X D.n f.1.group
        · intro b hb
          have := hst b hb
          unfold stored at this
          rw [hagg'] at this
          exact this
  rw [this, add_zero]

/-- **C112**, parameters: then the parameters of all bins of all features, including the bins of missing values, are neutral. -/
theorem C112_neutral (hagg : S.params.aggregate = true) (hc : S.params.consts = realConsts)
    (hcal : ∀ cfg bw fac, (∀ b ≤ cfg.nFinite, fac b = 0) → ∀ b ≤ cfg.nFinite, E.calibrate cfg bw fac b = 0)
    (hg : ∀ f ∈ S.features, f.1.group ≠ []) (hsm : SmoothersKeepZero S D) (a : ℝ) (hs : E.scale D.n D.y D.w = .fin a)
    (hn : NothingToLearn S E D (baseline E D a))
    (hloss : isDiverged (E.loss D.n (fun i => E.link.toLink.unlink (baseline E D a i)) D.y D.w)
      (E.loss D.n (fun i => E.link.toLink.unlink (baseline E D a i)) D.y D.w) = false)
    (fuel : ℕ) (m : FittedModel) (h : S.fit E D fuel = some (.ok m)) (g : FittedFeature ℝ) (hm : g ∈ m.features) :
    ∀ b ≤ g.nFinite, g.factors b = 0 := by
  obtain ⟨a', r, -, hs', hfit, rfl⟩ := fit_ok S E D fuel m h
  rw [hs, Flt.fin.injEq] at hs'
  subst hs'
  obtain ⟨past, s, ht, -, hfac, -, -⟩ := fitMain_ok _ _ _ _ fuel r hfit
  obtain ⟨-, -, -, -, -, h6⟩ := idle_trace S E D hagg hc hcal hg hsm _ hn hloss past s ht
  obtain ⟨j, hj⟩ := List.getElem?_of_mem hm
  simp only [fittedFeatures] at hj
  rw [List.getElem?_zipWith, List.getElem?_map] at hj
  cases hfj : S.features[j]? with
  | none => rw [hfj] at hj; simp at hj
  | some f =>
    cases hrj : r.factors[j]? with
    | none => rw [hfj, hrj] at hj; simp at hj
    | some fac =>
      rw [hfj, hrj] at hj
      simp only [Option.map_some, Option.some.injEq] at hj
      rw [← hj]
      have hfs : (s.feats.map fun fs => fs.agg)[j]? = some (some fac) := by rw [hfac, List.getElem?_map, hrj]; rfl
      rw [List.getElem?_map] at hfs
      obtain ⟨fs, hfs, hagg'⟩ := Option.map_eq_some_iff.mp hfs
      have hst := (h6 j (f.1.cfg D.X D.n) fs (by unfold Setup.cfgs; rw [List.getElem?_map, hfj]; rfl) hfs).2
      intro b hb
      have := hst b hb
      unfold stored at this
      rw [hagg'] at this
      exact this

end

end CB
