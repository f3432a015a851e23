import Verif.Spec.MeanBased
import Verif.Spec.Baseline
import Verif.Props.Baseline
import Verif.Props.WholeFit
import Verif.Props.PipelineMissing
import Verif.Props.Predict
import Mathlib.Tactic.Linarith
import Mathlib.Tactic.FieldSimp

/-!
# C75: the baseline of fitted models and pipelines

What `predict` returns for rows for which no feature has learned anything.
-/

set_option autoImplicit false
set_option linter.unusedSectionVars false

namespace CB
open Finset Spec

theorem noContribution_predict (m : FittedModel) (prior : Option (ℕ → Flt ℝ)) (X : Table ℝ) (s : ℕ)
    (hz : NoContribution m X s) :
    m.predict prior X s = m.link.toLink.unlink (priorPrediction m.link m.scale m.offset prior s).getFin := by
  unfold FittedModel.predict
  rw [(C24_link_space _ _ _ _).1]
  have : contributionSum false m.features X s = 0 := by
    unfold contributionSum
    apply List.sum_eq_zero
    intro x hx
    obtain ⟨f, hf, rfl⟩ := List.mem_map.mp hx
    exact hz f (List.mem_of_mem_filter hf)
  rw [this, add_zero]

theorem unlink_linkFlt (kind : LinkKind) (v a : ℝ) (h : linkFlt kind (.fin v) = .fin a) : kind.toLink.unlink a = v := by
  cases kind with
  | log =>
    simp only [linkFlt] at h
    by_cases hv : 0 < v
    · rw [if_pos hv, Flt.fin.injEq] at h
      rw [← h]
      exact Real.exp_log hv
    · rw [if_neg hv] at h
      split at h <;> cases h
  | logit =>
    simp only [linkFlt] at h
    by_cases h1 : v = 1
    · rw [if_pos h1] at h; cases h
    · rw [if_neg h1] at h
      by_cases hv : 0 < v / (1 - v)
      · rw [if_pos hv, Flt.fin.injEq] at h
        rw [← h]
        rcases div_pos_iff.mp hv with ⟨h2, h3⟩ | ⟨h2, h3⟩
        · exact C16_logit.1 v h2 (by linarith)
        · linarith
      · rw [if_neg hv] at h
        split at h <;> cases h
  | identity =>
    simp only [linkFlt, Flt.fin.injEq] at h
    exact h.symm

theorem globalScale_fin (kind : LinkKind) (n : ℕ) (y w : ℕ → ℝ) (a : ℝ) (h : globalScaleLink kind n y w = .fin a) :
    ∑ i ∈ range n, w i ≠ 0 ∧ linkFlt kind (.fin (wmean n y w + 1 / 1000)) = .fin a := by
  by_cases hs : ∑ i ∈ range n, w i = 0
  · exfalso
    unfold globalScaleLink quotientFlt at h
    rw [if_pos hs] at h
    cases kind <;> cases h
  · exact ⟨hs, by rw [← scaleArg kind n y w hs]; exact h⟩

theorem meanBased_spec (kind : LinkKind) (E : Estimator) (h : MeanBased kind E) :
    E.link = kind ∧ E.scale = globalScaleLink kind ∧ E.shiftPrior = true := by
  cases h <;> exact ⟨rfl, rfl, rfl⟩

theorem fit_meanBased {σ : Type*} (S : Setup σ) (kind : LinkKind) (E : Estimator) (hE : MeanBased kind E) (D : TrainSet) (fuel : ℕ)
    (m : FittedModel) (h : S.fit E D fuel = some (.ok m)) :
    ∃ a, m.link = kind ∧ m.scale = .fin a ∧ linkFlt kind (.fin (wmean D.n D.y D.w + 1 / 1000)) = .fin a ∧
      ∑ i ∈ range D.n, D.w i ≠ 0 ∧
      m.offset = match D.prior with
        | none => .fin 0
        | some prior => priorOffsetFrom kind (.fin a) D.n prior D.w := by
  obtain ⟨hl, hsc, hsh⟩ := meanBased_spec kind E hE
  obtain ⟨a, r, -, hs, -, rfl⟩ := fit_ok S E D fuel m h
  have hs' := hs
  rw [hsc] at hs'
  obtain ⟨h0, h1⟩ := globalScale_fin kind _ _ _ _ hs'
  refine ⟨a, hl, rfl, h1, h0, ?_⟩
  show E.offset D = _
  unfold Estimator.offset
  cases D.prior with
  | none => rfl
  | some prior =>
    dsimp only
    rw [hsh, hl, hs]
    rfl

theorem wmean_pos (n : ℕ) (q w : ℕ → ℝ) (hw : ∀ i < n, 0 ≤ w i) (hs : ∑ i ∈ range n, w i ≠ 0) (hq : ∀ i < n, 0 < q i) :
    0 < wmean n q w := by
  have hspos : 0 < ∑ i ∈ range n, w i :=
    lt_of_le_of_ne (sum_nonneg fun i hi => hw i (mem_range.mp hi)) (Ne.symm hs)
  refine div_pos ?_ hspos
  obtain ⟨i, hi, hwi⟩ := exists_ne_zero_of_sum_ne_zero hs
  refine sum_pos' (fun j hj => mul_nonneg (hw j (mem_range.mp hj)) (hq j (mem_range.mp hj)).le) ⟨i, hi, ?_⟩
  exact mul_pos (lt_of_le_of_ne (hw i (mem_range.mp hi)) (Ne.symm hwi)) (hq i (mem_range.mp hi))

section
variable {σ : Type*} (S : Setup σ) (kind : LinkKind) (E : Estimator) (hE : MeanBased kind E) (D : TrainSet) (fuel : ℕ)
  (m : FittedModel) (h : S.fit E D fuel = some (.ok m)) (X : Table ℝ) (s : ℕ) (hz : NoContribution m X s)
include hE h hz

/-- **C75, whole fits.** Where no feature contributes, the prediction is the weighted mean of the training target plus 0.001. -/
theorem C75_fit : m.predict none X s = wmean D.n D.y D.w + 1 / 1000 := by
  obtain ⟨a, hl, hs, h1, -⟩ := fit_meanBased S kind E hE D fuel m h
  rw [noContribution_predict m none X s hz, hl]
  unfold priorPrediction
  rw [hs]
  exact unlink_linkFlt kind _ _ h1

/-- **C75, whole fits, unusable prior prediction.** The same holds if the row has a prior prediction that the link cannot use. -/
theorem C75_fit_prior_missing (prior : ℕ → Flt ℝ)
    (hp : prior s = .nan ∨ prior s = .pinf ∨ prior s = .ninf ∨ kind = .log ∧ (∃ x ≤ 0, prior s = .fin x) ∨
      kind = .logit ∧ ∃ x, (x ≤ 0 ∨ 1 ≤ x) ∧ prior s = .fin x) :
    m.predict (some prior) X s = wmean D.n D.y D.w + 1 / 1000 := by
  obtain ⟨a, hl, hs, h1, -⟩ := fit_meanBased S kind E hE D fuel m h
  rw [noContribution_predict m _ X s hz, hl, C75_prior_missing kind _ _ prior s hp, hs]
  exact unlink_linkFlt kind _ _ h1

/-- The prior prediction of the row in link space, shifted. -/
theorem prior_link_shift (q : ℕ → Flt ℝ) (hD : D.prior = some q) (qv : ℕ → ℝ) (hq : ∀ i < D.n, q i = .fin (qv i)) (lq : ℝ)
    (hlq : linkFlt kind (.fin (wmean D.n qv D.w)) = .fin lq) (prior : ℕ → Flt ℝ) (v lv : ℝ) (hv : prior s = .fin v)
    (hlv : linkFlt kind (.fin v) = .fin lv) :
    ∃ a, linkFlt kind (.fin (wmean D.n D.y D.w + 1 / 1000)) = .fin a ∧
      m.predict (some prior) X s = kind.toLink.unlink (lv + (a - lq)) := by
  obtain ⟨a, hl, hs, h1, h0, ho⟩ := fit_meanBased S kind E hE D fuel m h
  refine ⟨a, h1, ?_⟩
  rw [noContribution_predict m _ X s hz, hl]
  have hmean : priorPredMean D.n q D.w = .fin (wmean D.n qv D.w) := by
    have e1 : ∑ i ∈ range D.n, (if (q i).isFinite then (q i).getFin * D.w i else 0) = ∑ i ∈ range D.n, D.w i * qv i :=
      sum_congr rfl fun i hi => by rw [hq i (mem_range.mp hi)]; exact mul_comm _ _
    have e2 : ∑ i ∈ range D.n, (if (q i).isFinite then D.w i else 0) = ∑ i ∈ range D.n, D.w i :=
      sum_congr rfl fun i hi => by rw [hq i (mem_range.mp hi)]; rfl
    unfold priorPredMean quotientFlt
    rw [e1, e2, if_neg h0]
    rfl
  rw [hD] at ho
  dsimp only at ho
  unfold priorOffsetFrom at ho
  rw [hmean, hlq] at ho
  simp only [Flt.isFinite, if_true, Flt.sub] at ho
  unfold priorPrediction
  rw [ho]
  dsimp only
  rw [hv, hlv]
  rfl

/-- **C75, whole fits, prior predictions, log link.** If all training rows have positive prior predictions, a row with the positive
prior prediction `v` is predicted as `v` times the ratio of the mean target plus 0.001 to the mean prior prediction. -/
theorem C75_fit_prior_log (hk : kind = .log) (hw : ∀ i < D.n, 0 ≤ D.w i) (q : ℕ → Flt ℝ) (hD : D.prior = some q) (qv : ℕ → ℝ)
    (hq : ∀ i < D.n, q i = .fin (qv i) ∧ 0 < qv i) (prior : ℕ → Flt ℝ) (v : ℝ) (hv : prior s = .fin v) (hv0 : 0 < v) :
    m.predict (some prior) X s = v * ((wmean D.n D.y D.w + 1 / 1000) / wmean D.n qv D.w) := by
  subst hk
  obtain ⟨-, -, -, -, h0, -⟩ := fit_meanBased S _ E hE D fuel m h
  have hm := wmean_pos D.n qv D.w hw h0 fun i hi => (hq i hi).2
  have hlog : ∀ x : ℝ, 0 < x → linkFlt .log (.fin x) = .fin (Real.log x) := fun x hx => by
    simp only [linkFlt]; rw [if_pos hx]
  obtain ⟨a, h1, h2⟩ := prior_link_shift S _ E hE D fuel m h X s hz q hD qv (fun i hi => (hq i hi).1) _ (hlog _ hm) prior v _ hv
    (hlog v hv0)
  rw [h2]
  have h3 := unlink_linkFlt .log _ _ h1
  change Real.exp _ = _ at h3
  change Real.exp _ = _
  rw [Real.exp_add, Real.exp_sub, Real.exp_log hv0, Real.exp_log hm, h3]

/-- **C75, whole fits, prior predictions, identity link.** If all training rows have prior predictions, a row with the prior
prediction `v` is predicted as `v` plus the difference of the mean target plus 0.001 and the mean prior prediction. -/
theorem C75_fit_prior_identity (hk : kind = .identity) (q : ℕ → Flt ℝ) (hD : D.prior = some q) (qv : ℕ → ℝ)
    (hq : ∀ i < D.n, q i = .fin (qv i)) (prior : ℕ → Flt ℝ) (v : ℝ) (hv : prior s = .fin v) :
    m.predict (some prior) X s = v + (wmean D.n D.y D.w + 1 / 1000 - wmean D.n qv D.w) := by
  subst hk
  obtain ⟨a, h1, h2⟩ := prior_link_shift S _ E hE D fuel m h X s hz q hD qv hq _ rfl prior v _ hv rfl
  rw [h2]
  have h3 : a = _ := unlink_linkFlt .identity _ _ h1
  rw [h3]
  rfl

/-- **C75, whole fits, prior predictions, logit link.** If all training rows have prior predictions strictly between 0 and 1, a row
with such a prior prediction `v` is predicted with the odds of `v` times the ratio of the odds of the mean target plus 0.001 to the
odds of the mean prior prediction. -/
theorem C75_fit_prior_logit (hk : kind = .logit) (hw : ∀ i < D.n, 0 ≤ D.w i) (q : ℕ → Flt ℝ) (hD : D.prior = some q)
    (qv : ℕ → ℝ) (hq : ∀ i < D.n, q i = .fin (qv i) ∧ 0 < qv i ∧ qv i < 1) (prior : ℕ → Flt ℝ) (v : ℝ) (hv : prior s = .fin v)
    (hv0 : 0 < v) (hv1 : v < 1) :
    odds (m.predict (some prior) X s) = odds v * (odds (wmean D.n D.y D.w + 1 / 1000) / odds (wmean D.n qv D.w)) := by
  subst hk
  obtain ⟨-, -, -, -, h0, -⟩ := fit_meanBased S _ E hE D fuel m h
  have hm := wmean_pos D.n qv D.w hw h0 fun i hi => (hq i hi).2.1
  have hm1 : wmean D.n qv D.w < 1 := by
    have := wmean_pos D.n (fun i => 1 - qv i) D.w hw h0 fun i hi => by have := (hq i hi).2.2; linarith
    have e : wmean D.n (fun i => 1 - qv i) D.w = 1 - wmean D.n qv D.w := by
      unfold wmean
      rw [sum_congr rfl fun i _ => (by ring : D.w i * (1 - qv i) = D.w i - D.w i * qv i), sum_sub_distrib, sub_div, div_self h0]
    linarith
  have hlog : ∀ x : ℝ, 0 < x → x < 1 → linkFlt .logit (.fin x) = .fin (Real.log (odds x)) := fun x hx hx1 => by
    simp only [linkFlt]
    rw [if_neg hx1.ne, if_pos (div_pos hx (by linarith))]
    rfl
  have hpos : ∀ x : ℝ, 0 < x → x < 1 → 0 < odds x := fun x hx hx1 => div_pos hx (by linarith)
  have hodds : ∀ x : ℝ, odds (logitLink.unlink x) = Real.exp x := by
    intro x
    have hp := Real.exp_pos x
    unfold odds logitLink
    dsimp only
    rw [Real.exp_neg]
    field_simp
    ring
  obtain ⟨a, h1, h2⟩ := prior_link_shift S _ E hE D fuel m h X s hz q hD qv (fun i hi => (hq i hi).1) _ (hlog _ hm hm1) prior v _ hv
    (hlog v hv0 hv1)
  rw [h2]
  have h3 : logitLink.unlink a = _ := unlink_linkFlt .logit _ _ h1
  change odds (logitLink.unlink _) = _
  rw [hodds, Real.exp_add, Real.exp_sub, Real.exp_log (hpos v hv0 hv1), Real.exp_log (hpos _ hm hm1), ← hodds a, h3]

end

section
variable {σ : Type*} (S : Setup σ) (regalpha : ℝ) (D : TrainSet) (fuel : ℕ)
  (m : FittedModel) (h : S.fit (gbsEstimator regalpha) D fuel = some (.ok m)) (X : Table ℝ) (s : ℕ) (hz : NoContribution m X s)
include h hz

/-- **C75, whole fits, background subtraction.** Without prior prediction the baseline is the weighted mean of the target; a prior
prediction is the baseline as it is, whatever the training target was. -/
theorem C75_fit_gbs : m.predict none X s = wmean D.n D.y D.w ∧
    ∀ (prior : ℕ → Flt ℝ) (v : ℝ), prior s = .fin v → m.predict (some prior) X s = v := by
  obtain ⟨a, r, -, hs, -, rfl⟩ := fit_ok S _ D fuel m h
  have ha : a = wmean D.n D.y D.w := by
    change quotientFlt _ _ = _ at hs
    unfold quotientFlt at hs
    split at hs
    · cases hs
    · rw [Flt.fin.injEq] at hs
      rw [← hs]
      unfold wmean
      simp only [mul_comm]
  constructor
  · rw [noContribution_predict _ none X s hz]
    exact ha
  · intro prior v hv
    rw [noContribution_predict _ _ X s hz]
    have ho : (gbsEstimator regalpha).offset D = .fin 0 := by
      unfold Estimator.offset
      cases D.prior <;> rfl
    unfold priorPrediction
    dsimp only
    rw [ho, hv]
    show v + 0 = v
    rw [add_zero]

end

/-! ### Pipelines -/

theorem createFeatures_length (c : Choice) (props : Option (List (String × ℕ))) :
    ∀ (groups : List (List String)) (fs : List (FeatureSpec × SmootherKind)), createFeatures c props groups = .ok fs →
      fs.length = groups.length := by
  intro groups
  induction groups with
  | nil =>
    intro fs h
    simp only [createFeatures, Except.ok.injEq] at h
    rw [← h]
    rfl
  | cons g groups ih =>
    intro fs h
    unfold createFeatures at h
    cases hk : smootherForGroup c props g with
    | error e => rw [hk] at h; cases h
    | ok kind =>
      rw [hk] at h
      dsimp only at h
      cases hr : createFeatures c props groups with
      | error e => rw [hr] at h; cases h
      | ok rest =>
        rw [hr] at h
        simp only [Except.ok.injEq] at h
        rw [← h, List.length_cons, List.length_cons, ih rest hr]

section
variable {σ : Type*} (B : Binner) (htol : 0 ≤ B.tolerance) (columns : List String) (S : Setup σ) (E : Estimator) (D : TrainSet)
  (fuel : ℕ) (P : FittedPipeline) (h : pipelineFit B columns S E D fuel = some (.ok P))
  (heps : 0 ≤ B.epsilon) (heps1 : B.epsilon < 1) (c : Choice) (groups : List (List String))
  (hS : createFeatures c (some B.props) groups = .ok S.features) (hok : S.params.consts.Ok) (hcal : NoCalibration E)
  (hnd : ∀ Xt, B.transform P.bins D.X D.n = .ok Xt → NeverDiverges S E { D with X := Xt })
  (X : Table ℝ) (n s : ℕ) (hs : s < n)
  (hun : ∀ group ∈ groups, ∃ col ∈ group, col ∈ columns ∧ ∃ fp, B.props.lookup col = some fp ∧
    Flags.isSet fp Flags.MISSING_NOT_LEARNED = true ∧ Unusable B.epsilon fp (fun v => ∃ s < D.n, D.X s col = .fin v) (X s col))
include htol h heps heps1 hS hok hcal hnd hs hun

theorem pipeline_noContribution (Xt : Table ℝ) (hXt : B.transform P.bins X n = .ok Xt) : NoContribution P.model Xt s := by
  obtain ⟨Yt, -, -, hfit⟩ := pipelineFit_ok B columns S E D fuel P h
  intro f hf
  obtain ⟨j, hj, rfl⟩ := List.getElem_of_mem hf
  have hlen : P.model.features.length ≤ groups.length := by
    obtain ⟨a, r, -, -, -, hm⟩ := fit_ok S E _ fuel P.model hfit
    rw [hm, ← createFeatures_length c _ groups _ hS]
    unfold fittedFeatures
    rw [List.length_zipWith, List.length_map]
    exact min_le_left _ _
  have hjg : j < groups.length := lt_of_lt_of_le hj hlen
  obtain ⟨col, hg, hcol, fp, hfp, hml, hx⟩ := hun groups[j] (List.getElem_mem hjg)
  obtain ⟨g, h1, h2, h3⟩ := C89_neutral B htol columns S E D fuel P h col hcol fp hfp heps heps1 c groups hS hok hcal hml hnd j
    groups[j] (List.getElem?_eq_getElem hjg) hg X Xt n s hs hXt hx
  rw [List.getElem?_eq_getElem hj, Option.some.injEq] at h1
  rw [h1, h2, h3]

variable (kind : LinkKind) (hE : MeanBased kind E)
include hE

/-- **C75, pipelines.** For a row with an unusable raw value in each feature, the prediction is the weighted mean of the training
target plus 0.001, if the columns are flagged MISSING_NOT_LEARNED and training did not diverge. -/
theorem C75_pipeline (p : ℕ → ℝ) (hp : P.predict B none X n = .ok p) : p s = wmean D.n D.y D.w + 1 / 1000 := by
  obtain ⟨Yt, -, -, hfit⟩ := pipelineFit_ok B columns S E D fuel P h
  obtain ⟨Xt, hXt, rfl⟩ := predict_ok P B none X n p hp
  exact C75_fit S kind E hE { D with X := Yt } fuel P.model hfit Xt s
    (pipeline_noContribution B htol columns S E D fuel P h heps heps1 c groups hS hok hcal hnd X n s hs hun Xt hXt)

/-- **C75, pipelines, prior predictions, log link.** -/
theorem C75_pipeline_prior_log (hk : kind = .log) (hw : ∀ i < D.n, 0 ≤ D.w i) (q : ℕ → Flt ℝ) (hD : D.prior = some q)
    (qv : ℕ → ℝ) (hq : ∀ i < D.n, q i = .fin (qv i) ∧ 0 < qv i) (prior : ℕ → Flt ℝ) (v : ℝ) (hv : prior s = .fin v) (hv0 : 0 < v)
    (p : ℕ → ℝ) (hp : P.predict B (some prior) X n = .ok p) :
    p s = v * ((wmean D.n D.y D.w + 1 / 1000) / wmean D.n qv D.w) := by
  obtain ⟨Yt, -, -, hfit⟩ := pipelineFit_ok B columns S E D fuel P h
  obtain ⟨Xt, hXt, rfl⟩ := predict_ok P B _ X n p hp
  exact C75_fit_prior_log S kind E hE { D with X := Yt } fuel P.model hfit Xt s
    (pipeline_noContribution B htol columns S E D fuel P h heps heps1 c groups hS hok hcal hnd X n s hs hun Xt hXt)
    hk hw q hD qv hq prior v hv hv0

/-- **C75, pipelines, prior predictions, identity link.** -/
theorem C75_pipeline_prior_identity (hk : kind = .identity) (q : ℕ → Flt ℝ) (hD : D.prior = some q)
    (qv : ℕ → ℝ) (hq : ∀ i < D.n, q i = .fin (qv i)) (prior : ℕ → Flt ℝ) (v : ℝ) (hv : prior s = .fin v)
    (p : ℕ → ℝ) (hp : P.predict B (some prior) X n = .ok p) :
    p s = v + (wmean D.n D.y D.w + 1 / 1000 - wmean D.n qv D.w) := by
  obtain ⟨Yt, -, -, hfit⟩ := pipelineFit_ok B columns S E D fuel P h
  obtain ⟨Xt, hXt, rfl⟩ := predict_ok P B _ X n p hp
  exact C75_fit_prior_identity S kind E hE { D with X := Yt } fuel P.model hfit Xt s
    (pipeline_noContribution B htol columns S E D fuel P h heps heps1 c groups hS hok hcal hnd X n s hs hun Xt hXt)
    hk q hD qv hq prior v hv

end

end CB
