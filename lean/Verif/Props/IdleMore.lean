import Verif.Props.Idle
import Verif.Props.CalibrationQuantile
import Verif.Props.SmootherCentresExample

/-!
# C112 for the background-subtraction and the additive quantile regressor; models that have settled exactly
-/

set_option autoImplicit false
set_option linter.unusedSectionVars false

namespace CB
open Finset Spec

section
variable {σ : Type*} (S : Setup σ) (D : TrainSet)

/-- Smoothers that only shrink make nothing out of nothing. -/
theorem keepZero_of_shrinking (h : ShrinkingSmoothers S D) : SmoothersKeepZero S D := by
  intro f hf u v hv b hb x hx
  obtain ⟨t, -, -, rfl⟩ := h f hf u v b x hx
  rw [hv b hb, mul_zero]

theorem not_diverged_self (x : Flt ℝ) (h : ∀ a, x = .fin a → 0 ≤ a) : isDiverged x x = false := by
  unfold isDiverged
  cases x with
  | fin a =>
    have := h a rfl
    simp only [Flt.twice, Flt.gt, decide_eq_false_iff_not, not_lt]
    linarith
  | nan => rfl
  | pinf => rfl
  | ninf => rfl

/-- **C112**, `CBGBSRegressor`: if in every bin of every feature the weighted sum of the targets is already that of the predictions
without features, the features get no effect: the model predicts, for every table, what it would predict without features. -/
theorem C112_gbs (ra : ℝ) (hagg : S.params.aggregate = true) (hc : S.params.consts = realConsts)
    (hg : ∀ f ∈ S.features, f.1.group ≠ []) (hsm : SmoothersKeepZero S D) (hw : ∀ i < D.n, 0 ≤ D.w i) (a : ℝ)
    (hs : (gbsEstimator ra).scale D.n D.y D.w = .fin a)
    (hn : ∀ f ∈ S.features, ∀ b, sumInBin D f b (fun i => D.w i * D.y i) = sumInBin D f b fun i => D.w i * baseline (gbsEstimator ra) D a i)
    (fuel : ℕ) (m : FittedModel) (h : S.fit (gbsEstimator ra) D fuel = some (.ok m)) (prior : Option (ℕ → Flt ℝ)) (X : Table ℝ) (i : ℕ) :
    m.predict prior X i = (priorPrediction .identity (.fin a) (.fin 0) prior i).getFin := by
  have hoff : (gbsEstimator ra).offset D = .fin 0 := by
    unfold Estimator.offset
    cases D.prior <;> rfl
  rw [C112_left_alone S _ D hagg hc (fun _ _ _ h0 => h0) hg hsm a hs ?_ ?_ fuel m h prior X i, hoff]
  · rfl
  · intro f hf it b hb
    show gbsSummand ra D.n _ D.y _ D.w b = 0
    unfold gbsSummand
    simp only
    have : binSum D.n (f.1.cfg D.X D.n).bin (fun i => (D.y i - baseline (gbsEstimator ra) D a i) * D.w i) b = 0 := by
      rw [sumInBin_binSum, sumInBin_congr D f b _ (fun i => D.w i * D.y i - D.w i * baseline (gbsEstimator ra) D a i)
        fun i _ => by ring]
      have := hn f hf b
      unfold sumInBin at this ⊢
      rw [sum_sub_distrib, this, sub_self]
    rw [this, zero_div]
  · refine not_diverged_self _ fun x hx => ?_
    change quotientFlt _ _ = .fin x at hx
    unfold quotientFlt at hx
    split_ifs at hx
    rw [Flt.fin.injEq] at hx
    rw [← hx]
    refine div_nonneg (sum_nonneg fun i hi => mul_nonneg (hw i (mem_range.mp hi)) (sq_nonneg _)) ?_
    show (0 : ℝ) ≤ ∑ i ∈ range D.n, (if D.y i ≠ 0 then 1 else 0) * D.w i
    refine sum_nonneg fun i hi => ?_
    have := hw i (mem_range.mp hi)
    split_ifs <;> simp [this]

/-- **C112**, constant targets: if all targets are equal, `CBGBSRegressor` (without prior predictions) predicts exactly this number
for every input. -/
theorem C112_constant (ra : ℝ) (hagg : S.params.aggregate = true) (hc : S.params.consts = realConsts)
    (hg : ∀ f ∈ S.features, f.1.group ≠ []) (hsm : SmoothersKeepZero S D) (hw : ∀ i < D.n, 0 ≤ D.w i) (c : ℝ)
    (hy : ∀ i < D.n, D.y i = c) (hp : D.prior = none) (fuel : ℕ) (m : FittedModel)
    (h : S.fit (gbsEstimator ra) D fuel = some (.ok m)) (X : Table ℝ) (i : ℕ) : m.predict none X i = c := by
  obtain ⟨a, r, -, hs, -⟩ := fit_ok S _ D fuel m h
  have ha : a = c := by
    change quotientFlt _ _ = .fin a at hs
    unfold quotientFlt at hs
    split_ifs at hs with h0
    rw [Flt.fin.injEq] at hs
    rw [← hs, sum_congr rfl fun i hi => by rw [hy i (mem_range.mp hi)], ← mul_sum, mul_div_assoc, div_self h0, mul_one]
  have hb : ∀ i, baseline (gbsEstimator ra) D a i = c := by
    intro i
    unfold baseline
    rw [hp]
    exact ha
  rw [C112_gbs S D ra hagg hc hg hsm hw a hs (fun f hf b => sumInBin_congr D f b _ _ fun i hi => by rw [hb, hy i hi]) fuel m h none X i]
  exact ha

/-- Summands for a quantile: if the coverage of the prediction from which training starts is right in every bin, there is nothing to
learn. -/
theorem quantile_idle (q : ℝ) (minimize : (ℝ → Flt ℝ) → ℝ → ℝ) (hmin : StaysPut minimize) (hw : ∀ i < D.n, 0 < D.w i) (a : ℝ)
    (hn : ∀ f ∈ S.features, ∀ b, let p := baseline (quantileEstimator false q minimize) D a
      sumInBin D f b (fun i => if D.y i < p i then D.w i else 0) ≤ q * sumInBin D f b D.w ∧
        q * sumInBin D f b D.w ≤ sumInBin D f b (fun i => if D.y i ≤ p i then D.w i else 0)) :
    NothingToLearn S (quantileEstimator false q minimize) D (baseline (quantileEstimator false q minimize) D a) := by
  intro f hf it b hb
  show genericParamLink identityLink (minimize _ (identityLink.unlink 0)) = 0
  have hput : minimize (binObjective (quantileCostsFlt q) identityLink false D.n (f.1.cfg D.X D.n).bin D.y D.w
      (baseline (quantileEstimator false q minimize) D a) b) 0 = 0 := by
    by_cases hempty : binMembers D.n (f.1.cfg D.X D.n).bin b = []
    · have : ∀ z, binObjective (quantileCostsFlt q) identityLink false D.n (f.1.cfg D.X D.n).bin D.y D.w
          (baseline (quantileEstimator false q minimize) D a) b z = .fin 0 := by
        intro z
        unfold binObjective quantileCostsFlt
        rw [hempty]
        simp
      refine hmin _ 0 0 (this 0) fun z c hz => ?_
      rw [this z, Flt.fin.injEq] at hz
      exact hz.le
    · obtain ⟨k, hk⟩ := List.exists_mem_of_ne_nil _ hempty
      have hk' := List.mem_filter.mp hk
      have hkn := List.mem_range.mp hk'.1
      have hW : 0 < binSum D.n (f.1.cfg D.X D.n).bin D.w b := by
        rw [sumInBin_binSum]
        unfold sumInBin
        refine sum_pos (fun i hi => hw i (mem_range.mp (mem_filter.mp hi).1)) ⟨k, mem_filter.mpr ⟨mem_range.mpr hkn, ?_⟩⟩
        simpa using hk'.2
      set l := (binMembers D.n (f.1.cfg D.X D.n).bin b).map
        fun i => (D.y i - baseline (quantileEstimator false q minimize) D a i, D.w i) with hl
      have hlsum : (l.map Prod.snd).sum = sumInBin D f b D.w := by
        rw [← sumInBin_binSum, binSum_members, hl, List.map_map]; rfl
      have hlw : ∀ s ∈ l, 0 ≤ s.2 := by
        intro s hs
        obtain ⟨i, hi, rfl⟩ := List.mem_map.mp hs
        exact (hw i (List.mem_range.mp (List.mem_filter.mp hi).1)).le
      have hQ : Spec.IsQuantile q l 0 := by
        have := hn f hf b
        constructor
        · rw [hlsum, hl, weightOf_members, sumInBin_binSum]
          refine le_trans (le_of_eq ?_) this.1
          refine sumInBin_congr D f b _ _ fun i _ => ?_
          simp only [decide_eq_true_eq, sub_neg]
        · rw [hlsum, hl, weightOf_members, sumInBin_binSum]
          refine le_trans this.2 (le_of_eq ?_)
          refine sumInBin_congr D f b _ _ fun i _ => ?_
          simp only [decide_eq_true_eq, sub_nonpos]
      refine hmin _ 0 _ (binObjective_additive q D.n _ D.y D.w _ b hW 0) fun z c hz => ?_
      rw [binObjective_additive q D.n _ D.y D.w _ b hW z, Flt.fin.injEq] at hz
      rw [← hz]
      have hlpos : 0 < (l.map Prod.snd).sum := by rw [hlsum, ← sumInBin_binSum]; exact hW
      have hne : l ≠ [] := by rintro e; rw [e] at hlpos; simp at hlpos
      have := C36_quantile_minimises q l hlw hlpos 0 hQ z
      rw [quantileCosts_const _ _ _ hne, quantileCosts_const _ _ _ hne, div_le_div_iff_of_pos_right hlpos] at this
      exact div_le_div_of_nonneg_right this hW.le
  have e : identityLink.unlink 0 = (0 : ℝ) := rfl
  unfold genericParamLink
  rw [e, if_neg (by simp)]
  exact hput

/-- **C112**, `CBAdditiveQuantileRegressor`: if in every bin of every feature the predictions without features already have the right
coverage, the features get no effect. -/
theorem C112_quantile (q : ℝ) (h0 : 0 ≤ q) (h1 : q ≤ 1) (minimize : (ℝ → Flt ℝ) → ℝ → ℝ) (hmin : StaysPut minimize)
    (hagg : S.params.aggregate = true) (hc : S.params.consts = realConsts)
    (hg : ∀ f ∈ S.features, f.1.group ≠ []) (hsm : SmoothersKeepZero S D) (hw : ∀ i < D.n, 0 < D.w i) (a : ℝ)
    (hs : (quantileEstimator false q minimize).scale D.n D.y D.w = .fin a)
    (hn : ∀ f ∈ S.features, ∀ b, let p := baseline (quantileEstimator false q minimize) D a
      sumInBin D f b (fun i => if D.y i < p i then D.w i else 0) ≤ q * sumInBin D f b D.w ∧
        q * sumInBin D f b D.w ≤ sumInBin D f b (fun i => if D.y i ≤ p i then D.w i else 0))
    (fuel : ℕ) (m : FittedModel) (h : S.fit (quantileEstimator false q minimize) D fuel = some (.ok m))
    (prior : Option (ℕ → Flt ℝ)) (X : Table ℝ) (i : ℕ) :
    m.predict prior X i =
      (priorPrediction .identity (.fin a) ((quantileEstimator false q minimize).offset D) prior i).getFin := by
  rw [C112_left_alone S _ D hagg hc (fun _ _ _ h0 => h0) hg hsm a hs ?_ ?_ fuel m h prior X i]
  · rfl
  · exact quantile_idle S D q minimize hmin hw a hn
  · exact cost_not_diverged S D (costEstimator_minimizing (.quantile false q h0 h1)) (fun i hi => (hw i hi).le)
      ⟨baseline (quantileEstimator false q minimize) D a, fun _ => 0⟩ ⟨baseline (quantileEstimator false q minimize) D a, fun _ => 0⟩ le_rfl

/-- A model that had nothing to learn has settled exactly. -/
theorem C112_settled (E : Estimator) (hagg : S.params.aggregate = true) (hc : S.params.consts = realConsts)
    (hcal : ∀ cfg bw fac, (∀ b ≤ cfg.nFinite, fac b = 0) → ∀ b ≤ cfg.nFinite, E.calibrate cfg bw fac b = 0)
    (hg : ∀ f ∈ S.features, f.1.group ≠ [])
    (hint : ∀ f ∈ S.features, ∀ c, f.1.group = [c] → ∀ i < D.n, ∀ x : ℝ, D.X i c = .fin x → ∃ k : ℤ, x = (k : ℝ))
    (hw : ∀ i < D.n, 0 ≤ D.w i) (hsm : SmoothersKeepZero S D) (a : ℝ) (hs : E.scale D.n D.y D.w = .fin a)
    (hn : NothingToLearn S E D (baseline E D a))
    (hloss : isDiverged (E.loss D.n (fun i => E.link.toLink.unlink (baseline E D a i)) D.y D.w)
      (E.loss D.n (fun i => E.link.toLink.unlink (baseline E D a i)) D.y D.w) = false)
    (fuel : ℕ) (m : FittedModel) (h : S.fit E D fuel = some (.ok m)) (hlr : 0 < S.learnRate m.iterations) :
    SettledModel S E D m 0 where
  fitted := ⟨fuel, h⟩
  aggregate := hagg
  limits := hc
  columns := hg
  binNumbers := hint
  weights := hw
  nonneg := le_rfl
  converging := fun a' hs' past s ht => by
    rw [hs, Flt.fin.injEq] at hs'
    subst hs'
    exact (idle_trace S E D hagg hc hcal hg hsm _ hn hloss past s ht).1
  settled := fun a' hs' past s s' ht _ j cfg before after hj hbef haft b hb => by
    rw [hs, Flt.fin.injEq] at hs'
    subst hs'
    have h1 := (idle_trace S E D hagg hc hcal hg hsm _ hn hloss _ s' ht).2.2.2.2.2 j cfg after hj haft
    have h2 := by
      cases ht with
      | step ht _ _ => exact (idle_trace S E D hagg hc hcal hg hsm _ hn hloss _ s ht).2.2.2.2.2 j cfg before hj hbef
    rw [h1.2 b hb, h2.2 b hb]
    simp
  learning := hlr

/-- A fit that has nothing to learn succeeds. -/
theorem C112_fit_succeeds (E : Estimator) (hagg : S.params.aggregate = true) (hc : S.params.consts = realConsts)
    (hcal : ∀ cfg bw fac, (∀ b ≤ cfg.nFinite, fac b = 0) → ∀ b ≤ cfg.nFinite, E.calibrate cfg bw fac b = 0)
    (hg : ∀ f ∈ S.features, f.1.group ≠ []) (hv : ∀ i < D.n, E.valid (D.y i)) (hsm : SmoothersKeepZero S D) (a : ℝ)
    (hs : E.scale D.n D.y D.w = .fin a) (hn : NothingToLearn S E D (baseline E D a))
    (hloss : isDiverged (E.loss D.n (fun i => E.link.toLink.unlink (baseline E D a i)) D.y D.w)
      (E.loss D.n (fun i => E.link.toLink.unlink (baseline E D a i)) D.y D.w) = false)
    (hm : 1 ≤ S.params.maximalIterations) (hh : S.params.hierarchical = none)
    (hf : S.params.minimalFactorChange < 100) (hlc : S.params.minimalLossChange < 100000000000000000000)
    (fuel : ℕ) (hfuel : S.params.maximalIterations + 4 ≤ fuel) : ∃ m, S.fit E D fuel = some (.ok m) := by
  refine fit_succeeds S E D fuel a hv hs hm hh hf hlc ?_ (by unfold normalIterations; simpa [hh] using hfuel)
  intro past s h
  obtain ⟨h1, h2, h3, h4, h5, h6⟩ := idle_trace S E D hagg hc hcal hg hsm _ hn hloss past s h
  have hp := idle_featurePass S E D hagg hc hcal hg hsm _ hn s.iteration s.initialLoss s.feats h6
  rw [h1, h2, h3, h4, h5] at *
  rw [hp.2]
  exact ⟨hloss, hloss⟩

end
end CB
