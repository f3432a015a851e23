import Verif.Props.LossDescent
import Verif.Spec.Settling
import Mathlib.Analysis.Real.Sqrt

/-!
# C121: training of the GBS regressor settles by itself
-/

set_option autoImplicit false
set_option linter.unusedSectionVars false

namespace CB
open Finset Spec

/-- The sum of the squares of the entries of the arrays of the features. -/
noncomputable def squares (g : FState ℝ → ℕ → ℝ) (cfgs : List FeatureCfg) (fss : List (FState ℝ)) : ℝ :=
  (List.zipWith (fun cfg fs => ∑ b ∈ range (cfg.nFinite + 1), g fs b ^ 2) cfgs fss).sum

theorem squares_nonneg (g : FState ℝ → ℕ → ℝ) : ∀ (cfgs : List FeatureCfg) (fss : List (FState ℝ)), 0 ≤ squares g cfgs fss
  | [], _ => by simp [squares]
  | _ :: _, [] => by simp [squares]
  | cfg :: cfgs, fs :: fss => by
    have ih := squares_nonneg g cfgs fss
    unfold squares at ih ⊢
    rw [List.zipWith_cons_cons, List.sum_cons]
    exact add_nonneg (Finset.sum_nonneg fun b _ => sq_nonneg _) ih

theorem squares_cons (g : FState ℝ → ℕ → ℝ) (cfg : FeatureCfg) (cfgs : List FeatureCfg) (fs : FState ℝ) (fss : List (FState ℝ)) :
    squares g (cfg :: cfgs) (fs :: fss) = ∑ b ∈ range (cfg.nFinite + 1), g fs b ^ 2 + squares g cfgs fss := by
  unfold squares
  rw [List.zipWith_cons_cons, List.sum_cons]

/-- The mean change of the factors of a feature is at most the root of the sum of its squared changes. -/
theorem factorDeviation_le (cfg : FeatureCfg) (fs : FState ℝ) :
    factorDeviation cfg fs ≤ Real.sqrt (∑ b ∈ range (cfg.nFinite + 1), (fs.factors b - fs.factorsOld b) ^ 2) := by
  unfold factorDeviation
  rw [div_le_iff₀ (by positivity), mul_comm]
  refine (List.sum_le_card_nsmul _ (Real.sqrt (∑ b ∈ range (cfg.nFinite + 1), (fs.factors b - fs.factorsOld b) ^ 2)) ?_).trans
    (le_of_eq (by simp))
  simp only [List.mem_map, List.mem_range]
  rintro _ ⟨b, hb, rfl⟩
  rw [← Real.sqrt_sq_eq_abs]
  exact Real.sqrt_le_sqrt (Finset.single_le_sum (f := fun b => (fs.factors b - fs.factorsOld b) ^ 2) (fun b _ => sq_nonneg _)
    (Finset.mem_range.mpr hb))

theorem factorDeviation_nonneg (cfg : FeatureCfg) (fs : FState ℝ) : 0 ≤ factorDeviation cfg fs := by
  unfold factorDeviation
  refine div_nonneg (List.sum_nonneg ?_) (by positivity)
  simp only [List.mem_map]
  rintro _ ⟨b, -, rfl⟩
  exact abs_nonneg _

/-- The square of the mean change of all factors is at most the sum of their squared changes. -/
theorem factorsDeviation_sq (cfgs : List FeatureCfg) (fss : List (FState ℝ)) :
    0 ≤ factorsDeviation cfgs fss ∧
      factorsDeviation cfgs fss ^ 2 ≤ squares (fun fs b => fs.factors b - fs.factorsOld b) cfgs fss := by
  set M := squares (fun fs b => fs.factors b - fs.factorsOld b) cfgs fss with hM
  have hM0 : 0 ≤ M := squares_nonneg _ _ _
  have key : ∀ (cfgs : List FeatureCfg) (fss : List (FState ℝ)),
      squares (fun fs b => fs.factors b - fs.factorsOld b) cfgs fss ≤ M →
      0 ≤ (List.zipWith factorDeviation cfgs fss).sum ∧
        (List.zipWith factorDeviation cfgs fss).sum ≤ (cfgs.length : ℝ) * Real.sqrt M := by
    intro cfgs
    induction cfgs with
    | nil => intro fss _; simp
    | cons cfg cfgs ih =>
      intro fss h
      cases fss with
      | nil =>
        simp only [List.zipWith_nil_right, List.sum_nil, le_refl, true_and]
        positivity
      | cons fs fss =>
        rw [squares_cons] at h
        have h1 := squares_nonneg (fun fs b => fs.factors b - fs.factorsOld b) cfgs fss
        have h2 : 0 ≤ ∑ b ∈ range (cfg.nFinite + 1), (fs.factors b - fs.factorsOld b) ^ 2 :=
          Finset.sum_nonneg fun b _ => sq_nonneg _
        obtain ⟨i1, i2⟩ := ih fss (by linarith)
        have h3 := factorDeviation_nonneg cfg fs
        have h4 := (factorDeviation_le cfg fs).trans (Real.sqrt_le_sqrt (by linarith :
          ∑ b ∈ range (cfg.nFinite + 1), (fs.factors b - fs.factorsOld b) ^ 2 ≤ M))
        rw [List.zipWith_cons_cons, List.sum_cons, List.length_cons]
        push_cast
        exact ⟨by linarith, by linarith⟩
  obtain ⟨k1, k2⟩ := key cfgs fss le_rfl
  have h0 : 0 ≤ factorsDeviation cfgs fss := div_nonneg k1 (Nat.cast_nonneg _)
  refine ⟨h0, ?_⟩
  have hle : factorsDeviation cfgs fss ≤ Real.sqrt M := by
    unfold factorsDeviation
    rcases Nat.eq_zero_or_pos cfgs.length with hz | hp
    · rw [hz]; simp
    · rw [div_le_iff₀ (by exact_mod_cast hp), mul_comm]
      exact k2
  calc factorsDeviation cfgs fss ^ 2 ≤ Real.sqrt M ^ 2 := pow_le_pow_left₀ h0 hle 2
    _ = M := Real.sq_sqrt hM0

/-- A pass over the features pays for every change of the factors with a decrease of the quantity `Q`, if each visit does. -/
theorem settle_pass (p : Params ℝ) (hh : p.hierarchical = none) (o : Oracle ℝ) (Q : Pred ℝ → ℝ) (it dv : ℕ) (isd : Bool) (il : Flt ℝ) :
    ∀ (cfgs : List FeatureCfg) (k : ℕ) (fss : List (FState ℝ)) (pred : Pred ℝ),
      (∀ j cfg, cfgs[j]? = some cfg → ∀ fs pred,
        Q (featureIteration p o it (k + j) cfg dv isd il fs pred).2 +
            2 * ∑ b ∈ range (cfg.nFinite + 1), (featureIteration p o it (k + j) cfg dv isd il fs pred).1.factors b ^ 2 ≤ Q pred ∧
          (featureIteration p o it (k + j) cfg dv isd il fs pred).1.factorsOld = fs.factors) →
      Q (featurePass p o it dv isd il k cfgs fss pred).2 +
          2 * squares FState.factors cfgs (featurePass p o it dv isd il k cfgs fss pred).1 ≤ Q pred ∧
        squares (fun fs b => fs.factors b - fs.factorsOld b) cfgs (featurePass p o it dv isd il k cfgs fss pred).1 ≤
          2 * squares FState.factors cfgs (featurePass p o it dv isd il k cfgs fss pred).1 + 2 * squares FState.factors cfgs fss
  | [], k, fss, pred, _ => by simp [featurePass, squares]
  | cfg :: cfgs, k, [], pred, _ => by simp [featurePass, squares]
  | cfg :: cfgs, k, fs :: fss, pred, h => by
    have ih := fun pred' => settle_pass p hh o Q it dv isd il cfgs (k + 1) fss pred' (fun j c hj fs pr => by
      have := h (j + 1) c (by simpa using hj) fs pr
      rwa [show k + (j + 1) = k + 1 + j by omega] at this)
    have hsk : skipped p it cfg = false := by unfold skipped; rw [hh]
    unfold featurePass
    simp only [hsk, Bool.false_eq_true, if_false]
    set fs0 : FState ℝ := if it = 0 then { fs with factors := fun _ => 0 } else fs with hfs0
    have h0 := h 0 cfg (by simp) fs0 pred
    rw [Nat.add_zero] at h0
    obtain ⟨h1, h2⟩ := h0
    obtain ⟨i1, i2⟩ := ih (featureIteration p o it k cfg dv isd il fs0 pred).2
    rw [squares_cons, squares_cons, squares_cons]
    refine ⟨by linarith, ?_⟩
    have hold : ∑ b ∈ range (cfg.nFinite + 1), fs0.factors b ^ 2 ≤ ∑ b ∈ range (cfg.nFinite + 1), fs.factors b ^ 2 := by
      refine Finset.sum_le_sum fun b _ => ?_
      rw [hfs0]
      split_ifs
      · simpa using sq_nonneg (fs.factors b)
      · exact le_rfl
    have hb : ∑ b ∈ range (cfg.nFinite + 1), ((featureIteration p o it k cfg dv isd il fs0 pred).1.factors b -
          (featureIteration p o it k cfg dv isd il fs0 pred).1.factorsOld b) ^ 2 ≤
        2 * ∑ b ∈ range (cfg.nFinite + 1), (featureIteration p o it k cfg dv isd il fs0 pred).1.factors b ^ 2 +
          2 * ∑ b ∈ range (cfg.nFinite + 1), fs0.factors b ^ 2 := by
      rw [Finset.mul_sum, Finset.mul_sum, ← Finset.sum_add_distrib]
      refine Finset.sum_le_sum fun b _ => ?_
      rw [h2]
      nlinarith [sq_nonneg ((featureIteration p o it k cfg dv isd il fs0 pred).1.factors b + fs0.factors b)]
    linarith

/-- If every visit pays for its changes with a decrease of `Q` and training never diverges, then the squares of the changes seen by
the stop criterion, summed over the iterations, are at most twice the initial value of `Q`. -/
theorem settle_trace (p : Params ℝ) (hh : p.hierarchical = none) (he : 0 ≤ p.minimalFactorChange) (o : Oracle ℝ)
    (cfgs : List FeatureCfg) (prior : ℕ → ℝ) (Q : Pred ℝ → ℝ)
    (hv : ∀ it dv isd il j cfg, cfgs[j]? = some cfg → ∀ fs pred,
      Q (featureIteration p o it j cfg dv isd il fs pred).2 +
          2 * ∑ b ∈ range (cfg.nFinite + 1), (featureIteration p o it j cfg dv isd il fs pred).1.factors b ^ 2 ≤ Q pred ∧
        (featureIteration p o it j cfg dv isd il fs pred).1.factorsOld = fs.factors)
    (hloss : ∀ a b, Q a ≤ Q b → isDiverged (o.loss b) (o.loss a) = false)
    (past : List (TState ℝ)) (s : TState ℝ) (h : Trace p o cfgs (startState o cfgs prior) past s) :
    s.isDiverging = false ∧ s.initialLoss = o.loss ⟨prior, fun _ => 0⟩ ∧ Q s.pred ≤ Q ⟨prior, fun _ => 0⟩ ∧
      ((s = startState o cfgs prior) ∨ 1 ≤ s.iteration ∧ 0 ≤ s.delta ∧
        ((s.iteration : ℝ) - 1) * p.minimalFactorChange ^ 2 + s.delta ^ 2 + 2 * Q s.pred + 2 * squares FState.factors cfgs s.feats
          ≤ 2 * Q ⟨prior, fun _ => 0⟩) := by
  induction h with
  | start => exact ⟨rfl, rfl, le_rfl, Or.inl rfl⟩
  | step ht hc hi ih =>
    rename_i past s s'
    obtain ⟨h1, h2, h3, h4⟩ := ih
    obtain ⟨feats, pred, r, hfp, hcc, hr, hf, hp, hit, hil, -, -, hdl, -⟩ := iterate_ok p o cfgs s s' hi
    have hpass := settle_pass p hh o Q s.iteration s.diverging s.isDiverging s.initialLoss cfgs 0 s.feats s.pred
      (fun j cfg hj fs pr => by rw [Nat.zero_add]; exact hv _ _ _ _ j cfg hj fs pr)
    rw [hfp] at hpass
    dsimp only at hpass
    obtain ⟨p1, p2⟩ := hpass
    have e1 := squares_nonneg FState.factors cfgs feats
    have hnd : isDiverged s.initialLoss (o.loss pred) = false := by
      rw [h2]
      exact hloss _ _ (by linarith)
    unfold checkConvergence at hcc
    rw [hnd] at hcc
    simp only [Bool.false_eq_true, if_false, Except.ok.injEq, Prod.mk.injEq] at hcc
    rw [← hcc.2] at hr
    simp only [Bool.false_eq_true, if_false, Except.ok.injEq] at hr
    have hpred : s'.pred = pred := by rw [hp, ← hr]
    have hfeats : s'.feats = feats := by rw [hf, ← hr]
    obtain ⟨d1, d2⟩ := factorsDeviation_sq cfgs feats
    rw [← hdl] at d1 d2
    refine ⟨hcc.2.symm, hil.trans h2, by rw [hpred]; linarith, Or.inr ⟨by omega, d1, ?_⟩⟩
    rw [hpred, hfeats, hit]
    push_cast
    rcases h4 with h4 | ⟨g1, g2, g3⟩
    · subst h4
      have hz : squares FState.factors cfgs (startState o cfgs prior).feats = 0 := by
        simp only [startState]
        clear * -
        induction cfgs with
        | nil => simp [squares]
        | cons cfg cfgs ih =>
          rw [List.map_cons, squares_cons, ih]
          simp [FState.init]
      rw [hz] at p2
      have hpr : (startState o cfgs prior).pred = ⟨prior, fun _ => 0⟩ := rfl
      rw [hpr] at p1
      have : ((startState o cfgs prior).iteration : ℝ) = 0 := by simp [startState]
      rw [this]
      nlinarith
    · have hε : p.minimalFactorChange < s.delta := by
        unfold continues at hc
        rw [h1, Bool.or_false] at hc
        unfold checkStop at hc
        simp only [hh, Option.isSome_none, Bool.and_false, Bool.not_false, Bool.and_true, Bool.not_eq_true', Bool.or_eq_false_iff,
          decide_eq_false_iff_not, not_le] at hc
        exact hc.1.2
      have hε2 : p.minimalFactorChange ^ 2 ≤ s.delta ^ 2 := pow_le_pow_left₀ he hε.le 2
      nlinarith

/-- A sum over the samples, bin by bin, over all the bins of the feature. -/
theorem sum_over_bins (n N : ℕ) (codes : ℕ → ℕ) (hc : ∀ i < n, codes i ≤ N) (h : ℕ → ℝ) :
    ∑ i ∈ range n, h i = ∑ b ∈ range (N + 1), binSum n codes h b := by
  unfold binSum
  rw [← Finset.sum_fiberwise_of_maps_to (g := codes) (t := range (N + 1))
    (fun i hi => Finset.mem_range.mpr (Nat.lt_succ_of_le (hc i (Finset.mem_range.mp hi)))) h]
  exact Finset.sum_congr rfl fun b _ => Finset.sum_filter _ _

/-- An update whose summands are shrunk versions of the estimates decreases the squared error by at least twice the sum of the squares
of the summands. -/
theorem gbs_step_pays (ra : ℝ) (ha : 0 ≤ ra) (n N : ℕ) (codes : ℕ → ℕ) (hc : ∀ i < n, codes i ≤ N) (y pred w f : ℕ → ℝ)
    (hw : ∀ i < n, 0 ≤ w i)
    (hf : ∀ b ≤ N, ∃ t, 0 ≤ t ∧ t ≤ 1 ∧ f b = t * gbsSummand ra n codes y pred w b) :
    ∑ i ∈ range n, w i * ((pred i + f (codes i)) - y i) ^ 2 + 2 * ∑ b ∈ range (N + 1), f b ^ 2
      ≤ ∑ i ∈ range n, w i * (pred i - y i) ^ 2 := by
  rw [← le_sub_iff_add_le', ← Finset.sum_sub_distrib]
  have e : ∀ i ∈ range n, w i * (pred i - y i) ^ 2 - w i * ((pred i + f (codes i)) - y i) ^ 2 =
      (2 * f (codes i)) * ((y i - pred i) * w i) - (f (codes i)) ^ 2 * w i := fun i _ => by ring
  rw [Finset.sum_congr rfl e, sum_over_bins n N codes hc, Finset.mul_sum]
  refine Finset.sum_le_sum fun b hb => ?_
  rw [binSum_sub', binSum_mul n codes (fun b => 2 * f b), binSum_mul n codes (fun b => f b ^ 2)]
  obtain ⟨t, h0, h1, hft⟩ := hf b (Nat.lt_succ_iff.mp (Finset.mem_range.mp hb))
  have hW : 0 ≤ binSum n codes w b := by
    unfold binSum
    refine Finset.sum_nonneg fun j hj => ?_
    split_ifs
    · exact hw j (Finset.mem_range.mp hj)
    · exact le_refl 0
  have hD : binSum n codes (fun i => w i * (1 + ra)) b = binSum n codes w b * (1 + ra) := by
    have := binSum_mul n codes (fun _ => 1 + ra) w b
    rw [mul_comm, ← this]
    congr 1
    funext j
    ring
  rw [hft]
  unfold gbsSummand
  simp only [hD]
  generalize binSum n codes (fun i => (y i - pred i) * w i) b = N
  revert hW
  generalize binSum n codes w b = W
  intro hW
  have hWa : 0 ≤ W * ra := mul_nonneg hW ha
  have hpos : 0 < W * (1 + ra) + 1 := by nlinarith
  rw [← sub_nonneg]
  have e2 : 2 * (t * (N / (W * (1 + ra) + 1))) * N - (t * (N / (W * (1 + ra) + 1))) ^ 2 * W
        - 2 * (t * (N / (W * (1 + ra) + 1))) ^ 2 =
      t * N ^ 2 * (2 * (W * (1 + ra) + 1) - t * W - 2 * t) / (W * (1 + ra) + 1) ^ 2 := by
    field_simp
  rw [e2]
  apply div_nonneg
  · apply mul_nonneg (mul_nonneg h0 (sq_nonneg N))
    nlinarith [mul_le_mul_of_nonneg_right h1 hW]
  · positivity

/-- Without clipping, the new factors are the learning rate times what the smoother says, and the old ones are kept. -/
theorem update_plain_factors (p : Params ℝ) (hclip : p.clip = false) (hp : p.aggregate = true) (o : Oracle ℝ) (it i : ℕ)
    (cfg : FeatureCfg) (dv : ℕ) (isd : Bool) (il : Flt ℝ) (fs : FState ℝ) (pred : Pred ℝ)
    (hcal : ∀ it i fs, o.calibrate it i fs = fs.factors) :
    (featureIteration p o it i cfg dv isd il fs pred).1.factors =
        predictFactors cfg (updateFactors cfg fs (o.estimate it i pred fs) (o.learnRate (it + 1)))
          (o.smooth it i pred (updateFactors cfg fs (o.estimate it i pred fs) (o.learnRate (it + 1))) (o.estimate it i pred fs))
          (o.learnRate (it + 1)) ∧
      (featureIteration p o it i cfg dv isd il fs pred).1.factorsOld = fs.factors := by
  unfold featureIteration
  simp only [hp, if_true, hcal]
  unfold visitFactors
  simp only [hclip, Bool.false_and]
  exact ⟨rfl, rfl⟩

section
variable {σ : Type*} (S : Setup σ) (D : TrainSet) (ra : ℝ)

/-- A visit of a feature decreases the squared error by at least twice the sum of the squares of the new factors. -/
theorem gbs_visit_pays (hagg : S.params.aggregate = true) (ha : 0 ≤ ra) (hw : ∀ i < D.n, 0 ≤ D.w i)
    (hlr : ∀ k, 0 ≤ S.learnRate k ∧ S.learnRate k ≤ 1) (hg : ∀ f ∈ S.features, f.1.group ≠ [] ∧ f.1.external = false)
    (hsm : ShrinkingSmoothers S D)
    (it j : ℕ) (cfg : FeatureCfg) (hj : (S.cfgs D)[j]? = some cfg) (dv : ℕ) (isd : Bool) (il : Flt ℝ) (fs : FState ℝ) (pred : Pred ℝ) :
    trainingError D (featureIteration (S.paramsFor (gbsEstimator ra)) (S.oracle (gbsEstimator ra) D) it j cfg dv isd il fs pred).2.factors
        + 2 * ∑ b ∈ range (cfg.nFinite + 1), (featureIteration (S.paramsFor (gbsEstimator ra)) (S.oracle (gbsEstimator ra) D) it j cfg
          dv isd il fs pred).1.factors b ^ 2 ≤ trainingError D pred.factors ∧
      (featureIteration (S.paramsFor (gbsEstimator ra)) (S.oracle (gbsEstimator ra) D) it j cfg dv isd il fs pred).1.factorsOld
        = fs.factors := by
  unfold Setup.cfgs at hj
  rw [List.getElem?_map] at hj
  cases hf : S.features[j]? with
  | none => rw [hf] at hj; simp at hj
  | some f =>
    rw [hf] at hj
    simp only [Option.map_some, Option.some.injEq] at hj
    subst hj
    have hmem : f ∈ S.features := List.mem_of_getElem? hf
    have hcal : ∀ it i fs, (S.oracle (gbsEstimator ra) D).calibrate it i fs = fs.factors := by
      intro it i fs
      unfold Setup.oracle
      dsimp only
      cases S.features[i]? with
      | none => rfl
      | some f => rfl
    have hclip : (S.paramsFor (gbsEstimator ra)).clip = false := by simp [Setup.paramsFor, gbsEstimator]
    obtain ⟨u1, u2⟩ := update_plain_factors (S.paramsFor (gbsEstimator ra)) hclip hagg (S.oracle (gbsEstimator ra) D) it j
      (f.1.cfg D.X D.n) dv isd il fs pred hcal
    refine ⟨?_, u2⟩
    rw [u1, update_plain (S.paramsFor (gbsEstimator ra)) hagg hclip _ _ _ _ _ _ _ _ _ hcal]
    have hx : (f.1.cfg D.X D.n).external = false := (hg f hmem).2
    unfold Pred.update
    rw [hx]
    simp only [Bool.false_eq_true, if_false]
    unfold trainingError
    have hest : ∀ b, (S.oracle (gbsEstimator ra) D).estimate it j pred fs b
        = gbsSummand ra D.n (f.1.cfg D.X D.n).bin D.y pred.factors D.w b := by
      intro b
      simp only [Setup.oracle, hf, gbsEstimator]
    refine gbs_step_pays ra ha D.n (f.1.cfg D.X D.n).nFinite (f.1.cfg D.X D.n).bin
      (fun i hi => cfg_bin_le f.1 (hg f hmem).1 D.X D.n i hi) D.y pred.factors D.w _ hw ?_
    intro b hb
    obtain ⟨t, t0, t1, e⟩ := update_shrinks (f.1.cfg D.X D.n) fs ((S.oracle (gbsEstimator ra) D).estimate it j pred fs)
      ((S.oracle (gbsEstimator ra) D).learnRate (it + 1)) (hlr _).1 (hlr _).2 ((S.oracle (gbsEstimator ra) D).smooth it j pred
        (updateFactors (f.1.cfg D.X D.n) fs ((S.oracle (gbsEstimator ra) D).estimate it j pred fs)
          ((S.oracle (gbsEstimator ra) D).learnRate (it + 1))) ((S.oracle (gbsEstimator ra) D).estimate it j pred fs))
      (by
        intro b v hv
        simp only [Setup.oracle, hf] at hv ⊢
        exact hsm f hmem _ _ b v hv) b hb
    exact ⟨t, t0, t1, by rw [← hest]; exact e⟩

/-- All iterations but the last change the factors by more than the minimal factor change, which costs squared error. -/
theorem gbs_settles (hagg : S.params.aggregate = true) (hh : S.params.hierarchical = none) (he : 0 ≤ S.params.minimalFactorChange)
    (ha : 0 ≤ ra) (hw : ∀ i < D.n, 0 ≤ D.w i)
    (hlr : ∀ k, 0 ≤ S.learnRate k ∧ S.learnRate k ≤ 1) (hg : ∀ f ∈ S.features, f.1.group ≠ [] ∧ f.1.external = false)
    (hsm : ShrinkingSmoothers S D) (prior : ℕ → ℝ) (past : List (TState ℝ)) (s : TState ℝ)
    (h : Trace (S.paramsFor (gbsEstimator ra)) (S.oracle (gbsEstimator ra) D) (S.cfgs D)
      (startState (S.oracle (gbsEstimator ra) D) (S.cfgs D) prior) past s) :
    s.isDiverging = false ∧ ((s.iteration : ℝ) - 1) * S.params.minimalFactorChange ^ 2 ≤ 2 * trainingError D prior := by
  have hT : ∀ f, 0 ≤ trainingError D f := fun f =>
    Finset.sum_nonneg fun i hi => mul_nonneg (hw i (Finset.mem_range.mp hi)) (sq_nonneg _)
  obtain ⟨h1, -, -, h4⟩ := settle_trace (S.paramsFor (gbsEstimator ra)) hh he (S.oracle (gbsEstimator ra) D) (S.cfgs D) prior
    (fun pred => trainingError D pred.factors)
    (fun it dv isd il j cfg hj fs pred => gbs_visit_pays S D ra hagg ha hw hlr hg hsm it j cfg hj dv isd il fs pred)
    (fun a b hab => gbs_not_diverged S D ra hw a b hab) past s h
  refine ⟨h1, ?_⟩
  rcases h4 with rfl | ⟨-, -, h4⟩
  · have : (((startState (S.oracle (gbsEstimator ra) D) (S.cfgs D) prior).iteration : ℕ) : ℝ) = 0 := by simp [startState]
    rw [this]
    have := hT prior
    nlinarith [sq_nonneg S.params.minimalFactorChange]
  · have e1 := squares_nonneg FState.factors (S.cfgs D) s.feats
    have e2 := hT s.pred.factors
    have e3 := sq_nonneg s.delta
    have : (S.paramsFor (gbsEstimator ra)).minimalFactorChange = S.params.minimalFactorChange := rfl
    rw [this] at h4
    dsimp only at h4
    linarith

/-- Training of the GBS regressor starts from the starting predictions. -/
theorem gbs_baseline (a : ℝ) (hs : (gbsEstimator ra).scale D.n D.y D.w = .fin a) :
    baseline (gbsEstimator ra) D a = startingPredictions D := by
  have ha : a = (∑ j ∈ range D.n, D.y j * D.w j) / ∑ j ∈ range D.n, D.w j := by
    simp only [gbsEstimator, quotientFlt] at hs
    split_ifs at hs
    exact (Flt.fin.inj hs).symm
  funext i
  unfold baseline startingPredictions Estimator.offset priorPrediction
  cases hp : D.prior with
  | none => simp [Flt.getFin, ha]
  | some prior =>
    simp only [gbsEstimator]
    cases hpi : prior i <;> simp [linkFlt, Flt.add, Flt.isFinite, Flt.getFin, ha]

/-- **C121.** Every iteration but the last one costs squared error: a fit that ends after `k` iterations started from predictions with
a weighted squared error of at least `(k - 1) / 2` times the square of `minimal_factor_change`, whatever `maximal_iterations` is. -/
theorem C121_iterations (h : PlainDescent S D ra) (he : 0 ≤ S.params.minimalFactorChange) (fuel : ℕ) (m : FittedModel)
    (hm : S.fit (gbsEstimator ra) D fuel = some (.ok m)) :
    ((m.iterations : ℝ) - 1) * S.params.minimalFactorChange ^ 2 ≤ 2 * trainingError D (startingPredictions D) := by
  obtain ⟨a, r, -, hs, hfit, rfl⟩ := fit_ok S _ D fuel m hm
  obtain ⟨past, s, ht, -, -, -, hit⟩ := fitMain_ok _ _ _ _ fuel r hfit
  rw [gbs_baseline D ra a hs] at ht
  have := (gbs_settles S D ra h.aggregate h.noHierarchy he h.regalpha h.weights h.learnRate h.features h.smoothers _ past s ht).2
  dsimp only
  rw [hit]
  exact this

/-- One pass over the features does not depend on the maximal number of iterations. -/
theorem featurePass_maximal {K : Type*} [Field K] [LinearOrder K] (p : Params K) (N : ℕ) (o : Oracle K) (it dv : ℕ) (isd : Bool) (il : Flt K) :
    ∀ (cfgs : List FeatureCfg) (k : ℕ) (fss : List (FState K)) (pred : Pred K),
      featurePass { p with maximalIterations := N } o it dv isd il k cfgs fss pred = featurePass p o it dv isd il k cfgs fss pred
  | [], k, fss, pred => by simp [featurePass]
  | cfg :: cfgs, k, [], pred => by simp [featurePass]
  | cfg :: cfgs, k, fs :: fss, pred => by
    have hs : skipped { p with maximalIterations := N } it cfg = skipped p it cfg := rfl
    have hf : ∀ fs pred, featureIteration { p with maximalIterations := N } o it k cfg dv isd il fs pred
        = featureIteration p o it k cfg dv isd il fs pred := fun _ _ => rfl
    unfold featurePass
    simp only [hs, hf, featurePass_maximal p N o it dv isd il cfgs (k + 1) fss]

theorem iterate_maximal {K : Type*} [Field K] [LinearOrder K] (p : Params K) (N : ℕ) (o : Oracle K) (cfgs : List FeatureCfg) (s : TState K) :
    iterate { p with maximalIterations := N } o cfgs s = iterate p o cfgs s := by
  unfold iterate
  rw [featurePass_maximal]

/-- If no state of a training reaches either of two maximal numbers of iterations, they make no difference. -/
theorem loop_maximal {K : Type*} [Field K] [LinearOrder K] (p : Params K) (N : ℕ) (o : Oracle K) (cfgs : List FeatureCfg) (s0 : TState K)
    (hb : ∀ past s, Trace p o cfgs s0 past s → s.iteration < p.maximalIterations ∧ s.iteration < N) :
    ∀ (fuel : ℕ) (past : List (TState K)) (s : TState K), Trace p o cfgs s0 past s →
      loop { p with maximalIterations := N } o cfgs fuel s = loop p o cfgs fuel s := by
  intro fuel
  induction fuel with
  | zero =>
    intro past s ht
    obtain ⟨b1, b2⟩ := hb past s ht
    have hc : continues { p with maximalIterations := N } s = continues p s := by
      unfold continues checkStop
      simp [Nat.not_le.mpr b1, Nat.not_le.mpr b2]
    unfold loop
    rw [hc]
  | succ fuel ih =>
    intro past s ht
    obtain ⟨b1, b2⟩ := hb past s ht
    have hc : continues { p with maximalIterations := N } s = continues p s := by
      unfold continues checkStop
      simp [Nat.not_le.mpr b1, Nat.not_le.mpr b2]
    unfold loop
    rw [hc, iterate_maximal]
    by_cases hcs : continues p s = true
    · rw [if_pos hcs, if_pos hcs]
      cases hi : iterate p o cfgs s with
      | error e => rfl
      | ok s' => exact ih (s :: past) s' (.step ht hcs hi)
    · rw [if_neg hcs, if_neg hcs]

/-- **C121**, the bound on the iterations: once `maximal_iterations` exceeds the bound given by the squared error of the starting
predictions, its value makes no difference any more: the same model, or the same error. -/
theorem C121_maximal_iterations (h : PlainDescent S D ra) (he : 0 ≤ S.params.minimalFactorChange) (fuel N : ℕ)
    (h1 : 2 * trainingError D (startingPredictions D) < ((S.params.maximalIterations : ℝ) - 1) * S.params.minimalFactorChange ^ 2)
    (h2 : 2 * trainingError D (startingPredictions D) < ((N : ℝ) - 1) * S.params.minimalFactorChange ^ 2) :
    (withMaximalIterations S N).fit (gbsEstimator ra) D fuel = S.fit (gbsEstimator ra) D fuel := by
  have hv : ∀ i < D.n, (gbsEstimator ra).valid (D.y i) := fun _ _ => trivial
  cases hs : (gbsEstimator ra).scale D.n D.y D.w with
  | fin a =>
    rw [Setup.fit_finite _ D _ fuel hv a hs, Setup.fit_finite S D _ fuel hv a hs]
    have key : fitMain ((withMaximalIterations S N).paramsFor (gbsEstimator ra)) ((withMaximalIterations S N).oracle (gbsEstimator ra) D)
          ((withMaximalIterations S N).cfgs D) (baseline (gbsEstimator ra) D a) fuel =
        fitMain (S.paramsFor (gbsEstimator ra)) (S.oracle (gbsEstimator ra) D) (S.cfgs D) (baseline (gbsEstimator ra) D a) fuel := by
      show fitMain { S.paramsFor (gbsEstimator ra) with maximalIterations := N } (S.oracle (gbsEstimator ra) D) (S.cfgs D) _ fuel = _
      unfold fitMain
      rw [loop_maximal (S.paramsFor (gbsEstimator ra)) N (S.oracle (gbsEstimator ra) D) (S.cfgs D) _ ?_ fuel [] _ .start]
      intro past s ht
      rw [gbs_baseline D ra a hs] at ht
      have hb := (gbs_settles S D ra h.aggregate h.noHierarchy he h.regalpha h.weights h.learnRate h.features h.smoothers _ past s ht).2
      have lt : ∀ M : ℕ, 2 * trainingError D (startingPredictions D) < ((M : ℝ) - 1) * S.params.minimalFactorChange ^ 2 →
          s.iteration < M := by
        intro M hM
        by_contra hc
        have : (M : ℝ) ≤ (s.iteration : ℝ) := by exact_mod_cast Nat.le_of_not_lt hc
        have := mul_le_mul_of_nonneg_right (sub_le_sub_right this 1) (sq_nonneg S.params.minimalFactorChange)
        linarith
      exact ⟨lt _ h1, lt _ h2⟩
    unfold baseline at key
    rw [key]
    rfl
  | nan => rw [Setup.fit_notFinite _ D _ fuel hv (by rw [hs]; rfl), Setup.fit_notFinite S D _ fuel hv (by rw [hs]; rfl)]
  | pinf => rw [Setup.fit_notFinite _ D _ fuel hv (by rw [hs]; rfl), Setup.fit_notFinite S D _ fuel hv (by rw [hs]; rfl)]
  | ninf => rw [Setup.fit_notFinite _ D _ fuel hv (by rw [hs]; rfl), Setup.fit_notFinite S D _ fuel hv (by rw [hs]; rfl)]

/-- **C121**, success: such a training ends with a model, in fewer iterations than any `N` above the bound, however large
`maximal_iterations` is. -/
theorem C121_fit_succeeds (h : PlainDescent S D ra) (he : 0 ≤ S.params.minimalFactorChange) (hf : S.params.minimalFactorChange < 100)
    (hlc : S.params.minimalLossChange < 100000000000000000000) (hsum : ∑ i ∈ range D.n, D.w i ≠ 0) (N : ℕ)
    (hN : 2 * trainingError D (startingPredictions D) < ((N : ℝ) - 1) * S.params.minimalFactorChange ^ 2)
    (hm : N ≤ S.params.maximalIterations) (fuel : ℕ) (hfuel : N + 4 ≤ fuel) :
    ∃ m, S.fit (gbsEstimator ra) D fuel = some (.ok m) ∧ m.iterations < N := by
  have hT : 0 ≤ trainingError D (startingPredictions D) :=
    Finset.sum_nonneg fun i hi => mul_nonneg (h.weights i (Finset.mem_range.mp hi)) (sq_nonneg _)
  have hε : 0 ≤ S.params.minimalFactorChange ^ 2 := sq_nonneg _
  have hN1 : 1 ≤ N := by
    by_contra hc
    have : N = 0 := by omega
    subst this
    norm_num at hN
    linarith
  have hmax : 2 * trainingError D (startingPredictions D) <
      ((S.params.maximalIterations : ℝ) - 1) * S.params.minimalFactorChange ^ 2 := by
    have : (N : ℝ) ≤ (S.params.maximalIterations : ℝ) := by exact_mod_cast hm
    have := mul_le_mul_of_nonneg_right (sub_le_sub_right this 1) hε
    linarith
  obtain ⟨-, m, hfit⟩ := C80_fit_succeeds (withMaximalIterations S N) D ra h.aggregate h.regalpha h.weights h.learnRate
    (fun f hf => (h.features f hf).1) h.smoothers hsum hN1 h.noHierarchy hf hlc fuel hfuel
  rw [C121_maximal_iterations S D ra h he fuel N hmax hN] at hfit
  refine ⟨m, hfit, ?_⟩
  by_contra hc
  have h1 := C121_iterations S D ra h he fuel m hfit
  have : (N : ℝ) ≤ (m.iterations : ℝ) := by exact_mod_cast Nat.le_of_not_lt hc
  have := mul_le_mul_of_nonneg_right (sub_le_sub_right this 1) hε
  linarith

end

end CB
