import Verif.Props.ConvergenceMore
import Verif.Props.ConvergenceExample
import Verif.Props.CostDescent
import Verif.Props.Resume
import Verif.Spec.ConvergenceCosts

/-!
# C160: training with squared costs converges to the best additive model
-/

set_option autoImplicit false
set_option linter.unusedSectionVars false

namespace CB
open Finset Spec
open scoped RealInnerProductSpace

section
variable {σ : Type*} {minimize : (ℝ → Flt ℝ) → ℝ → ℝ}

theorem squaredCost_convex : ConvexLoss squaredCost where
  nonneg p y := sq_nonneg _
  convex a b y t h0 h1 := by
    unfold squaredCost
    nlinarith [mul_nonneg (mul_nonneg h0 (sub_nonneg.mpr h1)) (sq_nonneg (a - b))]

/-- `CBAdditiveGenericCRegressor` with squared costs. -/
noncomputable def squaredEstimator (minimize : (ℝ → Flt ℝ) → ℝ → ℝ) : Estimator := genericEstimator false (meanCosts squaredCost) minimize

theorem squaredEstimator_cost : CostEstimator minimize false (squaredEstimator minimize) squaredCost := .generic false _ squaredCost_convex

/-- An optimiser that finds minima finds the weighted mean of the residuals. -/
theorem squared_parameter (hmin : FindsMinimum minimize) (it n : ℕ) (codes : ℕ → ℕ) (y w q : ℕ → ℝ) (b : ℕ) (hW : 0 < binSum n codes w b) :
    ((squaredEstimator minimize).parameters it n codes y w q b).1 = binSum n codes (fun i => (y i - q i) * w i) b / binSum n codes w b := by
  have hpar : ((squaredEstimator minimize).parameters it n codes y w q b).1 =
      minimize (binObjective (meanCosts squaredCost) identityLink false n codes y w q b) 0 := by
    show genericParamLink identityLink (minimize _ (identityLink.unlink 0)) = _
    unfold genericParamLink
    rw [if_neg (by simp [identityLink])]
    rfl
  rw [hpar]
  set W := binSum n codes w b with hWd
  set R := binSum n codes (fun i => (y i - q i) * w i) b with hR
  set Q := binSum n codes (fun i => w i * (y i - q i) ^ 2) b with hQ
  have hsum : ((binMembers n codes b).map w).sum = W := (binSum_members n codes w b).symm
  have hval : ∀ c, binObjective (meanCosts squaredCost) identityLink false n codes y w q b c = .fin ((c ^ 2 * W - 2 * c * R + Q) / W) := by
    intro c
    unfold binObjective meanCosts
    rw [if_neg, if_neg]
    · rw [List.map_map, List.map_map]
      have e2 : ((binMembers n codes b).map fun i => w i * (c + q i - y i) ^ 2).sum = c ^ 2 * W - 2 * c * R + Q := by
        rw [← binSum_members, hWd, hR, hQ]
        unfold binSum
        rw [mul_sum, mul_sum, ← sum_sub_distrib, ← sum_add_distrib]
        refine sum_congr rfl fun i _ => ?_
        split_ifs <;> ring
      exact congrArg Flt.fin (congrArg₂ (· / ·) e2 hsum)
    · rw [List.map_map]
      exact (hsum.trans_ne hW.ne')
    · intro hnil
      rw [List.map_eq_nil_iff.mp hnil] at hsum
      simp at hsum
      exact hW.ne hsum
  have hlow : ∀ c, c ^ 2 * W - 2 * c * R + Q = W * (c - R / W) ^ 2 + (Q - R ^ 2 / W) := by
    intro c
    field_simp
    ring
  obtain ⟨c, hc, hle⟩ := hmin (binObjective (meanCosts squaredCost) identityLink false n codes y w q b) 0 (R / W) _ (hval _) (by
    intro z c hz
    rw [hval, Flt.fin.injEq] at hz
    rw [← hz, hlow, hlow]
    refine div_le_div_of_nonneg_right ?_ hW.le
    nlinarith [mul_nonneg hW.le (sq_nonneg (z - R / W))])
  set z := minimize (binObjective (meanCosts squaredCost) identityLink false n codes y w q b) 0 with hz
  rw [hval, Flt.fin.injEq] at hc
  rw [← hc, div_le_div_iff_of_pos_right hW, hlow, hlow] at hle
  have h0 : (z - R / W) ^ 2 = 0 := by
    have : W * (z - R / W) ^ 2 ≤ 0 := by nlinarith
    have h1 := sq_nonneg (z - R / W)
    nlinarith
  have := pow_eq_zero_iff (two_ne_zero) |>.mp h0
  linarith

open Classical in
/-- The weight of a bin, and 1 for a bin without weight. -/
noncomputable def massOf (X : Table ℝ) (n : ℕ) (w : ℕ → ℝ) (f : FeatureSpec × SmootherKind) (b : ℕ) : ℝ :=
  if binSum n (f.1.cfg X n).bin w b = 0 then 1 else binSum n (f.1.cfg X n).bin w b

theorem massOf_ok (X : Table ℝ) (n : ℕ) (w : ℕ → ℝ) (hw : ∀ i < n, 0 ≤ w i) (f : FeatureSpec × SmootherKind)
    (b : ℕ) : 0 < massOf X n w f b ∧
      (∑ j : Fin n, if codeOf X n f j = b then Real.sqrt (w j) ^ 2 else 0) ≤ massOf X n w f b := by
  have h1 : (∑ j : Fin n, if codeOf X n f j = b then Real.sqrt (w j) ^ 2 else 0) = binSum n (f.1.cfg X n).bin w b := by
    unfold binSum
    rw [Finset.sum_range]
    refine Finset.sum_congr rfl fun j _ => ?_
    rw [Real.sq_sqrt (hw j j.2)]
    rfl
  have h3 : 0 ≤ binSum n (f.1.cfg X n).bin w b := by
    unfold binSum
    refine Finset.sum_nonneg fun i hi => ?_
    split_ifs
    · exact hw i (Finset.mem_range.mp hi)
    · exact le_rfl
  rw [h1]
  unfold massOf
  split_ifs with h
  · rw [h]; exact ⟨one_pos, zero_le_one⟩
  · exact ⟨lt_of_le_of_ne h3 (Ne.symm h), le_rfl⟩

theorem binSum_pos_of (n : ℕ) (codes : ℕ → ℕ) (w : ℕ → ℝ) (hw : ∀ i < n, 0 ≤ w i) (i : ℕ) (hi : i < n) (hwi : w i ≠ 0) :
    0 < binSum n codes w (codes i) := by
  unfold binSum
  refine Finset.sum_pos' (fun j hj => ?_) ⟨i, Finset.mem_range.mpr hi, ?_⟩
  · split_ifs
    · exact hw j (Finset.mem_range.mp hj)
    · exact le_rfl
  · rw [if_pos rfl]
    exact lt_of_le_of_ne (hw i hi) (Ne.symm hwi)

noncomputable def meanOperator (D : TrainSet) (f : FeatureSpec × SmootherKind) :
    EuclideanSpace ℝ (Fin D.n) →ₗ[ℝ] EuclideanSpace ℝ (Fin D.n) :=
  binOperator (codeOf D.X D.n f) (fun i => Real.sqrt (D.w i)) (massOf D.X D.n D.w f)

/-- What a visit of a feature does to the residuals. -/
theorem residuals_mean_visit (D : TrainSet) (hw : ∀ i < D.n, 0 ≤ D.w i) (l : ℝ) (f : FeatureSpec × SmootherKind) (q q' : ℕ → ℝ)
    (h : ∀ i < D.n, D.w i ≠ 0 → q' i = q i + l * (binSum D.n (f.1.cfg D.X D.n).bin (fun i => (D.y i - q i) * D.w i) ((f.1.cfg D.X D.n).bin i) /
      binSum D.n (f.1.cfg D.X D.n).bin D.w ((f.1.cfg D.X D.n).bin i))) :
    residuals D q' = residuals D q - l • meanOperator D f (residuals D q) := by
  ext i
  rw [PiLp.sub_apply, PiLp.smul_apply, residuals_apply, residuals_apply]
  unfold meanOperator
  rw [binOperator_apply]
  by_cases h0 : D.w i = 0
  · rw [h0]; simp
  · rw [h i i.2 h0]
    have e : (∑ j : Fin D.n, if codeOf D.X D.n f j = codeOf D.X D.n f i then Real.sqrt (D.w j) * residuals D q j else 0) =
        binSum D.n (f.1.cfg D.X D.n).bin (fun i => (D.y i - q i) * D.w i) ((f.1.cfg D.X D.n).bin i) := by
      unfold binSum
      rw [Finset.sum_range]
      refine Finset.sum_congr rfl fun j _ => ?_
      rw [residuals_apply, ← mul_assoc, Real.mul_self_sqrt (hw j j.2), mul_comm]
      rfl
    have em : massOf D.X D.n D.w f (codeOf D.X D.n f i) = binSum D.n (f.1.cfg D.X D.n).bin D.w ((f.1.cfg D.X D.n).bin i) := by
      unfold massOf codeOf
      rw [if_neg (binSum_pos_of D.n _ D.w hw i i.2 h0).ne']
    rw [e, em]
    simp only [smul_eq_mul]
    ring

variable (S : Setup σ) (D : TrainSet) (low : ℝ)

theorem featureIteration_mean (h : FreeCostDescent S D minimize low) (it k : ℕ) (f : FeatureSpec × SmootherKind)
    (hf : S.features[k]? = some f) (dv : ℕ) (isd : Bool) (il : Flt ℝ) (fs : FState ℝ) (hz : fs.zeroSmoother = false) (pred : Pred ℝ) :
    residuals D (featureIteration (S.paramsFor (squaredEstimator minimize)) (S.oracle (squaredEstimator minimize) D) it k (f.1.cfg D.X D.n)
        dv isd il fs pred).2.factors =
      residuals D pred.factors - S.learnRate (it + 1) • meanOperator D f (residuals D pred.factors) := by
  have hmem : f ∈ S.features := List.mem_of_getElem? hf
  have hcal : ∀ it i fs, (S.oracle (squaredEstimator minimize) D).calibrate it i fs = fs.factors := by
    intro it i fs
    unfold Setup.oracle
    dsimp only
    cases S.features[i]? with
    | none => rfl
    | some f => rfl
  refine residuals_mean_visit D h.free.plain.weights _ f _ _ fun i hi hwi => ?_
  rw [update_plain (S.paramsFor (squaredEstimator minimize)) h.free.plain.aggregate
    (by simp [Setup.paramsFor, squaredEstimator, genericEstimator]) _ _ _ _ _ _ _ _ _ hcal]
  have hx : (f.1.cfg D.X D.n).external = false := (h.free.plain.features f hmem).2
  unfold Pred.update
  rw [hx]
  simp only [Bool.false_eq_true, if_false]
  congr 1
  have hest : (S.oracle (squaredEstimator minimize) D).estimate it k pred fs ((f.1.cfg D.X D.n).bin i)
      = binSum D.n (f.1.cfg D.X D.n).bin (fun i => (D.y i - pred.factors i) * D.w i) ((f.1.cfg D.X D.n).bin i) /
        binSum D.n (f.1.cfg D.X D.n).bin D.w ((f.1.cfg D.X D.n).bin i) := by
    rw [← squared_parameter h.finds it D.n _ D.y D.w pred.factors _ (binSum_pos_of D.n _ D.w h.free.plain.weights i hi hwi)]
    simp only [Setup.oracle, hf]
  rw [← hest]
  unfold predictFactors updateFactors
  rcases h.free.unsmoothed f hmem i hi hwi with ⟨hb, hu⟩ | ⟨hb, hm⟩
  · rw [if_pos hb]
    have hsm : ∀ st, (S.oracle (squaredEstimator minimize) D).smooth it k pred st
        ((S.oracle (squaredEstimator minimize) D).estimate it k pred fs)
        ((f.1.cfg D.X D.n).bin i) = some ((S.oracle (squaredEstimator minimize) D).estimate it k pred fs ((f.1.cfg D.X D.n).bin i)) := by
      intro st
      simp only [Setup.oracle, hf]
      exact hu _ _
    simp only [hz, Bool.false_eq_true, if_false]
    rw [hsm]
    rfl
  · rw [if_neg (by omega)]
    have hm' : (f.1.cfg D.X D.n).missingNotLearned = false := hm
    simp only [if_true, hm', Bool.false_eq_true, if_false]
    rw [← hb, mul_comm]
    rfl

/-- A pass over the features is a pass of the operators over the residuals. -/
theorem featurePass_mean (h : FreeCostDescent S D minimize low) (it dv : ℕ) (isd : Bool) (il : Flt ℝ) :
    ∀ (features : List (FeatureSpec × SmootherKind)) (k : ℕ) (fss : List (FState ℝ)) (pred : Pred ℝ),
      (∀ j : ℕ, features[j]? = S.features[k + j]?) → fss.length = features.length → (∀ fs ∈ fss, fs.zeroSmoother = false) →
      residuals D (featurePass (S.paramsFor (squaredEstimator minimize)) (S.oracle (squaredEstimator minimize) D) it dv isd il k
          (features.map fun f => f.1.cfg D.X D.n) fss pred).2.factors =
        cyclicPass (features.map (meanOperator D)) (S.learnRate (it + 1)) (residuals D pred.factors)
  | [], k, fss, pred, _, _, _ => by simp [featurePass, cyclicPass]
  | f :: features, k, [], pred, _, hl, _ => by simp at hl
  | f :: features, k, fs :: fss, pred, hf, hl, hz => by
    have hsk : skipped (S.paramsFor (squaredEstimator minimize)) it (f.1.cfg D.X D.n) = false := by
      unfold skipped
      rw [show (S.paramsFor (squaredEstimator minimize)).hierarchical = none from h.free.plain.noHierarchy]
    rw [List.map_cons, List.map_cons, cyclicPass_cons]
    unfold featurePass
    simp only [hsk, Bool.false_eq_true, if_false]
    rw [featurePass_mean h it dv isd il features (k + 1) fss _ (fun j => by
        rw [← show k + (j + 1) = k + 1 + j by omega, ← hf (j + 1)]; rfl) (by simpa using hl) fun g hg => hz g (by simp [hg])]
    rw [featureIteration_mean S D low h it k f (by have := hf 0; rwa [Nat.add_zero, eq_comm] at this)]
    split_ifs
    · exact hz fs (by simp)
    · exact hz fs (by simp)

/-- During training the additive part of the residuals shrinks by the same factor in every iteration, and the rest stays. -/
theorem trace_mean (h : FreeCostDescent S D minimize low) (ρ : ℝ) (h0 : 0 ≤ ρ)
    (hρ : ∀ l, low ≤ l → l ≤ 1 → ∀ x ∈ designSpace S.features D.X D.n D.w, ∀ u ∈ (designSpace S.features D.X D.n D.w)ᗮ,
      ∃ z ∈ designSpace S.features D.X D.n D.w, cyclicPass (S.features.map (meanOperator D)) l (x + u) = z + u ∧
        ‖z‖ ^ 2 ≤ ρ * ‖x‖ ^ 2)
    (prior : ℕ → ℝ) (v u : EuclideanSpace ℝ (Fin D.n)) (hv : v ∈ designSpace S.features D.X D.n D.w)
    (hu : u ∈ (designSpace S.features D.X D.n D.w)ᗮ) (hp : residuals D prior = v + u) (past : List (TState ℝ)) (s : TState ℝ)
    (ht : Trace (S.paramsFor (squaredEstimator minimize)) (S.oracle (squaredEstimator minimize) D) (S.cfgs D)
      (startState (S.oracle (squaredEstimator minimize) D) (S.cfgs D) prior) past s) :
    ∃ z ∈ designSpace S.features D.X D.n D.w, residuals D s.pred.factors = z + u ∧ ‖z‖ ^ 2 ≤ ρ ^ s.iteration * ‖v‖ ^ 2 := by
  have hnd := fun past s ht => (C84_never_increases S D squaredEstimator_cost h.notWorse (fun h => by cases h) h.free.plain.aggregate
    h.limits h.free.plain.weights h.free.plain.learnRate
    (fun f hf => (h.free.plain.features f hf).1) h.free.plain.smoothers prior past s ht).2.2
  induction ht with
  | start => exact ⟨v, hv, hp, by simp [startState]⟩
  | @step past s s' ht hc hi ih =>
    obtain ⟨z, hz, hr, hb⟩ := ih
    have hcalm := iterate_calm _ _ _ s s' hi (hnd _ _ (.step ht hc hi))
    have hwf := trace_WF _ _ _ _ _ _ ht
    have hpass := featurePass_mean S D low h s.iteration s.diverging s.isDiverging s.initialLoss S.features 0 s.feats s.pred
      (fun j => by rw [Nat.zero_add]) (by rw [← hwf.1]; unfold Setup.cfgs; rw [List.length_map]) (by
        intro fs hfs
        by_contra hzz
        have h1 := trace_zeroSmoother _ _ _ _ _ _ ht fs hfs (by simpa using hzz)
        have h2 := hnd _ _ ht
        omega)
    obtain ⟨z', hz', e, hb'⟩ := hρ (S.learnRate (s.iteration + 1)) (h.free.learnRate _ (by omega)) (h.free.plain.learnRate _).2 z hz u hu
    refine ⟨z', hz', ?_, ?_⟩
    · rw [hcalm.2, ← e, ← hr]
      exact hpass
    · obtain ⟨_, _, _, _, _, _, _, _, hit, _⟩ := iterate_ok _ _ _ s s' hi
      rw [hit, pow_succ]
      calc ‖z'‖ ^ 2 ≤ ρ * ‖z‖ ^ 2 := hb'
        _ ≤ ρ * (ρ ^ s.iteration * ‖v‖ ^ 2) := mul_le_mul_of_nonneg_left hb h0
        _ = _ := by ring

theorem squared_baseline (hn : D.prior = none) (a : ℝ) (hs : (squaredEstimator minimize).scale D.n D.y D.w = .fin a) :
    baseline (squaredEstimator minimize) D a = scaledStart D := by
  have ha : a = (∑ j ∈ range D.n, D.y j * D.w j) / (∑ j ∈ range D.n, D.w j) + 0.001 := by
    simp only [squaredEstimator, genericEstimator, globalScaleLink, quotientFlt, Bool.false_eq_true, if_false] at hs
    split_ifs at hs
    · simp [linkFlt, Flt.addFin] at hs
    · simp only [linkFlt, Flt.addFin, Flt.fin.injEq] at hs
      rw [← hs]
      norm_num
  funext i
  unfold baseline scaledStart priorPrediction
  rw [hn]
  simp [Flt.getFin, ha]

/-- A constant is additive. -/
theorem additive_const (hne : S.features ≠ []) (q : ℕ → ℝ) (h : AdditiveModel S D q) (c : ℝ) : AdditiveModel S D fun i => q i + c := by
  obtain ⟨φ, hφ⟩ := h
  obtain ⟨f, hf⟩ := List.exists_mem_of_ne_nil _ hne
  obtain ⟨ψ, hψ⟩ := merge_functions S.features (codeOf D.X D.n) [(f, fun _ => c)] (by simpa using hf)
  refine ⟨fun g b => φ g b + ψ g b, fun i hi => ?_⟩
  have e := hψ ⟨i, hi⟩
  simp only [List.map_cons, List.map_nil, List.sum_cons, List.sum_nil, add_zero] at e
  beta_reduce
  rw [hφ i hi, List.sum_map_add, ← add_assoc]
  exact congrArg _ e

theorem additive_start (hne : S.features ≠ []) (hn : D.prior = none) : AdditiveModel S D (scaledStart D) := by
  have h : AdditiveModel S D (startingPredictions D) := ⟨fun _ _ => 0, fun i _ => by simp⟩
  have := additive_const S D hne _ h 0.001
  rwa [show (fun i => startingPredictions D i + 0.001) = scaledStart D from by
    funext i
    unfold startingPredictions scaledStart
    rw [hn]] at this

/-- What is added to the start is additive if the result is. -/
theorem additive_from_start (hne : S.features ≠ []) (hn : D.prior = none) (q : ℕ → ℝ) (φ : FeatureSpec × SmootherKind → ℕ → ℝ)
    (h : ∀ i < D.n, q i = scaledStart D i + (S.features.map fun f => φ f ((f.1.cfg D.X D.n).bin i)).sum) : AdditiveModel S D q := by
  obtain ⟨ψ, hψ⟩ := additive_start S D hne hn
  refine ⟨fun g b => ψ g b + φ g b, fun i hi => ?_⟩
  rw [h i hi, hψ i hi, List.sum_map_add, ← add_assoc]

/-- On the training samples the fitted model predicts what training ended with. -/
theorem squared_in_sample (h : FreeCostDescent S D minimize low) (fuel : ℕ) (m : FittedModel)
    (hm : S.fit (squaredEstimator minimize) D fuel = some (.ok m)) :
    ∃ past s, Trace (S.paramsFor (squaredEstimator minimize)) (S.oracle (squaredEstimator minimize) D) (S.cfgs D)
        (startState (S.oracle (squaredEstimator minimize) D) (S.cfgs D) (scaledStart D)) past s ∧
      s.iteration = m.iterations ∧ ∀ i < D.n, m.predict D.prior D.X i = s.pred.factors i := by
  obtain ⟨a, r, -, hs, hfit, rfl⟩ := fit_ok S _ D fuel m hm
  obtain ⟨past, s, ht, hc, -, hpred, hn⟩ := fitMain_ok _ _ _ _ fuel r hfit
  have hd : s.isDiverging = false := by
    unfold continues at hc
    rw [Bool.or_eq_false_iff] at hc
    exact hc.2
  refine ⟨past, s, by rw [← squared_baseline D h.noPrior a hs]; exact ht, by rw [← hn], fun i hi => ?_⟩
  have hcfgs : S.cfgs D = (S.features.map (·.1)).map fun f => f.cfg D.X D.n := by
    unfold Setup.cfgs
    rw [List.map_map]; rfl
  have hpi : r.prediction.factors i = s.pred.factors i := by
    rw [hpred, trace_prediction _ _ _ _ past s ht hd]
  rw [hcfgs] at hfit
  obtain ⟨h1, -⟩ := C19_predict_train (S.paramsFor (squaredEstimator minimize)) h.free.plain.aggregate
    (S.oracle (squaredEstimator minimize) D) D.X D.n
    (S.features.map (·.1)) (baseline (squaredEstimator minimize) D a) fuel r hfit i hi
    (by
      intro f hf
      obtain ⟨q, hq, rfl⟩ := List.mem_map.mp hf
      exact (h.free.plain.features q hq).1)
    (by
      intro f hf c hfc x hx
      obtain ⟨q, hq, rfl⟩ := List.mem_map.mp hf
      exact h.free.binNumbers q hq c hfc i hi x hx)
  rw [← hpi, ← h1]
  unfold FittedModel.predict baseline
  rfl

/-- The predictions of a fitted model for the training samples are those of an additive model. -/
theorem squared_additive (h : FreeCostDescent S D minimize low) (fuel : ℕ) (m : FittedModel)
    (hm : S.fit (squaredEstimator minimize) D fuel = some (.ok m)) : AdditiveModel S D (m.predict D.prior D.X) := by
  obtain ⟨past, s, ht, -, hpred⟩ := squared_in_sample S D low h fuel m hm
  have := fun i => (C18_bookkeeping (S.paramsFor (squaredEstimator minimize)) h.free.plain.aggregate _ _ _ past s ht i).1
  obtain ⟨φ, hφ⟩ := merge_functions S.features (codeOf D.X D.n) ((S.features.zip s.feats).map fun p => (p.1, stored p.2)) (by
    intro p hp
    obtain ⟨q, hq, rfl⟩ := List.mem_map.mp hp
    exact (List.of_mem_zip hq).1)
  refine additive_from_start S D h.features h.noPrior _ φ fun i hi => ?_
  rw [hpred i hi, this i]
  unfold Setup.cfgs
  rw [stored_additive D i S.features s.feats fun f hf => (h.free.plain.features f hf).2]
  congr 1
  refine Eq.trans ?_ (hφ ⟨i, hi⟩)
  rw [List.map_map]
  rfl

/-- **C160.** Training of `CBAdditiveGenericCRegressor` with squared costs converges to the least-squares fit, geometrically: for each
design there is a number `ρ < 1`, the same for all targets, optimisers that find minima, stopping rules and numbers of iterations, such
that the distance of the predictions of the fitted model to those of the best additive model is at most `ρ^k` times what it was before
training, `k` being the number of iterations, and so is the error in excess of that of the best additive model. -/
theorem C160_convergence (S : Setup σ) (D : TrainSet) (low : ℝ) (hw : ∀ i < D.n, 0 ≤ D.w i) (hlow : 0 < low) :
    ∃ ρ, 0 ≤ ρ ∧ ρ < 1 ∧ ∀ (S' : Setup σ) (D' : TrainSet) (minimize : (ℝ → Flt ℝ) → ℝ → ℝ), SameDesign S S' D D' →
      FreeCostDescent S' D' minimize low →
      ∀ (fuel : ℕ) (m : FittedModel), S'.fit (genericEstimator false (meanCosts squaredCost) minimize) D' fuel = some (.ok m) →
        AdditiveModel S' D' (m.predict D'.prior D'.X) ∧ ∀ best, BestAdditiveModel S' D' best →
          weightedDistance D' (m.predict D'.prior D'.X) best ≤ ρ ^ m.iterations * weightedDistance D' (scaledStart D') best ∧
          trainingError D' (m.predict D'.prior D'.X) - trainingError D' best ≤
            ρ ^ m.iterations * (trainingError D' (scaledStart D') - trainingError D' best) := by
  obtain ⟨ρ, h0, h1, hρ⟩ := binOperators_contract S.features (codeOf D.X D.n) (fun i => Real.sqrt (D.w i)) (massOf D.X D.n D.w)
    (fun f b => (massOf_ok D.X D.n D.w hw f b).1) (fun f b => (massOf_ok D.X D.n D.w hw f b).2) low hlow
  refine ⟨ρ, h0, h1, fun S' D' minimize hsame h fuel m hm => ?_⟩
  obtain ⟨y, hD'⟩ : ∃ y, D' = { D with y := y, prior := D'.prior } := ⟨D'.y, by
    cases D'
    cases D
    obtain ⟨-, e1, e2, e3⟩ := hsame
    dsimp only at e1 e2 e3 ⊢
    subst e1 e2 e3
    rfl⟩
  obtain ⟨hfe, -, -, -⟩ := hsame
  obtain ⟨past, s, ht, hits, hpred⟩ := squared_in_sample S' D' low h fuel m hm
  have hρ' : ∀ l, low ≤ l → l ≤ 1 → ∀ x ∈ designSpace S'.features D'.X D'.n D'.w, ∀ u ∈ (designSpace S'.features D'.X D'.n D'.w)ᗮ,
      ∃ z ∈ designSpace S'.features D'.X D'.n D'.w, cyclicPass (S'.features.map (meanOperator D')) l (x + u) = z + u ∧
        ‖z‖ ^ 2 ≤ ρ * ‖x‖ ^ 2 := by
    rw [hfe]
    generalize D'.prior = prior at hD'
    subst hD'
    exact hρ
  clear hρ hD'
  have hw' := h.free.plain.weights
  set V := designSpace S'.features D'.X D'.n D'.w with hV
  set r := residuals D' (scaledStart D') with hr
  have hvm : V.starProjection r ∈ V := Submodule.starProjection_apply_mem _ _
  have hum : r - V.starProjection r ∈ Vᗮ := Submodule.sub_starProjection_mem_orthogonal _
  generalize V.starProjection r = v at hvm hum
  set u := r - v with hu
  obtain ⟨z, hz, hres, hb⟩ := trace_mean S' D' low h ρ h0 hρ' (scaledStart D') v u hvm hum (by rw [hu, ← hr]; abel) past s ht
  have hst := additive_residuals S' D' _ (additive_start S' D' h.features h.noPrior)
  rw [← hr, ← hV] at hst
  obtain ⟨best, hbest, hbr⟩ := additive_of_mem S' D' _ (V.add_mem hst hvm)
  rw [show residuals D' (startingPredictions D') - (residuals D' (startingPredictions D') - r + v) = u by rw [hu]; abel] at hbr
  have herr : ∀ q, AdditiveModel S' D' q → trainingError D' q = trainingError D' best + weightedDistance D' q best := by
    intro q hq
    have h3 := V.sub_mem (additive_residuals S' D' q hq) hst
    rw [show residuals D' (startingPredictions D') - residuals D' q - (residuals D' (startingPredictions D') - r) = r - residuals D' q by
      abel] at h3
    rw [← residuals_norm D' hw', ← residuals_norm D' hw', ← residuals_distance D' hw', hbr]
    have e : residuals D' q = (v - (r - residuals D' q)) + u := by rw [hu]; abel
    have h4 := norm_add_orthogonal V _ u (V.sub_mem hvm h3) hum
    rw [← e] at h4
    rw [h4, show residuals D' q - u = v - (r - residuals D' q) by rw [hu]; abel]
    ring
  have hdist : ∀ q, 0 ≤ weightedDistance D' q best := fun q => Finset.sum_nonneg fun i hi =>
    mul_nonneg (hw' i (Finset.mem_range.mp hi)) (sq_nonneg _)
  have hresm : residuals D' (m.predict D'.prior D'.X) = residuals D' s.pred.factors := by
    ext i
    rw [residuals_apply, residuals_apply, hpred i i.2]
  have hstart := additive_start S' D' h.features h.noPrior
  have hadd : AdditiveModel S' D' (m.predict D'.prior D'.X) := squared_additive S' D' low h fuel m hm
  have hd1 : weightedDistance D' (m.predict D'.prior D'.X) best = ‖z‖ ^ 2 := by
    rw [← residuals_distance D' hw', hresm, hres, hbr, add_sub_cancel_right]
  have hd2 : weightedDistance D' (scaledStart D') best = ‖v‖ ^ 2 := by
    rw [← residuals_distance D' hw', hbr, ← hr, hu]
    congr 2
    abel
  have hmain : weightedDistance D' (m.predict D'.prior D'.X) best ≤ ρ ^ m.iterations * weightedDistance D' (scaledStart D') best := by
    rw [hd1, hd2, ← hits]
    exact hb
  refine ⟨hadd, fun best' hb' => ?_⟩
  have hzero : weightedDistance D' best' best = 0 := by
    have h5 := herr best' hb'.1
    have h6 := hb'.2 best hbest
    linarith [hdist best']
  have hsame' : residuals D' best' = residuals D' best := by
    rw [← residuals_distance D' hw'] at hzero
    rwa [sq_eq_zero_iff, norm_eq_zero, sub_eq_zero] at hzero
  have hd3 : ∀ q, weightedDistance D' q best' = weightedDistance D' q best := fun q => by
    rw [← residuals_distance D' hw', ← residuals_distance D' hw', hsame']
  have herr' : trainingError D' best' = trainingError D' best := by
    rw [← residuals_norm D' hw', ← residuals_norm D' hw', hsame']
  rw [hd3, hd3, herr', herr _ hadd, herr _ hstart]
  exact ⟨hmain, by linarith⟩

theorem squared_all_iterations (h : FreeCostDescent S D minimize low) (hf : S.params.minimalFactorChange < 0)
    (hl : S.params.minimalLossChange < 0) (hmax : 1 ≤ S.params.maximalIterations) (hsum : ∑ i ∈ range D.n, D.w i ≠ 0) (fuel : ℕ)
    (hfuel : S.params.maximalIterations + 4 ≤ fuel) :
    ∃ m, S.fit (squaredEstimator minimize) D fuel = some (.ok m) ∧ m.iterations = S.params.maximalIterations := by
  have hp := h.free.plain
  obtain ⟨-, m, hm⟩ := C84_fit_succeeds S D squaredEstimator_cost h.notWorse (fun h => by cases h) hp.aggregate
    h.limits hp.weights hp.learnRate (fun f hf => (hp.features f hf).1) hp.smoothers (fun h => by cases h)
    ((∑ j ∈ range D.n, D.y j * D.w j) / (∑ j ∈ range D.n, D.w j) + 0.001)
    (by simp [squaredEstimator, genericEstimator, globalScaleLink, quotientFlt, linkFlt, Flt.addFin, hsum]; norm_num) hmax hp.noHierarchy (by linarith) (by linarith)
    fuel hfuel
  refine ⟨m, hm, ?_⟩
  obtain ⟨a, r, -, sc, hr, rfl⟩ := fit_ok S _ D fuel m hm
  obtain ⟨t, s, tr, hc, -, -, hn⟩ := fitMain_ok _ _ _ _ fuel r hr
  dsimp only
  rw [hn]
  exact (trace_all_iterations (S.paramsFor (squaredEstimator minimize)) _ _ _ hp.noHierarchy hf hl (fun past s ht =>
    (C84_never_increases S D squaredEstimator_cost h.notWorse (fun h => by cases h) hp.aggregate
    h.limits hp.weights hp.learnRate (fun f hf => (hp.features f hf).1) hp.smoothers _ past s
      ht).2.2) t s tr).2.2.2 hc

/-- **C160**, in the limit: with both early stop criteria switched off (by negative values), the predictions of the training samples
come as close as one likes to those of the best additive model, and the error to the smallest one possible, if `maximal_iterations` is
large enough. -/
theorem C160_limit (h : FreeCostDescent S D minimize low) (hlow : 0 < low) (hf : S.params.minimalFactorChange < 0)
    (hl : S.params.minimalLossChange < 0) (hsum : ∑ i ∈ range D.n, D.w i ≠ 0) (best : ℕ → ℝ) (hb : BestAdditiveModel S D best)
    (ε : ℝ) (hε : 0 < ε) :
    ∃ N, ∀ M, N ≤ M → ∃ m,
      (withMaximalIterations S M).fit (genericEstimator false (meanCosts squaredCost) minimize) D (M + 4) = some (.ok m) ∧
      weightedDistance D (m.predict D.prior D.X) best < ε ∧
      trainingError D (m.predict D.prior D.X) < trainingError D best + ε := by
  obtain ⟨ρ, h0, h1, hρ⟩ := C160_convergence S D low h.free.plain.weights hlow
  set A := weightedDistance D (scaledStart D) best with hA
  set B := trainingError D (scaledStart D) - trainingError D best with hB
  have hA0 : 0 ≤ A := Finset.sum_nonneg fun i hi => mul_nonneg (h.free.plain.weights i (Finset.mem_range.mp hi)) (sq_nonneg _)
  have hB0 : 0 ≤ B := sub_nonneg.mpr (hb.2 _ (additive_start S D h.features h.noPrior))
  obtain ⟨N, hN⟩ := exists_pow_lt_of_lt_one (div_pos hε (by linarith : 0 < A + B + 1)) h1
  refine ⟨N + 1, fun M hM => ?_⟩
  have hp : PlainDescent (withMaximalIterations S M) D 0 := plainDescent_iterations S D 0 h.free.plain M
  have hfree : FreeCostDescent (withMaximalIterations S M) D minimize low :=
    ⟨⟨hp, h.free.learnRate, h.free.unsmoothed, h.free.binNumbers⟩, h.features, h.noPrior, h.limits, h.finds, h.notWorse⟩
  obtain ⟨m, hm, hits⟩ := squared_all_iterations (withMaximalIterations S M) D low hfree hf hl (by show 1 ≤ M; omega) hsum (M + 4) le_rfl
  obtain ⟨-, hc⟩ := hρ (withMaximalIterations S M) D minimize ⟨rfl, rfl, rfl, rfl⟩ hfree (M + 4) m hm
  obtain ⟨c1, c2⟩ := hc best hb
  have hits' : m.iterations = M := hits
  rw [hits', ← hA] at c1
  rw [hits', ← hB] at c2
  have hpow : ρ ^ M ≤ ρ ^ N := pow_le_pow_of_le_one h0 h1.le (by omega)
  have hpos : 0 ≤ ρ ^ M := pow_nonneg h0 _
  have hlt : ρ ^ M * (A + B + 1) < ε := by
    rw [lt_div_iff₀ (by linarith)] at hN
    exact lt_of_le_of_lt (mul_le_mul_of_nonneg_right hpow (by linarith)) hN
  exact ⟨m, hm, by nlinarith, by nlinarith⟩

/-- **C160**, comparison: long trainings of `CBAdditiveGenericCRegressor` with squared costs and of `CBGBSRegressor`, whatever its
`regalpha`, end in the same predictions. -/
theorem C160_same_as_gbs (ra low' : ℝ) (S' : Setup σ) (h : FreeCostDescent S D minimize low) (h' : FreeDescent S' D ra low')
    (hlow : 0 < low) (hlow' : 0 < low')
    (hsub : ∀ f ∈ S.features, ∃ f' ∈ S'.features, f'.1.group = f.1.group)
    (hsup : ∀ f' ∈ S'.features, ∃ f ∈ S.features, f.1.group = f'.1.group)
    (hf : S.params.minimalFactorChange < 0) (hl : S.params.minimalLossChange < 0)
    (hf' : S'.params.minimalFactorChange < 0) (hl' : S'.params.minimalLossChange < 0) (hsum : ∑ i ∈ range D.n, D.w i ≠ 0)
    (ε : ℝ) (hε : 0 < ε) :
    ∃ N, ∀ M M', N ≤ M → N ≤ M' → ∃ m m',
      (withMaximalIterations S M).fit (genericEstimator false (meanCosts squaredCost) minimize) D (M + 4) = some (.ok m) ∧
      (withMaximalIterations S' M').fit (gbsEstimator ra) D (M' + 4) = some (.ok m') ∧
      weightedDistance D (m.predict D.prior D.X) (m'.predict D.prior D.X) < ε := by
  obtain ⟨best, hb⟩ := C124_best_exists S D h.free.plain.weights
  have hb' : BestAdditiveModel S' D best := ⟨additive_mono S S' D hsub best hb.1, fun q hq => hb.2 q (additive_mono S' S D hsup q hq)⟩
  obtain ⟨N, hN⟩ := C160_limit S D low h hlow hf hl hsum best hb (ε / 4) (by linarith)
  obtain ⟨N', hN'⟩ := C124_limit S' D ra low' h' hlow' hf' hl' hsum best hb' (ε / 4) (by linarith)
  refine ⟨max N N', fun M M' h1 h2 => ?_⟩
  obtain ⟨m, hm, hd, -⟩ := hN M (le_trans (le_max_left _ _) h1)
  obtain ⟨m', hm', hd', -⟩ := hN' M' (le_trans (le_max_right _ _) h2)
  refine ⟨m, m', hm, hm', ?_⟩
  have := weightedDistance_triangle D h.free.plain.weights (m.predict D.prior D.X) (m'.predict D.prior D.X) best
  linarith

/-- **C160**, calibration: in long trainings with squared costs, the weighted sums of prediction and target over the samples of every bin of
every feature come as close as one likes. -/
theorem C160_calibrated (h : FreeCostDescent S D minimize low) (hlow : 0 < low) (hf : S.params.minimalFactorChange < 0)
    (hl : S.params.minimalLossChange < 0) (hsum : ∑ i ∈ range D.n, D.w i ≠ 0) (ε : ℝ) (hε : 0 < ε) :
    ∃ N, ∀ M, N ≤ M → ∃ m,
      (withMaximalIterations S M).fit (genericEstimator false (meanCosts squaredCost) minimize) D (M + 4) = some (.ok m) ∧
      ∀ f ∈ S.features, ∀ b,
        |sumInBin D f b (fun i => D.w i * m.predict D.prior D.X i) - sumInBin D f b (fun i => D.w i * D.y i)| < ε := by
  obtain ⟨best, hb⟩ := C124_best_exists S D h.free.plain.weights
  set W := ∑ i ∈ range D.n, D.w i with hW
  have hw := h.free.plain.weights
  have hW0 : 0 < W := lt_of_le_of_ne (Finset.sum_nonneg fun i hi => hw i (Finset.mem_range.mp hi)) (Ne.symm hsum)
  obtain ⟨N, hN⟩ := C160_limit S D low h hlow hf hl hsum best hb (ε ^ 2 / W) (by positivity)
  refine ⟨N, fun M hM => ?_⟩
  obtain ⟨m, hm, hd, -⟩ := hN M hM
  refine ⟨m, hm, fun f hfm b => ?_⟩
  rw [← best_calibrated S D best hb f hfm b]
  have h1 := sumInBin_close D hw f b (m.predict D.prior D.X) best
  have h2 : sumInBin D f b D.w ≤ W := by
    unfold sumInBin
    exact Finset.sum_le_sum_of_subset_of_nonneg (Finset.filter_subset _ _) fun i hi _ => hw i (Finset.mem_range.mp hi)
  have h3 : 0 ≤ weightedDistance D (m.predict D.prior D.X) best := Finset.sum_nonneg fun i hi =>
    mul_nonneg (hw i (Finset.mem_range.mp hi)) (sq_nonneg _)
  have h4 : W * weightedDistance D (m.predict D.prior D.X) best < ε ^ 2 := by
    rw [lt_div_iff₀ hW0] at hd
    linarith
  exact abs_lt_of_sq_lt_sq (lt_of_le_of_lt (h1.trans (mul_le_mul_of_nonneg_right h2 h3)) h4) hε.le

end

theorem bestMinimize_never_worse : NotWorse bestMinimize := by
  intro f start b hb
  unfold bestMinimize
  split_ifs with h1 h2
  · exact ⟨b, hb, le_rfl⟩
  · obtain ⟨c, h3, h4⟩ := h2.choose_spec
    exact ⟨c, h3, h4 start b hb⟩
  · exact ⟨b, hb, le_rfl⟩

/-- The conditions of C160 hold for the two features and three samples of the witness of C124. -/
theorem twoFreeCosts : FreeCostDescent twoSetup twoData bestMinimize (1 / 2) :=
  ⟨twoFree, by simp [twoSetup], rfl, rfl, bestMinimize_finds, bestMinimize_never_worse⟩

/-- Witness for C160: on three samples with two overlapping features, long trainings with squared costs and with `CBGBSRegressor` end in
the same predictions. -/
example (ε : ℝ) (hε : 0 < ε) : ∃ N, ∀ M M', N ≤ M → N ≤ M' → ∃ m m',
    (withMaximalIterations twoSetup M).fit (genericEstimator false (meanCosts squaredCost) bestMinimize) twoData (M + 4) = some (.ok m) ∧
      (withMaximalIterations twoSetup M').fit (gbsEstimator 0) twoData (M' + 4) = some (.ok m') ∧
      weightedDistance twoData (m.predict none twoData.X) (m'.predict none twoData.X) < ε :=
  C160_same_as_gbs twoSetup twoData (1 / 2) 0 (1 / 2) twoSetup twoFreeCosts twoFree (by norm_num) (by norm_num)
    (fun f hf => ⟨f, hf, rfl⟩) (fun f hf => ⟨f, hf, rfl⟩) (by norm_num [twoSetup]) (by norm_num [twoSetup]) (by norm_num [twoSetup])
    (by norm_num [twoSetup]) (by simp [twoData, Finset.sum_range_succ]; norm_num) ε hε

end CB
