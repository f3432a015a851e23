import Verif.Props.Superposition
import Verif.Lemmas.CyclicDescent
import Verif.Spec.Convergence

/-!
# C124: training of the GBS regressor converges to the best additive model
-/

set_option autoImplicit false
set_option linter.unusedSectionVars false

namespace CB
open Finset Spec
open scoped RealInnerProductSpace

section
variable {σ : Type*}

/-- The residuals of the training samples, times the roots of the weights. -/
noncomputable def residuals (D : TrainSet) (q : ℕ → ℝ) : EuclideanSpace ℝ (Fin D.n) :=
  WithLp.toLp 2 fun i => Real.sqrt (D.w i) * (D.y i - q i)

theorem residuals_apply (D : TrainSet) (q : ℕ → ℝ) (i : Fin D.n) : residuals D q i = Real.sqrt (D.w i) * (D.y i - q i) := rfl

theorem residuals_norm (D : TrainSet) (hw : ∀ i < D.n, 0 ≤ D.w i) (q : ℕ → ℝ) : ‖residuals D q‖ ^ 2 = trainingError D q := by
  rw [EuclideanSpace.norm_sq_eq]
  unfold trainingError
  rw [Finset.sum_range]
  refine Finset.sum_congr rfl fun i _ => ?_
  rw [residuals_apply, Real.norm_eq_abs, sq_abs, mul_pow, Real.sq_sqrt (hw i i.2)]
  ring

theorem residuals_distance (D : TrainSet) (hw : ∀ i < D.n, 0 ≤ D.w i) (p q : ℕ → ℝ) :
    ‖residuals D p - residuals D q‖ ^ 2 = weightedDistance D p q := by
  rw [EuclideanSpace.norm_sq_eq]
  unfold weightedDistance
  rw [Finset.sum_range]
  refine Finset.sum_congr rfl fun i _ => ?_
  rw [PiLp.sub_apply, residuals_apply, residuals_apply, ← mul_sub, Real.norm_eq_abs, sq_abs, mul_pow, Real.sq_sqrt (hw i i.2)]
  ring

/-- The bin numbers of a feature. -/
noncomputable def codeOf (X : Table ℝ) (n : ℕ) (f : FeatureSpec × SmootherKind) : Fin n → ℕ := fun i => (f.1.cfg X n).bin i

noncomputable def denOf (X : Table ℝ) (n : ℕ) (w : ℕ → ℝ) (ra : ℝ) (f : FeatureSpec × SmootherKind) (b : ℕ) : ℝ :=
  binSum n (f.1.cfg X n).bin (fun i => w i * (1 + ra)) b + 1

theorem denOf_ok (X : Table ℝ) (n : ℕ) (w : ℕ → ℝ) (ra : ℝ) (ha : 0 ≤ ra) (hw : ∀ i < n, 0 ≤ w i) (f : FeatureSpec × SmootherKind)
    (b : ℕ) : 0 < denOf X n w ra f b ∧
      (∑ j : Fin n, if codeOf X n f j = b then Real.sqrt (w j) ^ 2 else 0) ≤ denOf X n w ra f b := by
  have h1 : (∑ j : Fin n, if codeOf X n f j = b then Real.sqrt (w j) ^ 2 else 0) = binSum n (f.1.cfg X n).bin w b := by
    unfold binSum
    rw [Finset.sum_range]
    refine Finset.sum_congr rfl fun j _ => ?_
    rw [Real.sq_sqrt (hw j j.2)]
    rfl
  have h2 : binSum n (f.1.cfg X n).bin w b ≤ binSum n (f.1.cfg X n).bin (fun i => w i * (1 + ra)) b := by
    unfold binSum
    refine Finset.sum_le_sum fun i hi => ?_
    have := hw i (Finset.mem_range.mp hi)
    split_ifs
    · nlinarith [mul_nonneg this ha]
    · exact le_rfl
  have h3 : 0 ≤ binSum n (f.1.cfg X n).bin w b := by
    unfold binSum
    refine Finset.sum_nonneg fun i hi => ?_
    split_ifs
    · exact hw i (Finset.mem_range.mp hi)
    · exact le_rfl
  rw [h1]
  unfold denOf
  exact ⟨by linarith, by linarith⟩

noncomputable def featureOperator (D : TrainSet) (ra : ℝ) (f : FeatureSpec × SmootherKind) :
    EuclideanSpace ℝ (Fin D.n) →ₗ[ℝ] EuclideanSpace ℝ (Fin D.n) :=
  binOperator (codeOf D.X D.n f) (fun i => Real.sqrt (D.w i)) (denOf D.X D.n D.w ra f)

/-- What a visit of a feature does to the residuals. -/
theorem residuals_visit (D : TrainSet) (hw : ∀ i < D.n, 0 ≤ D.w i) (ra l : ℝ) (f : FeatureSpec × SmootherKind) (q q' : ℕ → ℝ)
    (h : ∀ i < D.n, D.w i ≠ 0 → q' i = q i + l * gbsSummand ra D.n (f.1.cfg D.X D.n).bin D.y q D.w ((f.1.cfg D.X D.n).bin i)) :
    residuals D q' = residuals D q - l • featureOperator D ra f (residuals D q) := by
  ext i
  rw [PiLp.sub_apply, PiLp.smul_apply, residuals_apply, residuals_apply]
  unfold featureOperator
  rw [binOperator_apply]
  by_cases h0 : D.w i = 0
  · rw [h0]; simp
  · rw [h i i.2 h0]
    have e : (∑ j : Fin D.n, if codeOf D.X D.n f j = codeOf D.X D.n f i then Real.sqrt (D.w j) * residuals D q j else 0) =
        binSum D.n (f.1.cfg D.X D.n).bin (fun i => (D.y i - q i) * D.w i) ((f.1.cfg D.X D.n).bin i) := by
      unfold binSum
      rw [Finset.sum_range]
      refine Finset.sum_congr rfl fun j _ => ?_
      rw [residuals_apply, ← mul_assoc, Real.mul_self_sqrt (hw j j.2), mul_comm]
      rfl
    rw [e]
    unfold gbsSummand denOf
    simp only [smul_eq_mul]
    show _ = _ - l * (_ * (_ / (binSum D.n (f.1.cfg D.X D.n).bin (fun i => D.w i * (1 + ra)) ((f.1.cfg D.X D.n).bin i) + 1)))
    ring

variable (S : Setup σ) (D : TrainSet) (ra low : ℝ)

theorem featureIteration_residuals (h : FreeDescent S D ra low) (it k : ℕ) (f : FeatureSpec × SmootherKind) (hf : S.features[k]? = some f)
    (dv : ℕ) (isd : Bool) (il : Flt ℝ) (fs : FState ℝ) (hz : fs.zeroSmoother = false) (pred : Pred ℝ) :
    residuals D (featureIteration (S.paramsFor (gbsEstimator ra)) (S.oracle (gbsEstimator ra) D) it k (f.1.cfg D.X D.n) dv isd il fs
        pred).2.factors =
      residuals D pred.factors - S.learnRate (it + 1) • featureOperator D ra f (residuals D pred.factors) := by
  have hmem : f ∈ S.features := List.mem_of_getElem? hf
  have hcal : ∀ it i fs, (S.oracle (gbsEstimator ra) D).calibrate it i fs = fs.factors := by
    intro it i fs
    unfold Setup.oracle
    dsimp only
    cases S.features[i]? with
    | none => rfl
    | some f => rfl
  refine residuals_visit D h.plain.weights ra _ f _ _ fun i hi hwi => ?_
  rw [update_plain (S.paramsFor (gbsEstimator ra)) h.plain.aggregate (by simp [Setup.paramsFor, gbsEstimator]) _ _ _ _ _ _ _ _ _ hcal]
  have hx : (f.1.cfg D.X D.n).external = false := (h.plain.features f hmem).2
  unfold Pred.update
  rw [hx]
  simp only [Bool.false_eq_true, if_false]
  congr 1
  have hest : ∀ b, (S.oracle (gbsEstimator ra) D).estimate it k pred fs b
      = gbsSummand ra D.n (f.1.cfg D.X D.n).bin D.y pred.factors D.w b := by
    intro b
    simp only [Setup.oracle, hf, gbsEstimator]
  rw [← hest]
  unfold predictFactors updateFactors
  rcases h.unsmoothed f hmem i hi hwi with ⟨hb, hu⟩ | ⟨hb, hm⟩
  · rw [if_pos hb]
    have hsm : ∀ st, (S.oracle (gbsEstimator ra) D).smooth it k pred st ((S.oracle (gbsEstimator ra) D).estimate it k pred fs)
        ((f.1.cfg D.X D.n).bin i) = some ((S.oracle (gbsEstimator ra) D).estimate it k pred fs ((f.1.cfg D.X D.n).bin i)) := by
      intro st
      simp only [Setup.oracle, hf]
      exact hu _ _
    simp only [hz, Bool.false_eq_true, if_false]
    rw [hsm]
    rfl
  · rw [if_neg (by omega)]
    have hm' : (f.1.cfg D.X D.n).missingNotLearned = false := hm
    simp only [if_true, hm', Bool.false_eq_true, if_false]
    rw [← hb, mul_comm]
    rfl

/-- A pass over the features is a pass of the operators over the residuals. -/
theorem featurePass_residuals (h : FreeDescent S D ra low) (it dv : ℕ) (isd : Bool) (il : Flt ℝ) :
    ∀ (features : List (FeatureSpec × SmootherKind)) (k : ℕ) (fss : List (FState ℝ)) (pred : Pred ℝ),
      (∀ j, features[j]? = S.features[k + j]?) → fss.length = features.length → (∀ fs ∈ fss, fs.zeroSmoother = false) →
      residuals D (featurePass (S.paramsFor (gbsEstimator ra)) (S.oracle (gbsEstimator ra) D) it dv isd il k
          (features.map fun f => f.1.cfg D.X D.n) fss pred).2.factors =
        cyclicPass (features.map (featureOperator D ra)) (S.learnRate (it + 1)) (residuals D pred.factors)
  | [], k, fss, pred, _, _, _ => by simp [featurePass, cyclicPass]
  | f :: features, k, [], pred, _, hl, _ => by simp at hl
  | f :: features, k, fs :: fss, pred, hf, hl, hz => by
    have hsk : skipped (S.paramsFor (gbsEstimator ra)) it (f.1.cfg D.X D.n) = false := by
      unfold skipped
      rw [show (S.paramsFor (gbsEstimator ra)).hierarchical = none from h.plain.noHierarchy]
    rw [List.map_cons, List.map_cons, cyclicPass_cons]
    unfold featurePass
    simp only [hsk, Bool.false_eq_true, if_false]
    rw [featurePass_residuals h it dv isd il features (k + 1) fss _ (fun j => by
        rw [← show k + (j + 1) = k + 1 + j by omega, ← hf (j + 1)]; rfl) (by simpa using hl) fun g hg => hz g (by simp [hg])]
    rw [featureIteration_residuals S D ra low h it k f (by have := hf 0; rwa [Nat.add_zero, eq_comm] at this)]
    split_ifs
    · exact hz fs (by simp)
    · exact hz fs (by simp)

/-- The additive vectors of a design. -/
noncomputable def designSpace (features : List (FeatureSpec × SmootherKind)) (X : Table ℝ) (n : ℕ) (w : ℕ → ℝ) :
    Submodule ℝ (EuclideanSpace ℝ (Fin n)) := additiveSpace features (codeOf X n) fun i => Real.sqrt (w i)

/-- During training the additive part of the residuals shrinks by the same factor in every iteration, and the rest stays. -/
theorem trace_residuals (h : FreeDescent S D ra low) (ρ : ℝ) (h0 : 0 ≤ ρ)
    (hρ : ∀ l, low ≤ l → l ≤ 1 → ∀ x ∈ designSpace S.features D.X D.n D.w, ∀ u ∈ (designSpace S.features D.X D.n D.w)ᗮ,
      ∃ z ∈ designSpace S.features D.X D.n D.w, cyclicPass (S.features.map (featureOperator D ra)) l (x + u) = z + u ∧
        ‖z‖ ^ 2 ≤ ρ * ‖x‖ ^ 2)
    (prior : ℕ → ℝ) (v u : EuclideanSpace ℝ (Fin D.n)) (hv : v ∈ designSpace S.features D.X D.n D.w)
    (hu : u ∈ (designSpace S.features D.X D.n D.w)ᗮ) (hp : residuals D prior = v + u) (past : List (TState ℝ)) (s : TState ℝ)
    (ht : Trace (S.paramsFor (gbsEstimator ra)) (S.oracle (gbsEstimator ra) D) (S.cfgs D)
      (startState (S.oracle (gbsEstimator ra) D) (S.cfgs D) prior) past s) :
    ∃ z ∈ designSpace S.features D.X D.n D.w, residuals D s.pred.factors = z + u ∧ ‖z‖ ^ 2 ≤ ρ ^ s.iteration * ‖v‖ ^ 2 := by
  have hnd := fun past s ht => (C80_never_increases S D ra h.plain.aggregate h.plain.regalpha h.plain.weights h.plain.learnRate
    (fun f hf => (h.plain.features f hf).1) h.plain.smoothers prior past s ht).2.2
  induction ht with
  | start => exact ⟨v, hv, hp, by simp [startState]⟩
  | @step past s s' ht hc hi ih =>
    obtain ⟨z, hz, hr, hb⟩ := ih
    have hcalm := iterate_calm _ _ _ s s' hi (hnd _ _ (.step ht hc hi))
    have hwf := trace_WF _ _ _ _ _ _ ht
    have hpass := featurePass_residuals S D ra low h s.iteration s.diverging s.isDiverging s.initialLoss S.features 0 s.feats s.pred
      (fun j => by rw [Nat.zero_add]) (by rw [← hwf.1]; unfold Setup.cfgs; rw [List.length_map]) (by
        intro fs hfs
        by_contra hzz
        have h1 := trace_zeroSmoother _ _ _ _ _ _ ht fs hfs (by simpa using hzz)
        have h2 := hnd _ _ ht
        omega)
    obtain ⟨z', hz', e, hb'⟩ := hρ (S.learnRate (s.iteration + 1)) (h.learnRate _ (by omega)) (h.plain.learnRate _).2 z hz u hu
    refine ⟨z', hz', ?_, ?_⟩
    · rw [hcalm.2, ← e, ← hr]
      exact hpass
    · obtain ⟨_, _, _, _, _, _, _, _, hit, _⟩ := iterate_ok _ _ _ s s' hi
      rw [hit, pow_succ]
      calc ‖z'‖ ^ 2 ≤ ρ * ‖z‖ ^ 2 := hb'
        _ ≤ ρ * (ρ ^ s.iteration * ‖v‖ ^ 2) := mul_le_mul_of_nonneg_left hb h0
        _ = _ := by ring

/-- On the training samples the fitted model predicts what training ended with. -/
theorem gbs_in_sample (hagg : S.params.aggregate = true) (hg : ∀ f ∈ S.features, f.1.group ≠ [])
    (hint : ∀ f ∈ S.features, ∀ c, f.1.group = [c] → ∀ i < D.n, ∀ x : ℝ, D.X i c = .fin x → ∃ k : ℤ, x = (k : ℝ))
    (fuel : ℕ) (m : FittedModel) (h : S.fit (gbsEstimator ra) D fuel = some (.ok m)) :
    ∃ past s, Trace (S.paramsFor (gbsEstimator ra)) (S.oracle (gbsEstimator ra) D) (S.cfgs D)
        (startState (S.oracle (gbsEstimator ra) D) (S.cfgs D) (startingPredictions D)) past s ∧
      s.iteration = m.iterations ∧ ∀ i < D.n, m.predict D.prior D.X i = s.pred.factors i := by
  obtain ⟨a, r, -, hs, hfit, rfl⟩ := fit_ok S _ D fuel m h
  obtain ⟨past, s, ht, hc, -, hpred, hn⟩ := fitMain_ok _ _ _ _ fuel r hfit
  have hd : s.isDiverging = false := by
    unfold continues at hc
    rw [Bool.or_eq_false_iff] at hc
    exact hc.2
  refine ⟨past, s, by rw [← gbs_baseline D ra a hs]; exact ht, by rw [← hn], fun i hi => ?_⟩
  have hcfgs : S.cfgs D = (S.features.map (·.1)).map fun f => f.cfg D.X D.n := by
    unfold Setup.cfgs
    rw [List.map_map]; rfl
  have hb : baseline (gbsEstimator ra) D a = fun i => (priorPrediction .identity (.fin a) (.fin 0) D.prior i).getFin := by
    funext i
    unfold baseline Estimator.offset
    cases D.prior with
    | none => rfl
    | some p => rfl
  have hoff : (gbsEstimator ra).offset D = .fin 0 := by
    unfold Estimator.offset
    cases D.prior with
    | none => rfl
    | some p => rfl
  have hpi : r.prediction.factors i = s.pred.factors i := by
    rw [hpred, trace_prediction _ _ _ _ past s ht hd]
  rw [hcfgs] at hfit
  obtain ⟨h1, -⟩ := C19_predict_train (S.paramsFor (gbsEstimator ra)) hagg (S.oracle (gbsEstimator ra) D) D.X D.n
    (S.features.map (·.1)) (baseline (gbsEstimator ra) D a) fuel r hfit i hi
    (by
      intro f hf
      obtain ⟨q, hq, rfl⟩ := List.mem_map.mp hf
      exact hg q hq)
    (by
      intro f hf c hfc x hx
      obtain ⟨q, hq, rfl⟩ := List.mem_map.mp hf
      exact hint q hq c hfc i hi x hx)
  rw [← hpi, ← h1, hb]
  unfold FittedModel.predict
  simp only [hoff]
  rfl

/-- The residuals of additive models differ by additive vectors. -/
theorem additive_residuals (q : ℕ → ℝ) (h : AdditiveModel S D q) :
    residuals D (startingPredictions D) - residuals D q ∈ designSpace S.features D.X D.n D.w := by
  obtain ⟨φ, hφ⟩ := h
  refine ⟨φ, fun i => ?_⟩
  rw [PiLp.sub_apply, residuals_apply, residuals_apply, hφ i i.2]
  unfold codeOf
  ring

/-- Every additive vector is what an additive model takes away. -/
theorem additive_of_mem (v : EuclideanSpace ℝ (Fin D.n)) (hv : v ∈ designSpace S.features D.X D.n D.w) :
    ∃ q, AdditiveModel S D q ∧ residuals D q = residuals D (startingPredictions D) - v := by
  obtain ⟨φ, hφ⟩ := hv
  refine ⟨fun i => startingPredictions D i + (S.features.map fun f => φ f ((f.1.cfg D.X D.n).bin i)).sum, ⟨φ, fun i _ => rfl⟩, ?_⟩
  ext i
  rw [PiLp.sub_apply, residuals_apply, residuals_apply, hφ i]
  unfold codeOf
  ring

theorem norm_add_orthogonal {n : ℕ} (V : Submodule ℝ (EuclideanSpace ℝ (Fin n))) (v u : EuclideanSpace ℝ (Fin n)) (hv : v ∈ V)
    (hu : u ∈ Vᗮ) : ‖v + u‖ ^ 2 = ‖v‖ ^ 2 + ‖u‖ ^ 2 := by
  rw [norm_add_sq_real, (Submodule.mem_orthogonal _ u).mp hu v hv]
  ring

/-- The stored factors as a sum of functions of the bins. -/
theorem stored_additive (i : ℕ) : ∀ (features : List (FeatureSpec × SmootherKind)) (fss : List (FState ℝ)),
    (∀ f ∈ features, f.1.external = false) →
    storedSum false (features.map fun f => f.1.cfg D.X D.n) fss i =
      ((features.zip fss).map fun p => stored p.2 ((p.1.1.cfg D.X D.n).bin i)).sum
  | [], _, _ => by simp [storedSum]
  | _ :: _, [], _ => by simp [storedSum]
  | f :: features, fs :: fss, h => by
    have ih := stored_additive i features fss fun g hg => h g (by simp [hg])
    have hx : (f.1.cfg D.X D.n).external = false := h f (by simp)
    unfold storedSum at ih ⊢
    rw [List.map_cons, List.zip_cons_cons, List.zip_cons_cons, List.filter_cons, hx]
    simp only [beq_self_eq_true, if_true, List.map_cons, List.sum_cons]
    rw [ih]

/-- The predictions of a fitted model for the training samples are those of an additive model. -/
theorem fitted_additive (hagg : S.params.aggregate = true) (hg : ∀ f ∈ S.features, f.1.group ≠ [] ∧ f.1.external = false)
    (hint : ∀ f ∈ S.features, ∀ c, f.1.group = [c] → ∀ i < D.n, ∀ x : ℝ, D.X i c = .fin x → ∃ k : ℤ, x = (k : ℝ))
    (fuel : ℕ) (m : FittedModel) (h : S.fit (gbsEstimator ra) D fuel = some (.ok m)) : AdditiveModel S D (m.predict D.prior D.X) := by
  obtain ⟨past, s, ht, -, hpred⟩ := gbs_in_sample S D ra hagg (fun f hf => (hg f hf).1) hint fuel m h
  have := fun i => (C18_bookkeeping (S.paramsFor (gbsEstimator ra)) hagg _ _ _ past s ht i).1
  obtain ⟨φ, hφ⟩ := merge_functions S.features (codeOf D.X D.n) ((S.features.zip s.feats).map fun p => (p.1, stored p.2)) (by
    intro p hp
    obtain ⟨q, hq, rfl⟩ := List.mem_map.mp hp
    exact (List.of_mem_zip hq).1)
  refine ⟨φ, fun i hi => ?_⟩
  rw [hpred i hi, this i]
  unfold Setup.cfgs
  rw [stored_additive D i S.features s.feats fun f hf => (hg f hf).2]
  congr 1
  refine Eq.trans ?_ (hφ ⟨i, hi⟩)
  rw [List.map_map]
  rfl

/-- **C124.** Training converges to the least-squares fit, and the rate depends on the features, the weights, `regalpha` and the
smallest learning rate only: for each design there is a number `ρ < 1`, the same for all targets, prior predictions, stopping rules and
numbers of iterations, such that the distance of the predictions of the fitted model to those of the best additive model is `ρ^k` times
what it was before training, `k` being the number of iterations, and so is the error in excess of that of the best additive model. -/
theorem C124_convergence (S : Setup σ) (D : TrainSet) (ra low : ℝ) (ha : 0 ≤ ra) (hw : ∀ i < D.n, 0 ≤ D.w i) (hlow : 0 < low) :
    ∃ ρ, 0 ≤ ρ ∧ ρ < 1 ∧ ∀ (S' : Setup σ) (D' : TrainSet), SameDesign S S' D D' → FreeDescent S' D' ra low →
      ∀ (fuel : ℕ) (m : FittedModel), S'.fit (gbsEstimator ra) D' fuel = some (.ok m) →
        AdditiveModel S' D' (m.predict D'.prior D'.X) ∧ ∀ best, BestAdditiveModel S' D' best →
          weightedDistance D' (m.predict D'.prior D'.X) best ≤ ρ ^ m.iterations * weightedDistance D' (startingPredictions D') best ∧
          trainingError D' (m.predict D'.prior D'.X) - trainingError D' best ≤
            ρ ^ m.iterations * (trainingError D' (startingPredictions D') - trainingError D' best) := by
  obtain ⟨ρ, h0, h1, hρ⟩ := binOperators_contract S.features (codeOf D.X D.n) (fun i => Real.sqrt (D.w i)) (denOf D.X D.n D.w ra)
    (fun f b => (denOf_ok D.X D.n D.w ra ha hw f b).1) (fun f b => (denOf_ok D.X D.n D.w ra ha hw f b).2) low hlow
  refine ⟨ρ, h0, h1, fun S' D' hsame h fuel m hm => ?_⟩
  obtain ⟨y, hD'⟩ : ∃ y, D' = { D with y := y, prior := D'.prior } := ⟨D'.y, by
    cases D'
    cases D
    obtain ⟨-, e1, e2, e3⟩ := hsame
    dsimp only at e1 e2 e3 ⊢
    subst e1 e2 e3
    rfl⟩
  obtain ⟨hfe, -, -, -⟩ := hsame
  obtain ⟨past, s, ht, hits, hpred⟩ := gbs_in_sample S' D' ra h.plain.aggregate (fun f hf => (h.plain.features f hf).1) h.binNumbers fuel
    m hm
  have hρ' : ∀ l, low ≤ l → l ≤ 1 → ∀ x ∈ designSpace S'.features D'.X D'.n D'.w, ∀ u ∈ (designSpace S'.features D'.X D'.n D'.w)ᗮ,
      ∃ z ∈ designSpace S'.features D'.X D'.n D'.w, cyclicPass (S'.features.map (featureOperator D' ra)) l (x + u) = z + u ∧
        ‖z‖ ^ 2 ≤ ρ * ‖x‖ ^ 2 := by
    rw [hfe]
    generalize D'.prior = prior at hD'
    subst hD'
    exact hρ
  clear hρ hD'
  have hw' := h.plain.weights
  set V := designSpace S'.features D'.X D'.n D'.w with hV
  set r := residuals D' (startingPredictions D') with hr
  have hvm : V.starProjection r ∈ V := Submodule.starProjection_apply_mem _ _
  have hum : r - V.starProjection r ∈ Vᗮ := Submodule.sub_starProjection_mem_orthogonal _
  generalize V.starProjection r = v at hvm hum
  set u := r - v with hu
  obtain ⟨z, hz, hres, hb⟩ := trace_residuals S' D' ra low h ρ h0 hρ' (startingPredictions D') v u hvm hum (by rw [hu, ← hr]; abel) past s ht
  obtain ⟨best, hbest, hbr⟩ := additive_of_mem S' D' v hvm
  rw [← hr, ← hu] at hbr
  have herr : ∀ q, AdditiveModel S' D' q → trainingError D' q = trainingError D' best + weightedDistance D' q best := by
    intro q hq
    have h3 := additive_residuals S' D' q hq
    rw [← hr, ← hV] at h3
    rw [← residuals_norm D' hw', ← residuals_norm D' hw', ← residuals_distance D' hw', hbr]
    have e : residuals D' q = (v - (r - residuals D' q)) + u := by rw [hu]; abel
    have h4 := norm_add_orthogonal V _ u (V.sub_mem hvm h3) hum
    rw [← e] at h4
    rw [h4, show residuals D' q - u = v - (r - residuals D' q) by rw [hu]; abel]
    ring
  have hdist : ∀ q, 0 ≤ weightedDistance D' q best := fun q => Finset.sum_nonneg fun i hi =>
    mul_nonneg (hw' i (Finset.mem_range.mp hi)) (sq_nonneg _)
  have hresm : residuals D' (m.predict D'.prior D'.X) = residuals D' s.pred.factors := by
    ext i
    rw [residuals_apply, residuals_apply, hpred i i.2]
  have hstart : AdditiveModel S' D' (startingPredictions D') := ⟨fun _ _ => 0, fun i _ => by simp⟩
  have hadd : AdditiveModel S' D' (m.predict D'.prior D'.X) := by
    exact fitted_additive S' D' ra h.plain.aggregate h.plain.features h.binNumbers fuel m hm
  have hd1 : weightedDistance D' (m.predict D'.prior D'.X) best = ‖z‖ ^ 2 := by
    rw [← residuals_distance D' hw', hresm, hres, hbr, add_sub_cancel_right]
  have hd2 : weightedDistance D' (startingPredictions D') best = ‖v‖ ^ 2 := by
    rw [← residuals_distance D' hw', hbr, ← hr, hu]
    congr 2
    abel
  have hmain : weightedDistance D' (m.predict D'.prior D'.X) best ≤ ρ ^ m.iterations * weightedDistance D' (startingPredictions D') best := by
    rw [hd1, hd2, ← hits]
    exact hb
  refine ⟨hadd, fun best' hb' => ?_⟩
  have hzero : weightedDistance D' best' best = 0 := by
    have h5 := herr best' hb'.1
    have h6 := hb'.2 best hbest
    linarith [hdist best']
  have hsame' : residuals D' best' = residuals D' best := by
    rw [← residuals_distance D' hw'] at hzero
    rwa [sq_eq_zero_iff, norm_eq_zero, sub_eq_zero] at hzero
  have hd3 : ∀ q, weightedDistance D' q best' = weightedDistance D' q best := fun q => by
    rw [← residuals_distance D' hw', ← residuals_distance D' hw', hsame']
  have herr' : trainingError D' best' = trainingError D' best := by
    rw [← residuals_norm D' hw', ← residuals_norm D' hw', hsame']
  rw [hd3, hd3, herr', herr _ hadd, herr _ hstart]
  exact ⟨hmain, by linarith⟩

/-- **C124**, the goal exists: among the additive models there is one with the smallest weighted squared error. -/
theorem C124_best_exists (hw : ∀ i < D.n, 0 ≤ D.w i) : ∃ best, BestAdditiveModel S D best := by
  set V := designSpace S.features D.X D.n D.w with hV
  set r := residuals D (startingPredictions D) with hr
  have hvm : V.starProjection r ∈ V := Submodule.starProjection_apply_mem _ _
  have hum : r - V.starProjection r ∈ Vᗮ := Submodule.sub_starProjection_mem_orthogonal _
  generalize V.starProjection r = v at hvm hum
  obtain ⟨best, hbest, hbr⟩ := additive_of_mem S D v hvm
  rw [← hr] at hbr
  refine ⟨best, hbest, fun q hq => ?_⟩
  have h3 := additive_residuals S D q hq
  rw [← hr, ← hV] at h3
  rw [← residuals_norm D hw, ← residuals_norm D hw, hbr]
  have h4 := norm_add_orthogonal V _ _ (V.sub_mem hvm h3) hum
  rw [show v - (r - residuals D q) + (r - v) = residuals D q by abel] at h4
  rw [h4]
  linarith [sq_nonneg ‖v - (r - residuals D q)‖]

/-- **C124**, in the limit: with both early stop criteria switched off (by negative values), the predictions of the training samples
come as close as one likes to those of the best additive model, and the error to the smallest one possible, if `maximal_iterations` is
large enough. -/
theorem C124_limit (h : FreeDescent S D ra low) (hlow : 0 < low) (hf : S.params.minimalFactorChange < 0)
    (hl : S.params.minimalLossChange < 0) (hsum : ∑ i ∈ range D.n, D.w i ≠ 0) (best : ℕ → ℝ) (hb : BestAdditiveModel S D best)
    (ε : ℝ) (hε : 0 < ε) :
    ∃ N, ∀ M, N ≤ M → ∃ m, (withMaximalIterations S M).fit (gbsEstimator ra) D (M + 4) = some (.ok m) ∧
      weightedDistance D (m.predict D.prior D.X) best < ε ∧
      trainingError D (m.predict D.prior D.X) < trainingError D best + ε := by
  obtain ⟨ρ, h0, h1, hρ⟩ := C124_convergence S D ra low h.plain.regalpha h.plain.weights hlow
  set A := weightedDistance D (startingPredictions D) best with hA
  set B := trainingError D (startingPredictions D) - trainingError D best with hB
  have hA0 : 0 ≤ A := Finset.sum_nonneg fun i hi => mul_nonneg (h.plain.weights i (Finset.mem_range.mp hi)) (sq_nonneg _)
  have hB0 : 0 ≤ B := sub_nonneg.mpr (hb.2 _ ⟨fun _ _ => 0, fun i _ => by simp⟩)
  obtain ⟨N, hN⟩ := exists_pow_lt_of_lt_one (div_pos hε (by linarith : 0 < A + B + 1)) h1
  refine ⟨N + 1, fun M hM => ?_⟩
  have hp : PlainDescent (withMaximalIterations S M) D ra :=
    ⟨h.plain.aggregate, h.plain.noHierarchy, h.plain.regalpha, h.plain.weights, h.plain.learnRate, h.plain.features, h.plain.smoothers⟩
  have hfree : FreeDescent (withMaximalIterations S M) D ra low := ⟨hp, h.learnRate, h.unsmoothed, h.binNumbers⟩
  obtain ⟨m, hm, hits⟩ := fit_all_iterations (withMaximalIterations S M) D ra hp hf hl (by show 1 ≤ M; omega) hsum (M + 4) le_rfl
  obtain ⟨-, hc⟩ := hρ (withMaximalIterations S M) D ⟨rfl, rfl, rfl, rfl⟩ hfree (M + 4) m hm
  obtain ⟨c1, c2⟩ := hc best hb
  have hits' : m.iterations = M := hits
  rw [hits', ← hA] at c1
  rw [hits', ← hB] at c2
  have hpow : ρ ^ M ≤ ρ ^ N := pow_le_pow_of_le_one h0 h1.le (by omega)
  have hpos : 0 ≤ ρ ^ M := pow_nonneg h0 _
  have hlt : ρ ^ M * (A + B + 1) < ε := by
    rw [lt_div_iff₀ (by linarith)] at hN
    exact lt_of_le_of_lt (mul_le_mul_of_nonneg_right hpow (by linarith)) hN
  exact ⟨m, hm, by nlinarith, by nlinarith⟩

end
end CB
