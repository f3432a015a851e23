import Verif.Lemmas.Scaling
import Verif.Spec.TargetUnits
import Verif.Props.Shift
import Verif.Props.LossDescent

/-!
# C118: the background-subtraction regressor follows the units and the sign of the target
-/

set_option autoImplicit false
set_option linter.unusedSectionVars false

namespace CB
open Finset Spec

noncomputable section

theorem binSum_scaled (n : ℕ) (codes : ℕ → ℕ) (k : ℝ) (f g : ℕ → ℝ) (h : ∀ i, g i = k * f i) (b : ℕ) :
    binSum n codes g b = k * binSum n codes f b := by
  have : g = fun i => k * f i := funext h
  rw [this]
  unfold binSum
  rw [mul_sum]
  exact sum_congr rfl fun i _ => by split_ifs <;> simp

theorem gbsSummand_scaled (c ra : ℝ) (n : ℕ) (codes : ℕ → ℕ) (y pred w : ℕ → ℝ) (b : ℕ) :
    gbsSummand ra n codes (fun s => c * y s) (fun s => c * pred s) w b = c * gbsSummand ra n codes y pred w b := by
  unfold gbsSummand
  dsimp only
  rw [binSum_scaled n codes c (fun i => (y i - pred i) * w i) _ (fun i => by ring)]
  ring

theorem gbsVariance_scaled (c ra : ℝ) (n : ℕ) (codes : ℕ → ℕ) (y pred w : ℕ → ℝ) (b : ℕ) :
    gbsVariance ra n codes (fun s => c * y s) (fun s => c * pred s) w b = c ^ 2 * gbsVariance ra n codes y pred w b := by
  unfold gbsVariance
  dsimp only
  have h1 := binSum_scaled n codes c (fun i => (y i - pred i) * w i) (fun i => (c * y i - c * pred i) * w i) (fun i => by ring) b
  have h2 := binSum_scaled n codes c (fun i => (y i - pred i) * w i * (w i * (1 + ra)))
    (fun i => (c * y i - c * pred i) * w i * (w i * (1 + ra))) (fun i => by ring) b
  have h3 := binSum_scaled n codes (c ^ 2) (fun i => (y i - pred i) * w i * ((y i - pred i) * w i))
    (fun i => (c * y i - c * pred i) * w i * ((c * y i - c * pred i) * w i)) (fun i => by ring) b
  rw [h1, h2, h3]
  ring

section
variable {σ : Type*} (S : Setup σ) (D : TrainSet) (ra c : ℝ)

theorem gbs_oracle_scaled (hc : c ≠ 0) (hsm : HomogeneousSmoothers S D c) :
    OracleScaled c (S.oracle (gbsEstimator ra) D) ((setupInUnits c S).oracle (gbsEstimator ra) (dataInUnits c D)) := by
  have hsqrt : ∀ v : ℝ, Real.sqrt (c ^ 2 * v) = |c| * Real.sqrt v := fun v => by
    rw [Real.sqrt_mul (sq_nonneg c), Real.sqrt_sq_eq_abs]
  refine ⟨?_, ?_, rfl, ?_, ?_⟩
  · intro it i p fs
    funext b
    simp only [Setup.oracle, setupInUnits, dataInUnits, Pred.scaled]
    cases S.features[i]? with
    | none => simp
    | some f => exact gbsSummand_scaled c ra D.n _ D.y p.factors D.w b
  · intro it i p fs u
    funext b
    simp only [Setup.oracle, setupInUnits, dataInUnits, Pred.scaled]
    cases hf : S.features[i]? with
    | none => simp
    | some f =>
      simp only [gbsEstimator, gbsVariance_scaled, hsqrt]
      exact hsm f (List.mem_of_getElem? hf) _ u b
  · intro it i fs
    simp only [Setup.oracle, setupInUnits, dataInUnits]
    cases S.features[i]? with
    | none => rfl
    | some f => rfl
  · intro p
    simp only [Setup.oracle, gbsEstimator, gbsLoss, LinkKind.toLink, identityLink, dataInUnits, Pred.scaled, ne_eq, mul_eq_zero, hc, false_or]
    unfold quotientFlt
    have : ∑ x ∈ range D.n, D.w x * (c * p.factors x - c * D.y x) ^ 2 = c ^ 2 * ∑ x ∈ range D.n, D.w x * (p.factors x - D.y x) ^ 2 := by
      rw [mul_sum]
      exact sum_congr rfl fun i _ => by ring
    rw [this]
    split_ifs
    · rfl
    · simp only [lossScaled, mul_div_assoc]

theorem gbs_params_scaled (hstart : 100 ≤ |c| * S.params.minimalFactorChange ↔ 100 ≤ S.params.minimalFactorChange) :
    ParamsScaled c (S.paramsFor (gbsEstimator ra)) ((setupInUnits c S).paramsFor (gbsEstimator ra)) :=
  ⟨rfl, by simp [Setup.paramsFor, gbsEstimator], by simp [Setup.paramsFor, gbsEstimator], rfl, rfl, hstart, rfl, rfl, rfl⟩

theorem gbs_scale_scaled (a : ℝ) (h : (gbsEstimator ra).scale D.n D.y D.w = .fin a) :
    (gbsEstimator ra).scale (dataInUnits c D).n (dataInUnits c D).y (dataInUnits c D).w = .fin (c * a) := by
  simp only [gbsEstimator, quotientFlt, dataInUnits] at *
  split_ifs at h ⊢
  rw [Flt.fin.injEq] at h ⊢
  rw [← h, ← mul_div_assoc, mul_sum]
  congr 1
  exact sum_congr rfl fun i _ => by ring

theorem gbs_scale_notFinite (h : (gbsEstimator ra).scale D.n D.y D.w = .nan) :
    (gbsEstimator ra).scale (dataInUnits c D).n (dataInUnits c D).y (dataInUnits c D).w = .nan := by
  simp only [gbsEstimator, quotientFlt, dataInUnits] at *
  split_ifs at h ⊢
  rfl

theorem gbs_prior_scaled (a : ℝ) (q : Option (ℕ → Flt ℝ)) (off off' : Flt ℝ) (ho : q ≠ none → off = .fin 0 ∧ off' = .fin 0) (s : ℕ) :
    (priorPrediction .identity (.fin (c * a)) off' (priorInUnits c q) s).getFin =
      c * (priorPrediction .identity (.fin a) off q s).getFin := by
  cases q with
  | none => rfl
  | some q =>
    obtain ⟨rfl, rfl⟩ := ho (by simp)
    have key : ∀ x : Flt ℝ, (if ((inUnits c x).add (.fin 0)).isFinite then (inUnits c x).add (.fin 0) else .fin (c * a)).getFin
        = c * (if (x.add (.fin 0)).isFinite then x.add (.fin 0) else .fin a).getFin := by
      intro x
      cases x with
      | fin x => simp [inUnits, Flt.add, Flt.isFinite, Flt.getFin]
      | nan => simp [inUnits, Flt.add, Flt.isFinite, Flt.getFin]
      | pinf => by_cases hc : 0 < c <;> simp [inUnits, hc, Flt.add, Flt.isFinite, Flt.getFin]
      | ninf => by_cases hc : 0 < c <;> simp [inUnits, hc, Flt.add, Flt.isFinite, Flt.getFin]
    exact key (q s)

theorem gbs_offset (D : TrainSet) : (gbsEstimator ra).offset D = .fin 0 := by
  unfold Estimator.offset
  cases D.prior with
  | none => rfl
  | some q => simp [gbsEstimator]

/-- A perfect fit is left alone. -/
theorem gbs_staysZero (hc : c ≠ 1) (hagg : S.params.aggregate = true) (hw : ∀ i < D.n, 0 ≤ D.w i)
    (hsm : HomogeneousSmoothers S D c) (prior : ℕ → ℝ) :
    StaysZero (S.paramsFor (gbsEstimator ra)) (S.oracle (gbsEstimator ra) D) (S.cfgs D) prior := by
  have hzero : ∀ pr : Pred ℝ, (S.oracle (gbsEstimator ra) D).loss pr = .fin 0 → ∀ i < D.n, (D.y i - pr.factors i) * D.w i = 0 := by
    intro pr h i hi
    simp only [Setup.oracle, gbsEstimator, gbsLoss, LinkKind.toLink, identityLink, quotientFlt] at h
    split_ifs at h with h0
    rw [Flt.fin.injEq, div_eq_zero_iff, or_iff_left h0] at h
    have := (sum_eq_zero_iff_of_nonneg fun j hj => mul_nonneg (hw j (mem_range.mp hj)) (sq_nonneg _)).mp h i (mem_range.mpr hi)
    rcases mul_eq_zero.mp this with e | e
    · rw [e, mul_zero]
    · have : pr.factors i - D.y i = 0 := by simpa using e
      rw [← neg_sub, this]; ring
  refine ⟨?_, ?_⟩
  · intro it dv isd il fss pr h
    have hstep : ∀ (i : ℕ) (cfgs : List FeatureCfg) (fss : List (FState ℝ)),
        (∀ j cfg, cfgs[j]? = some cfg → (S.cfgs D)[i + j]? = some cfg) →
        (featurePass (S.paramsFor (gbsEstimator ra)) (S.oracle (gbsEstimator ra) D) it dv isd il i cfgs fss pr).2 = pr := by
      intro i cfgs
      induction cfgs generalizing i with
      | nil => intro fss _; rfl
      | cons cfg cfgs ih =>
        intro fss hcf
        cases fss with
        | nil => rfl
        | cons fs fss =>
          unfold featurePass
          dsimp only
          generalize (if it = 0 then { fs with factors := fun _ => 0 } else fs : FState ℝ) = fs1
          have hrest : ∀ j cfg, cfgs[j]? = some cfg → (S.cfgs D)[i + 1 + j]? = some cfg := by
            intro j cfg' hj
            rw [show i + 1 + j = i + (j + 1) by omega]
            exact hcf (j + 1) cfg' (by simpa using hj)
          have hit : (featureIteration (S.paramsFor (gbsEstimator ra)) (S.oracle (gbsEstimator ra) D) it i cfg dv isd il fs1 pr).2 = pr := by
            have hc0 := hcf 0 cfg rfl
            rw [Nat.add_zero] at hc0
            unfold Setup.cfgs at hc0
            rw [List.getElem?_map] at hc0
            cases hf : S.features[i]? with
            | none => rw [hf] at hc0; simp at hc0
            | some f =>
              rw [hf] at hc0
              simp only [Option.map_some, Option.some.injEq] at hc0
              subst hc0
              rw [update_plain (S.paramsFor (gbsEstimator ra)) hagg (by simp [Setup.paramsFor, gbsEstimator]) _ _ _ _ _ _ _ _ _ (by
                intro it i fs
                unfold Setup.oracle
                dsimp only
                cases S.features[i]? with
                | none => rfl
                | some f => rfl)]
              have hn : ∀ b, binSum D.n (f.1.cfg D.X D.n).bin (fun i => (D.y i - pr.factors i) * D.w i) b = 0 := by
                intro b
                rw [binSum_congr_lt _ _ _ (fun _ => 0) (fun j hj => hzero pr h j hj)]
                simp [binSum]
              have hnd : ∀ (g : ℕ → ℝ) b, binSum D.n (f.1.cfg D.X D.n).bin (fun i => (D.y i - pr.factors i) * D.w i * g i) b = 0 := by
                intro g b
                rw [binSum_congr_lt _ _ _ (fun _ => 0) (fun j hj => by rw [hzero pr h j hj, zero_mul])]
                simp [binSum]
              have hest : (S.oracle (gbsEstimator ra) D).estimate it i pr fs1 = fun _ => 0 := by
                funext b
                simp only [Setup.oracle, hf, gbsEstimator, gbsSummand, hn, zero_div]
              have hunc : ∀ b, Real.sqrt (gbsVariance ra D.n (f.1.cfg D.X D.n).bin D.y pr.factors D.w b) = 0 := by
                intro b
                unfold gbsVariance
                simp only [hn, hnd]
                simp
              have hsmooth : ∀ fs2 b v, (S.oracle (gbsEstimator ra) D).smooth it i pr fs2 (fun _ => 0) b = some v → v = 0 := by
                intro fs2 b v hv
                simp only [Setup.oracle, hf, gbsEstimator, hunc] at hv
                have := hsm f (List.mem_of_getElem? hf) (fun _ => 0) (fun _ => 0) b
                simp only [mul_zero] at this
                rw [hv] at this
                simp only [Option.map_some, Option.some.injEq] at this
                have h1 : (1 - c) * v = 0 := by linarith
                exact (mul_eq_zero.mp h1).resolve_left (sub_ne_zero.mpr (Ne.symm hc))
              rw [hest]
              have hz : ∀ (fs2 : FState ℝ) lr b, predictFactors (f.1.cfg D.X D.n) (updateFactors (f.1.cfg D.X D.n) fs1 (fun _ => 0) lr)
                  ((S.oracle (gbsEstimator ra) D).smooth it i pr fs2 fun _ => 0) lr b = 0 := by
                intro fs2 lr b
                unfold predictFactors
                split_ifs
                · ring
                · cases hv : (S.oracle (gbsEstimator ra) D).smooth it i pr fs2 (fun _ => 0) b with
                  | none => rfl
                  | some v => rw [hsmooth fs2 b v hv]; ring
                · simp [updateFactors]
              simp only [hz]
              unfold Pred.update
              split_ifs <;> simp
          by_cases hs : skipped (S.paramsFor (gbsEstimator ra)) it cfg = true
          · simp only [hs, if_true]
            exact ih (i + 1) fss hrest
          · simp only [hs]
            rw [if_neg (by simp), hit]
            exact ih (i + 1) fss hrest
    rw [hstep 0 (S.cfgs D) fss (fun j cfg hj => by rw [Nat.zero_add]; exact hj)]
    exact h
  · simp only [isDiverged, Setup.oracle, gbsEstimator, gbsLoss, LinkKind.toLink, identityLink, quotientFlt]
    split_ifs
    · rfl
    · simp only [Flt.twice, Flt.gt, decide_eq_false_iff_not, not_lt]
      refine mul_nonneg (div_nonneg ?_ ?_) zero_le_two
      · exact sum_nonneg fun i hi => mul_nonneg (hw i (mem_range.mp hi)) (sq_nonneg _)
      · exact sum_nonneg fun i hi => mul_nonneg (by split_ifs <;> simp) (hw i (mem_range.mp hi))

theorem fittedFeature_scaled (g : List String) (e : Bool) (ns : List ℕ) (fac : ℕ → ℝ) (row : List (Flt ℝ)) :
    (⟨g, e, ns, fun b => c * fac b⟩ : FittedFeature ℝ).predict row = c * (⟨g, e, ns, fac⟩ : FittedFeature ℝ).predict row := by
  unfold FittedFeature.predict
  split_ifs
  · unfold FittedFeature.smoother FittedFeature.nFinite
    dsimp only
    by_cases h0 : ns.prod = 0
    · simp [h0]
    · rw [if_neg h0, if_neg h0]
      by_cases h1 : g.length < 2
      · rw [if_pos h1, if_pos h1]
        dsimp only
        unfold predictOneDim
        cases row.headD .nan with
        | fin x => dsimp only; split_ifs <;> simp
        | nan => simp
        | pinf => simp
        | ninf => simp
      · rw [if_neg h1, if_neg h1]
        dsimp only
        unfold predictMultiDim
        split_ifs <;> simp
  · rfl

theorem predictExtended_scaled (X : Table ℝ) (specs : List FeatureSpec) (n : ℕ) (T : Table ℝ) (factors : List (ℕ → ℝ))
    (prior prior' : ℕ → ℝ) (s : ℕ) (h : prior' s = c * prior s) :
    (predictExtended prior' (fittedFeatures T n specs (factors.map fun g b => c * g b)) X).factors s =
      c * (predictExtended prior (fittedFeatures T n specs factors) X).factors s := by
  unfold predictExtended fittedFeatures
  have key : ∀ (specs : List FeatureSpec) (factors : List (ℕ → ℝ)) (p p' : Pred ℝ), p'.factors s = c * p.factors s →
      ((List.zipWith (fun (f : FeatureSpec) fac => (⟨f.group, f.external, (bindData T n f.group none).2, fac⟩ : FittedFeature ℝ)) specs
          (factors.map fun g b => c * g b)).foldl
        (fun pred f => if f.external then { pred with exponents := fun s => pred.exponents s + f.predict (X.row f.group s) }
        else { pred with factors := fun s => pred.factors s + f.predict (X.row f.group s) }) p').factors s
      = c * ((List.zipWith (fun (f : FeatureSpec) fac => (⟨f.group, f.external, (bindData T n f.group none).2, fac⟩ : FittedFeature ℝ)) specs
          factors).foldl
        (fun pred f => if f.external then { pred with exponents := fun s => pred.exponents s + f.predict (X.row f.group s) }
        else { pred with factors := fun s => pred.factors s + f.predict (X.row f.group s) }) p).factors s := by
    intro specs
    induction specs with
    | nil => intro factors p p' h; simpa using h
    | cons f specs ih =>
      intro factors p p' h
      cases factors with
      | nil => simpa using h
      | cons g factors =>
        rw [List.map_cons, List.zipWith_cons_cons, List.zipWith_cons_cons, List.foldl_cons, List.foldl_cons]
        apply ih
        dsimp only
        split
        · exact h
        · dsimp only
          rw [h, fittedFeature_scaled, mul_add]
  exact key specs factors _ _ h

theorem gbs_units (hc : c ≠ 0) (hsm : HomogeneousSmoothers S D c)
    (hstart : 100 ≤ |c| * S.params.minimalFactorChange ↔ 100 ≤ S.params.minimalFactorChange)
    (hz : c ^ 2 = 1 ∨ (S.params.aggregate = true ∧ ∀ i < D.n, 0 ≤ D.w i)) (fuel : ℕ) :
    (S.fit (gbsEstimator ra) D fuel = none ↔ (setupInUnits c S).fit (gbsEstimator ra) (dataInUnits c D) fuel = none) ∧
    (∀ e, S.fit (gbsEstimator ra) D fuel = some (.error e) →
      (setupInUnits c S).fit (gbsEstimator ra) (dataInUnits c D) fuel = some (.error e)) ∧
    (∀ m, S.fit (gbsEstimator ra) D fuel = some (.ok m) →
      ∃ m', (setupInUnits c S).fit (gbsEstimator ra) (dataInUnits c D) fuel = some (.ok m') ∧ m'.iterations = m.iterations ∧
        ∀ (prior : Option (ℕ → Flt ℝ)) (X : Table ℝ) (s : ℕ), m'.predict (priorInUnits c prior) X s = c * m.predict prior X s) := by
  by_cases hw : ∑ i ∈ range D.n, D.w i = 0
  · have e1 : (gbsEstimator ra).scale D.n D.y D.w = .nan := by simp [gbsEstimator, quotientFlt, hw]
    have e2 := gbs_scale_notFinite D ra c e1
    have f1 := S.fit_notFinite D (gbsEstimator ra) fuel (fun _ _ => trivial) (by rw [e1]; rfl)
    have f2 := (setupInUnits c S).fit_notFinite (dataInUnits c D) (gbsEstimator ra) fuel (fun _ _ => trivial) (by rw [e2]; rfl)
    rw [f1, f2]
    exact ⟨by simp, fun e h => h, fun m h => by simp at h⟩
  · obtain ⟨a, e1⟩ : ∃ a, (gbsEstimator ra).scale D.n D.y D.w = .fin a := ⟨_, by simp only [gbsEstimator, quotientFlt, if_neg hw]; rfl⟩
    have e2 := gbs_scale_scaled D ra c a e1
    have f1 := S.fit_finite D (gbsEstimator ra) fuel (fun _ _ => trivial) a e1
    have f2 := (setupInUnits c S).fit_finite (dataInUnits c D) (gbsEstimator ra) fuel (fun _ _ => trivial) (c * a) e2
    rw [gbs_offset] at f1 f2
    have hprior : (fun s => (priorPrediction (gbsEstimator ra).link (.fin (c * a)) (.fin 0) (dataInUnits c D).prior s).getFin) =
        fun s => c * (priorPrediction (gbsEstimator ra).link (.fin a) (.fin 0) D.prior s).getFin :=
      funext fun s => gbs_prior_scaled c a D.prior _ _ (fun _ => ⟨rfl, rfl⟩) s
    rw [hprior, show (setupInUnits c S).cfgs (dataInUnits c D) = S.cfgs D from rfl] at f2
    have hz' : c ^ 2 = 1 ∨ StaysZero (S.paramsFor (gbsEstimator ra)) (S.oracle (gbsEstimator ra) D) (S.cfgs D)
        (fun s => (priorPrediction (gbsEstimator ra).link (.fin a) (.fin 0) D.prior s).getFin) := by
      by_cases h1 : c = 1
      · left; rw [h1]; norm_num
      · exact hz.imp id fun h => gbs_staysZero S D ra c h1 h.1 h.2 hsm _
    have hsim := scaled_fitMain hc (gbs_params_scaled S ra c hstart) (gbs_oracle_scaled S D ra c hc hsm) (S.cfgs D) _ hz' fuel
    rw [f1, f2]
    rcases hsim with ⟨g1, g2⟩ | ⟨e, g1, g2⟩ | ⟨r, r', g1, g2, hfac, hit, -⟩
    · rw [g1, g2]; exact ⟨by simp, by simp, by simp⟩
    · rw [g1, g2]; exact ⟨by simp, fun e h => h, by simp⟩
    · rw [g1, g2]
      refine ⟨by simp, by simp, ?_⟩
      intro m hm
      simp only [Option.some.injEq, Except.ok.injEq] at hm
      refine ⟨_, rfl, ?_, ?_⟩
      · rw [← hm, hit]
      · intro prior X s
        rw [← hm]
        unfold FittedModel.predict
        dsimp only
        rw [hfac]
        exact predictExtended_scaled c X _ _ _ _ _ _ s (gbs_prior_scaled c a prior _ _ (fun _ => ⟨rfl, rfl⟩) s)

/-- **C118, units.** Training on targets (and prior predictions) multiplied by `c ≠ 0`, with `minimal_factor_change` in the new
units, fails if and as training fails in the old units; if it succeeds, it takes the same number of iterations and every later
prediction is multiplied by `c`. -/
theorem C118_units (hc : c ≠ 0) (hsm : HomogeneousSmoothers S D c) (hagg : S.params.aggregate = true) (hw : ∀ i < D.n, 0 ≤ D.w i)
    (hf : S.params.minimalFactorChange < 100) (hf' : |c| * S.params.minimalFactorChange < 100) (fuel : ℕ) :
    (S.fit (gbsEstimator ra) D fuel = none ↔ (setupInUnits c S).fit (gbsEstimator ra) (dataInUnits c D) fuel = none) ∧
    (∀ e, S.fit (gbsEstimator ra) D fuel = some (.error e) →
      (setupInUnits c S).fit (gbsEstimator ra) (dataInUnits c D) fuel = some (.error e)) ∧
    (∀ m, S.fit (gbsEstimator ra) D fuel = some (.ok m) →
      ∃ m', (setupInUnits c S).fit (gbsEstimator ra) (dataInUnits c D) fuel = some (.ok m') ∧ m'.iterations = m.iterations ∧
        ∀ (prior : Option (ℕ → Flt ℝ)) (X : Table ℝ) (s : ℕ), m'.predict (priorInUnits c prior) X s = c * m.predict prior X s) :=
  gbs_units S D ra c hc hsm ⟨fun h => absurd h (not_le.mpr hf'), fun h => absurd h (not_le.mpr hf)⟩ (.inr ⟨hagg, hw⟩) fuel

/-- **C118, sign.** Training on targets (and prior predictions) with the opposite sign fails if and as training fails on the
original ones; if it succeeds, it takes the same number of iterations and every later prediction has the opposite sign. -/
theorem C118_mirror (hsm : HomogeneousSmoothers S D (-1)) (fuel : ℕ) :
    (S.fit (gbsEstimator ra) D fuel = none ↔ S.fit (gbsEstimator ra) (dataInUnits (-1) D) fuel = none) ∧
    (∀ e, S.fit (gbsEstimator ra) D fuel = some (.error e) → S.fit (gbsEstimator ra) (dataInUnits (-1) D) fuel = some (.error e)) ∧
    (∀ m, S.fit (gbsEstimator ra) D fuel = some (.ok m) →
      ∃ m', S.fit (gbsEstimator ra) (dataInUnits (-1) D) fuel = some (.ok m') ∧ m'.iterations = m.iterations ∧
        ∀ (prior : Option (ℕ → Flt ℝ)) (X : Table ℝ) (s : ℕ), m'.predict (priorInUnits (-1) prior) X s = -m.predict prior X s) := by
  have hS : setupInUnits (-1) S = S := by simp [setupInUnits]
  have := gbs_units S D ra (-1) (by norm_num) hsm (by simp) (.inl (by norm_num)) fuel
  rw [hS] at this
  simpa only [neg_one_mul] using this

end
end
end CB
