import Verif.Spec.FloatEstimates
import Verif.Props.Location
import Verif.Props.Shift
import Verif.Props.Settling

/-!
# C127: the mean prediction of the location regressor
-/

set_option autoImplicit false
set_option linter.unusedSectionVars false

namespace CB
open Finset Spec

noncomputable section
variable {σ : Type*} (S : Setup σ) (D : TrainSet)

/-- On the training samples a fitted model predicts, in link space, the baseline plus the stored factors of the bins. -/
theorem in_sample_link (E : Estimator) (hagg : S.params.aggregate = true) (hg : ∀ f ∈ S.features, f.1.group ≠ [])
    (hint : ∀ f ∈ S.features, ∀ c, f.1.group = [c] → ∀ i < D.n, ∀ x : ℝ, D.X i c = .fin x → ∃ k : ℤ, x = (k : ℝ))
    (fuel : ℕ) (m : FittedModel) (h : S.fit E D fuel = some (.ok m)) :
    ∃ a past s, E.scale D.n D.y D.w = .fin a ∧
      Trace (S.paramsFor E) (S.oracle E D) (S.cfgs D) (startState (S.oracle E D) (S.cfgs D) (baseline E D a)) past s ∧
      ∀ i < D.n, m.predict D.prior D.X i
        = E.link.toLink.unlink (baseline E D a i + storedSum false (S.cfgs D) s.feats i) := by
  obtain ⟨a, r, -, hs, hfit, rfl⟩ := fit_ok S _ D fuel m h
  obtain ⟨past, s, ht, hc, -, hpred, hn⟩ := fitMain_ok _ _ _ _ fuel r hfit
  have hd : s.isDiverging = false := by
    unfold continues at hc
    rw [Bool.or_eq_false_iff] at hc
    exact hc.2
  refine ⟨a, past, s, hs, ht, fun i hi => ?_⟩
  have hcfgs : S.cfgs D = (S.features.map (·.1)).map fun f => f.cfg D.X D.n := by
    unfold Setup.cfgs
    rw [List.map_map]; rfl
  rw [← (C18_bookkeeping (S.paramsFor E) hagg _ _ _ past s ht i).1, ← trace_prediction _ _ _ _ past s ht hd, ← hpred]
  rw [hcfgs] at hfit
  obtain ⟨h1, -⟩ := C19_predict_train (S.paramsFor E) hagg (S.oracle E D) D.X D.n
    (S.features.map (·.1)) (baseline E D a) fuel r hfit i hi
    (by
      intro f hf
      obtain ⟨q, hq, rfl⟩ := List.mem_map.mp hf
      exact hg q hq)
    (by
      intro f hf c hfc x hx
      obtain ⟨q, hq, rfl⟩ := List.mem_map.mp hf
      exact hint q hq c hfc i hi x hx)
  rw [← h1]
  rfl

/-- A weighted sum of sums over the features, feature by feature. -/
theorem sum_storedSum (n : ℕ) (w : ℕ → ℝ) (e : Bool) : ∀ (cfgs : List FeatureCfg) (fss : List (FState ℝ)),
    (∀ (j : ℕ) cfg fs, cfgs[j]? = some cfg → fss[j]? = some fs → ∑ i ∈ range n, w i * stored fs (cfg.bin i) = 0) →
    ∑ i ∈ range n, w i * storedSum e cfgs fss i = 0 := by
  intro cfgs
  induction cfgs with
  | nil => intro fss _; simp [storedSum]
  | cons c cs ih =>
    intro fss h
    cases fss with
    | nil => simp [storedSum]
    | cons f fs =>
      have h0 := h 0 c f rfl rfl
      have h1 := ih fs fun j cfg g hj hg => h (j + 1) cfg g hj hg
      simp only [storedSum_cons, mul_add, sum_add_distrib, h1, add_zero]
      by_cases hc : c.external = e
      · simpa [hc] using h0
      · simp [hc]

/-- The weighted sum of the predictions training starts from. -/
theorem location_baseline_sum (hw : ∀ i < D.n, 0 ≤ D.w i) (a : ℝ) (hs : locationEstimator.scale D.n D.y D.w = .fin a) :
    ∑ i ∈ range D.n, D.w i * baseline locationEstimator D a i = ∑ i ∈ range D.n, D.w i * a := by
  unfold baseline Estimator.offset
  cases D.prior with
  | none => rfl
  | some p =>
    have e1 : locationEstimator.shiftPrior = true := rfl
    have e2 : locationEstimator.link = .identity := rfl
    simp only [e1, e2, if_true, hs]
    unfold priorOffsetFrom priorPredMean quotientFlt
    by_cases h0 : (∑ i ∈ range D.n, if (p i).isFinite then D.w i else 0) = 0
    · rw [if_pos h0]
      simp only [linkFlt, show (Flt.nan : Flt ℝ).isFinite = false from rfl, Bool.false_eq_true, if_false]
      refine sum_congr rfl fun i hi => ?_
      have hz := (sum_eq_zero_iff_of_nonneg (fun i hi => by
        split_ifs
        · exact hw i (mem_range.mp hi)
        · exact le_rfl)).mp h0 i hi
      unfold priorPrediction
      simp only [linkFlt]
      cases hp : p i with
      | fin x =>
        rw [hp] at hz
        simp only [Flt.isFinite, if_true] at hz
        rw [hz, zero_mul, zero_mul]
      | nan => simp [Flt.add, Flt.isFinite, Flt.getFin]
      | pinf => simp [Flt.add, Flt.isFinite, Flt.getFin]
      | ninf => simp [Flt.add, Flt.isFinite, Flt.getFin]
    · rw [if_neg h0]
      simp only [linkFlt, show ∀ x : ℝ, (Flt.fin x).isFinite = true from fun _ => rfl, if_true, Flt.sub]
      set P := ∑ i ∈ range D.n, if (p i).isFinite then (p i).getFin * D.w i else 0 with hP
      set W := ∑ i ∈ range D.n, if (p i).isFinite then D.w i else 0 with hW
      have key : ∀ i, D.w i * (priorPrediction .identity (.fin a) (.fin (a - P / W)) (some p) i).getFin
          = D.w i * a + ((if (p i).isFinite then (p i).getFin * D.w i else 0) - P / W * if (p i).isFinite then D.w i else 0) := by
        intro i
        unfold priorPrediction
        simp only [linkFlt]
        cases p i with
        | fin x => simp only [Flt.add, Flt.isFinite, Flt.getFin, if_true]; ring
        | nan => simp [Flt.add, Flt.isFinite, Flt.getFin]
        | pinf => simp [Flt.add, Flt.isFinite, Flt.getFin]
        | ninf => simp [Flt.add, Flt.isFinite, Flt.getFin]
      rw [sum_congr rfl fun i _ => key i, sum_add_distrib, sum_sub_distrib, ← mul_sum, ← hP, ← hW, div_mul_cancel₀ _ h0, sub_self,
        add_zero]

/-- **C127.** Whatever features, smoothers, learning rates, stop criteria and prior predictions (some, all or none of them
missing) a `CBLocationRegressor` is fitted with, the weighted mean of its predictions for the training samples is the weighted mean of
the target plus 0.001. Needed: weights are not negative, and every feature that does not learn missing values has
a sample of positive weight whose value is not missing (`learnable`), and every bin with samples has one of positive weight
(`_weighted`); otherwise the code divides by zero, see `C157_calibration` and `C157_location_nan`. -/
theorem C127_mean (hagg : S.params.aggregate = true) (hg : ∀ f ∈ S.features, f.1.group ≠ [])
    (hint : ∀ f ∈ S.features, ∀ c, f.1.group = [c] → ∀ i < D.n, ∀ x : ℝ, D.X i c = .fin x → ∃ k : ℤ, x = (k : ℝ))
    (hw : ∀ i < D.n, 0 ≤ D.w i)
    (learnable : ∀ f ∈ S.features, ∃ i < D.n, 0 < D.w i ∧
      (f.1.missingNotLearned = true → (f.1.cfg D.X D.n).bin i ≠ (f.1.cfg D.X D.n).nFinite))
    (_weighted : ∀ f ∈ S.features, BinsHaveWeight D f.1.group)
    (fuel : ℕ) (m : FittedModel) (h : S.fit locationEstimator D fuel = some (.ok m)) :
    (∑ i ∈ range D.n, D.w i * m.predict D.prior D.X i) / ∑ i ∈ range D.n, D.w i
      = (∑ i ∈ range D.n, D.w i * D.y i) / (∑ i ∈ range D.n, D.w i) + 1 / 1000 := by
  obtain ⟨a, past, s, hs, ht, hp⟩ := in_sample_link S D locationEstimator hagg hg hint fuel m h
  have hW : ∑ i ∈ range D.n, D.w i ≠ 0 := by
    intro h0
    rw [location_scale, if_pos h0] at hs
    cases hs
  have ha : a = (∑ i ∈ range D.n, D.w i * D.y i) / (∑ i ∈ range D.n, D.w i) + 1 / 1000 := by
    rw [location_scale, if_neg hW] at hs
    injection hs with hs
    rw [← hs, sum_congr rfl fun i _ => mul_comm (D.y i) (D.w i)]
  have hsum : ∑ i ∈ range D.n, D.w i * storedSum false (S.cfgs D) s.feats i = 0 := by
    refine sum_storedSum D.n D.w false (S.cfgs D) s.feats fun j cfg fs hj hfs => ?_
    have hj' := hj
    unfold Setup.cfgs at hj'
    rw [List.getElem?_map, Option.map_eq_some_iff] at hj'
    obtain ⟨f, hf, rfl⟩ := hj'
    have hmem := List.mem_of_getElem? hf
    obtain ⟨fs', h1, h2⟩ := C54_training (S.paramsFor locationEstimator) rfl (S.oracle locationEstimator D) (S.cfgs D) _ past s ht j _ hj
      D.n D.w (fun i hi => cfg_bin_le f.1 (hg f hmem) D.X D.n i hi) (by
        obtain ⟨i, hi, hpos, hne⟩ := learnable f hmem
        refine ne_of_gt (sum_pos' (fun k hk => ?_) ⟨i, mem_range.mpr hi, ?_⟩)
        · split_ifs
          · exact le_rfl
          · exact hw k (mem_range.mp hk)
        · rw [if_neg fun hc => hne hc.1 hc.2]
          exact hpos)
      (fun it fs => by simp only [Setup.oracle, hf]; rfl)
    rw [hfs] at h1
    injection h1 with h1
    rw [h1]; exact h2
  have : ∑ i ∈ range D.n, D.w i * m.predict D.prior D.X i = (∑ i ∈ range D.n, D.w i) * a := by
    calc ∑ i ∈ range D.n, D.w i * m.predict D.prior D.X i
        = ∑ i ∈ range D.n, (D.w i * baseline locationEstimator D a i + D.w i * storedSum false (S.cfgs D) s.feats i) :=
          sum_congr rfl fun i hi => by
            rw [hp i (mem_range.mp hi)]
            exact mul_add _ _ _
      _ = _ := by rw [sum_add_distrib, hsum, add_zero, location_baseline_sum D hw a hs, sum_mul]
  rw [this, mul_div_cancel_left₀ _ hW, ha]

end
end CB
