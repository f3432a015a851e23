import Verif.Spec.WeightScale
import Verif.Props.CalibrationExample

/-!
# C123: for quantile and generic-loss estimators only the relative sizes of the weights matter
-/

set_option autoImplicit false
set_option linter.unusedSectionVars false

namespace CB
open Finset Spec

section
variable {σ : Type*} (S : Setup σ) (D : TrainSet) (c : ℝ)

theorem binSum_times (n : ℕ) (codes : ℕ → ℕ) (w : ℕ → ℝ) : binSum n codes (fun i => c * w i) = fun b => c * binSum n codes w b := by
  funext b
  unfold binSum
  rw [Finset.mul_sum]
  exact Finset.sum_congr rfl fun i _ => by split_ifs <;> simp

theorem quotientFlt_times (hc : 0 < c) (a b : ℝ) : quotientFlt (c * a) (c * b) = quotientFlt a b := by
  unfold quotientFlt
  by_cases hb : b = 0
  · simp [hb]
  · rw [if_neg hb, if_neg (mul_ne_zero hc.ne' hb), mul_div_mul_left _ _ hc.ne']

theorem globalScaleLink_times (hc : 0 < c) (kind : LinkKind) (n : ℕ) (y w : ℕ → ℝ) :
    globalScaleLink kind n y (fun i => c * w i) = globalScaleLink kind n y w := by
  unfold globalScaleLink
  rw [← Finset.mul_sum, show ∑ i ∈ range n, y i * (c * w i) = c * ∑ i ∈ range n, y i * w i by
    rw [Finset.mul_sum]; exact Finset.sum_congr rfl fun i _ => by ring, quotientFlt_times c hc]

theorem offset_times (hc : 0 < c) (E : Estimator) (hs : E.scale D.n D.y (fun i => c * D.w i) = E.scale D.n D.y D.w) :
    E.offset (weightsTimes c D) = E.offset D := by
  unfold Estimator.offset weightsTimes
  dsimp only
  rw [hs]
  cases D.prior with
  | none => rfl
  | some prior =>
    dsimp only
    have hmean : ∀ q : ℕ → Flt ℝ, priorPredMean D.n q (fun i => c * D.w i) = priorPredMean D.n q D.w := by
      intro q
      unfold priorPredMean
      refine Eq.trans ?_ (quotientFlt_times c hc _ _)
      congr 1 <;> rw [Finset.mul_sum] <;> refine Finset.sum_congr rfl fun i _ => ?_
      · split_ifs <;> ring
      · split_ifs <;> simp
    unfold priorOffsetFrom
    rw [hmean]

/-- If everything an estimator computes is the same, so is the fit. -/
theorem fit_times (hc : 0 < c) (E : Estimator) (hs : E.scale D.n D.y (fun i => c * D.w i) = E.scale D.n D.y D.w)
    (hsm : WeightBlindSmoothers S D c)
    (hpar : ∀ it codes pred b, (E.parameters it D.n codes D.y (fun i => c * D.w i) pred b).1 = (E.parameters it D.n codes D.y D.w pred b).1)
    (hcal : ∀ cfg bw f, E.calibrate cfg bw f = f)
    (hloss : ∀ p, E.loss D.n p D.y (fun i => c * D.w i) = E.loss D.n p D.y D.w) (fuel : ℕ) :
    S.fit E (weightsTimes c D) fuel = S.fit E D fuel := by
  have ho : S.oracle E (weightsTimes c D) = S.oracle E D := by
    unfold Setup.oracle weightsTimes
    dsimp only
    simp only [hcal, hpar, hloss, binSum_times]
    congr 1
    funext it i pred fs v
    cases hf : S.features[i]? with
    | none => rfl
    | some f => exact funext fun b => hsm f (List.mem_of_getElem? hf) _ _ v b
  unfold Setup.fit
  rw [ho, offset_times D c hc E hs, show E.scale (weightsTimes c D).n (weightsTimes c D).y (weightsTimes c D).w = E.scale D.n D.y D.w from hs]
  rfl

theorem genericParameters_times (hc : 0 < c) (costs : List (ℝ × ℝ × ℝ) → Flt ℝ) (hcosts : ScaleFreeCosts costs)
    (minimize : (ℝ → Flt ℝ) → ℝ → ℝ) (unc : List (ℝ × ℝ) → ℝ) (link : Link) (mult : Bool) (n : ℕ) (codes : ℕ → ℕ) (y w pred : ℕ → ℝ)
    (b : ℕ) :
    (genericParameters costs minimize unc link mult n codes y (fun i => c * w i) pred b).1 =
      (genericParameters costs minimize unc link mult n codes y w pred b).1 := by
  unfold genericParameters
  dsimp only
  have : binObjective costs link mult n codes y (fun i => c * w i) pred b = binObjective costs link mult n codes y w pred b := by
    funext param
    unfold binObjective
    refine Eq.trans ?_ (hcosts c _ hc)
    rw [List.map_map]
    rfl
  rw [this]

theorem genericTotal_times (hc : 0 < c) (costs : List (ℝ × ℝ × ℝ) → Flt ℝ) (hcosts : ScaleFreeCosts costs) (n : ℕ) (p y w : ℕ → ℝ) :
    genericTotal costs n p y (fun i => c * w i) = genericTotal costs n p y w := by
  unfold genericTotal
  refine Eq.trans ?_ (hcosts c _ hc)
  rw [List.map_map]
  rfl

/-- **C123, regressors with a loss of their own.** If the costs depend on the relative sizes of the weights only, multiplying all weights
by a positive number gives exactly the same fitted model (or the same failure). -/
theorem C123_generic (hc : 0 < c) (multiplicative : Bool) (costs : List (ℝ × ℝ × ℝ) → Flt ℝ) (hcosts : ScaleFreeCosts costs)
    (minimize : (ℝ → Flt ℝ) → ℝ → ℝ) (hsm : WeightBlindSmoothers S D c) (fuel : ℕ) :
    S.fit (genericEstimator multiplicative costs minimize) (weightsTimes c D) fuel =
      S.fit (genericEstimator multiplicative costs minimize) D fuel :=
  fit_times S D c hc _ (globalScaleLink_times c hc _ _ _ _) hsm (fun _ _ _ _ => genericParameters_times c hc costs hcosts _ _ _ _ _ _ _ _ _ _)
    (fun _ _ _ => rfl) (fun p => genericTotal_times c hc costs hcosts _ _ _ _) fuel

/-- **C123, classifiers with a loss of their own.** -/
theorem C123_classifier (hc : 0 < c) (betaPpf : ℝ → ℝ → ℝ → ℝ) (coef : ℝ → ℝ) (costs : List (ℝ × ℝ × ℝ) → Flt ℝ)
    (hcosts : ScaleFreeCosts costs) (minimize : (ℝ → Flt ℝ) → ℝ → ℝ) (hsm : WeightBlindSmoothers S D c) (fuel : ℕ) :
    S.fit (genericClassifierEstimator betaPpf coef costs minimize) (weightsTimes c D) fuel =
      S.fit (genericClassifierEstimator betaPpf coef costs minimize) D fuel :=
  fit_times S D c hc _ (globalScaleLink_times c hc _ _ _ _) hsm (fun _ _ _ _ => genericParameters_times c hc costs hcosts _ _ _ _ _ _ _ _ _ _)
    (fun _ _ _ => rfl) (fun p => genericTotal_times c hc costs hcosts _ _ _ _) fuel

/-- The quantile costs depend on the relative sizes of the weights only. -/
theorem C123_quantile_costs (quantile : ℝ) : ScaleFreeCosts (quantileCostsFlt quantile) := by
  intro c l hc
  unfold quantileCostsFlt
  rw [List.length_map, List.map_map, List.map_map]
  split_ifs
  · refine Eq.trans ?_ (quotientFlt_times c hc _ _)
    congr 1
    · rw [← List.sum_map_mul_left]
      congr 1
      refine List.map_congr_left fun s _ => ?_
      simp only [Function.comp_apply]; ring
    · rw [← List.sum_map_mul_left]
      rfl
  · rfl

theorem firstReaching_times (hc : 0 < c) (cutoff : ℝ) : ∀ (acc : ℝ) (l : List (ℝ × ℝ)),
    firstReaching (c * cutoff) (c * acc) (l.map fun s => (s.1, c * s.2)) = firstReaching cutoff acc l
  | _, [] => rfl
  | acc, s :: l => by
    simp only [List.map_cons, firstReaching]
    rw [← mul_add, firstReaching_times hc cutoff (acc + s.2) l]
    congr 1
    exact propext ⟨fun h => le_of_mul_le_mul_left h hc, fun h => mul_le_mul_of_nonneg_left h hc.le⟩

theorem continuousQuantile_times (hc : 0 < c) (quantile : ℝ) (l : List (ℝ × ℝ)) (hnd : (l.map Prod.fst).Nodup) :
    continuousQuantile quantile (l.map fun s => (s.1, c * s.2)) = continuousQuantile quantile l := by
  unfold continuousQuantile
  dsimp only
  rw [List.map_map, List.map_map, show (Prod.fst ∘ fun s : ℝ × ℝ => (s.1, c * s.2)) = Prod.fst from rfl,
    show (l.map (Prod.snd ∘ fun s : ℝ × ℝ => (s.1, c * s.2))).sum = c * (l.map Prod.snd).sum by
      rw [← List.sum_map_mul_left]; rfl, mul_assoc]
  have h0 := firstReaching_times c hc ((l.map Prod.snd).sum * quantile) 0 l
  rw [mul_zero] at h0
  rw [h0]
  cases firstReaching ((l.map Prod.snd).sum * quantile) 0 l with
  | none => rfl
  | some q =>
    dsimp only
    have hone : ∀ ys : List ℝ, ys.Nodup →
        ¬ ((List.range ys.length).filter fun i => decide (ys[i]? = some q)).getLastD 0 >
          ((List.range ys.length).filter fun i => decide (ys[i]? = some q)).headD 0 := by
      intro ys hy
      have hall : ∀ i ∈ (List.range ys.length).filter (fun i => decide (ys[i]? = some q)),
          ∀ j ∈ (List.range ys.length).filter (fun i => decide (ys[i]? = some q)), i = j := by
        intro i hi j hj
        simp only [List.mem_filter, List.mem_range, decide_eq_true_eq] at hi hj
        exact (List.getElem?_inj hi.1 hy).mp (hi.2.trans hj.2.symm)
      revert hall
      generalize (List.range ys.length).filter (fun i => decide (ys[i]? = some q)) = F
      intro hall
      cases F with
      | nil => simp
      | cons a F =>
        have : (a :: F).getLastD 0 = a := by
          rw [List.getLastD_eq_getLast?, List.getLast?_eq_some_getLast (List.cons_ne_nil a F), Option.getD_some]
          exact hall _ (List.getLast_mem _) _ List.mem_cons_self
        rw [this]
        simp
    rw [if_neg (hone _ hnd), if_neg (hone _ hnd)]

/-- **C123, quantile regression without repeated targets.** If no two samples have the same target, multiplying all weights by a
positive number gives exactly the same fitted quantile regressor (or the same failure). (With repeated targets it does not:
`C123_ties_counterexample`.) -/
theorem C123_quantile_partial (hc : 0 < c) (multiplicative : Bool) (quantile : ℝ) (minimize : (ℝ → Flt ℝ) → ℝ → ℝ)
    (hsm : WeightBlindSmoothers S D c) (hy : ∀ i < D.n, ∀ j < D.n, D.y i = D.y j → i = j) (fuel : ℕ) :
    S.fit (quantileEstimator multiplicative quantile minimize) (weightsTimes c D) fuel =
      S.fit (quantileEstimator multiplicative quantile minimize) D fuel := by
  refine fit_times S D c hc _ ?_ hsm (fun _ _ _ _ => genericParameters_times c hc _ (C123_quantile_costs quantile) _ _ _ _ _ _ _ _ _ _)
    (fun _ _ _ => rfl) (fun p => genericTotal_times c hc _ (C123_quantile_costs quantile) _ _ _ _) fuel
  show quantileScale _ quantile D.n D.y (fun i => c * D.w i) = quantileScale _ quantile D.n D.y D.w
  unfold quantileScale
  have hmap : ((List.range D.n).map fun i => (D.y i, c * D.w i)) = ((List.range D.n).map fun i => (D.y i, D.w i)).map
      fun s => (s.1, c * s.2) := by rw [List.map_map]; rfl
  rw [hmap, ← List.map_mergeSort (r := fun a b => decide (a.1 ≤ b.1)) (fun a _ b _ => rfl), continuousQuantile_times c hc]
  have hp := (List.mergeSort_perm ((List.range D.n).map fun i => (D.y i, D.w i)) fun a b => decide (a.1 ≤ b.1)).map Prod.fst
  rw [hp.nodup_iff, List.map_map]
  refine (List.nodup_map_iff_inj_on List.nodup_range).mpr fun i hi j hj h => ?_
  exact hy i (List.mem_range.mp hi) j (List.mem_range.mp hj) h

end

section
variable (S : Setup (List (FitRow ℝ) × List ℝ)) (O : OpenSmoothers) (c : Choice) (props : Option (List (String × ℕ)))
  (groups : List (List String))

/-- **C123**, no smoothing: with `NoSmootherChoice` the smoothers are blind to the unit of the weights. -/
theorem C123_no_smoothing (hbase : S.base = packageSmoothers O) (hS : createFeatures c props groups = .ok S.features)
    (hk : c.kind = .noSmoother) (hg : ∀ g ∈ groups, g ≠ []) (D : TrainSet) (k : ℝ) (hk0 : 0 < k) : WeightBlindSmoothers S D k := by
  intro f hf u u' v b
  obtain ⟨hmem, -, hch⟩ := createFeatures_mem c props groups S.features hS f hf
  have hlen := bindData_length D.X D.n f.1.group
  have hne : (bindData D.X D.n f.1.group none).2 ≠ [] := by
    intro h
    rw [h] at hlen
    exact hg _ hmem (List.length_eq_zero_iff.mp hlen.symm)
  generalize binSum D.n (f.1.cfg D.X D.n).bin D.w = w
  revert hlen hne
  generalize (bindData D.X D.n f.1.group none).2 = ns
  intro hlen hne
  unfold smootherForGroup Choice.choose at hch
  rw [hk] at hch
  simp only [Choice.wrap, hk, Except.ok.injEq] at hch
  rw [← hch, hbase]
  generalize (if c.useRegressionType = true then _ else none : Option RegType) = t
  have h0 : k * w b = 0 ↔ w b = 0 := by simp [hk0.ne']
  by_cases hl : f.1.group.length = 1
  · rw [if_pos hl]
    obtain ⟨n, rfl⟩ := List.length_eq_one_iff.mp (hlen.trans hl)
    by_cases hb : b < [n].prod
    · have key := fun w u => meta_centre_eq (packageSmoothers O) .binValuesOne (fun _ _ _ => rfl) c.useNormalization t [n] hne w u v b hb _
        (by rw [List.prod_singleton] at hb ⊢; exact binValues1_at n w u _ b hb)
      rw [key, key]
      simp [Flt.toOption, h0]
    · have key : ∀ w u, smoothAtCentres (packageSmoothers O) (metaSmoother .binValuesOne c.useNormalization t) [n] w u v b = none := by
        intro w u
        rw [Option.eq_none_iff_forall_ne_some]
        intro x hx
        obtain ⟨d, -, hd⟩ := meta_centre (packageSmoothers O) .binValuesOne (fun _ _ _ => rfl) _ _ [n] w u v b x hx
        have hd : (((arangeMulti [n]).map fun c => c.map fun (i : ℕ) => Flt.fin (i : ℝ)).map _)[b]? = some (Flt.fin (x - d)) := hd
        rw [List.getElem?_map, centreRows_none [n] b hb] at hd
        simp at hd
      rw [key, key]
  · rw [if_neg hl]
    by_cases hb : b < ns.prod
    · have key := fun w u => meta_centre_eq (packageSmoothers O) .binValuesMany (fun _ _ _ => rfl) c.useNormalization t ns hne w u v b hb _
        (binValuesMulti_at ns w u _ b hb)
      rw [key, key]
      simp [Flt.toOption, h0]
    · have key : ∀ w u, smoothAtCentres (packageSmoothers O) (metaSmoother .binValuesMany c.useNormalization t) ns w u v b = none := by
        intro w u
        rw [Option.eq_none_iff_forall_ne_some]
        intro x hx
        obtain ⟨d, -, hd⟩ := meta_centre (packageSmoothers O) .binValuesMany (fun _ _ _ => rfl) _ _ ns w u v b x hx
        have hd : (((arangeMulti ns).map fun c => c.map fun (i : ℕ) => Flt.fin (i : ℝ)).map _)[b]? = some (Flt.fin (x - d)) := hd
        rw [List.getElem?_map, centreRows_none ns b hb] at hd
        simp at hd
      rw [key, key]

end
end CB
