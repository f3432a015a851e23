import Verif.Props.SuperpositionExample

/-!
# C130: noise in the target is not amplified
-/

set_option autoImplicit false
set_option linter.unusedSectionVars false

namespace CB
open Finset Spec

section
variable {σ : Type*} (S : Setup σ) (D : TrainSet) (ra : ℝ)

/-- The same training set with another target. -/
def withTarget (D : TrainSet) (y : ℕ → ℝ) : TrainSet := { D with y := y }

/-- The training set of the differences of two targets. -/
noncomputable def differenceSet (D : TrainSet) (y' : ℕ → ℝ) : TrainSet :=
  { D with y := fun i => D.y i - y' i
           prior := D.prior.map fun q i => if (q i).isFinite then .fin 0 else .nan }

theorem difference_mixture (y' : ℕ → ℝ) : Mixture 1 (-1) D (withTarget D y') (differenceSet D y') := by
  refine ⟨rfl, rfl, rfl, rfl, rfl, rfl, fun i _ => by simp only [differenceSet, withTarget]; ring, ?_⟩
  unfold differenceSet withTarget MixedPriors
  dsimp only
  cases hp : D.prior with
  | none => exact Or.inl ⟨rfl, rfl, rfl⟩
  | some q =>
    refine Or.inr ⟨q, q, _, rfl, rfl, rfl, fun i => ?_⟩
    cases hq : q i with
    | fin x => exact Or.inl ⟨x, x, rfl, rfl, by
        show (if (q i).isFinite then Flt.fin (0 : ℝ) else .nan) = _
        rw [hq]
        simp [Flt.isFinite]⟩
    | nan => exact Or.inr ⟨rfl, rfl, by
        show (if (q i).isFinite then Flt.fin (0 : ℝ) else .nan).isFinite = _
        rw [hq]
        rfl⟩
    | pinf => exact Or.inr ⟨rfl, rfl, by
        show (if (q i).isFinite then Flt.fin (0 : ℝ) else .nan).isFinite = _
        rw [hq]
        rfl⟩
    | ninf => exact Or.inr ⟨rfl, rfl, by
        show (if (q i).isFinite then Flt.fin (0 : ℝ) else .nan).isFinite = _
        rw [hq]
        rfl⟩

/-- The error of the mean is at most that of 0. -/
theorem mean_error (n : ℕ) (w d : ℕ → ℝ) (hsum : ∑ i ∈ range n, w i ≠ 0) (hw : ∀ i < n, 0 ≤ w i) :
    ∑ i ∈ range n, w i * ((∑ j ∈ range n, d j * w j) / (∑ j ∈ range n, w j) - d i) ^ 2 ≤ ∑ i ∈ range n, w i * d i ^ 2 := by
  set W := ∑ j ∈ range n, w j with hW
  set A := ∑ j ∈ range n, d j * w j with hA
  have hW0 : 0 < W := lt_of_le_of_ne (Finset.sum_nonneg fun i hi => hw i (Finset.mem_range.mp hi)) (Ne.symm hsum)
  have e : ∑ i ∈ range n, w i * (A / W - d i) ^ 2 = (A / W) ^ 2 * W - 2 * (A / W) * A + ∑ i ∈ range n, w i * d i ^ 2 := by
    rw [hW, hA, Finset.mul_sum, Finset.mul_sum, ← Finset.sum_sub_distrib, ← Finset.sum_add_distrib]
    exact Finset.sum_congr rfl fun i _ => by ring
  have e2 : (A / W) ^ 2 * W - 2 * (A / W) * A = - (A ^ 2 / W) := by
    field_simp
    ring
  rw [e, e2]
  have : 0 ≤ A ^ 2 / W := by positivity
  linarith

/-- **C130.** Two trainings on the same samples with different targets (early stopping switched off, no prior predictions or finite
ones): the weighted squared difference of what is left over after training is at most that of the targets, and the one of the predictions
for the training samples at most four times that of the targets. -/
theorem C130_noise (h : PlainDescent S D ra) (hs : SuperposingSmoothers S D)
    (hint : ∀ f ∈ S.features, ∀ c, f.1.group = [c] → ∀ i < D.n, ∀ x : ℝ, D.X i c = .fin x → ∃ k : ℤ, x = (k : ℝ))
    (hprior : ∀ q, D.prior = some q → ∀ i < D.n, (q i).isFinite = true)
    (hf : S.params.minimalFactorChange < 0) (hl : S.params.minimalLossChange < 0) (hmax : 1 ≤ S.params.maximalIterations)
    (hsum : ∑ i ∈ range D.n, D.w i ≠ 0) (fuel : ℕ) (hfuel : S.params.maximalIterations + 4 ≤ fuel) (y' : ℕ → ℝ) :
    ∃ m m', S.fit (gbsEstimator ra) D fuel = some (.ok m) ∧ S.fit (gbsEstimator ra) { D with y := y' } fuel = some (.ok m') ∧
      ∑ i ∈ range D.n, D.w i * ((D.y i - m.predict D.prior D.X i) - (y' i - m'.predict D.prior D.X i)) ^ 2 ≤
        ∑ i ∈ range D.n, D.w i * (D.y i - y' i) ^ 2 ∧
      ∑ i ∈ range D.n, D.w i * (m.predict D.prior D.X i - m'.predict D.prior D.X i) ^ 2 ≤
        4 * ∑ i ∈ range D.n, D.w i * (D.y i - y' i) ^ 2 := by
  have hmix := difference_mixture D y'
  have hd : PlainDescent S (differenceSet D y') ra := plainDescent_other S D ra h _ rfl rfl rfl
  obtain ⟨m, m', md, hm, hm', hmd, hp⟩ := C122_fixed_iterations 1 (-1) S D (withTarget D y') (differenceSet D y') ra hmix hd hs hf hl hmax
    hsum fuel hfuel
  have herr := C80_training_error S (differenceSet D y') ra hd.aggregate hd.regalpha hd.weights hd.learnRate
    (fun f hf => (hd.features f hf).1) hd.smoothers hint fuel md hmd
  have hdiff : ∀ i, md.predict (differenceSet D y').prior D.X i = m.predict D.prior D.X i - m'.predict D.prior D.X i := by
    intro i
    rw [hp D.prior D.prior _ hmix.priors D.X i]
    ring
  have hstart : trainingError (differenceSet D y')
      (fun i => (priorPrediction .identity md.scale (.fin 0) (differenceSet D y').prior i).getFin) ≤
        ∑ i ∈ range D.n, D.w i * (D.y i - y' i) ^ 2 := by
    unfold trainingError
    cases hpr : D.prior with
    | none =>
      obtain ⟨a, r, -, sc, -, rfl⟩ := fit_ok S _ _ fuel md hmd
      have ha := gbs_scale (differenceSet D y') ra a sc
      have e : (differenceSet D y').prior = none := by unfold differenceSet; dsimp only; rw [hpr]; rfl
      simp only [e, priorPrediction, Flt.getFin]
      rw [ha]
      exact mean_error D.n D.w (fun i => D.y i - y' i) hsum h.weights
    | some q =>
      refine Finset.sum_le_sum fun i hi => le_of_eq ?_
      have e : (differenceSet D y').prior = some fun i => if (q i).isFinite then .fin 0 else .nan := by
        unfold differenceSet; dsimp only; rw [hpr]; rfl
      have hi' : i < D.n := Finset.mem_range.mp hi
      have e2 : priorPrediction .identity md.scale (.fin 0) (differenceSet D y').prior i = .fin 0 := by
        rw [e]
        show (if ((linkFlt .identity (if (q i).isFinite then .fin 0 else .nan)).add (.fin (0 : ℝ))).isFinite then
          (linkFlt .identity (if (q i).isFinite then .fin 0 else .nan)).add (.fin (0 : ℝ)) else md.scale) = _
        rw [if_pos (hprior q hpr i hi')]
        show (if true = true then Flt.fin ((0 : ℝ) + 0) else md.scale) = _
        simp
      beta_reduce
      rw [e2]
      show D.w i * (0 - (D.y i - y' i)) ^ 2 = _
      ring
  have h1 : ∑ i ∈ range D.n, D.w i * ((D.y i - m.predict D.prior D.X i) - (y' i - m'.predict D.prior D.X i)) ^ 2 ≤
        ∑ i ∈ range D.n, D.w i * (D.y i - y' i) ^ 2 := by
    refine le_trans (le_of_eq ?_) (herr.trans hstart)
    unfold trainingError
    refine Finset.sum_congr rfl fun i _ => ?_
    show _ = D.w i * (md.predict (differenceSet D y').prior D.X i - (D.y i - y' i)) ^ 2
    rw [hdiff i]
    ring
  refine ⟨m, m', hm, hm', h1, ?_⟩
  have h2 : ∑ i ∈ range D.n, D.w i * (m.predict D.prior D.X i - m'.predict D.prior D.X i) ^ 2 ≤
      2 * ∑ i ∈ range D.n, D.w i * ((D.y i - m.predict D.prior D.X i) - (y' i - m'.predict D.prior D.X i)) ^ 2 +
        2 * ∑ i ∈ range D.n, D.w i * (D.y i - y' i) ^ 2 := by
    rw [Finset.mul_sum, Finset.mul_sum, ← Finset.sum_add_distrib]
    refine Finset.sum_le_sum fun i hi => ?_
    have hw := h.weights i (Finset.mem_range.mp hi)
    nlinarith [mul_nonneg hw (sq_nonneg ((D.y i - y' i) + ((D.y i - m.predict D.prior D.X i) - (y' i - m'.predict D.prior D.X i))))]
  linarith

end

/-- Witness for C130: the example data with its target shifted for the second sample only. -/
example : ∃ m m', tenSetup.fit (gbsEstimator 0) exData 14 = some (.ok m) ∧
    tenSetup.fit (gbsEstimator 0) { exData with y := fun i => if i = 1 then 3 else exData.y i } 14 = some (.ok m') ∧
    (m.predict none exData.X 0 - m'.predict none exData.X 0) ^ 2 ≤ 4 := by
  have hexn : exData.n = 2 := rfl
  obtain ⟨m, m', h1, h2, -, h4⟩ := C130_noise tenSetup exData 0 (tenDescent exData fun _ _ => by simp [exData])
    (C122_no_smoothing tenSetup noOpen plainChoice none [["a"]] rfl plainFeatures rfl (by simp) exData)
    (fun f hf c hc i hi x hx => by
      have : x = if i = 0 then 0 else 1 := by simpa [exData] using hx.symm
      exact ⟨if i = 0 then 0 else 1, by rw [this]; split_ifs <;> simp⟩)
    (by intro q hq; simp [exData] at hq)
    (by norm_num [tenSetup]) (by norm_num [tenSetup]) (by norm_num [tenSetup]) (by simp [exData]) 14 (by norm_num [tenSetup])
    (fun i => if i = 1 then 3 else exData.y i)
  refine ⟨m, m', h1, h2, ?_⟩
  rw [hexn] at h4
  simp only [Finset.sum_range_succ, Finset.sum_range_zero] at h4
  have hp : exData.prior = none := rfl
  rw [hp] at h4
  norm_num [exData] at h4 ⊢
  nlinarith [sq_nonneg (m.predict none exData.X 1 - m'.predict none exData.X 1)]

end CB
