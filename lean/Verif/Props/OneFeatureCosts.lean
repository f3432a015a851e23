import Verif.Props.OneFeatureLimit
import Verif.Props.CostDescent
import Mathlib.Algebra.Order.BigOperators.Ring.Finset

/-!
# C155: models with a single feature and summands minimise the costs of every bin
-/

set_option autoImplicit false
set_option linter.unusedSectionVars false

namespace CB
open Finset Spec

section
variable {σ : Type*} {S : Setup σ} {E : Estimator} {D : TrainSet} {m : FittedModel} {f : FeatureSpec × SmootherKind}
  {minimize : (ℝ → Flt ℝ) → ℝ → ℝ} {loss : ℝ → ℝ → ℝ}

/-- The objective of a bin whose samples all have the same prediction `p`: the mean loss of the prediction `p` plus the parameter. -/
theorem binObjective_constant (D : TrainSet) (f : FeatureSpec × SmootherKind) (loss : ℝ → ℝ → ℝ) (running : ℕ → ℝ) (b : ℕ) (p : ℝ)
    (hr : ∀ i, (f.1.cfg D.X D.n).bin i = b → running i = p) (hW : 0 < sumInBin D f b D.w) (c : ℝ) :
    binObjective (meanCosts loss) identityLink false D.n (f.1.cfg D.X D.n).bin D.y D.w running b c =
      .fin (binCost D f b loss (c + p) / sumInBin D f b D.w) := by
  have hsum : ((binMembers D.n (f.1.cfg D.X D.n).bin b).map D.w).sum = sumInBin D f b D.w := by
    rw [← binSum_members, sumInBin_binSum]
  unfold binObjective meanCosts
  rw [if_neg, if_neg]
  · rw [List.map_map, List.map_map]
    congr 2
    rw [binCost, ← sumInBin_binSum, binSum_members]
    congr 1
    refine List.map_congr_left fun i hi => ?_
    have hb : (f.1.cfg D.X D.n).bin i = b := by simpa using (List.mem_filter.mp hi).2
    show D.w i * loss (c + running i) (D.y i) = D.w i * loss (c + p) (D.y i)
    rw [hr i hb]
  · rw [List.map_map]
    exact (hsum.trans_ne hW.ne')
  · intro hnil
    rw [List.map_eq_nil_iff.mp hnil] at hsum
    simp at hsum
    exact hW.ne hsum

/-- **C155.** `CBAdditiveQuantileRegressor`, and `CBAdditiveGenericCRegressor` with a convex loss, with a single feature and an optimiser
that finds minima: training starts from the scale `a`, the same for all samples. What the costs of an unsmoothed bin exceed their minimum
by shrinks in iteration `k` to the share `1 - learning rate` at most. -/
theorem C155_excess (hE : CostEstimator minimize false E loss) (hmin : FindsMinimum minimize) (h : OneFeatureModel S E D m f)
    (hsk : S.params.hierarchical = none) (i : ℕ) (hi : i < D.n) (hu : Unsmoothed S D f ((f.1.cfg D.X D.n).bin i))
    (hw : 0 < sumInBin D f ((f.1.cfg D.X D.n).bin i) D.w) (x₀ : ℝ)
    (hx₀ : ∀ z, binCost D f ((f.1.cfg D.X D.n).bin i) loss x₀ ≤ binCost D f ((f.1.cfg D.X D.n).bin i) loss z) :
    ∃ a, E.scale D.n D.y D.w = .fin a ∧
      binCost D f ((f.1.cfg D.X D.n).bin i) loss (m.predict D.prior D.X i) - binCost D f ((f.1.cfg D.X D.n).bin i) loss x₀ ≤
        (∏ k ∈ range m.iterations, (1 - S.learnRate (k + 1))) *
          (binCost D f ((f.1.cfg D.X D.n).bin i) loss a - binCost D f ((f.1.cfg D.X D.n).bin i) loss x₀) := by
  set b := (f.1.cfg D.X D.n).bin i with hb
  have hM := costEstimator_minimizing hE
  have hlink : E.link = .identity := hM.link
  have hcal : ∀ cfg bw fac, E.calibrate cfg bw fac = fac := hM.calibrate
  have hclip : (S.paramsFor E).clip = false := by simp [Setup.paramsFor, hlink]
  have hpar : ∀ it running, (E.parameters it D.n (f.1.cfg D.X D.n).bin D.y D.w running b).1 =
      minimize (binObjective (meanCosts loss) identityLink false D.n (f.1.cfg D.X D.n).bin D.y D.w running b) 0 := by
    intro it running
    rw [hM.parameters, hlink]
    show genericParamLink identityLink (minimize _ (identityLink.unlink 0)) = _
    unfold genericParamLink
    rw [if_neg (by simp [identityLink])]
    rfl
  have hconv : ConvexLoss loss := hM.convex
  obtain ⟨a, t, hs, hI, hp⟩ := oneFeature_counted h hcal
    (fun k => by
      have : (S.paramsFor E).hierarchical = none := hsk
      simp [skipped, this])
    (fun a n t => binCost D f b loss (a + t b) - binCost D f b loss x₀ ≤
      (∏ k ∈ range n, (1 - S.learnRate (k + 1))) * (binCost D f b loss a - binCost D f b loss x₀))
    (by intro a _; simp)
    (by
      intro a k t new raw running it fitted hs hk hI hr hf hraw hupd
      have hraw' := raw_unsmoothed hu hraw
      rw [hpar, hk] at hraw'
      have hd := (hupd b).1 hclip
      set obj := binObjective (meanCosts loss) identityLink false D.n (f.1.cfg D.X D.n).bin D.y D.w running b with hobj
      have hval : ∀ c, obj c = .fin (binCost D f b loss (c + (a + t b)) / sumInBin D f b D.w) := fun c =>
        binObjective_constant D f loss running b (a + t b) (fun i hi => by rw [hr i, hi]) hw c
      obtain ⟨c, hc, hle⟩ := hmin obj 0 (x₀ - (a + t b)) _ (hval _) fun z c hz => by
        rw [hval z, Flt.fin.injEq] at hz
        rw [← hz, sub_add_cancel]
        exact div_le_div_of_nonneg_right (hx₀ _) hw.le
      set z := minimize obj 0 with hz
      rw [hval z, Flt.fin.injEq] at hc
      rw [← hc, sub_add_cancel, div_le_div_iff_of_pos_right hw] at hle
      obtain ⟨l0, l1⟩ := h.rates (k + 1)
      set r := S.learnRate (k + 1) with hrr
      have hnew : a + new b = (1 - r) * (a + t b) + r * (z + (a + t b)) := by linarith
      have hcv : binCost D f b loss (a + new b) ≤ (1 - r) * binCost D f b loss (a + t b) + r * binCost D f b loss (z + (a + t b)) := by
        rw [hnew]
        unfold binCost sumInBin
        rw [mul_sum, mul_sum, ← sum_add_distrib]
        refine sum_le_sum fun j hj => ?_
        have hwj := h.weights j (mem_range.mp (mem_filter.mp hj).1)
        have := mul_le_mul_of_nonneg_left (hconv.convex (a + t b) (z + (a + t b)) (D.y j) r l0 l1) hwj
        linarith
      rw [prod_range_succ]
      set P := ∏ k ∈ range k, (1 - S.learnRate (k + 1)) with hP
      have h1 := mul_le_mul_of_nonneg_left hI (show 0 ≤ 1 - r by linarith)
      have h2 := mul_le_mul_of_nonneg_left hle l0
      calc binCost D f b loss (a + new b) - binCost D f b loss x₀
          ≤ (1 - r) * (binCost D f b loss (a + t b) - binCost D f b loss x₀) := by linarith
        _ ≤ (1 - r) * (P * (binCost D f b loss a - binCost D f b loss x₀)) := h1
        _ = _ := by ring)
  refine ⟨a, hs, ?_⟩
  rw [hp i hi, hlink]
  exact hI

/-- **C155**, full steps: if some iteration used the learning rate 1, no other prediction for the samples of the bin has lower costs. -/
theorem C155_optimal (hE : CostEstimator minimize false E loss) (hmin : FindsMinimum minimize) (h : OneFeatureModel S E D m f)
    (hsk : S.params.hierarchical = none) (i : ℕ) (hi : i < D.n) (hu : Unsmoothed S D f ((f.1.cfg D.X D.n).bin i))
    (hw : 0 < sumInBin D f ((f.1.cfg D.X D.n).bin i) D.w)
    (hx : ∃ x₀, ∀ z, binCost D f ((f.1.cfg D.X D.n).bin i) loss x₀ ≤ binCost D f ((f.1.cfg D.X D.n).bin i) loss z)
    (k : ℕ) (hk : k < m.iterations) (hr : S.learnRate (k + 1) = 1) (z : ℝ) :
    binCost D f ((f.1.cfg D.X D.n).bin i) loss (m.predict D.prior D.X i) ≤ binCost D f ((f.1.cfg D.X D.n).bin i) loss z := by
  obtain ⟨x₀, hx₀⟩ := hx
  obtain ⟨a, -, hle⟩ := C155_excess hE hmin h hsk i hi hu hw x₀ hx₀
  rw [prod_eq_zero (mem_range.mpr hk) (by rw [hr, sub_self]), zero_mul] at hle
  have := hx₀ z
  linarith

end

end CB
