import Verif.Props.OneFeatureLimit
import Mathlib.Algebra.Order.BigOperators.Ring.Finset

/-!
# C153: what a model of background subtraction with a single feature predicts, as a formula
-/

set_option autoImplicit false
set_option linter.unusedSectionVars false

namespace CB
open Finset Spec

section
variable {σ : Type*} {S : Setup σ} {D : TrainSet} {m : FittedModel} {f : FeatureSpec × SmootherKind}

theorem gbs_scale_mean (alpha a : ℝ) (hs : (gbsEstimator alpha).scale D.n D.y D.w = .fin a) :
    a = (∑ k ∈ range D.n, D.w k * D.y k) / ∑ k ∈ range D.n, D.w k := by
  change quotientFlt _ _ = _ at hs
  unfold quotientFlt at hs
  split_ifs at hs
  cases hs
  rw [sum_congr rfl fun i _ => mul_comm (D.y i) (D.w i)]

/-- **C153.** `CBGBSRegressor` with a single feature: the prediction for a sample of an unsmoothed bin is the mean of the bin plus a rest of
its distance to the mean of all targets, where training starts. Iteration `k` leaves the share `1 - learning rate * weight /
((1 + alpha) * weight + 1)` of that distance. -/
theorem C153_closed_form (alpha : ℝ) (h : OneFeatureModel S (gbsEstimator alpha) D m f) (hsk : S.params.hierarchical = none)
    (i : ℕ) (hi : i < D.n) (hu : Unsmoothed S D f ((f.1.cfg D.X D.n).bin i)) (hw : 0 < sumInBin D f ((f.1.cfg D.X D.n).bin i) D.w) :
    let all := (∑ k ∈ range D.n, D.w k * D.y k) / ∑ k ∈ range D.n, D.w k
    let weight := sumInBin D f ((f.1.cfg D.X D.n).bin i) D.w
    let own := sumInBin D f ((f.1.cfg D.X D.n).bin i) (fun k => D.w k * D.y k) / weight
    m.predict D.prior D.X i = own + (all - own) * ∏ k ∈ range m.iterations, (1 - S.learnRate (k + 1) * (weight / ((1 + alpha) * weight + 1))) := by
  intro all weight own
  set b := (f.1.cfg D.X D.n).bin i with hb
  have hclip : (S.paramsFor (gbsEstimator alpha)).clip = false := by simp [Setup.paramsFor, gbsEstimator]
  obtain ⟨a, t, hs, hI, hp⟩ := oneFeature_counted h (fun _ _ _ => rfl)
    (fun k => by
      have : (S.paramsFor (gbsEstimator alpha)).hierarchical = none := hsk
      simp [skipped, this])
    (fun a n t => a + t b = own + (a - own) * ∏ k ∈ range n, (1 - S.learnRate (k + 1) * (weight / ((1 + alpha) * weight + 1))))
    (by intro a _; simp)
    (by
      intro a k t new raw running it fitted hs hk hI hr hf hraw hupd
      have hraw' := raw_unsmoothed hu hraw
      rw [gbs_estimate alpha a t running it b hr] at hraw'
      have h1 := (hupd b).1 hclip
      rw [hk] at hraw'
      have hown : sumInBin D f b (fun i => D.w i * D.y i) = weight * own := (mul_div_cancel₀ _ hw.ne').symm
      have hst : a + new b - own = (a + t b - own) * (1 - S.learnRate (k + 1) * (weight / ((1 + alpha) * weight + 1))) := by
        have : a + new b = a + t b + raw b := by linarith
        rw [this, hraw', hown]
        change a + t b + S.learnRate (k + 1) * ((weight * own - weight * (a + t b)) / ((1 + alpha) * weight + 1)) - own = _
        ring
      rw [prod_range_succ]
      have : a + new b = own + (a + t b - own) * (1 - S.learnRate (k + 1) * (weight / ((1 + alpha) * weight + 1))) := by linarith
      rw [this, hI]
      ring)
  rw [hp i hi]
  change a + t b = _
  rw [hI, gbs_scale_mean alpha a hs]

end

section
variable {σ : Type*} {S : Setup σ} {D : TrainSet} {m m' : FittedModel} {f : FeatureSpec × SmootherKind}

theorem gbs_share (alpha weight : ℝ) (ha : 0 ≤ alpha) (hw : 0 < weight) :
    0 < weight / ((1 + alpha) * weight + 1) ∧ weight / ((1 + alpha) * weight + 1) < 1 := by
  have hd : 0 < (1 + alpha) * weight + 1 := by positivity
  exact ⟨div_pos hw hd, by rw [div_lt_one hd]; nlinarith [mul_nonneg ha hw.le]⟩

/-- **C153**, larger targets: a second training with the same settings and samples, of as many iterations, whose targets are all at least
those of the first one, predicts at least as much for every sample in an unsmoothed bin. -/
theorem C153_monotone (alpha : ℝ) (ha : 0 ≤ alpha) (y' : ℕ → ℝ) (h : OneFeatureModel S (gbsEstimator alpha) D m f)
    (h' : OneFeatureModel S (gbsEstimator alpha) { D with y := y' } m' f) (hy : ∀ k < D.n, D.y k ≤ y' k)
    (hit : m.iterations = m'.iterations) (hsk : S.params.hierarchical = none)
    (i : ℕ) (hi : i < D.n) (hu : Unsmoothed S D f ((f.1.cfg D.X D.n).bin i)) (hw : 0 < sumInBin D f ((f.1.cfg D.X D.n).bin i) D.w) :
    m.predict D.prior D.X i ≤ m'.predict D.prior D.X i := by
  have e := C153_closed_form alpha h hsk i hi hu hw
  have e' := C153_closed_form alpha h' hsk i hi hu hw
  dsimp only at e e'
  rw [e, e', ← hit]
  set b := (f.1.cfg D.X D.n).bin i with hb
  set weight := sumInBin D f b D.w with hweight
  have hweight' : sumInBin { D with y := y' } f b D.w = weight := rfl
  rw [hweight']
  set P := ∏ k ∈ range m.iterations, (1 - S.learnRate (k + 1) * (weight / ((1 + alpha) * weight + 1))) with hP
  obtain ⟨c0, c1⟩ := gbs_share alpha weight ha hw
  have hfac : ∀ k, 0 ≤ 1 - S.learnRate (k + 1) * (weight / ((1 + alpha) * weight + 1)) ∧
      1 - S.learnRate (k + 1) * (weight / ((1 + alpha) * weight + 1)) ≤ 1 := by
    intro k
    obtain ⟨l0, l1⟩ := h.rates (k + 1)
    constructor <;> nlinarith [mul_nonneg l0 c0.le, mul_le_mul l1 c1.le c0.le zero_le_one]
  have hP0 : 0 ≤ P := prod_nonneg fun k _ => (hfac k).1
  have hP1 : P ≤ 1 := prod_le_one (fun k _ => (hfac k).1) fun k _ => (hfac k).2
  have hown : sumInBin D f b (fun k => D.w k * D.y k) / weight ≤ sumInBin { D with y := y' } f b (fun k => D.w k * y' k) / weight := by
    refine div_le_div_of_nonneg_right ?_ hw.le
    unfold sumInBin
    refine sum_le_sum fun k hk => ?_
    have hk' := mem_range.mp (mem_filter.mp hk).1
    exact mul_le_mul_of_nonneg_left (hy k hk') (h.weights k hk')
  have hall : (∑ k ∈ range D.n, D.w k * D.y k) / (∑ k ∈ range D.n, D.w k) ≤ (∑ k ∈ range D.n, D.w k * y' k) / ∑ k ∈ range D.n, D.w k := by
    refine div_le_div_of_nonneg_right (sum_le_sum fun k hk => ?_) (sum_nonneg fun k hk => h.weights k (mem_range.mp hk))
    exact mul_le_mul_of_nonneg_left (hy k (mem_range.mp hk)) (h.weights k (mem_range.mp hk))
  nlinarith [mul_le_mul_of_nonneg_right hall hP0, mul_le_mul_of_nonneg_right hown (sub_nonneg.mpr hP1)]

/-- **C153**, long training: with learning rates of at least `low` the distance to the mean of the bin shrinks geometrically. -/
theorem C153_rate (alpha : ℝ) (ha : 0 ≤ alpha) (h : OneFeatureModel S (gbsEstimator alpha) D m f) (hsk : S.params.hierarchical = none)
    (low : ℝ) (hlow : ∀ k, 1 ≤ k → low ≤ S.learnRate k)
    (i : ℕ) (hi : i < D.n) (hu : Unsmoothed S D f ((f.1.cfg D.X D.n).bin i)) (hw : 0 < sumInBin D f ((f.1.cfg D.X D.n).bin i) D.w) :
    let all := (∑ k ∈ range D.n, D.w k * D.y k) / ∑ k ∈ range D.n, D.w k
    let weight := sumInBin D f ((f.1.cfg D.X D.n).bin i) D.w
    let own := sumInBin D f ((f.1.cfg D.X D.n).bin i) (fun k => D.w k * D.y k) / weight
    |m.predict D.prior D.X i - own| ≤ (1 - low * (weight / ((1 + alpha) * weight + 1))) ^ m.iterations * |all - own| := by
  intro all weight own
  have e := C153_closed_form alpha h hsk i hi hu hw
  dsimp only at e
  rw [e, add_sub_cancel_left, abs_mul, mul_comm]
  refine mul_le_mul_of_nonneg_right ?_ (abs_nonneg _)
  obtain ⟨c0, c1⟩ := gbs_share alpha weight ha hw
  have hfac : ∀ k, 0 ≤ 1 - S.learnRate (k + 1) * (weight / ((1 + alpha) * weight + 1)) := by
    intro k
    obtain ⟨l0, l1⟩ := h.rates (k + 1)
    nlinarith [mul_nonneg l0 c0.le, mul_le_mul l1 c1.le c0.le zero_le_one]
  rw [abs_of_nonneg (prod_nonneg fun k _ => hfac k), ← card_range m.iterations, ← prod_const, card_range]
  refine prod_le_prod (fun k _ => hfac k) fun k _ => ?_
  have := mul_le_mul_of_nonneg_right (hlow (k + 1) (by omega)) c0.le
  change 1 - S.learnRate (k + 1) * (weight / ((1 + alpha) * weight + 1)) ≤ _
  linarith

end

end CB
