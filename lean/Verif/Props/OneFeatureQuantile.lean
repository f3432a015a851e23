import Verif.Props.OneFeatureLimit
import Verif.Props.CalibrationQuantile
import Mathlib.Algebra.Order.BigOperators.Ring.Finset

/-!
# C154: models of additive quantile regression with a single feature approach the quantiles of their bins
-/

set_option autoImplicit false
set_option linter.unusedSectionVars false

namespace CB
open Finset Spec

section
variable {σ : Type*} {S : Setup σ} {D : TrainSet} {m : FittedModel} {f : FeatureSpec × SmootherKind}

/-- Between two quantiles there are only quantiles. -/
theorem isBinQuantile_between (hw : ∀ i < D.n, 0 ≤ D.w i) {b : ℕ} {q x y z : ℝ} (hx : IsBinQuantile D f b q x)
    (hy : IsBinQuantile D f b q y) (h1 : min x y ≤ z) (h2 : z ≤ max x y) : IsBinQuantile D f b q z := by
  have key : ∀ u v : ℝ, u ≤ v → IsBinQuantile D f b q u → IsBinQuantile D f b q v → u ≤ z → z ≤ v → IsBinQuantile D f b q z := by
    intro u v _ hu hv huz hzv
    refine ⟨le_trans (sumInBin_le D f b _ _ fun i hi => ?_) hv.1, le_trans hu.2 (sumInBin_le D f b _ _ fun i hi => ?_)⟩
    · have := hw i hi
      split_ifs <;> first | linarith | exact absurd (lt_of_lt_of_le ‹D.y i < z› hzv) ‹_›
    · have := hw i hi
      split_ifs <;> first | linarith | exact absurd (le_trans ‹D.y i ≤ u› huz) ‹_›
  rcases le_total x y with h | h
  · rw [min_eq_left h] at h1
    rw [max_eq_right h] at h2
    exact key x y h hx hy h1 h2
  · rw [min_eq_right h] at h1
    rw [max_eq_left h] at h2
    exact key y x h hy hx h1 h2

/-- The estimate for a bin whose samples all have the same prediction leads from there to a quantile of the targets. -/
theorem quantile_estimate (q : ℝ) (h0 : 0 ≤ q) (h1 : q ≤ 1) (minimize : (ℝ → Flt ℝ) → ℝ → ℝ) (hmin : FindsMinimum minimize)
    (hw : ∀ i < D.n, 0 ≤ D.w i) (a : ℝ) (t running : ℕ → ℝ) (it b : ℕ) (hr : ∀ i, running i = a + t ((f.1.cfg D.X D.n).bin i))
    (hW : 0 < sumInBin D f b D.w) :
    IsBinQuantile D f b q
      (a + t b + ((quantileEstimator false q minimize).parameters it D.n (f.1.cfg D.X D.n).bin D.y D.w running b).1) := by
  set codes := (f.1.cfg D.X D.n).bin with hcodes
  set obj := binObjective (quantileCostsFlt q) identityLink false D.n codes D.y D.w running b with hobjdef
  have hpar : ((quantileEstimator false q minimize).parameters it D.n codes D.y D.w running b).1 = minimize obj 0 := by
    show genericParamLink identityLink (minimize obj (identityLink.unlink 0)) = minimize obj 0
    unfold genericParamLink
    rw [if_neg (by simp [identityLink])]
    rfl
  rw [hpar]
  set l := (binMembers D.n codes b).map fun i => (D.y i - running i, D.w i) with hl
  have hlsum : (l.map Prod.snd).sum = sumInBin D f b D.w := by
    rw [← sumInBin_binSum, binSum_members, hl, List.map_map]; rfl
  have hmem : ∀ i ∈ binMembers D.n codes b, i < D.n := fun i hi => List.mem_range.mp (List.mem_filter.mp hi).1
  have hobj : ∀ c, obj c = .fin ((l.map (fun s => pinball q c s.1 * s.2)).sum / sumInBin D f b D.w) := fun c => by
    rw [← sumInBin_binSum] at hW ⊢
    exact binObjective_additive q D.n codes D.y D.w running b hW c
  obtain ⟨q1, q2⟩ := minimize_isQuantile q h0 h1 l
    (fun s hs => by
      obtain ⟨i, hi, rfl⟩ := List.mem_map.mp hs
      exact hw i (hmem i hi))
    (by rw [hlsum]; exact hW) minimize hmin obj _ hW hobj 0
  rw [hlsum, hl, weightOf_members, sumInBin_binSum] at q1 q2
  set z := minimize obj 0 with hz
  have e1 : sumInBin D f b (fun i => if D.y i < a + t b + z then D.w i else 0) =
      sumInBin D f b fun i => if decide (D.y i - running i < z) = true then D.w i else 0 := by
    unfold sumInBin
    refine sum_congr rfl fun i hi => ?_
    have hb : codes i = b := (mem_filter.mp hi).2
    beta_reduce
    rw [hr i, hb]
    simp only [decide_eq_true_eq, sub_lt_iff_lt_add, add_comm z]
  have e2 : sumInBin D f b (fun i => if D.y i ≤ a + t b + z then D.w i else 0) =
      sumInBin D f b fun i => if decide (D.y i - running i ≤ z) = true then D.w i else 0 := by
    unfold sumInBin
    refine sum_congr rfl fun i hi => ?_
    have hb : codes i = b := (mem_filter.mp hi).2
    beta_reduce
    rw [hr i, hb]
    simp only [decide_eq_true_eq, sub_le_iff_le_add, add_comm z]
  exact ⟨by rw [e1]; exact q1, by rw [e2]; exact q2⟩

/-- **C154.** `CBAdditiveQuantileRegressor` with a single feature and an optimiser that finds minima: training starts from the scale `a`,
the same for all samples, and the prediction for a sample of an unsmoothed bin comes as close to a quantile of the targets of that bin as
the learning rates allow: iteration `k` leaves the share `1 - learning rate` of the distance at most. -/
theorem C154_rate (q : ℝ) (h0 : 0 ≤ q) (h1 : q ≤ 1) (minimize : (ℝ → Flt ℝ) → ℝ → ℝ) (hmin : FindsMinimum minimize)
    (h : OneFeatureModel S (quantileEstimator false q minimize) D m f) (hsk : S.params.hierarchical = none)
    (i : ℕ) (hi : i < D.n) (hu : Unsmoothed S D f ((f.1.cfg D.X D.n).bin i)) (hw : 0 < sumInBin D f ((f.1.cfg D.X D.n).bin i) D.w) :
    ∃ a, quantileScale .identity q D.n D.y D.w = .fin a ∧ ∀ x₀, IsBinQuantile D f ((f.1.cfg D.X D.n).bin i) q x₀ →
      ∃ x, IsBinQuantile D f ((f.1.cfg D.X D.n).bin i) q x ∧
        |m.predict D.prior D.X i - x| ≤ (∏ k ∈ range m.iterations, (1 - S.learnRate (k + 1))) * |a - x₀| := by
  set b := (f.1.cfg D.X D.n).bin i with hb
  have hclip : (S.paramsFor (quantileEstimator false q minimize)).clip = false := by simp [Setup.paramsFor, quantileEstimator]
  obtain ⟨a, t, hs, hI, hp⟩ := oneFeature_counted h (fun _ _ _ => rfl)
    (fun k => by
      have : (S.paramsFor (quantileEstimator false q minimize)).hierarchical = none := hsk
      simp [skipped, this])
    (fun a n t => ∀ x₀, IsBinQuantile D f b q x₀ → ∃ x, IsBinQuantile D f b q x ∧
      |a + t b - x| ≤ (∏ k ∈ range n, (1 - S.learnRate (k + 1))) * |a - x₀|)
    (by intro a _ x₀ hx; exact ⟨x₀, hx, by simp⟩)
    (by
      intro a k t new raw running it fitted hs hk hI hr hf hraw hupd x₀ hx₀
      have hraw' := raw_unsmoothed hu hraw
      have hq := quantile_estimate q h0 h1 minimize hmin h.weights a t running it b hr hw
      have hd := (hupd b).1 hclip
      rw [hk] at hraw'
      rw [hk] at hq
      set z := ((quantileEstimator false q minimize).parameters k D.n (f.1.cfg D.X D.n).bin D.y D.w running b).1 with hz
      obtain ⟨x, hx, hle⟩ := hI x₀ hx₀
      obtain ⟨l0, l1⟩ := h.rates (k + 1)
      set r := S.learnRate (k + 1) with hrr
      have hnew : a + new b = a + t b + r * z := by linarith
      refine ⟨(1 - r) * x + r * (a + t b + z), isBinQuantile_between h.weights hx hq ?_ ?_, ?_⟩
      · have m1 := min_le_left x (a + t b + z)
        have m2 := min_le_right x (a + t b + z)
        nlinarith
      · have m1 := le_max_left x (a + t b + z)
        have m2 := le_max_right x (a + t b + z)
        nlinarith
      · have e : a + new b - ((1 - r) * x + r * (a + t b + z)) = (1 - r) * (a + t b - x) := by rw [hnew]; ring
        rw [e, abs_mul, abs_of_nonneg (by linarith), prod_range_succ]
        calc (1 - r) * |a + t b - x| ≤ (1 - r) * ((∏ k ∈ range k, (1 - S.learnRate (k + 1))) * |a - x₀|) :=
              mul_le_mul_of_nonneg_left hle (by linarith)
          _ = _ := by rw [hrr]; ring)
  refine ⟨a, hs, fun x₀ hx₀ => ?_⟩
  obtain ⟨x, hx, hle⟩ := hI x₀ hx₀
  refine ⟨x, hx, ?_⟩
  rw [hp i hi]
  exact hle

/-- There is a quantile of the targets in a bin with weight. -/
theorem isBinQuantile_exists (q : ℝ) (h0 : 0 ≤ q) (h1 : q ≤ 1) (hw : ∀ i < D.n, 0 ≤ D.w i) (b : ℕ) (hW : 0 < sumInBin D f b D.w) :
    ∃ x, IsBinQuantile D f b q x := by
  classical
  let best : (ℝ → Flt ℝ) → ℝ → ℝ := fun f start =>
    if h : ∃ x a, f x = .fin a ∧ ∀ z c, f z = .fin c → a ≤ c then h.choose else start
  have hbest : FindsMinimum best := by
    intro f start x a h1 h2
    have h : ∃ x a, f x = .fin a ∧ ∀ z c, f z = .fin c → a ≤ c := ⟨x, a, h1, h2⟩
    obtain ⟨c, h3, h4⟩ := h.choose_spec
    refine ⟨c, ?_, h4 x a h1⟩
    simp only [best]
    rw [dif_pos h]
    exact h3
  exact ⟨_, quantile_estimate q h0 h1 best hbest hw 0 (fun _ => 0) (fun _ => 0) 0 b (fun _ => by simp) hW⟩

/-- **C154**, full steps: if some iteration used the learning rate 1, the prediction is a quantile of the targets of the bin. -/
theorem C154_exact (q : ℝ) (h0 : 0 ≤ q) (h1 : q ≤ 1) (minimize : (ℝ → Flt ℝ) → ℝ → ℝ) (hmin : FindsMinimum minimize)
    (h : OneFeatureModel S (quantileEstimator false q minimize) D m f) (hsk : S.params.hierarchical = none)
    (i : ℕ) (hi : i < D.n) (hu : Unsmoothed S D f ((f.1.cfg D.X D.n).bin i)) (hw : 0 < sumInBin D f ((f.1.cfg D.X D.n).bin i) D.w)
    (k : ℕ) (hk : k < m.iterations) (hr : S.learnRate (k + 1) = 1) :
    IsBinQuantile D f ((f.1.cfg D.X D.n).bin i) q (m.predict D.prior D.X i) := by
  obtain ⟨a, -, hq⟩ := C154_rate q h0 h1 minimize hmin h hsk i hi hu hw
  obtain ⟨x₀, hx₀⟩ := isBinQuantile_exists (f := f) q h0 h1 h.weights _ hw
  obtain ⟨x, hx, hle⟩ := hq x₀ hx₀
  rw [prod_eq_zero (mem_range.mpr hk) (by rw [hr, sub_self]), zero_mul] at hle
  have : m.predict D.prior D.X i = x := by
    have := abs_nonpos_iff.mp hle
    linarith
  rw [this]
  exact hx

end

end CB
