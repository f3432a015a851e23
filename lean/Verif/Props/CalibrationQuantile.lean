import Verif.Props.Calibration
import Verif.Props.QuantileShift

/-!
# C36 and C111 for quantile regression: only quantiles minimise the quantile loss, and settled quantile models have the right coverage
-/

set_option autoImplicit false
set_option linter.unusedSectionVars false

namespace CB
open Finset Spec

section
variable {K : Type*} [Field K] [LinearOrder K] [IsStrictOrderedRing K]

theorem exists_below (q : K) : ∀ l : List (K × K), ∃ c < q, ∀ s ∈ l, s.1 < q → s.1 ≤ c
  | [] => ⟨q - 1, by linarith, by simp⟩
  | s :: l => by
    obtain ⟨c, hc, h⟩ := exists_below q l
    by_cases hs : s.1 < q
    · refine ⟨max c s.1, max_lt hc hs, fun t ht h1 => ?_⟩
      rcases List.mem_cons.mp ht with rfl | ht
      · exact le_max_right _ _
      · exact le_max_of_le_left (h t ht h1)
    · refine ⟨c, hc, fun t ht h1 => ?_⟩
      rcases List.mem_cons.mp ht with rfl | ht
      · exact absurd h1 hs
      · exact h t ht h1

theorem exists_above (q : K) : ∀ l : List (K × K), ∃ c > q, ∀ s ∈ l, q < s.1 → c ≤ s.1
  | [] => ⟨q + 1, by linarith, by simp⟩
  | s :: l => by
    obtain ⟨c, hc, h⟩ := exists_above q l
    by_cases hs : q < s.1
    · refine ⟨min c s.1, lt_min hc hs, fun t ht h1 => ?_⟩
      rcases List.mem_cons.mp ht with rfl | ht
      · exact min_le_right _ _
      · exact min_le_of_left_le (h t ht h1)
    · refine ⟨c, hc, fun t ht h1 => ?_⟩
      rcases List.mem_cons.mp ht with rfl | ht
      · exact absurd h1 hs
      · exact h t ht h1

theorem pinball_sum_down (tau q c : K) (hc : c < q) : ∀ l : List (K × K), (∀ s ∈ l, s.1 < q → s.1 ≤ c) →
    (l.map (fun s => pinball tau c s.1 * s.2)).sum = (l.map (fun s => pinball tau q s.1 * s.2)).sum
      + (q - c) * (tau * (l.map Prod.snd).sum - Spec.weightOf l (fun y => decide (y < q)))
  | [], _ => by simp [Spec.weightOf]
  | s :: l, h => by
    have ih := pinball_sum_down tau q c hc l fun t ht => h t (List.mem_cons_of_mem _ ht)
    rw [List.map_cons, List.map_cons, List.map_cons, List.sum_cons, List.sum_cons, List.sum_cons, weightOf_cons, ih]
    have key : pinball tau c s.1 = pinball tau q s.1 + (q - c) * (tau - (if s.1 < q then 1 else 0)) := by
      unfold pinball
      by_cases h1 : s.1 < q
      · have h2 := h s List.mem_cons_self h1
        rw [if_pos h1, if_neg (not_le.mpr h1)]
        rcases h2.lt_or_eq with h3 | h3
        · rw [if_pos h3, if_neg (not_le.mpr h3)]; ring
        · rw [if_neg (by rw [h3]; exact lt_irrefl _), if_pos h3.ge, h3]; ring
      · have h1' := not_lt.mp h1
        rw [if_neg h1, if_pos h1', if_neg (not_lt.mpr (le_trans hc.le h1')), if_pos (le_trans hc.le h1')]
        ring
    rw [key]
    by_cases h1 : s.1 < q
    · simp only [h1, decide_true, if_true]; ring
    · simp only [h1, decide_false, if_false, Bool.false_eq_true]; ring

theorem pinball_sum_up (tau q c : K) (hc : q < c) : ∀ l : List (K × K), (∀ s ∈ l, q < s.1 → c ≤ s.1) →
    (l.map (fun s => pinball tau c s.1 * s.2)).sum = (l.map (fun s => pinball tau q s.1 * s.2)).sum
      + (c - q) * (Spec.weightOf l (fun y => decide (y ≤ q)) - tau * (l.map Prod.snd).sum)
  | [], _ => by simp [Spec.weightOf]
  | s :: l, h => by
    have ih := pinball_sum_up tau q c hc l fun t ht => h t (List.mem_cons_of_mem _ ht)
    rw [List.map_cons, List.map_cons, List.map_cons, List.sum_cons, List.sum_cons, List.sum_cons, weightOf_cons, ih]
    have key : pinball tau c s.1 = pinball tau q s.1 + (c - q) * ((if s.1 ≤ q then 1 else 0) - tau) := by
      unfold pinball
      by_cases h1 : s.1 ≤ q
      · have h2 : s.1 < c := lt_of_le_of_lt h1 hc
        rw [if_pos h2, if_neg (not_le.mpr h2), if_pos h1]
        rcases h1.lt_or_eq with h3 | h3
        · rw [if_pos h3, if_neg (not_le.mpr h3)]; ring
        · rw [if_neg (by rw [h3]; exact lt_irrefl _), if_pos h3.ge, h3]; ring
      · have h1' := not_le.mp h1
        have h2 := h s List.mem_cons_self h1'
        rw [if_neg (not_lt.mpr h2), if_pos h2, if_neg h1, if_neg (not_lt.mpr h1'.le), if_pos h1'.le]
        ring
    rw [key]
    by_cases h1 : s.1 ≤ q
    · simp only [h1, decide_true, if_true]; ring
    · simp only [h1, decide_false, if_false, Bool.false_eq_true]; ring

/-- A value that minimises the sum of the quantile losses is a weighted quantile. -/
theorem minimiser_isQuantile (tau q : K) (l : List (K × K))
    (h : ∀ c, (l.map (fun s => pinball tau q s.1 * s.2)).sum ≤ (l.map (fun s => pinball tau c s.1 * s.2)).sum) :
    Spec.IsQuantile tau l q := by
  constructor
  · obtain ⟨c, hc, hl⟩ := exists_below q l
    have := h c
    rw [pinball_sum_down tau q c hc l hl] at this
    have h2 : 0 ≤ (q - c) * (tau * (l.map Prod.snd).sum - Spec.weightOf l (fun y => decide (y < q))) := by linarith
    have := nonneg_of_mul_nonneg_right h2 (sub_pos.mpr hc)
    linarith
  · obtain ⟨c, hc, hl⟩ := exists_above q l
    have := h c
    rw [pinball_sum_up tau q c hc l hl] at this
    have h2 : 0 ≤ (c - q) * (Spec.weightOf l (fun y => decide (y ≤ q)) - tau * (l.map Prod.snd).sum) := by linarith
    have := nonneg_of_mul_nonneg_right h2 (sub_pos.mpr hc)
    linarith

/-- **C36**, both directions: the constant predictions with the smallest quantile loss are exactly the weighted quantiles of the
targets. -/
theorem C36_minimisers (tau : K) (l : List (K × K)) (hw : ∀ s ∈ l, 0 ≤ s.2) (hW : 0 < (l.map Prod.snd).sum) (q : K) :
    Spec.IsQuantile tau l q ↔ ∀ c, quantileCosts tau (withConstant q l) ≤ quantileCosts tau (withConstant c l) := by
  refine ⟨fun hq c => C36_quantile_minimises tau l hw hW q hq c, fun h => minimiser_isQuantile tau q l fun c => ?_⟩
  have hne : l ≠ [] := by rintro rfl; simp at hW
  have := h c
  rw [quantileCosts_const _ _ _ hne, quantileCosts_const _ _ _ hne] at this
  exact (div_le_div_iff_of_pos_right hW).mp this

/-- There is a value that minimises the sum of the quantile losses. -/
theorem exists_minimiser (tau : K) (h0 : 0 ≤ tau) (h1 : tau ≤ 1) (l : List (K × K)) (hw : ∀ s ∈ l, 0 ≤ s.2)
    (hW : 0 < (l.map Prod.snd).sum) :
    ∃ q, ∀ c, (l.map (fun s => pinball tau q s.1 * s.2)).sum ≤ (l.map (fun s => pinball tau c s.1 * s.2)).sum := by
  have hne : l ≠ [] := by rintro rfl; simp at hW
  have hperm := List.mergeSort_perm l (fun a b => decide (a.1 ≤ b.1))
  have hsort : ((l.mergeSort (fun a b => decide (a.1 ≤ b.1))).map Prod.fst).Pairwise (· ≤ ·) := by
    rw [List.pairwise_map]
    have := List.pairwise_mergeSort (le := fun a b : K × K => decide (a.1 ≤ b.1))
      (fun a b c hab hbc => by simp only [decide_eq_true_eq] at *; exact le_trans hab hbc)
      (fun a b => by simp only [Bool.or_eq_true, decide_eq_true_eq]; exact le_total _ _) l
    exact this.imp fun h => by simpa using h
  obtain ⟨q, -, hq⟩ := C36_computed_quantile_minimises tau h0 h1 l _ hw hW hperm hsort
  refine ⟨q, fun c => ?_⟩
  have := hq c
  rw [quantileCosts_const _ _ _ hne, quantileCosts_const _ _ _ hne] at this
  exact (div_le_div_iff_of_pos_right hW).mp this

end

/-! ### The optimum of a bin -/

/-- If the objective of a bin is, up to a positive constant, the quantile loss of the samples `l`, the optimiser returns one of their
quantiles. -/
theorem minimize_isQuantile (tau : ℝ) (h0 : 0 ≤ tau) (h1 : tau ≤ 1) (l : List (ℝ × ℝ)) (hw : ∀ s ∈ l, 0 ≤ s.2)
    (hW : 0 < (l.map Prod.snd).sum) (minimize : (ℝ → Flt ℝ) → ℝ → ℝ) (hmin : FindsMinimum minimize) (obj : ℝ → Flt ℝ) (W : ℝ)
    (hWpos : 0 < W) (hobj : ∀ c, obj c = .fin ((l.map (fun s => pinball tau c s.1 * s.2)).sum / W)) (start : ℝ) :
    Spec.IsQuantile tau l (minimize obj start) := by
  obtain ⟨q, hq⟩ := exists_minimiser tau h0 h1 l hw hW
  obtain ⟨a, ha, hle⟩ := hmin obj start q _ (hobj q) fun z c hz => by
    rw [hobj z, Flt.fin.injEq] at hz
    rw [← hz]
    exact div_le_div_of_nonneg_right (hq z) hWpos.le
  rw [hobj, Flt.fin.injEq] at ha
  rw [← ha, div_le_div_iff_of_pos_right hWpos] at hle
  exact minimiser_isQuantile tau _ l fun c => le_trans hle (hq c)

theorem weightOf_members (n : ℕ) (codes : ℕ → ℕ) (b : ℕ) (x v : ℕ → ℝ) (p : ℝ → Bool) :
    Spec.weightOf ((binMembers n codes b).map fun i => (x i, v i)) p = binSum n codes (fun i => if p (x i) = true then v i else 0) b := by
  rw [binSum_members]
  induction binMembers n codes b with
  | nil => rfl
  | cons i l ih => rw [List.map_cons, weightOf_cons, ih, List.map_cons, List.sum_cons]

/-- The objective of a bin of an additive quantile regressor: the quantile loss of the residuals. -/
theorem binObjective_additive (q : ℝ) (n : ℕ) (codes : ℕ → ℕ) (y w running : ℕ → ℝ) (b : ℕ) (hW : 0 < binSum n codes w b) (c : ℝ) :
    binObjective (quantileCostsFlt q) identityLink false n codes y w running b c =
      .fin ((((binMembers n codes b).map fun i => (y i - running i, w i)).map (fun s => pinball q c s.1 * s.2)).sum /
        binSum n codes w b) := by
  have hne : 0 < ((binMembers n codes b).map fun i => (genericModel false c (identityLink.unlink (running i)), y i, w i)).length := by
    rw [List.length_map]
    refine List.length_pos_of_ne_nil fun hnil => ?_
    rw [binSum_members, hnil] at hW
    simp at hW
  unfold binObjective quantileCostsFlt
  rw [if_pos hne, List.map_map, List.map_map]
  have e1 : ((binMembers n codes b).map ((fun s : ℝ × ℝ × ℝ => s.2.2) ∘
      fun i => (genericModel false c (identityLink.unlink (running i)), y i, w i))).sum = binSum n codes w b := by
    rw [binSum_members]; rfl
  rw [e1]
  unfold quotientFlt
  rw [if_neg hW.ne', List.map_map]
  congr 3
  refine List.map_congr_left fun i _ => ?_
  show pinball q (c + running i) (y i) * w i = pinball q c (y i - running i) * w i
  have : pinball q (c + running i) (y i) = pinball q c (y i - running i) := by
    unfold pinball
    have a1 : y i < c + running i ↔ y i - running i < c := by rw [sub_lt_iff_lt_add]
    have a2 : y i ≥ c + running i ↔ y i - running i ≥ c := by rw [ge_iff_le, ge_iff_le, le_sub_iff_add_le]
    simp only [a1, a2]
    ring
  rw [this]

section
variable {σ : Type*} (S : Setup σ) (D : TrainSet) (m : FittedModel) (ε : ℝ)

/-- Sums over a bin whose weights are all 0. -/
theorem sumInBin_no_weight (f : FeatureSpec × SmootherKind) (b : ℕ) (w x : ℕ → ℝ)
    (hx : ∀ i < D.n, 0 ≤ x i ∧ x i ≤ w i) (h : sumInBin D f b w = 0) : sumInBin D f b x = 0 :=
  le_antisymm (by rw [← h]; exact sumInBin_le D f b _ _ fun i hi => (hx i hi).2) (sumInBin_nonneg D f b _ fun i hi => (hx i hi).1)

/-- **C111**, `CBAdditiveQuantileRegressor`: after a training that settled within `ε`, the share of the weight of every unsmoothed bin
of every feature with a target less than the prediction (minus `δ`) is at most the quantile, and the share with a target of at most the
prediction (plus `δ`) is at least the quantile; `δ = (number of features + 1 / learning rate) * ε`. -/
theorem C111_quantile_additive (q : ℝ) (h0 : 0 ≤ q) (h1 : q ≤ 1) (minimize : (ℝ → Flt ℝ) → ℝ → ℝ) (hmin : FindsMinimum minimize)
    (h : SettledModel S (quantileEstimator false q minimize) D m ε)
    (j : ℕ) (f : FeatureSpec × SmootherKind) (hf : S.features[j]? = some f) (b : ℕ) (hu : Unsmoothed S D f b) :
    let p := m.predict D.prior D.X
    let δ := (S.features.length + 1 / S.learnRate m.iterations) * ε
    sumInBin D f b (fun i => if D.y i < p i - δ then D.w i else 0) ≤ q * sumInBin D f b D.w ∧
      q * sumInBin D f b D.w ≤ sumInBin D f b (fun i => if D.y i ≤ p i + δ then D.w i else 0) := by
  obtain ⟨it, running, final, hclose, hpred, hest⟩ := settled_estimate S _ D (fun _ _ _ => rfl) m ε h j f hf b hu fun h => by cases h
  intro p δ
  have hW := sumInBin_nonneg D f b D.w h.weights
  rcases hW.eq_or_lt with hW | hW
  · rw [← hW, mul_zero]
    refine ⟨le_of_eq (sumInBin_no_weight D f b D.w _ (fun i hi => ?_) hW.symm), sumInBin_nonneg D f b _ fun i hi => ?_⟩
    · split_ifs
      · exact ⟨h.weights i hi, le_rfl⟩
      · exact ⟨le_rfl, h.weights i hi⟩
    · split_ifs
      · exact h.weights i hi
      · exact le_rfl
  have hp : ∀ i < D.n, p i = final i := hpred
  set codes := (f.1.cfg D.X D.n).bin with hcodes
  set obj := binObjective (quantileCostsFlt q) identityLink false D.n codes D.y D.w running b with hobjdef
  set t := minimize obj 0 with ht
  have hpar : ((quantileEstimator false q minimize).parameters it D.n codes D.y D.w running b).1 = t := by
    show genericParamLink identityLink (minimize obj (identityLink.unlink 0)) = t
    unfold genericParamLink
    rw [if_neg (by simp [identityLink])]
    rfl
  rw [hpar] at hest
  set l := (binMembers D.n codes b).map fun i => (D.y i - running i, D.w i) with hl
  have hlsum : (l.map Prod.snd).sum = sumInBin D f b D.w := by
    rw [← sumInBin_binSum, binSum_members, hl, List.map_map]; rfl
  have hmem : ∀ i ∈ binMembers D.n codes b, i < D.n := fun i hi => List.mem_range.mp (List.mem_filter.mp hi).1
  have hobj : ∀ c, obj c = .fin ((l.map (fun s => pinball q c s.1 * s.2)).sum / sumInBin D f b D.w) := fun c => by
    rw [← sumInBin_binSum] at hW ⊢
    exact binObjective_additive q D.n codes D.y D.w running b hW c
  have hQ := minimize_isQuantile q h0 h1 l
    (fun s hs => by
      obtain ⟨i, hi, rfl⟩ := List.mem_map.mp hs
      exact h.weights i (hmem i hi))
    (by rw [hlsum]; exact hW) minimize hmin obj _ hW hobj 0
  obtain ⟨q1, q2⟩ := hQ
  rw [hlsum, hl, weightOf_members, sumInBin_binSum] at q1 q2
  have hδ : δ = S.features.length * ε + ε / S.learnRate m.iterations := by simp only [δ]; ring
  have ht' := abs_le.mp hest
  refine ⟨le_trans (sumInBin_le D f b _ _ fun i hi => ?_) q1, le_trans q2 (sumInBin_le D f b _ _ fun i hi => ?_)⟩
  · have hc := abs_le.mp (hclose i hi)
    have hwi := h.weights i hi
    rw [hp i hi]
    by_cases hy : D.y i < final i - δ
    · rw [if_pos hy, if_pos (by rw [decide_eq_true_eq]; linarith [hc.1, hc.2, ht'.1])]
    · rw [if_neg hy]
      split_ifs
      · exact hwi
      · exact le_rfl
  · have hc := abs_le.mp (hclose i hi)
    have hwi := h.weights i hi
    rw [hp i hi]
    by_cases hy : D.y i - running i ≤ minimize obj 0
    · rw [if_pos (by rw [decide_eq_true_eq]; exact hy), if_pos (by linarith [hc.1, hc.2, ht'.2])]
    · rw [if_neg (by rw [decide_eq_true_eq]; exact hy)]
      split_ifs
      · exact hwi
      · exact le_rfl

/-- **C111**, `CBMultiplicativeQuantileRegressor`: after a training that settled within `ε`, samples weighted with their *prediction*
have the right coverage in every unsmoothed bin inside the limits: of the sum of weight times prediction, the share of the samples with
a target less than the prediction is at most the quantile, and the share of those with a target of at most the prediction at least the
quantile, up to factors `exp δ` for predictions and `exp (2 * number of features * ε)` for the shares. -/
theorem C111_quantile_multiplicative (q : ℝ) (h0 : 0 < q) (h1 : q ≤ 1) (minimize : (ℝ → Flt ℝ) → ℝ → ℝ) (hmin : FindsMinimum minimize)
    (h : SettledModel S (quantileEstimator true q minimize) D m ε) (hstep : ε / S.learnRate m.iterations < Real.log 100000)
    (j : ℕ) (f : FeatureSpec × SmootherKind) (hf : S.features[j]? = some f) (b : ℕ) (hu : Unsmoothed S D f b)
    (hlim : InsideLimits m ε j f b) :
    let p := m.predict D.prior D.X
    let δ := (S.features.length + 1 / S.learnRate m.iterations) * ε
    let slack := Real.exp (2 * S.features.length * ε)
    sumInBin D f b (fun i => if D.y i < p i * Real.exp (-δ) then D.w i * p i else 0) ≤
        slack * (q * sumInBin D f b fun i => D.w i * p i) ∧
      q * sumInBin D f b (fun i => D.w i * p i) ≤
        slack * sumInBin D f b fun i => if D.y i ≤ p i * Real.exp δ then D.w i * p i else 0 := by
  obtain ⟨it, running, final, hclose, hpred, hest⟩ := settled_estimate S _ D (fun _ _ _ => rfl) m ε h j f hf b hu fun _ => hlim
  obtain ⟨fuel, hfit⟩ := h.fitted
  obtain ⟨_, _, hvalid, -⟩ := fit_ok S _ D fuel m hfit
  have hy : ∀ i < D.n, 0 ≤ D.y i := fun i hi => hvalid i hi rfl
  intro p δ slack
  set φ : ℝ := S.features.length * ε with hφ
  set η : ℝ := ε / S.learnRate m.iterations with hη
  have hδ : δ = φ + η := by simp only [δ, hφ, hη]; ring
  have hslack : slack = Real.exp φ * Real.exp φ := by rw [← Real.exp_add]; simp only [slack, hφ]; congr 1; ring
  have hp : ∀ i < D.n, p i = Real.exp (final i) := hpred
  have hpos : ∀ i < D.n, 0 < p i := fun i hi => by rw [hp i hi]; exact Real.exp_pos _
  have hup : ∀ i < D.n, p i ≤ Real.exp φ * Real.exp (running i) := fun i hi => by
    rw [hp i hi, ← Real.exp_add]
    exact Real.exp_le_exp.mpr (by linarith [(abs_le.mp (hclose i hi)).1])
  have hdown : ∀ i < D.n, Real.exp (running i) ≤ Real.exp φ * p i := fun i hi => by
    rw [hp i hi, ← Real.exp_add]
    exact Real.exp_le_exp.mpr (by linarith [(abs_le.mp (hclose i hi)).2])
  have hW := sumInBin_nonneg D f b D.w h.weights
  rcases hW.eq_or_lt with hW | hW
  · have hz : ∀ i ∈ (range D.n).filter (fun i => (f.1.cfg D.X D.n).bin i = b), D.w i = 0 :=
      (sum_eq_zero_iff_of_nonneg fun i hi => h.weights i (mem_range.mp (mem_filter.mp hi).1)).mp hW.symm
    have e : ∀ c : ℕ → Prop, ∀ [DecidablePred c], sumInBin D f b (fun i => if c i then D.w i * p i else 0) = 0 := by
      intro c _
      refine sum_eq_zero fun i hi => ?_
      rw [hz i hi, zero_mul, ite_self]
    have e2 : sumInBin D f b (fun i => D.w i * p i) = 0 := sum_eq_zero fun i hi => by rw [hz i hi, zero_mul]
    rw [e, e, e2]
    simp
  set codes := (f.1.cfg D.X D.n).bin with hcodes
  set obj := binObjective (quantileCostsFlt q) logLink true D.n codes D.y D.w running b with hobjdef
  set t := minimize obj 1 with ht
  have hpar : ((quantileEstimator true q minimize).parameters it D.n codes D.y D.w running b).1 = Real.log (if |t| < 1e-5 then 1e-5 else t) := by
    show genericParamLink logLink (minimize obj (logLink.unlink 0)) = _
    have : logLink.unlink 0 = 1 := Real.exp_zero
    unfold genericParamLink
    rw [this, if_pos one_ne_zero]
  rw [hpar] at hest
  set l := (binMembers D.n codes b).map fun i => (D.y i / Real.exp (running i), D.w i * Real.exp (running i)) with hl
  have hlsum : (l.map Prod.snd).sum = sumInBin D f b fun i => D.w i * Real.exp (running i) := by
    rw [← sumInBin_binSum, binSum_members, hl, List.map_map]; rfl
  have hlpos : 0 < (l.map Prod.snd).sum := by
    rw [hlsum]
    by_contra hn
    have hge : ∀ i ∈ (range D.n).filter (fun i => codes i = b), 0 ≤ D.w i * Real.exp (running i) := fun i hi =>
      mul_nonneg (h.weights i (mem_range.mp (mem_filter.mp hi).1)) (Real.exp_pos _).le
    have := (sum_eq_zero_iff_of_nonneg hge).mp (le_antisymm (not_lt.mp hn) (sum_nonneg hge))
    refine hW.ne' (sum_eq_zero fun i hi => ?_)
    exact (mul_eq_zero.mp (this i hi)).resolve_right (Real.exp_pos _).ne'
  have hmem : ∀ i ∈ binMembers D.n codes b, i < D.n := fun i hi => List.mem_range.mp (List.mem_filter.mp hi).1
  have hobj : ∀ c, obj c = .fin ((l.map (fun s => pinball q c s.1 * s.2)).sum / sumInBin D f b D.w) := by
    intro c
    have hne : 0 < ((binMembers D.n codes b).map fun i => (genericModel true c (logLink.unlink (running i)), D.y i, D.w i)).length := by
      rw [List.length_map]
      refine List.length_pos_of_ne_nil fun hnil => ?_
      rw [hl, hnil] at hlpos
      simp at hlpos
    rw [hobjdef]
    unfold binObjective quantileCostsFlt
    rw [if_pos hne, List.map_map, List.map_map]
    have e1 : ((binMembers D.n codes b).map ((fun s : ℝ × ℝ × ℝ => s.2.2) ∘
        fun i => (genericModel true c (logLink.unlink (running i)), D.y i, D.w i))).sum = sumInBin D f b D.w := by
      rw [← sumInBin_binSum, binSum_members]; rfl
    rw [e1]
    unfold quotientFlt
    rw [if_neg hW.ne', hl, List.map_map]
    congr 3
    refine List.map_congr_left fun i _ => ?_
    show pinball q (c * Real.exp (running i)) (D.y i) * D.w i =
      pinball q c (D.y i / Real.exp (running i)) * (D.w i * Real.exp (running i))
    have he := Real.exp_pos (running i)
    have : pinball q (c * Real.exp (running i)) (D.y i) = pinball q c (D.y i / Real.exp (running i)) * Real.exp (running i) := by
      unfold pinball
      have a1 : D.y i < c * Real.exp (running i) ↔ D.y i / Real.exp (running i) < c := by rw [div_lt_iff₀ he]
      have a2 : D.y i ≥ c * Real.exp (running i) ↔ D.y i / Real.exp (running i) ≥ c := by rw [ge_iff_le, ge_iff_le, le_div_iff₀ he]
      simp only [a1, a2]
      field_simp
    rw [this]
    ring
  obtain ⟨q1, q2⟩ := minimize_isQuantile q h0.le h1 l
    (fun s hs => by
      obtain ⟨i, hi, rfl⟩ := List.mem_map.mp hs
      exact mul_nonneg (h.weights i (hmem i hi)) (Real.exp_pos _).le)
    hlpos minimize hmin obj _ hW hobj 1
  rw [← ht] at q1 q2
  have htpos : 0 ≤ t := by
    by_contra hneg
    have hz : Spec.weightOf l (fun y => decide (y ≤ t)) = 0 := by
      rw [hl, weightOf_members, sumInBin_binSum]
      refine sum_eq_zero fun i hi => ?_
      have hi' := mem_range.mp (mem_filter.mp hi).1
      have : 0 ≤ D.y i / Real.exp (running i) := div_nonneg (hy i hi') (Real.exp_pos _).le
      rw [if_neg]
      rw [decide_eq_true_eq]
      intro hle
      linarith
    rw [hz] at q2
    have := mul_pos h0 hlpos
    linarith
  have hbig : ¬ |t| < 1e-5 := by
    intro hlt
    rw [if_pos hlt] at hest
    have e : Real.log (1e-5 : ℝ) = -Real.log 100000 := by rw [← Real.log_inv]; norm_num
    rw [e, abs_neg, abs_of_pos (Real.log_pos (by norm_num))] at hest
    linarith
  have hlarge : 0 < t := by
    rw [abs_of_nonneg htpos, not_lt] at hbig
    linarith
  rw [if_neg hbig, abs_le] at hest
  have t1 : t ≤ Real.exp η := by rw [← Real.exp_log hlarge]; exact Real.exp_le_exp.mpr hest.2
  have t2 : Real.exp (-η) ≤ t := by rw [← Real.exp_log hlarge]; exact Real.exp_le_exp.mpr hest.1
  rw [hlsum, hl, weightOf_members, sumInBin_binSum] at q1 q2
  have hφ0 := (Real.exp_pos φ).le
  have hE : sumInBin D f b (fun i => D.w i * Real.exp (running i)) ≤ Real.exp φ * sumInBin D f b fun i => D.w i * p i := by
    rw [← sumInBin_mul]
    refine sumInBin_le D f b _ _ fun i hi => ?_
    have := mul_le_mul_of_nonneg_left (hdown i hi) (h.weights i hi)
    linarith
  have hE' : sumInBin D f b (fun i => D.w i * p i) ≤ Real.exp φ * sumInBin D f b fun i => D.w i * Real.exp (running i) := by
    rw [← sumInBin_mul]
    refine sumInBin_le D f b _ _ fun i hi => ?_
    have := mul_le_mul_of_nonneg_left (hup i hi) (h.weights i hi)
    linarith
  constructor
  · calc _ ≤ Real.exp φ * sumInBin D f b (fun i => if decide (D.y i / Real.exp (running i) < t) = true then D.w i * Real.exp (running i) else 0) := by
          rw [← sumInBin_mul]
          refine sumInBin_le D f b _ _ fun i hi => ?_
          have hwi := h.weights i hi
          have he := Real.exp_pos (running i)
          by_cases hlt : D.y i < p i * Real.exp (-δ)
          · have : D.y i / Real.exp (running i) < t := by
              rw [div_lt_iff₀ he]
              refine lt_of_lt_of_le hlt ?_
              calc p i * Real.exp (-δ) ≤ Real.exp φ * Real.exp (running i) * Real.exp (-δ) :=
                    mul_le_mul_of_nonneg_right (hup i hi) (Real.exp_pos _).le
                _ = Real.exp (-η) * Real.exp (running i) := by
                    rw [hδ, neg_add, Real.exp_add, Real.exp_neg φ]; field_simp
                _ ≤ t * Real.exp (running i) := mul_le_mul_of_nonneg_right t2 he.le
            rw [if_pos hlt, if_pos (by rw [decide_eq_true_eq]; exact this)]
            have := mul_le_mul_of_nonneg_left (hup i hi) hwi
            linarith
          · rw [if_neg hlt]
            split_ifs
            · positivity
            · simp
      _ ≤ Real.exp φ * (q * sumInBin D f b fun i => D.w i * Real.exp (running i)) := mul_le_mul_of_nonneg_left q1 hφ0
      _ ≤ Real.exp φ * (q * (Real.exp φ * sumInBin D f b fun i => D.w i * p i)) :=
          mul_le_mul_of_nonneg_left (mul_le_mul_of_nonneg_left hE h0.le) hφ0
      _ = _ := by rw [hslack]; ring
  · calc _ ≤ q * (Real.exp φ * sumInBin D f b fun i => D.w i * Real.exp (running i)) := mul_le_mul_of_nonneg_left hE' h0.le
      _ = Real.exp φ * (q * sumInBin D f b fun i => D.w i * Real.exp (running i)) := by ring
      _ ≤ Real.exp φ * sumInBin D f b (fun i => if decide (D.y i / Real.exp (running i) ≤ t) = true then D.w i * Real.exp (running i) else 0) :=
          mul_le_mul_of_nonneg_left q2 hφ0
      _ ≤ Real.exp φ * (Real.exp φ * sumInBin D f b fun i => if D.y i ≤ p i * Real.exp δ then D.w i * p i else 0) := by
          refine mul_le_mul_of_nonneg_left ?_ hφ0
          rw [← sumInBin_mul]
          refine sumInBin_le D f b _ _ fun i hi => ?_
          have hwi := h.weights i hi
          have hpi := hpos i hi
          have he := Real.exp_pos (running i)
          by_cases hle : D.y i / Real.exp (running i) ≤ t
          · have : D.y i ≤ p i * Real.exp δ := by
              rw [div_le_iff₀ he] at hle
              refine le_trans hle ?_
              calc t * Real.exp (running i) ≤ Real.exp η * (Real.exp φ * p i) :=
                    mul_le_mul t1 (hdown i hi) he.le (Real.exp_pos _).le
                _ = p i * Real.exp δ := by rw [hδ, Real.exp_add]; ring
            rw [if_pos (by rw [decide_eq_true_eq]; exact hle), if_pos this]
            have := mul_le_mul_of_nonneg_left (hdown i hi) hwi
            linarith
          · rw [if_neg (by rw [decide_eq_true_eq]; exact hle)]
            split_ifs
            · positivity
            · simp
      _ = _ := by rw [hslack]; ring

end

/-- **C111**, `CBMultiplicativeQuantileRegressor` does not give the right coverage when samples count with their weight only: in a bin
with the targets 1, 1, 1 and 20 where the other features predict 2, 2, 2 and 10, the optimal factor for the median is 2, and then three
of the four targets are less than the prediction. -/
theorem C111_multiplicative_weight_share (minimize : (ℝ → Flt ℝ) → ℝ → ℝ) (hmin : FindsMinimum minimize) (start : ℝ) :
    let y : ℕ → ℝ := fun i => if i < 3 then 1 else 20
    let others : ℕ → ℝ := fun i => if i < 3 then 2 else 10
    let factor := minimize (binObjective (quantileCostsFlt (1 / 2)) logLink true 4 (fun _ => 0) y (fun _ => 1)
      (fun i => Real.log (others i)) 0) start
    factor = 2 ∧ y 0 < factor * others 0 ∧ y 1 < factor * others 1 ∧ y 2 < factor * others 2 := by
  intro y others factor
  have hobj : ∀ c, binObjective (quantileCostsFlt (1 / 2)) logLink true 4 (fun _ => 0) y (fun _ => 1) (fun i => Real.log (others i)) 0 c
      = .fin ((([(1 / 2, 2), (1 / 2, 2), (1 / 2, 2), (2, 10)] : List (ℝ × ℝ)).map (fun s => pinball (1 / 2) c s.1 * s.2)).sum / 4) := by
    intro c
    have hmem : binMembers 4 (fun _ => 0) 0 = [0, 1, 2, 3] := by decide
    unfold binObjective quantileCostsFlt
    rw [hmem]
    have e2 : Real.exp (Real.log 2) = 2 := Real.exp_log (by norm_num)
    have e10 : Real.exp (Real.log 10) = 10 := Real.exp_log (by norm_num)
    have s1 : pinball (1 / 2) (c * 2) 1 = pinball (1 / 2) c (1 / 2) * 2 := by
      unfold pinball
      have a1 : (1 : ℝ) < c * 2 ↔ 1 / 2 < c := by rw [div_lt_iff₀ two_pos]
      have a2 : (1 : ℝ) ≥ c * 2 ↔ (1 / 2 : ℝ) ≥ c := by rw [ge_iff_le, ge_iff_le, le_div_iff₀ two_pos]
      simp only [a1, a2]; ring
    have s2 : pinball (1 / 2) (c * 10) 20 = pinball (1 / 2) c 2 * 10 := by
      unfold pinball
      have a1 : (20 : ℝ) < c * 10 ↔ 2 < c := by constructor <;> intro h <;> linarith
      have a2 : (20 : ℝ) ≥ c * 10 ↔ (2 : ℝ) ≥ c := by constructor <;> intro h <;> linarith
      simp only [a1, a2]; ring
    simp only [List.map_cons, List.map_nil, List.length_cons, List.length_nil, genericModel, if_true, List.sum_cons, List.sum_nil,
      y, others, logLink, Nat.reduceLT, if_true, if_false, e2, e10, s1, s2]
    rw [if_pos (by norm_num)]
    unfold quotientFlt
    rw [if_neg (by norm_num)]
    congr 1
    ring
  have hQ := minimize_isQuantile (1 / 2) (by norm_num) (by norm_num) [(1 / 2, 2), (1 / 2, 2), (1 / 2, 2), (2, 10)]
    (by intro s hs; simp only [List.mem_cons, List.not_mem_nil, or_false] at hs; rcases hs with rfl | rfl | rfl | rfl <;> norm_num)
    (by norm_num) minimize hmin _ 4 (by norm_num) hobj start
  have hfac : factor = 2 := by
    obtain ⟨q1, q2⟩ := hQ
    change Spec.weightOf _ (fun y => decide (y < factor)) ≤ _ at q1
    change _ ≤ Spec.weightOf _ (fun y => decide (y ≤ factor)) at q2
    rw [weightOf_cons, weightOf_cons, weightOf_cons, weightOf_cons] at q1 q2
    have hnil : ∀ p, Spec.weightOf ([] : List (ℝ × ℝ)) p = 0 := fun p => rfl
    rw [hnil] at q1 q2
    simp only [decide_eq_true_eq, List.map_cons, List.map_nil, List.sum_cons, List.sum_nil] at q1 q2
    rcases lt_trichotomy factor 2 with h | h | h
    · rw [if_neg (not_le.mpr h)] at q2
      split_ifs at q2 <;> norm_num at q2
    · exact h
    · rw [if_pos h, if_pos (by linarith)] at q1
      norm_num at q1
  refine ⟨hfac, ?_, ?_, ?_⟩ <;> rw [hfac] <;> norm_num [y, others]

end CB
