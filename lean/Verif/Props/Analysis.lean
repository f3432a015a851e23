import Verif.Model.Analysis
import Verif.Lemmas.RelabelBins
import Verif.Props.Quantile

/-!
# C114, C115: what an analysis shows for the bins of a feature
-/

set_option autoImplicit false
set_option linter.unusedSectionVars false

namespace CB
open Finset

/-- The sum of `x` over the samples in bin `b`. -/
noncomputable def Spec.sumOfBin (n : ℕ) (codes : ℕ → ℕ) (b : ℕ) (x : ℕ → ℝ) : ℝ := ∑ i ∈ (range n).filter (fun i => codes i = b), x i

theorem binSum_eq_sumOfBin (n : ℕ) (codes : ℕ → ℕ) (x : ℕ → ℝ) (b : ℕ) : binSum n codes x b = Spec.sumOfBin n codes b x := by
  unfold binSum Spec.sumOfBin
  rw [sum_filter]

theorem sumOfBin_nonneg (n : ℕ) (codes : ℕ → ℕ) (b : ℕ) (x : ℕ → ℝ) (h : ∀ i < n, 0 ≤ x i) : 0 ≤ Spec.sumOfBin n codes b x :=
  sum_nonneg fun i hi => h i (mem_range.mp (mem_filter.mp hi).1)

theorem binnedMean_eq (n : ℕ) (codes : ℕ → ℕ) (w x : ℕ → ℝ) (b : ℕ) (hw : ∀ i < n, 0 ≤ w i) :
    binnedMean n codes w x b = .fin ((Spec.sumOfBin n codes b (fun i => w i * x i) + 1) / (Spec.sumOfBin n codes b w + 1)) := by
  unfold binnedMean quotientFlt
  rw [binSum_eq_sumOfBin, binSum_eq_sumOfBin, if_neg]
  have := sumOfBin_nonneg n codes b w hw
  positivity

/-- **C114** for additive models: the deviation shown for a bin is the sum of the weighted predictions minus that of the weighted
targets in the bin, divided by one more than the weight of the bin. -/
theorem C114_additive (n nBins : ℕ) (codes : ℕ → ℕ) (w y prediction : ℕ → ℝ) (hw : ∀ i < n, 0 ≤ w i) (b : ℕ) :
    (preparePlots .identity n nBins codes w y prediction).meanDev b =
      .fin ((Spec.sumOfBin n codes b (fun i => w i * prediction i) - Spec.sumOfBin n codes b (fun i => w i * y i))
        / (Spec.sumOfBin n codes b w + 1)) := by
  have h0 := sumOfBin_nonneg n codes b w hw
  simp only [preparePlots, plotDataOf, if_true, binnedMean_eq n codes w _ b hw, Flt.sub, Flt.fin.injEq]
  field_simp
  ring

theorem logShifted_pos (a : ℝ) (h : 0 < a) : logShifted (.fin a) = .fin (Real.log (a + 1e-12)) := by
  show (if 0 < a + 1e-12 then Flt.fin (Real.log (a + 1e-12)) else if a + 1e-12 = 0 then Flt.ninf else Flt.nan) = _
  rw [if_pos (by positivity)]

/-- The value shown for a multiplicative model or a classifier. -/
theorem multiplicative_dev (link : LinkKind) (hl : link ≠ .identity) (n nBins : ℕ) (codes : ℕ → ℕ) (w y prediction : ℕ → ℝ)
    (hw : ∀ i < n, 0 ≤ w i) (hy : ∀ i < n, 0 ≤ y i) (hp : ∀ i < n, 0 ≤ prediction i) (b : ℕ) :
    (preparePlots link n nBins codes w y prediction).meanDev b =
      .fin (Real.log ((Spec.sumOfBin n codes b (fun i => w i * prediction i) + 1) / (Spec.sumOfBin n codes b w + 1) + 1e-12)
        - Real.log ((Spec.sumOfBin n codes b (fun i => w i * y i) + 1) / (Spec.sumOfBin n codes b w + 1) + 1e-12)) := by
  have h0 := sumOfBin_nonneg n codes b w hw
  have h1 := sumOfBin_nonneg n codes b (fun i => w i * y i) fun i hi => mul_nonneg (hw i hi) (hy i hi)
  have h2 := sumOfBin_nonneg n codes b (fun i => w i * prediction i) fun i hi => mul_nonneg (hw i hi) (hp i hi)
  simp only [preparePlots, plotDataOf, if_neg hl, binnedMean_eq n codes w _ b hw]
  rw [logShifted_pos _ (by positivity), logShifted_pos _ (by positivity)]
  rfl

/-- **C114** for multiplicative models and classifiers, with targets and predictions that are not negative: the deviation shown for a
bin is positive if the sum of the weighted predictions in the bin exceeds that of the weighted targets, 0 if they agree and negative if
it falls short of it; its absolute value is at most the logarithm of the quotient of both sums plus 1. -/
theorem C114_multiplicative (link : LinkKind) (hl : link ≠ .identity) (n nBins : ℕ) (codes : ℕ → ℕ) (w y prediction : ℕ → ℝ)
    (hw : ∀ i < n, 0 ≤ w i) (hy : ∀ i < n, 0 ≤ y i) (hp : ∀ i < n, 0 ≤ prediction i) (b : ℕ) :
    ∃ d, (preparePlots link n nBins codes w y prediction).meanDev b = .fin d ∧
      (0 < d ↔ Spec.sumOfBin n codes b (fun i => w i * y i) < Spec.sumOfBin n codes b (fun i => w i * prediction i)) ∧
      (d = 0 ↔ Spec.sumOfBin n codes b (fun i => w i * y i) = Spec.sumOfBin n codes b (fun i => w i * prediction i)) ∧
      (d < 0 ↔ Spec.sumOfBin n codes b (fun i => w i * prediction i) < Spec.sumOfBin n codes b (fun i => w i * y i)) ∧
      |d| ≤ |Real.log ((Spec.sumOfBin n codes b (fun i => w i * prediction i) + 1)
        / (Spec.sumOfBin n codes b (fun i => w i * y i) + 1))| := by
  have h0 := sumOfBin_nonneg n codes b w hw
  have h1 := sumOfBin_nonneg n codes b (fun i => w i * y i) fun i hi => mul_nonneg (hw i hi) (hy i hi)
  have h2 := sumOfBin_nonneg n codes b (fun i => w i * prediction i) fun i hi => mul_nonneg (hw i hi) (hp i hi)
  refine ⟨_, multiplicative_dev link hl n nBins codes w y prediction hw hy hp b, ?_⟩
  set W := Spec.sumOfBin n codes b w
  set Y := Spec.sumOfBin n codes b (fun i => w i * y i)
  set P := Spec.sumOfBin n codes b (fun i => w i * prediction i)
  have hW : 0 < W + 1 := by linarith
  have key : ∀ A B : ℝ, 0 ≤ A → 0 ≤ B → (Real.log ((A + 1) / (W + 1) + 1e-12) < Real.log ((B + 1) / (W + 1) + 1e-12) ↔ A < B) := by
    intro A B hA hB
    rw [Real.log_lt_log_iff (by positivity) (by positivity), add_lt_add_iff_right, div_lt_div_iff_of_pos_right hW,
      add_lt_add_iff_right]
  have hpos := key Y P h1 h2
  have hneg := key P Y h2 h1
  refine ⟨by rw [sub_pos]; exact hpos, ?_, by rw [sub_neg]; exact hneg, ?_⟩
  · constructor
    · intro h
      rcases lt_trichotomy Y P with h' | h' | h'
      · have := hpos.mpr h'; linarith
      · exact h'
      · have := hneg.mpr h'; linarith
    · intro h
      rw [h]; ring
  · have bound : ∀ A B : ℝ, 0 ≤ A → A ≤ B → |Real.log ((B + 1) / (W + 1) + 1e-12) - Real.log ((A + 1) / (W + 1) + 1e-12)|
        ≤ |Real.log ((B + 1) / (A + 1))| := by
      intro A B hA hAB
      have hB : 0 ≤ B := hA.trans hAB
      have hx : (A + 1) / (W + 1) ≤ (B + 1) / (W + 1) := by gcongr
      rw [abs_of_nonneg (sub_nonneg.mpr (Real.log_le_log (by positivity) (by linarith))),
        abs_of_nonneg (Real.log_nonneg (by rw [le_div_iff₀ (by linarith)]; linarith)),
        ← Real.log_div (by positivity) (by positivity)]
      apply Real.log_le_log (by positivity)
      rw [div_le_div_iff₀ (by positivity) (by positivity)]
      have e : (A + 1) / (W + 1) * (B + 1) = (B + 1) / (W + 1) * (A + 1) := by ring
      nlinarith
    rcases le_total Y P with h | h
    · exact bound Y P h1 h
    · have := bound P Y h2 h
      rw [abs_sub_comm]
      refine this.trans_eq ?_
      rw [← abs_neg, ← Real.log_inv, inv_div]

/-- **C114**: a bin without weight shows no deviation. -/
theorem C114_empty_bin (link : LinkKind) (n nBins : ℕ) (codes : ℕ → ℕ) (w y prediction : ℕ → ℝ) (b : ℕ)
    (h : ∀ i < n, codes i = b → w i = 0) : (preparePlots link n nBins codes w y prediction).meanDev b = .fin 0 := by
  have hz : ∀ x : ℕ → ℝ, binSum n codes (fun i => w i * x i) b = 0 := by
    intro x
    apply sum_eq_zero
    intro i hi
    by_cases hc : codes i = b
    · simp [h i (mem_range.mp hi) hc]
    · simp [hc]
  have hw : binSum n codes w b = 0 := by simpa using hz fun _ => 1
  have hm : ∀ x : ℕ → ℝ, binnedMean n codes w x b = .fin 1 := by
    intro x
    simp [binnedMean, hz, hw, quotientFlt]
  by_cases hl : link = .identity
  · simp [preparePlots, plotDataOf, hl, hm, Flt.sub]
  · simp only [preparePlots, plotDataOf, if_neg hl, hm]
    rw [logShifted_pos _ one_pos]
    simp [Flt.sub]

/-- **C114**: what target and prediction in the bins are compared with is their weighted mean over the samples that are not in the last
bin, that of missing values. -/
theorem C114_mean (link : LinkKind) (n nBins : ℕ) (codes : ℕ → ℕ) (w y prediction : ℕ → ℝ) (hb : 1 < nBins)
    (hw : ∑ i ∈ (range n).filter (fun i => codes i < nBins - 1), w i ≠ 0) :
    (preparePlots link n nBins codes w y prediction).yFinite =
      .fin ((∑ i ∈ (range n).filter (fun i => codes i < nBins - 1), w i * y i)
        / ∑ i ∈ (range n).filter (fun i => codes i < nBins - 1), w i) ∧
    (preparePlots link n nBins codes w y prediction).predictionFinite =
      .fin ((∑ i ∈ (range n).filter (fun i => codes i < nBins - 1), w i * prediction i)
        / ∑ i ∈ (range n).filter (fun i => codes i < nBins - 1), w i) := by
  have hs : ∀ x : ℕ → ℝ, ∑ b ∈ range (nBins - 1), binSum n codes x b = ∑ i ∈ (range n).filter (fun i => codes i < nBins - 1), x i := by
    intro x
    unfold binSum
    rw [sum_comm, sum_filter]
    refine sum_congr rfl fun i _ => ?_
    rw [sum_ite_eq]
    simp
  have hf : ∀ x : ℕ → ℝ, finiteMean n nBins codes w x = .fin ((∑ i ∈ (range n).filter (fun i => codes i < nBins - 1), w i * x i)
        / ∑ i ∈ (range n).filter (fun i => codes i < nBins - 1), w i) := by
    intro x
    unfold finiteMean
    rw [if_pos hb, hs, hs, quotientFlt, if_neg hw]
  by_cases hl : link = .identity
  · simp [preparePlots, plotDataOf, hl, hf]
  · simp [preparePlots, plotDataOf, if_neg hl, hf]

/-- **C114** for additive models: the curves of target and prediction show the shrunken mean of the bin relative to the overall mean;
their difference is the deviation, up to the difference of the overall means. -/
theorem C114_curves (n nBins : ℕ) (codes : ℕ → ℕ) (w y prediction : ℕ → ℝ) (hw : ∀ i < n, 0 ≤ w i) (b : ℕ) (my mp : ℝ)
    (hy : (preparePlots .identity n nBins codes w y prediction).yFinite = .fin my)
    (hp : (preparePlots .identity n nBins codes w y prediction).predictionFinite = .fin mp) :
    ∃ d cy cp, (preparePlots .identity n nBins codes w y prediction).meanDev b = .fin d ∧
      (preparePlots .identity n nBins codes w y prediction).y b = .fin cy ∧
      (preparePlots .identity n nBins codes w y prediction).prediction b = .fin cp ∧
      cy = (Spec.sumOfBin n codes b (fun i => w i * y i) + 1) / (Spec.sumOfBin n codes b w + 1) - my ∧
      d = (cp + mp) - (cy + my) := by
  have hy' : finiteMean n nBins codes w y = .fin my := by simpa [preparePlots, plotDataOf] using hy
  have hp' : finiteMean n nBins codes w prediction = .fin mp := by simpa [preparePlots, plotDataOf] using hp
  simp only [preparePlots, plotDataOf, if_true, binnedMean_eq n codes w _ b hw, hy', hp', Flt.sub]
  refine ⟨_, _, _, rfl, rfl, rfl, rfl, ?_⟩
  ring

/-- **C114** for multiplicative models and classifiers: the curves of target and prediction show the logarithm of the quotient of the shrunken
mean of the bin and the overall mean. -/
theorem C114_curves_multiplicative (link : LinkKind) (hl : link ≠ .identity) (n nBins : ℕ) (codes : ℕ → ℕ) (w y prediction : ℕ → ℝ)
    (hw : ∀ i < n, 0 ≤ w i) (hy0 : ∀ i < n, 0 ≤ y i) (hp0 : ∀ i < n, 0 ≤ prediction i) (b : ℕ) (my mp : ℝ) (hmy : 0 < my) (hmp : 0 < mp)
    (hy : (preparePlots link n nBins codes w y prediction).yFinite = .fin my)
    (hp : (preparePlots link n nBins codes w y prediction).predictionFinite = .fin mp) :
    (preparePlots link n nBins codes w y prediction).y b = .fin (Real.log
      ((Spec.sumOfBin n codes b (fun i => w i * y i) + 1) / (Spec.sumOfBin n codes b w + 1) / my + 1e-12)) ∧
    (preparePlots link n nBins codes w y prediction).prediction b = .fin (Real.log
      ((Spec.sumOfBin n codes b (fun i => w i * prediction i) + 1) / (Spec.sumOfBin n codes b w + 1) / mp + 1e-12)) := by
  have h0 := sumOfBin_nonneg n codes b w hw
  have h1 := sumOfBin_nonneg n codes b (fun i => w i * y i) fun i hi => mul_nonneg (hw i hi) (hy0 i hi)
  have h2 := sumOfBin_nonneg n codes b (fun i => w i * prediction i) fun i hi => mul_nonneg (hw i hi) (hp0 i hi)
  have hy' : finiteMean n nBins codes w y = .fin my := by simpa [preparePlots, plotDataOf, if_neg hl] using hy
  have hp' : finiteMean n nBins codes w prediction = .fin mp := by simpa [preparePlots, plotDataOf, if_neg hl] using hp
  simp only [preparePlots, plotDataOf, if_neg hl, binnedMean_eq n codes w _ b hw, hy', hp', Flt.quotient, quotientFlt, if_neg hmy.ne',
    if_neg hmp.ne']
  exact ⟨logShifted_pos _ (by positivity), logShifted_pos _ (by positivity)⟩

/-- Witness: three samples, two bins and a bin of missing values. In bin 0 the prediction is too high by 2. -/
example : (preparePlots .identity 3 3 (fun i => i) (fun _ => 1) (fun _ => 1) (fun i => if i = 0 then 3 else 1)).meanDev 0 = .fin 1 := by
  rw [C114_additive _ _ _ _ _ _ (fun _ _ => zero_le_one)]
  norm_num [Spec.sumOfBin, Finset.sum_filter, Finset.sum_range_succ]

/-- Witness: the curve of the predictions of a multiplicative model. -/
example : (preparePlots .log 3 3 (fun i => i) (fun _ => 1) (fun _ => 1) (fun i => if i = 0 then 3 else 1)).prediction 0 =
    .fin (Real.log (1 + 1e-12)) := by
  have hf : (range 3).filter (fun i => i < 3 - 1) = {0, 1} := by decide
  have hm := C114_mean .log 3 3 (fun i => i) (fun _ => 1) (fun _ => 1) (fun i => if i = 0 then 3 else 1) (by norm_num)
    (by rw [hf]; norm_num)
  rw [(C114_curves_multiplicative .log (by decide) 3 3 (fun i => i) (fun _ => 1) (fun _ => 1) (fun i => if i = 0 then 3 else 1)
    (fun _ _ => zero_le_one) (fun _ _ => zero_le_one) (fun i _ => by split <;> norm_num) 0 1 2 (by norm_num) (by norm_num)
    (by rw [hm.1]; rw [hf]; norm_num) (by rw [hm.2]; rw [hf]; norm_num)).2]
  norm_num [Spec.sumOfBin, Finset.sum_filter, Finset.sum_range_succ]

/-- Witness: the same for a multiplicative model: the deviation is positive in bin 0 and 0 in bin 1. -/
example : ∃ d, (preparePlots .log 3 3 (fun i => i) (fun _ => 1) (fun _ => 1) (fun i => if i = 0 then 3 else 1)).meanDev 0 = .fin d ∧ 0 < d := by
  obtain ⟨d, h1, h2, -⟩ := C114_multiplicative .log (by decide) 3 3 (fun i => i) (fun _ => 1) (fun _ => 1) (fun i => if i = 0 then 3 else 1)
    (fun _ _ => zero_le_one) (fun _ _ => zero_le_one) (fun i _ => by split <;> norm_num) 0
  refine ⟨d, h1, h2.mpr ?_⟩
  norm_num [Spec.sumOfBin, Finset.sum_filter, Finset.sum_range_succ]

/-! ### Quantile regressors -/

section
variable {K : Type*} [Field K] [LinearOrder K] [IsStrictOrderedRing K]

theorem insertOne_append (l r : List K) (i : ℕ) (l' : List K) (h : insertOne l i = some l') : insertOne (l ++ r) i = some (l' ++ r) := by
  unfold insertOne at h ⊢
  by_cases hi : i ≤ l.length
  · rw [if_pos hi] at h
    rw [if_pos (by simp; omega)]
    have := Option.some.inj h
    rw [← this]
    congr 1
    clear h this
    induction l generalizing i with
    | nil =>
      have : i = 0 := by simpa using hi
      subst this
      simp
    | cons a l ih =>
      cases i with
      | zero => simp
      | succ i =>
        simp only [List.cons_append, List.insertIdx_succ_cons, List.cons.injEq, true_and]
        exact ih i (by simpa using hi)
  · rw [if_neg hi] at h
    simp at h

theorem foldlM_insertOne_append : ∀ (empty : List ℕ) (l r l' : List K), empty.foldlM insertOne l = some l' →
    empty.foldlM insertOne (l ++ r) = some (l' ++ r) := by
  intro empty
  induction empty with
  | nil =>
    intro l r l' h
    have : l = l' := by simpa using h
    simp [this]
  | cons i empty ih =>
    intro l r l' h
    rw [List.foldlM_cons] at h ⊢
    cases hi : insertOne l i with
    | none => rw [hi] at h; simp at h
    | some m =>
      rw [hi] at h
      rw [insertOne_append l r i m hi]
      exact ih m r l' h

/-- Inserting 1 for the absent bins puts the values of the present ones to their places. -/
theorem insert_absent (present : ℕ → Bool) (v : ℕ → K) : ∀ m : ℕ,
    ((List.range m).filter fun b => !present b).foldlM insertOne (((List.range m).filter present).map v)
      = some ((List.range m).map fun b => if present b then v b else 1) := by
  intro m
  induction m with
  | zero => rfl
  | succ m ih =>
    rw [List.range_succ, List.filter_append, List.filter_append, List.map_append, List.map_append]
    cases hp : present m with
    | true =>
      simp only [hp, List.filter_cons, List.filter_nil, Bool.not_true, Bool.false_eq_true, if_false, if_true, List.append_nil]
      have h := foldlM_insertOne_append _ _ [v m] _ ih
      simpa [hp] using h
    | false =>
      simp only [hp, List.filter_cons, List.filter_nil, Bool.not_false, Bool.false_eq_true, if_false, if_true, List.append_nil,
        List.map_nil, List.foldlM_append]
      rw [ih]
      have h := List.insertIdx_length_self (l := (List.range m).map fun b => if present b then v b else 1) (x := (1 : K))
      rw [List.length_map, List.length_range] at h
      simp [insertOne, h, hp]

theorem targetBins_eq [FloorRing K] (quantile : K) (n top : ℕ) (codes : ℕ → ℕ) (y w : ℕ → K) (l : List K)
    (h : targetBins quantile n top codes y w = some l) :
    l = (List.range (top + 1)).map fun b =>
      if (binMembers n codes b).length ≠ 0 then (targetQuantile quantile n codes y w b).getD 0 else 1 := by
  unfold targetBins at h
  simp only at h
  split at h
  · have := insert_absent (K := K) (fun b => decide ((binMembers n codes b).length ≠ 0))
      (fun b => (targetQuantile quantile n codes y w b).getD 0) (top + 1)
    have e : (fun b => !decide ((binMembers n codes b).length ≠ 0)) = fun b => decide ((binMembers n codes b).length = 0) := by
      funext b
      by_cases hb : (binMembers n codes b).length = 0 <;> simp [hb]
    rw [e] at this
    rw [this] at h
    rw [← Option.some.inj h]
    simp
  · simp at h

theorem mem_binMembers (n : ℕ) (codes : ℕ → ℕ) (b i : ℕ) : i ∈ binMembers n codes b ↔ i < n ∧ codes i = b := by
  simp [binMembers]

theorem binMembers_ne (n : ℕ) (codes : ℕ → ℕ) (b : ℕ) : (binMembers n codes b).length ≠ 0 ↔ ∃ i < n, codes i = b := by
  rw [Ne, List.length_eq_zero_iff, List.eq_nil_iff_forall_not_mem]
  push Not
  exact ⟨fun ⟨i, hi⟩ => ⟨i, (mem_binMembers n codes b i).mp hi⟩, fun ⟨i, hi⟩ => ⟨i, (mem_binMembers n codes b i).mpr hi⟩⟩

theorem max?_codes (n : ℕ) (codes : ℕ → ℕ) (top : ℕ) (h : ((List.range n).map codes).max? = some top) :
    (∃ i < n, codes i = top) ∧ ∀ i < n, codes i ≤ top := by
  rw [List.max?_eq_some_iff] at h
  obtain ⟨h1, h2⟩ := h
  constructor
  · obtain ⟨i, hi, rfl⟩ := List.mem_map.mp h1
    exact ⟨i, List.mem_range.mp hi, rfl⟩
  · intro i hi
    exact h2 _ (List.mem_map.mpr ⟨i, List.mem_range.mpr hi, rfl⟩)

theorem appendOne_get (nBins : ℕ) (l : List K) (b : ℕ) (h : b < l.length) : (appendOne nBins l)[b]? = l[b]? := by
  unfold appendOne
  split
  · rw [List.getElem?_append_left h]
  · rfl

/-- What the two arrays are. -/
theorem quantilePlotBins_eq [FloorRing K] (quantile : K) (n nBins : ℕ) (codes : ℕ → ℕ) (w y prediction : ℕ → K)
    (targets predictions : List K) (h : quantilePlotBins quantile n nBins codes w y prediction = some (targets, predictions)) :
    ∃ top, (∃ i < n, codes i = top) ∧ (∀ i < n, codes i ≤ top) ∧
      targets = appendOne nBins ((List.range (top + 1)).map fun b =>
        if (binMembers n codes b).length ≠ 0 then (targetQuantile quantile n codes y w b).getD 0 else 1) ∧
      predictions = appendOne nBins (predictionBins n top codes w prediction) ∧
      ∀ b, (binMembers n codes b).length ≠ 0 → (targetQuantile quantile n codes y w b).isSome = true := by
  unfold quantilePlotBins at h
  cases hm : ((List.range n).map codes).max? with
  | none => rw [hm] at h; simp at h
  | some top =>
    rw [hm] at h
    simp only at h
    obtain ⟨h1, h2⟩ := max?_codes n codes top hm
    cases ht : targetBins quantile n top codes y w with
    | none => rw [ht] at h; simp at h
    | some l =>
      rw [ht] at h
      simp only [Option.some.injEq, Prod.mk.injEq] at h
      refine ⟨top, h1, h2, by rw [← h.1, targetBins_eq _ _ _ _ _ _ _ ht], h.2.symm, ?_⟩
      intro b hb
      unfold targetBins at ht
      simp only at ht
      split at ht
      · rename_i hall
        rw [List.all_eq_true] at hall
        obtain ⟨i, hi, hc⟩ := (binMembers_ne n codes b).mp hb
        have := h2 i hi
        exact hall b (by simp only [List.mem_filter, List.mem_range]; exact ⟨by omega, by simpa using hb⟩)
      · simp at ht

/-- **C115**: the analysis of a quantile regressor shows, for every bin that has samples, the quantile of their targets, computed as for the
global scale, and their mean weighted prediction (1 if they have no weight); both arrays have the same number of entries. -/
theorem C115_bins [FloorRing K] (quantile : K) (n nBins : ℕ) (codes : ℕ → ℕ) (w y prediction : ℕ → K)
    (targets predictions : List K) (h : quantilePlotBins quantile n nBins codes w y prediction = some (targets, predictions)) :
    targets.length = predictions.length ∧ ∀ b, (∃ i < n, codes i = b) →
      (∃ q, continuousQuantile quantile (sortByTarget (((List.range n).filter fun i => codes i = b).map fun i => (y i, w i))) = some q ∧
        targets[b]? = some q) ∧
      predictions[b]? = some (if ∑ i ∈ (range n).filter (fun i => codes i = b), w i = 0 then 1
        else (∑ i ∈ (range n).filter (fun i => codes i = b), w i * prediction i) / ∑ i ∈ (range n).filter (fun i => codes i = b), w i) := by
  obtain ⟨top, h1, h2, ht, hp, hsome⟩ := quantilePlotBins_eq quantile n nBins codes w y prediction targets predictions h
  constructor
  · rw [ht, hp]
    unfold appendOne predictionBins
    simp only [List.length_map, List.length_range]
    split <;> simp
  · rintro b ⟨i, hi, hb⟩
    have hbt : b < top + 1 := by have := h2 i hi; omega
    have hne := (binMembers_ne n codes b).mpr ⟨i, hi, hb⟩
    constructor
    · obtain ⟨q, hq⟩ := Option.isSome_iff_exists.mp (hsome b hne)
      refine ⟨q, hq, ?_⟩
      rw [ht, appendOne_get _ _ _ (by simpa using hbt), List.getElem?_map, List.getElem?_range hbt]
      simp only [Option.map_some]
      rw [if_pos hne, hq]
      rfl
    · rw [hp, appendOne_get _ _ _ (by simpa [predictionBins] using hbt)]
      unfold predictionBins binSum
      rw [List.getElem?_map, List.getElem?_range hbt]
      simp only [Option.map_some, sum_filter]

/-- **C115**: from these two arrays the analysis computes the deviations and curves. The overall values are the quantile of all targets and the
weighted mean of all predictions. Additive models show differences, multiplicative models (values that are positive) differences of logarithms
and logarithms of quotients. -/
theorem C115_curves (link : LinkKind) (quantile : ℝ) (n nBins : ℕ) (codes : ℕ → ℕ) (w y prediction : ℕ → ℝ)
    (hw : ∑ i ∈ range n, w i ≠ 0) (length : ℕ) (d : PlotData)
    (h : preparePlotsQuantile link quantile n nBins codes w y prediction = some (length, d)) :
    ∃ targets predictions q, quantilePlotBins quantile n nBins codes w y prediction = some (targets, predictions) ∧
      length = targets.length ∧
      continuousQuantile quantile (sortByTarget ((List.range n).map fun i => (y i, w i))) = some q ∧ d.yFinite = .fin q ∧
      d.predictionFinite = .fin ((∑ i ∈ range n, w i * prediction i) / ∑ i ∈ range n, w i) ∧
      ∀ (b : ℕ) (t p : ℝ), targets[b]? = some t → predictions[b]? = some p →
        (link = .identity → d.meanDev b = .fin (p - t) ∧ d.y b = .fin (t - q) ∧
          d.prediction b = .fin (p - (∑ i ∈ range n, w i * prediction i) / ∑ i ∈ range n, w i)) ∧
        (link ≠ .identity → 0 < t → 0 < p → 0 < q → 0 < (∑ i ∈ range n, w i * prediction i) / ∑ i ∈ range n, w i →
          d.meanDev b = .fin (Real.log (p + 1e-12) - Real.log (t + 1e-12)) ∧ d.y b = .fin (Real.log (t / q + 1e-12)) ∧
          d.prediction b = .fin (Real.log (p / ((∑ i ∈ range n, w i * prediction i) / ∑ i ∈ range n, w i) + 1e-12))) := by
  unfold preparePlotsQuantile at h
  split at h
  · rename_i targets predictions q h1 h2
    simp only [Option.some.injEq, Prod.mk.injEq] at h
    obtain ⟨rfl, rfl⟩ := h
    have hm : quotientFlt (∑ i ∈ range n, w i * prediction i) (∑ i ∈ range n, w i) =
        .fin ((∑ i ∈ range n, w i * prediction i) / ∑ i ∈ range n, w i) := by rw [quotientFlt, if_neg hw]
    rw [hm]
    refine ⟨targets, predictions, q, h1, rfl, h2, ?_, ?_, fun b t p ht hp => ⟨fun hl => ?_, fun hl t0 p0 q0 m0 => ?_⟩⟩
    · unfold plotDataOf; split <;> rfl
    · unfold plotDataOf; split <;> rfl
    · have ht' : targets.getD b 1 = t := by simp [List.getD_eq_getElem?_getD, ht]
      have hp' : predictions.getD b 1 = p := by simp [List.getD_eq_getElem?_getD, hp]
      simp only [plotDataOf, if_pos hl, ht', hp', Flt.sub, and_self]
    · have ht' : targets.getD b 1 = t := by simp [List.getD_eq_getElem?_getD, ht]
      have hp' : predictions.getD b 1 = p := by simp [List.getD_eq_getElem?_getD, hp]
      simp only [plotDataOf, if_neg hl, ht', hp', Flt.quotient, quotientFlt, if_neg q0.ne', if_neg m0.ne']
      rw [logShifted_pos p p0, logShifted_pos t t0, logShifted_pos (t / q) (by positivity), logShifted_pos _ (div_pos p0 m0)]
      exact ⟨rfl, rfl, rfl⟩
  · cases h

/-- **C115**: bins without samples show 1 for both. -/
theorem C115_absent [FloorRing K] (quantile : K) (n nBins : ℕ) (codes : ℕ → ℕ) (w y prediction : ℕ → K)
    (targets predictions : List K) (h : quantilePlotBins quantile n nBins codes w y prediction = some (targets, predictions))
    (b : ℕ) (hb : ∀ i < n, codes i ≠ b) : (∀ x, targets[b]? = some x → x = 1) ∧ (∀ x, predictions[b]? = some x → x = 1) := by
  obtain ⟨top, h1, h2, ht, hp, hsome⟩ := quantilePlotBins_eq quantile n nBins codes w y prediction targets predictions h
  have hz : (binMembers n codes b).length = 0 := by
    by_contra hne
    obtain ⟨i, hi, hc⟩ := (binMembers_ne n codes b).mp hne
    exact hb i hi hc
  have hs : binSum n codes w b = 0 := sum_eq_zero fun i hi => if_neg (hb i (mem_range.mp hi))
  have key : ∀ l : List K, (∀ x, l[b]? = some x → x = 1) → ∀ x, (appendOne nBins l)[b]? = some x → x = 1 := by
    intro l hl x hx
    unfold appendOne at hx
    split at hx
    · rcases lt_or_ge b l.length with hlt | hge
      · rw [List.getElem?_append_left hlt] at hx
        exact hl x hx
      · rw [List.getElem?_append_right hge, List.getElem?_singleton] at hx
        split at hx
        · exact (Option.some.inj hx).symm
        · simp at hx
    · exact hl x hx
  constructor
  · rw [ht]
    apply key
    intro x hx
    rw [List.getElem?_map] at hx
    by_cases hbt : b < top + 1
    · rw [List.getElem?_range hbt] at hx
      simpa [List.length_eq_zero_iff.mp hz] using hx.symm
    · rw [List.getElem?_eq_none (by simpa using hbt)] at hx
      simp at hx
  · rw [hp]
    apply key
    intro x hx
    unfold predictionBins at hx
    rw [List.getElem?_map] at hx
    by_cases hbt : b < top + 1
    · rw [List.getElem?_range hbt] at hx
      simpa [hs] using hx.symm
    · rw [List.getElem?_eq_none (by simpa using hbt)] at hx
      simp at hx

/-- The number of entries: one for each of the `nFinite` bins and one for the missing values if the last bin of the feature, or the bin of
missing values, has a sample; otherwise too few. -/
theorem C115_length_partial [FloorRing K] (quantile : K) (n nFinite : ℕ) (codes : ℕ → ℕ) (w y prediction : ℕ → K)
    (hc : ∀ i < n, codes i ≤ nFinite) (targets predictions : List K)
    (h : quantilePlotBins quantile n (nFinite + 1) codes w y prediction = some (targets, predictions)) :
    targets.length = nFinite + 1 ↔ ∃ i < n, nFinite ≤ codes i + 1 := by
  obtain ⟨top, ⟨i, hi, hit⟩, h2, ht, hp, hsome⟩ := quantilePlotBins_eq quantile n _ codes w y prediction targets predictions h
  have hle : top ≤ nFinite := hit ▸ hc i hi
  have hlen : targets.length = if top + 1 + 1 = nFinite + 1 then top + 2 else top + 1 := by
    rw [ht]
    unfold appendOne
    simp only [List.length_map, List.length_range]
    split <;> simp
  rw [hlen]
  constructor
  · intro hh
    refine ⟨i, hi, ?_⟩
    rw [hit]
    split at hh <;> omega
  · rintro ⟨j, hj, hjn⟩
    have := h2 j hj
    split <;> omega

/-- A level between 0 and 1 and weights that are not negative: every non-empty list has a quantile. -/
theorem continuousQuantile_isSome [FloorRing K] (tau : K) (h1 : tau ≤ 1) (l : List (K × K)) (hne : l ≠ [])
    (hw : ∀ s ∈ l, 0 ≤ s.2) : (continuousQuantile tau l).isSome = true := by
  unfold continuousQuantile
  simp only
  have hW : 0 ≤ (l.map Prod.snd).sum := by
    apply List.sum_nonneg
    intro x hx
    obtain ⟨s, hs, rfl⟩ := List.mem_map.mp hx
    exact hw s hs
  cases hf : firstReaching ((l.map Prod.snd).sum * tau) 0 l with
  | none =>
    have := firstReaching_none _ l 0 hne hf
    have h2 := mul_le_mul_of_nonneg_left h1 hW
    linarith
  | some q =>
    simp only
    split <;> rfl

/-- **C115**: the analysis exists for every training set with at least one sample. -/
theorem C115_exists [FloorRing K] (quantile : K) (hq : quantile ≤ 1) (n nBins : ℕ) (hn : 0 < n) (codes : ℕ → ℕ) (w y prediction : ℕ → K)
    (hw : ∀ i < n, 0 ≤ w i) : ∃ r, quantilePlotBins quantile n nBins codes w y prediction = some r := by
  unfold quantilePlotBins
  cases hm : ((List.range n).map codes).max? with
  | none =>
    have := List.max?_eq_none_iff.mp hm
    simp at this
    omega
  | some top =>
    simp only
    cases ht : targetBins quantile n top codes y w with
    | some l => simp
    | none =>
      exfalso
      unfold targetBins at ht
      simp only at ht
      split at ht
      · have := insert_absent (K := K) (fun b => decide ((binMembers n codes b).length ≠ 0))
          (fun b => (targetQuantile quantile n codes y w b).getD 0) (top + 1)
        have e : (fun b => !decide ((binMembers n codes b).length ≠ 0)) = fun b => decide ((binMembers n codes b).length = 0) := by
          funext b
          by_cases hb : (binMembers n codes b).length = 0 <;> simp [hb]
        rw [e] at this
        rw [this] at ht
        simp at ht
      · rename_i hall
        apply hall
        rw [List.all_eq_true]
        intro b hb
        have hne : (binMembers n codes b).length ≠ 0 := by simpa using (List.mem_filter.mp hb).2
        apply continuousQuantile_isSome _ hq
        · intro h0
          have := (List.perm_insertionSort (fun a b : K × K => a.1 ≤ b.1) ((binMembers n codes b).map fun i => (y i, w i))).length_eq
          unfold sortByTarget at h0
          rw [h0] at this
          simp only [List.length_nil, List.length_map] at this
          exact hne this.symm
        · intro s hs
          have := (List.perm_insertionSort (fun a b : K × K => a.1 ≤ b.1) ((binMembers n codes b).map fun i => (y i, w i))).mem_iff.mp hs
          obtain ⟨i, hi, rfl⟩ := List.mem_map.mp this
          exact hw i ((mem_binMembers n codes b i).mp hi).1

/-- **C115**: likewise with the deviations and curves, and there are as many as the arrays have entries. -/
theorem C115_analysis_exists (link : LinkKind) (quantile : ℝ) (hq : quantile ≤ 1) (n nBins : ℕ) (hn : 0 < n) (codes : ℕ → ℕ)
    (w y prediction : ℕ → ℝ) (hw : ∀ i < n, 0 ≤ w i) : ∃ r, preparePlotsQuantile link quantile n nBins codes w y prediction = some r := by
  obtain ⟨⟨t, p⟩, h1⟩ := C115_exists quantile hq n nBins hn codes w y prediction hw
  have hp := List.perm_insertionSort (fun a b : ℝ × ℝ => a.1 ≤ b.1) ((List.range n).map fun i => (y i, w i))
  obtain ⟨q, h2⟩ := Option.isSome_iff_exists.mp (continuousQuantile_isSome quantile hq
    (sortByTarget ((List.range n).map fun i => (y i, w i)))
    (fun h0 => by
      have := hp.length_eq
      unfold sortByTarget at h0
      rw [h0] at this
      simp at this
      omega)
    (fun s hs => by
      obtain ⟨i, hi, rfl⟩ := List.mem_map.mp (hp.mem_iff.mp hs)
      exact hw i (List.mem_range.mp hi)))
  unfold preparePlotsQuantile
  rw [h1, h2]
  exact ⟨_, rfl⟩

/-- The hypotheses of `C115_curves` are met. -/
example : ∃ length d, preparePlotsQuantile .log (1 / 2) 2 3 (fun i => i) (fun _ => 1) (fun i => i + 1) (fun _ => 2) = some (length, d) ∧
    d.predictionFinite = .fin 2 := by
  obtain ⟨⟨length, d⟩, h⟩ := C115_analysis_exists .log (1 / 2) (by norm_num) 2 3 (by norm_num) (fun i => i) (fun _ => 1) (fun i => (i : ℝ) + 1)
    (fun _ => 2) fun _ _ => zero_le_one
  obtain ⟨-, -, -, -, -, -, -, h5, -⟩ := C115_curves .log (1 / 2) 2 3 (fun i => i) (fun _ => 1) (fun i => (i : ℝ) + 1) (fun _ => 2)
    (by norm_num) length d h
  refine ⟨length, d, h, ?_⟩
  rw [h5]
  norm_num

/-- **C115** for samples of weight 1: what is shown for the target of a bin is at least a quantile of the targets of the bin, and exceeds
it by at most 2. -/
theorem C115_unit_weights [FloorRing K] (quantile : K) (h0 : 0 ≤ quantile) (h1 : quantile ≤ 1) (n nBins : ℕ) (codes : ℕ → ℕ) (w y prediction : ℕ → K)
    (hw : ∀ i < n, w i = 1) (targets predictions : List K)
    (h : quantilePlotBins quantile n nBins codes w y prediction = some (targets, predictions)) (b : ℕ) (hb : ∃ i < n, codes i = b) :
    ∃ q r, targets[b]? = some r ∧ Spec.IsQuantile quantile (((List.range n).filter fun i => codes i = b).map fun i => (y i, w i)) q ∧
      q ≤ r ∧ r ≤ q + 2 := by
  obtain ⟨-, hh⟩ := C115_bins quantile n nBins codes w y prediction targets predictions h
  obtain ⟨⟨r, hr, htr⟩, -⟩ := hh b hb
  obtain ⟨i, hi, hc⟩ := hb
  obtain ⟨q, r', hr', hQ, hle, hle2, -⟩ := C56_unit_weights_partial quantile h0 h1
    (((List.range n).filter fun i => codes i = b).map fun i => (y i, w i))
    (sortByTarget (((List.range n).filter fun i => codes i = b).map fun i => (y i, w i))) (by
      intro hnil
      have : (y i, w i) ∈ (((List.range n).filter fun i => codes i = b).map fun i => (y i, w i)) :=
        List.mem_map.mpr ⟨i, by simp [hi, hc], rfl⟩
      rw [hnil] at this
      simp at this) (by
      intro s hs
      obtain ⟨j, hj, rfl⟩ := List.mem_map.mp hs
      exact hw j (List.mem_range.mp (List.mem_filter.mp hj).1)) (List.perm_insertionSort _ _) (by
      rw [List.pairwise_map]
      have : Std.Total (fun a b : K × K => a.1 ≤ b.1) := ⟨fun a b => le_total a.1 b.1⟩
      have : IsTrans (K × K) (fun a b => a.1 ≤ b.1) := ⟨fun a b c hab hbc => le_trans hab hbc⟩
      exact List.pairwise_insertionSort (fun a b : K × K => a.1 ≤ b.1) _)
  rw [hr] at hr'
  rw [← Option.some.inj hr'] at hle hle2
  exact ⟨q, r, htr, hQ, hle, hle2⟩

end

/-- **C115** for features of one column: the arrays have one entry for every bin of the feature. -/
theorem C115_one_column (quantile : ℝ) (X : Table ℝ) (n : ℕ) (c : String) (w y prediction : ℕ → ℝ) (targets predictions : List ℝ)
    (h : quantilePlotBins quantile n ((bindData X n [c] none).2.prod + 1) (fun s => (bindData X n [c] none).1.getD s 0) w y prediction
      = some (targets, predictions)) :
    targets.length = (bindData X n [c] none).2.prod + 1 ∧ predictions.length = (bindData X n [c] none).2.prod + 1 := by
  have hb := bindData_bins X n [c]
  have hcode := fun s (hs : s < n) => bindData_code X n [c] (by simp) s hs
  have hn : 0 < n := by
    rcases Nat.eq_zero_or_pos n with rfl | hpos
    · simp [quantilePlotBins] at h
    · exact hpos
  have key : (∃ i < n, (bindData X n [c] none).2.prod ≤ (bindData X n [c] none).1.getD i 0 + 1) ∧
      ∀ i < n, (bindData X n [c] none).1.getD i 0 ≤ (bindData X n [c] none).2.prod := by
    by_cases hu : usableSamples X n [c] = []
    · rw [if_pos hu] at hb
      constructor
      · exact ⟨0, hn, by rw [hb]; simp⟩
      · intro i hi
        rw [hcode i hi, if_neg]
        intro hf
        have : i ∈ usableSamples X n [c] := by simp [usableSamples, hi, hf]
        rw [hu] at this
        simp at this
    · rw [if_neg hu] at hb
      set codes := (usableSamples X n [c]).map fun s => floorComp ((X.row [c] s).getD 0 .nan) with hcodes
      have hb' : (bindData X n [c] none).2 = [codes.foldl max 0 + 1] := by rw [hb]; rfl
      have hmax : ∃ x ∈ codes, codes.foldl max 0 ≤ x := by
        have : ∀ (l : List ℕ) (a : ℕ), l.foldl max a = a ∨ l.foldl max a ∈ l := by
          intro l
          induction l with
          | nil => intro a; exact Or.inl rfl
          | cons x l ih =>
            intro a
            rw [List.foldl_cons]
            rcases ih (max a x) with h' | h'
            · rcases le_total a x with hax | hax
              · rw [max_eq_right hax] at h' ⊢
                exact Or.inr (by rw [h']; simp)
              · rw [max_eq_left hax] at h' ⊢
                exact Or.inl h'
            · exact Or.inr (List.mem_cons_of_mem _ h')
        rcases this codes 0 with h' | h'
        · obtain ⟨s, hs⟩ := List.exists_mem_of_ne_nil _ hu
          exact ⟨_, List.mem_map.mpr ⟨s, hs, rfl⟩, by rw [h']; exact Nat.zero_le _⟩
        · exact ⟨_, h', le_rfl⟩
      have hval : ∀ s < n, finiteSemiPositive (X.row [c] s) = true →
          (bindData X n [c] none).1.getD s 0 = floorComp ((X.row [c] s).getD 0 .nan) := by
        intro s hs hf
        rw [hcode s hs, if_pos hf, hb']
        simp [encode, Table.row]
      constructor
      · obtain ⟨x, hx, hle⟩ := hmax
        obtain ⟨s, hs, rfl⟩ := List.mem_map.mp hx
        have hs' := List.mem_filter.mp hs
        refine ⟨s, List.mem_range.mp hs'.1, ?_⟩
        rw [hval s (List.mem_range.mp hs'.1) hs'.2, hb']
        simpa using hle
      · intro i hi
        by_cases hf : finiteSemiPositive (X.row [c] i) = true
        · rw [hval i hi hf, hb']
          have := (natFoldlMax_ge codes 0).2 _ (List.mem_map.mpr ⟨i, List.mem_filter.mpr ⟨List.mem_range.mpr hi, hf⟩, rfl⟩)
          simp only [List.prod_cons, List.prod_nil, mul_one]
          exact this.trans (Nat.le_succ _)
        · rw [hcode i hi, if_neg hf]
  have hl := (C115_length_partial quantile n _ _ w y prediction key.2 targets predictions h).mpr key.1
  exact ⟨hl, (C115_bins quantile n _ _ w y prediction targets predictions h).1 ▸ hl⟩

/-- **C115** does not hold for features of several columns: here the table has the rows (0, 0), (0, 1) and (1, 0), hence 2 times 2 bins and one for missing
values, but the arrays have 3 entries, and `np.reshape` in the plot raises. -/
theorem C115_counterexample :
    quantilePlotBins (1 / 2 : ℚ) 3 5 (fun i => i) (fun _ => 1) (fun i => (i : ℚ)) (fun _ => 1) = some ([0, 1, 2], [1, 1, 1]) ∧
      reshapeFinite [2, 2] [(0 : ℚ), 1, 2] = none ∧
      bindData (fun s c => Flt.fin (if s = 1 ∧ c = "b" ∨ s = 2 ∧ c = "a" then (1 : ℚ) else 0)) 3 ["a", "b"] none = ([0, 1, 2], [2, 2]) := by
  decide +kernel

/-- Witness: bin 1 has no samples, bin 3 those with missing values. -/
example : quantilePlotBins (1 / 2 : ℚ) 4 4 (fun i => [0, 0, 2, 3].getD i 0) (fun _ => 1) (fun i => [1, 2, 5, 7].getD i 0) (fun i => [1, 3, 4, 4].getD i 0)
    = some ([1, 1, 5, 7], [2, 1, 4, 4]) := by
  decide +kernel

end CB
