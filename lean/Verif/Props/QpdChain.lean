import Verif.Props.QpdExtended
import Verif.Props.QpdSemibounded
import Verif.Props.QpdBounded

/-!
# C41, C42: the quantile regressor chain
-/

set_option autoImplicit false
set_option linter.unusedSectionVars false

namespace CB

open Spec

/-! ## C41 -/

/-- **C41.**  Whatever real numbers the three estimators return, the predicted
quantiles are strictly ordered and strictly inside the supported range. -/
theorem C41_no_crossing (b : ChainBound) (l u zMed zLow zHigh : ℝ) (hlu : b = .B → l < u) :
    let q := chainPredict b l u zMed zLow zHigh
    l < q.1 ∧ q.1 < q.2.1 ∧ q.2.1 < q.2.2 ∧ (b = .B → q.2.2 < u) := by
  cases b with
  | S =>
    have hm := (C43_semibound_lower l).2.1 zMed
    have hl := (C43_bounded l _ hm).2.1 zLow
    have hh := (C43_semibound_lower (backTransformInSemiboundLower zMed l)).2.1 zHigh
    exact ⟨hl.1, hl.2, hh, fun e => by cases e⟩
  | B =>
    have hm := (C43_bounded l u (hlu rfl)).2.1 zMed
    have hl := (C43_bounded l _ hm.1).2.1 zLow
    have hh := (C43_bounded _ u hm.2).2.1 zHigh
    exact ⟨hl.1, hl.2, hh.1, fun _ => hh.2⟩

/-- The distribution object returned by `predict` in mode "S" is always built,
and (unless the prediction is exactly log-symmetric, see C38) its quantiles at
`alpha`, `1/2` and `1 - alpha` are the predicted ones. -/
theorem C41_qpd_semibounded (phi : Base) (h : SymmetricBase phi) (alpha l u zMed zLow zHigh : ℝ)
    (ha0 : 0 < alpha) (ha1 : alpha < 1 / 2) :
    let q := chainPredict .S l u zMed zLow zHigh
    ∃ d, mkJQPDS phi alpha q.1 q.2.1 q.2.2 l = .ok d ∧
      ((q.1 - l) * (q.2.2 - l) ≠ (q.2.1 - l) ^ 2 →
        HitsTriplet (d.ppf phi) alpha q.1 q.2.1 q.2.2) := by
  intro q
  obtain ⟨h0, h1, h2, -⟩ := C41_no_crossing .S l u zMed zLow zHigh (fun e => by cases e)
  by_cases hs : (q.1 - l) * (q.2.2 - l) = (q.2.1 - l) ^ 2
  · obtain ⟨d, hd, -⟩ := C38_log_symmetric_is_nan phi h alpha _ _ _ l ha0 ha1 h0 h1 h2 hs
    exact ⟨d, hd, fun hn => absurd hs hn⟩
  · obtain ⟨d, hd, ht, -⟩ := C38_jqpd_s_partial phi h alpha _ _ _ l ha0 ha1 h0 h1 h2 hs
    exact ⟨d, hd, fun _ => ht⟩

/-- The same in mode "B". -/
theorem C41_qpd_bounded (phi : Base) (h : SymmetricBase phi) (alpha l u zMed zLow zHigh : ℝ)
    (ha0 : 0 < alpha) (ha1 : alpha < 1 / 2) (hlu : l < u) :
    let q := chainPredict .B l u zMed zLow zHigh
    ∃ d, mkJQPDB phi alpha q.1 q.2.1 q.2.2 l u = .ok d ∧
      (¬ SymmetricOnBase phi q.1 q.2.1 q.2.2 l u →
        HitsTriplet (d.ppf phi) alpha q.1 q.2.1 q.2.2) := by
  intro q
  obtain ⟨h0, h1, h2, h3⟩ := C41_no_crossing .B l u zMed zLow zHigh (fun _ => hlu)
  by_cases hs : SymmetricOnBase phi q.1 q.2.1 q.2.2 l u
  · obtain ⟨d, hd, -⟩ := C39_symmetric_is_nan phi h alpha _ _ _ l u h0 h1 h2 (h3 rfl) hs
    exact ⟨d, hd, fun hn => absurd hs hn⟩
  · obtain ⟨d, hd, ht, -⟩ := C39_jqpd_b_partial phi h alpha _ _ _ l u ha0 ha1 h0 h1 h2 (h3 rfl) hs
    exact ⟨d, hd, fun _ => ht⟩

/-- Monotonicity of the median prediction in the median estimator's output. -/
theorem C41_median_monotone (b : ChainBound) (l u z w : ℝ) (hlu : b = .B → l < u) (h : z < w) :
    chainMedian b l u z < chainMedian b l u w := by
  cases b with
  | S => exact (C43_semibound_lower l).2.2.2 z w h
  | B => exact (C43_bounded l u (hlu rfl)).2.2.2 z w h

/-! ## C42 -/

/-- Median: an estimator that reproduces its training target reproduces `y`. -/
theorem C42_median (b : ChainBound) (l u y : ℝ) (h0 : l < y) (h1 : b = .B → y < u) :
    chainMedian b l u (chainMedianTarget b l u y) = y := by
  cases b with
  | S => exact (C43_semibound_lower l).1 y h0
  | B => exact (C43_bounded l u (lt_trans h0 (h1 rfl))).1 y h0 (h1 rfl)

/-- Lower quantile: with a positive median exactly the rows below the median are
used for training, and an estimator that reproduces its training target
reproduces `y`. -/
theorem C42_low_partial (l y med : ℝ) (hmed : 0 < med) (hl : l < med) (hy : l < y) :
    ((chainLowTarget l y med).isSome ↔ y < med) ∧
      ∀ t, chainLowTarget l y med = some t → chainLow l med t = y := by
  have hiff : y / med < 1 ↔ y < med := div_lt_one hmed
  constructor
  · unfold chainLowTarget
    by_cases h : y / med < 1
    · simp only [h, if_true, Option.isSome_some, true_iff]; exact hiff.mp h
    · simp only [h, if_false, Option.isSome_none, Bool.false_eq_true, false_iff]
      exact fun e => h (hiff.mpr e)
  · intro t ht
    unfold chainLowTarget at ht
    by_cases h : y / med < 1
    · simp only [h, if_true, Option.some.injEq] at ht
      subst ht
      have hym := hiff.mp h
      have e : transformFromBounds (y / med) (l / med) 1 = transformFromBounds y l med := by
        unfold transformFromBounds
        have hml : med - l ≠ 0 := by linarith
        have : (y / med - l / med) / (1 - l / med) = (y - l) / (med - l) := by
          rw [← sub_div, one_sub_div hmed.ne', div_div_div_cancel_right₀ hmed.ne']
        simp only [this]
      rw [e]
      exact (C43_bounded l med hl).1 y hy hym
    · simp [h] at ht

/-- **C42, counterexample (negative median).**  With a negative predicted median,
possible whenever the lower bound is negative, exactly the rows *above* the
median are selected for training the lower quantile. -/
theorem C42_low_negative_median (l y med : ℝ) (hmed : med < 0) :
    (chainLowTarget l y med).isSome ↔ y > med := by
  unfold chainLowTarget
  have hiff : y / med < 1 ↔ med < y := div_lt_one_of_neg hmed
  by_cases h : y / med < 1
  · simp only [h, if_true, Option.isSome_some, true_iff]; exact hiff.mp h
  · simp only [h, if_false, Option.isSome_none, Bool.false_eq_true, false_iff]
    exact fun e => h (hiff.mpr e)

/-- **C42, counterexample (mode "S").**  The upper-quantile model is trained on
`(y - median)/(median - low)`, but the prediction does not multiply by
`median - low` again: an estimator that reproduces its training target
reproduces `y` only if `median - low` is exactly 1. -/
theorem C42_high_semibounded_iff (u y med low : ℝ) (hlow : low < med) (hy : med < y) :
    chainHigh .S u med (transformFromSemiboundLower (chainHighScaled y med low) 0) = y
      ↔ med - low = 1 := by
  have hd : 0 < med - low := by linarith
  have ht : 0 < chainHighScaled y med low := div_pos (by linarith) hd
  have e : chainHigh .S u med (transformFromSemiboundLower (chainHighScaled y med low) 0)
      = med + (y - med) / (med - low) := by
    unfold chainHigh backTransformInSemiboundLower transformFromSemiboundLower nudgeZero
    rw [sub_zero, if_neg ht.ne', Real.exp_log ht]; rfl
  rw [e]
  have hyp : y - med ≠ 0 := by linarith
  constructor
  · intro h
    have : (y - med) / (med - low) = y - med := by linarith
    rw [div_eq_iff hd.ne'] at this
    have : (y - med) * (med - low - 1) = 0 := by linarith
    rcases mul_eq_zero.mp this with h' | h'
    · exact absurd h' hyp
    · linarith
  · intro h; rw [h]; ring

/-- Upper quantile, mode "B": the per-row training target and the prediction are
consistent. -/
theorem C42_high_bounded_row (u y med low : ℝ) (hlow : low < med) (hy : med < y) (hu : y < u) :
    chainHigh .B u med
      (transformFromBounds (chainHighScaled y med low) 0 ((u - med) / (med - low))) = y := by
  have hd : 0 < med - low := by linarith
  have hum : 0 < u - med := by linarith
  have e : transformFromBounds (chainHighScaled y med low) 0 ((u - med) / (med - low))
      = transformFromBounds y med u := by
    unfold transformFromBounds chainHighScaled
    have : ((y - med) / (med - low) - 0) / ((u - med) / (med - low) - 0)
        = (y - med) / (u - med) := by
      rw [sub_zero, sub_zero, div_div_div_cancel_right₀ hd.ne']
    simp only [this]
  rw [e]
  exact (C43_bounded med u (by linarith)).1 y hy hu

/-- **C42 (partial), mode "B".**  If every training row lies above its predicted
median, training of the upper quantile succeeds, and an estimator that reproduces
its training targets reproduces every `y`. -/
theorem C42_high_bounded_partial (u : ℝ) (rows : List ChainRow)
    (h : ∀ r ∈ rows, r.low < r.med ∧ r.med < r.y ∧ r.y < u) :
    ∃ ts, chainHighTargets .B u rows = .ok ts ∧
      List.zipWith (fun (r : ChainRow) t => chainHigh .B u r.med t) rows ts
        = rows.map fun r => r.y := by
  refine ⟨rows.map fun r => transformFromBounds (chainHighScaled r.y r.med r.low) 0
    ((u - r.med) / (r.med - r.low)), ?_, ?_⟩
  · have hf' : (List.filter (fun r => @decide (chainHighScaled r.y r.med r.low > 0)
        (Classical.propDecidable _)) rows) = rows := by
      rw [List.filter_eq_self]
      intro r hr
      obtain ⟨h1, h2, -⟩ := h r hr
      exact decide_eq_true (div_pos (by linarith) (by linarith))
    unfold chainHighTargets
    simp only [hf']
    rw [broadcast, if_pos (by simp)]
    simp [bind, Except.bind, List.zip_map', List.map_map, Function.comp_def]
  · rw [List.zipWith_map_right, List.zipWith_self]
    apply List.map_congr_left
    intro r hr
    obtain ⟨h1, h2, h3⟩ := h r hr
    exact C42_high_bounded_row u r.y r.med r.low h1 h2 h3

open Classical in
/-- **C42, counterexample (mode "B").**  If at least two, but not all, training
rows lie above the predicted median (the normal situation: about half of the rows
do), training of the upper quantile fails with a shape error. -/
theorem C42_high_bounded_crashes (u : ℝ) (rows : List ChainRow)
    (h2 : 2 ≤ (rows.filter fun r => r.low < r.med ∧ r.med < r.y).length)
    (hord : ∀ r ∈ rows, r.low < r.med)
    (hex : ∃ r ∈ rows, r.y ≤ r.med) :
    chainHighTargets .B u rows = .error "operands could not be broadcast together" := by
  have hf : (List.filter (fun r => decide (chainHighScaled r.y r.med r.low > 0)) rows)
      = rows.filter fun r => decide (r.low < r.med ∧ r.med < r.y) := by
    apply List.filter_congr
    intro r hr
    have hlm := hord r hr
    have hd : 0 < r.med - r.low := by linarith
    have : chainHighScaled r.y r.med r.low > 0 ↔ (r.low < r.med ∧ r.med < r.y) := by
      unfold chainHighScaled
      rw [gt_iff_lt, div_pos_iff_of_pos_right hd]
      exact ⟨fun h => ⟨hlm, by linarith⟩, fun h => by linarith [h.2]⟩
    simp only [this]
  have hlt : (rows.filter fun r => decide (r.low < r.med ∧ r.med < r.y)).length < rows.length := by
    apply List.length_filter_lt_length_iff_exists.mpr
    obtain ⟨r, hr, hy⟩ := hex
    refine ⟨r, hr, ?_⟩
    simp only [decide_eq_true_eq, not_and, not_lt]
    exact fun _ => hy
  unfold chainHighTargets
  rw [hf]
  have e : broadcast (List.map (fun r : ChainRow => chainHighScaled r.y r.med r.low)
        (rows.filter fun r => decide (r.low < r.med ∧ r.med < r.y)))
      (rows.map fun r => (u - r.med) / (r.med - r.low))
      = .error "operands could not be broadcast together" := by
    unfold broadcast
    simp only [List.length_map]
    rw [if_neg (by omega), if_neg (by omega), if_neg (by omega)]
  simp only [e]
  rfl

/-- Witness: three rows, two of them above the median, one below. -/
example : chainHighTargets .B 10 [⟨5, 3, 1⟩, ⟨4, 3, 1⟩, ⟨2, 3, 1⟩]
    = .error "operands could not be broadcast together" := by
  apply C42_high_bounded_crashes
  · norm_num [List.filter]
  · intro r hr
    simp only [List.mem_cons, List.not_mem_nil, or_false] at hr
    rcases hr with rfl | rfl | rfl <;> norm_num
  · exact ⟨⟨2, 3, 1⟩, by simp, by norm_num⟩

/-- Witness: rows that meet the hypotheses of the mode "B" theorem. -/
example : ∃ ts, chainHighTargets .B 10 [⟨5, 3, 1⟩, ⟨4, 3, 2⟩] = .ok ts ∧
    List.zipWith (fun (r : ChainRow) t => chainHigh .B 10 r.med t)
      [⟨5, 3, 1⟩, ⟨4, 3, 2⟩] ts = [5, 4] := by
  apply C42_high_bounded_partial
  intro r hr
  simp only [List.mem_cons, List.not_mem_nil, or_false] at hr
  rcases hr with rfl | rfl <;> norm_num

/-- Witness for mode "S": median 4, low 2, target 6 is predicted as 5. -/
example : chainHigh .S 0 4 (transformFromSemiboundLower (chainHighScaled 6 4 2) 0) ≠ 6 := by
  intro h
  have := (C42_high_semibounded_iff 0 6 4 2 (by norm_num) (by norm_num)).mp h
  norm_num at this

/-- Witness for C38: the triplet 1, 2, 10 above 0 with the logistic version. -/
example : ∃ d, mkJQPDS logisticBase 0.2 1 2 10 0 = .ok d ∧
    HitsTriplet (d.ppf logisticBase) 0.2 1 2 10 := by
  obtain ⟨d, h1, h2, -⟩ := C38_jqpd_s_partial logisticBase C58_logistic 0.2 1 2 10 0
    (by norm_num) (by norm_num) (by norm_num) (by norm_num) (by norm_num) (by norm_num)
  exact ⟨d, h1, h2⟩

/-- Witness for the counterexample of C38: 1, 2, 4. -/
example : ∃ d, mkJQPDS logisticBase 0.2 1 2 4 0 = .ok d ∧ ∀ p, d.ppf logisticBase p = none :=
  C38_log_symmetric_is_nan logisticBase C58_logistic 0.2 1 2 4 0
    (by norm_num) (by norm_num) (by norm_num) (by norm_num) (by norm_num) (by norm_num)

/-- Witness for C39: 0.1, 0.5, 0.8 in the unit interval. -/
example : ∃ d, mkJQPDB logisticBase 0.2 0.1 0.5 0.8 0 1 = .ok d ∧
    HitsTriplet (d.ppf logisticBase) 0.2 0.1 0.5 0.8 := by
  obtain ⟨d, h1, h2, -⟩ := C39_jqpd_b_partial logisticBase C58_logistic 0.2 0.1 0.5 0.8 0 1
    (by norm_num) (by norm_num) (by norm_num) (by norm_num) (by norm_num) (by norm_num) (by
      intro hs
      unfold SymmetricOnBase logisticBase at hs
      norm_num at hs
      rw [← Real.log_mul (by norm_num) (by norm_num)] at hs
      have := Real.log_neg (x := 1 / 9 * 4) (by norm_num) (by norm_num)
      linarith)
  exact ⟨d, h1, h2⟩

/-- Witness for the counterexample of C39: 0.2, 0.5, 0.8 in the unit interval. -/
example : SymmetricOnBase logisticBase (0.5 - 0.3) 0.5 (0.5 + 0.3) (0.5 - 0.5) (0.5 + 0.5) :=
  C39_symmetric_occurs logisticBase C58_logistic 0.5 0.5 0.3 (by norm_num) (by norm_num)

end CB
