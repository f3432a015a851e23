import Verif.Model.PlotAxes
import Mathlib.Data.List.Infix
import Mathlib.Data.Rat.Floor
import Mathlib.Tactic.Linarith
import Mathlib.Tactic.Positivity
import Mathlib.Tactic.FieldSimp
import Mathlib.Tactic.Ring
import Mathlib.Tactic.Push

/-!
# C116: the axes of analysis plots show what is plotted
-/

set_option autoImplicit false
set_option linter.unusedSectionVars false

namespace CB

section
variable {K : Type*} [Field K] [LinearOrder K] [IsStrictOrderedRing K]

/-- The number of divisions is sufficient, and the distance is scaled into the range from 1 to 20. -/
theorem scaleDown_range : ∀ (fuel : ℕ) (d : K), 1 ≤ d → d ≤ (fuel : K) → 1 ≤ scaleDown fuel d ∧ scaleDown fuel d ≤ 20 := by
  intro fuel
  induction fuel with
  | zero =>
    intro d h1 h2
    simp only [Nat.cast_zero] at h2
    linarith
  | succ fuel ih =>
    intro d h1 h2
    unfold scaleDown
    split
    · rename_i h
      apply ih
      · linarith
      · push_cast at h2
        have : (1 : K) ≤ fuel := by
          have : (19 : K) < fuel := by linarith
          linarith
        linarith
    · rename_i h
      exact ⟨h1, not_lt.mp h⟩

theorem tickLoop_range [FloorRing K] (d : K) : ∀ ns : List ℕ, 12 ≤ tickLoop d ns ∧ tickLoop d ns ≤ 21 := by
  intro ns
  induction ns with
  | nil => simp [tickLoop]
  | cons n ns ih =>
    unfold tickLoop
    split
    · omega
    · exact ih

/-- **C116**: an axis has between 12 and 21 ticks, whatever the distance, including NaN and infinities. -/
theorem C116_ticks [FloorRing K] (distance : Flt K) : 12 ≤ optimalTicks distance ∧ optimalTicks distance ≤ 21 := by
  unfold optimalTicks
  split
  · split
    · omega
    · exact tickLoop_range _ _
  · omega

theorem linspace_first (a b : K) (n : ℕ) (hn : 0 < n) : (linspace a b n).head? = some a := by
  unfold linspace
  cases n with
  | zero => omega
  | succ n => simp [List.range_succ_eq_map]

theorem linspace_last (a b : K) (n : ℕ) (hn : 1 < n) : (linspace a b n).getLast? = some b := by
  unfold linspace
  rw [List.getLast?_map]
  obtain ⟨m, rfl⟩ : ∃ m, n = m + 2 := ⟨n - 2, by omega⟩
  rw [List.range_succ, List.getLast?_concat]
  simp only [Option.map_some, Option.some.injEq, Nat.add_sub_cancel]
  have : ((m + 1 : ℕ) : K) ≠ 0 := by exact_mod_cast Nat.succ_ne_zero m
  show a + ((m + 1 : ℕ) : K) * ((b - a) / ((m + 1 : ℕ) : K)) = b
  field_simp
  ring

theorem linspace_mem (a b : K) (n : ℕ) (hab : a ≤ b) (x : K) (hx : x ∈ linspace a b n) : a ≤ x ∧ x ≤ b := by
  obtain ⟨i, hi, rfl⟩ := List.mem_map.mp hx
  have hin : i < n := List.mem_range.mp hi
  have h0 : 0 ≤ b - a := by linarith
  rcases Nat.lt_or_ge 1 n with hn | hn
  · have hpos : (0 : K) < ((n - 1 : ℕ) : K) := by exact_mod_cast (by omega : 0 < n - 1)
    have hi' : (i : K) ≤ ((n - 1 : ℕ) : K) := by exact_mod_cast (by omega : i ≤ n - 1)
    constructor
    · have : 0 ≤ (i : K) * ((b - a) / ((n - 1 : ℕ) : K)) := by positivity
      linarith
    · have : (i : K) * ((b - a) / ((n - 1 : ℕ) : K)) ≤ ((n - 1 : ℕ) : K) * ((b - a) / ((n - 1 : ℕ) : K)) :=
        mul_le_mul_of_nonneg_right hi' (by positivity)
      rw [mul_div_cancel₀ _ hpos.ne'] at this
      linarith
  · have : i = 0 := by omega
    subst this
    simp [hab]

/-- The axis begins at or below the value `v` and ends at or above it. -/
def Spec.Shows (ticks : List K) (v : K) : Prop := ∃ first last, ticks.head? = some first ∧ ticks.getLast? = some last ∧ first ≤ v ∧ v ≤ last

/-- An axis shows everything between the lowest and the highest value found. -/
theorem yAxis_shows [FloorRing K] (factors : List K) (uncertainties : Option (List K × List K)) (lo hi : K)
    (h : axisExtent factors uncertainties = some (lo, hi)) (v : K) (h1 : lo ≤ v) (h2 : v ≤ hi) :
    ∃ ticks, yAxis factors uncertainties = some ticks ∧ Spec.Shows ticks v := by
  unfold yAxis
  rw [h]
  refine ⟨_, rfl, (⌊lo⌋ : K), (⌈hi⌉ : K), ?_, ?_, (Int.floor_le lo).trans h1, h2.trans (Int.le_ceil hi)⟩
  · apply linspace_first
    have := (C116_ticks (Flt.fin ((⌈hi⌉ : K) - (⌊lo⌋ : K)))).1
    omega
  · apply linspace_last
    have := (C116_ticks (Flt.fin ((⌈hi⌉ : K) - (⌊lo⌋ : K)))).1
    omega

theorem min?_le (l : List K) (m : K) (h : l.min? = some m) : m ∈ l ∧ ∀ x ∈ l, m ≤ x := List.min?_eq_some_iff.mp h

theorem max?_ge (l : List K) (m : K) (h : l.max? = some m) : m ∈ l ∧ ∀ x ∈ l, x ≤ m := List.max?_eq_some_iff.mp h

theorem exists_min? (l : List K) (h : l ≠ []) : ∃ m, l.min? = some m := by
  cases hm : l.min? with
  | none => exact absurd (List.min?_eq_none_iff.mp hm) h
  | some m => exact ⟨m, rfl⟩

theorem exists_max? (l : List K) (h : l ≠ []) : ∃ m, l.max? = some m := by
  cases hm : l.max? with
  | none => exact absurd (List.max?_eq_none_iff.mp hm) h
  | some m => exact ⟨m, rfl⟩

/-- Adding uncertainties that are not negative only widens the axis. -/
theorem axisExtent_covers (f0 f1 : K) (rest : List K) (lower upper : List K) (hl : lower.length = rest.length + 2)
    (hu : upper.length = rest.length + 2) (hlp : ∀ u ∈ lower, 0 ≤ u) (hup : ∀ u ∈ upper, 0 ≤ u) (h01 : f0 ≤ f1) (includeErrors : Bool) :
    ∃ lo hi, axisExtent (f0 :: f1 :: rest) (if includeErrors then some (lower, upper) else none) = some (lo, hi) ∧ lo ≤ f0 ∧ f1 ≤ hi := by
  obtain ⟨last, hlast⟩ : ∃ last, (f0 :: f1 :: rest).getLast? = some last :=
    ⟨_, List.getLast?_eq_some_getLast (by simp)⟩
  have hdl : (f0 :: f1 :: rest).dropLast.length = rest.length + 1 := by simp
  unfold axisExtent
  rw [hlast]
  simp only
  rw [if_pos (by rw [hdl]; omega)]
  cases includeErrors with
  | false =>
    simp only [Bool.false_eq_true, if_false]
    obtain ⟨lo, hlo⟩ := exists_min? (f0 :: f1 :: rest) (by simp)
    obtain ⟨hi, hhi⟩ := exists_max? (f0 :: f1 :: rest) (by simp)
    rw [hlo, hhi]
    exact ⟨lo, hi, rfl, (min?_le _ _ hlo).2 f0 (by simp), (max?_ge _ _ hhi).2 f1 (by simp)⟩
  | true =>
    simp only [if_true]
    have hl' : lower.dropLast.length = (f0 :: f1 :: rest).dropLast.length := by rw [hdl, List.length_dropLast, hl]; omega
    have hu' : upper.dropLast.length = (f0 :: f1 :: rest).dropLast.length := by rw [hdl, List.length_dropLast, hu]; omega
    rw [if_pos ⟨hl', hu'⟩]
    set fl := (f0 :: f1 :: rest).dropLast with hfl
    have hzl : (List.zipWith (fun f u => f - u) fl lower.dropLast).length = rest.length + 1 := by
      rw [List.length_zipWith, hl', hdl]; simp
    have hzu : (List.zipWith (fun f u => f + u) fl upper.dropLast).length = rest.length + 1 := by
      rw [List.length_zipWith, hu', hdl]; simp
    obtain ⟨lo, hlo⟩ := exists_min? (List.zipWith (fun f u => f - u) fl lower.dropLast)
      (by intro h; rw [h] at hzl; simp at hzl)
    obtain ⟨hi, hhi⟩ := exists_max? (List.zipWith (fun f u => f + u) fl upper.dropLast)
      (by intro h; rw [h] at hzu; simp at hzu)
    rw [hlo, hhi]
    refine ⟨_, _, rfl, ?_, ?_⟩
    · apply (min_le_left _ _).trans
      have h0 : fl[0]? = some f0 := by rw [hfl]; cases rest <;> simp
      have hlt : 0 < lower.dropLast.length := by omega
      have hz : (List.zipWith (fun f u => f - u) fl lower.dropLast)[0]? = some (f0 - lower.dropLast[0]) := by
        rw [List.getElem?_zipWith, h0, List.getElem?_eq_getElem hlt]
      have := (min?_le _ _ hlo).2 _ (List.mem_of_getElem? hz)
      have hnn := hlp _ (List.mem_of_mem_dropLast (List.getElem_mem hlt))
      linarith
    · cases rest with
      | nil =>
        have : last = f1 := by simpa using hlast.symm
        rw [this]
        exact le_max_right _ _
      | cons r rest =>
        refine le_trans ?_ (le_max_left _ _)
        have h1 : fl[1]? = some f1 := by rw [hfl]; cases rest <;> simp
        have hlt : 1 < upper.dropLast.length := by rw [hu', hdl]; simp
        have hz : (List.zipWith (fun f u => f + u) fl upper.dropLast)[1]? = some (f1 + upper.dropLast[1]) := by
          rw [List.getElem?_zipWith, h1, List.getElem?_eq_getElem hlt]
        have := (max?_ge _ _ hhi).2 _ (List.mem_of_getElem? hz)
        have hnn := hup _ (List.mem_of_mem_dropLast (List.getElem_mem hlt))
        linarith

/-- **C116**: the plot of a feature of one column shows all factors, all smoothed factors and, if they are plotted, the targets and
predictions of all bins, whether the axis includes the errors or not. -/
theorem C116_values_shown [FloorRing K] (factors smoothed curves : List K) (uncertainties : List K × List K) (includeErrors : Bool)
    (hne : factors ≠ []) (hl : uncertainties.1.length = factors.length) (hu : uncertainties.2.length = factors.length)
    (hlp : ∀ u ∈ uncertainties.1, 0 ≤ u) (hup : ∀ u ∈ uncertainties.2, 0 ≤ u) :
    ∃ ticks, yAxis1d factors smoothed curves uncertainties includeErrors = some ticks ∧
      ∀ v ∈ factors ++ smoothed ++ curves, Spec.Shows ticks v := by
  have hnil : factors ++ smoothed ++ curves ≠ [] := by simp [hne]
  obtain ⟨lo, hlo⟩ := exists_min? _ hnil
  obtain ⟨hi, hhi⟩ := exists_max? _ hnil
  have hle : lo ≤ hi := (min?_le _ _ hlo).2 _ (max?_ge _ _ hhi).1
  have fin : ∀ fs u, (∃ l h, axisExtent fs u = some (l, h) ∧ l ≤ lo ∧ hi ≤ h) →
      ∃ ticks, yAxis fs u = some ticks ∧ ∀ v ∈ factors ++ smoothed ++ curves, Spec.Shows ticks v := by
    rintro fs u ⟨l, h, he, h1, h2⟩
    obtain ⟨ticks, ht, -⟩ := yAxis_shows fs u l h he lo h1 (hle.trans h2)
    refine ⟨ticks, ht, fun v hv => ?_⟩
    obtain ⟨ticks', ht', hs⟩ := yAxis_shows fs u l h he v (h1.trans ((min?_le _ _ hlo).2 v hv)) (((max?_ge _ _ hhi).2 v hv).trans h2)
    rw [ht] at ht'
    rw [Option.some.inj ht']
    exact hs
  unfold yAxis1d
  rw [hlo, hhi]
  simp only
  by_cases hlen : factors.length > 1
  · rw [if_pos hlen]
    apply fin
    exact axisExtent_covers lo hi (factors.drop 2) uncertainties.1 uncertainties.2 (by rw [hl, List.length_drop]; omega)
      (by rw [hu, List.length_drop]; omega) hlp hup hle includeErrors
  · rw [if_neg hlen]
    have h1 : factors.length = 1 := by have := List.length_pos_iff.mpr hne; omega
    apply fin
    exact axisExtent_covers lo hi [] (uncertainties.1 ++ uncertainties.1) (uncertainties.2 ++ uncertainties.2) (by simp [hl, h1])
      (by simp [hu, h1]) (by simpa using hlp) (by simpa using hup) hle includeErrors

/-- **C116**: all ticks lie between the ends of the axis, which are integers. -/
theorem C116_ticks_inside [FloorRing K] (factors : List K) (uncertainties : Option (List K × List K)) (ticks : List K)
    (lo hi : K) (h : axisExtent factors uncertainties = some (lo, hi)) (hle : lo ≤ hi) (ht : yAxis factors uncertainties = some ticks) :
    (∃ a b : ℤ, ticks.head? = some (a : K) ∧ ticks.getLast? = some (b : K) ∧ ∀ x ∈ ticks, (a : K) ≤ x ∧ x ≤ b) ∧
      12 ≤ ticks.length ∧ ticks.length ≤ 21 := by
  have hn := C116_ticks (Flt.fin ((⌈hi⌉ : K) - (⌊lo⌋ : K)))
  unfold yAxis at ht
  rw [h] at ht
  simp only [Option.some.injEq] at ht
  subst ht
  refine ⟨⟨⌊lo⌋, ⌈hi⌉, linspace_first _ _ _ (by omega), linspace_last _ _ _ (by omega), fun x hx => linspace_mem _ _ _ ?_ x hx⟩, ?_⟩
  · exact (Int.floor_le lo).trans (hle.trans (Int.le_ceil hi))
  · unfold linspace
    simp only [List.length_map, List.length_range]
    omega

/-- **C116**: the plots of loss and factor change show all values if none is negative. -/
theorem C116_loss_shown_partial (values : List K) (hne : values ≠ []) (hpos : ∀ v ∈ values, 0 ≤ v) :
    ∃ lo hi, factorPlotsYLimits values = some (lo, hi) ∧ ∀ v ∈ values, lo ≤ v ∧ v ≤ hi := by
  obtain ⟨lo, hlo⟩ := exists_min? _ hne
  obtain ⟨hi, hhi⟩ := exists_max? _ hne
  unfold factorPlotsYLimits
  rw [hlo, hhi]
  refine ⟨_, _, rfl, fun v hv => ?_⟩
  have h1 := (min?_le _ _ hlo).2 v hv
  have h2 := (max?_ge _ _ hhi).2 v hv
  have h3 := hpos _ (min?_le _ _ hlo).1
  have h4 := hpos _ hv
  constructor
  · split
    · linarith [(by norm_num : (0 : K) ≤ 1 / 1000)]
    · have : lo * (1 - 5 / 100) ≤ lo := by
        have : (1 - 5 / 100 : K) ≤ 1 := by norm_num
        nlinarith
      linarith
  · have : (0 : K) ≤ hi * (5 / 100) := mul_nonneg (h4.trans h2) (by norm_num)
    linarith

/-- **C116**: the box for missing values is to the right of the plot, with its middle halfway between the plot and the right edge. -/
theorem C116_missing_box (xmin xmax : K) (h : xmin < xmax) :
    xmax < (missingBox xmin xmax).1 ∧ (missingBox xmin xmax).1 < (missingBox xmin xmax).2 ∧
      (missingBox xmin xmax).1 = (xmax + (missingBox xmin xmax).2) / 2 := by
  have : 0 < (xmax - xmin) * (5 / 100) := mul_pos (sub_pos.mpr h) (by norm_num)
  unfold missingBox
  refine ⟨by linarith, by linarith, by ring⟩

end

/-- **C116** fails for negative values: the lowest and the highest loss are outside of the plot. -/
theorem C116_negative_counterexample : factorPlotsYLimits [(-100 : ℚ), -20] = some (-95, -21) := by decide +kernel

/-- **C116** fails for error bars: the first factor is 5 with an uncertainty of 3, but the axis, although it is to include errors, ends at 5. -/
theorem C116_errors_counterexample : (yAxis1d [(5 : ℚ), 0, 0] [] [] ([3, 0, 0], [3, 0, 0]) true).map (fun t => (t.head?, t.getLast?)) = some (some (-3), some 5) := by
  decide +kernel

/-- Witness for the hypotheses of `C116_values_shown`: the axis of three factors. -/
example : (yAxis1d [(1 : ℚ) / 2, 3, 1] [1, 2, 1] [4, -1] ([1, 1, 1], [1, 1, 1]) true).map (fun t => (t.head?, t.getLast?, t.length)) = some (some (-2), some 5, 15) := by
  decide +kernel

/-- **C116**: a histogram of factors has between 5 and 30 bins. -/
theorem C116_histogram_bins (n : ℕ) : 5 ≤ histogramBins n ∧ histogramBins n ≤ 30 := by
  unfold histogramBins
  omega

/-- **C116**: the histogram of the factors of a feature of two columns has an odd number of bins, from 5 to 31, of equal width, and the neutral factor, 0 in link space, is in the
middle of the middle bin. -/
theorem C116_neutral_centered (nFactors : ℕ) (extremal : ℝ) :
    ∃ m : ℕ, 2 ≤ m ∧ m ≤ 15 ∧ (histogramBoundaries nFactors extremal).length = 2 * m + 2 ∧
      (histogramBoundaries nFactors extremal).head? = some (-extremal) ∧ (histogramBoundaries nFactors extremal).getLast? = some extremal ∧
      ∃ a b : ℝ, (histogramBoundaries nFactors extremal)[m]? = some a ∧ (histogramBoundaries nFactors extremal)[m + 1]? = some b ∧
        a + b = 0 ∧ b - a = 2 * extremal / (2 * m + 1) := by
  have hb := C116_histogram_bins nFactors
  obtain ⟨m, h2, h15, hm⟩ : ∃ m : ℕ, 2 ≤ m ∧ m ≤ 15 ∧
      (if (histogramBins nFactors).toNat % 2 = 0 then (histogramBins nFactors).toNat + 1 else (histogramBins nFactors).toNat) = 2 * m + 1 := by
    refine ⟨(histogramBins nFactors).toNat / 2, by omega, by omega, ?_⟩
    split <;> omega
  have he : histogramBoundaries nFactors extremal = linspace (-extremal) extremal (2 * m + 1 + 1) := by
    unfold histogramBoundaries
    simp only [hm]
  rw [he]
  refine ⟨m, h2, h15, by simp [linspace], linspace_first _ _ _ (by omega), linspace_last _ _ _ (by omega), ?_⟩
  have hpos : (0 : ℝ) < 2 * (m : ℝ) + 1 := by positivity
  refine ⟨_, _, by unfold linspace; rw [List.getElem?_map, List.getElem?_range (by omega)]; rfl,
    by unfold linspace; rw [List.getElem?_map, List.getElem?_range (by omega)]; rfl, ?_, ?_⟩
  · simp only [Nat.add_sub_cancel]
    push_cast
    field_simp
    ring
  · simp only [Nat.add_sub_cancel]
    push_cast
    field_simp
    ring

/-- **C116**: the name of the file of an analysis ends with the extension, and begins with the name given; nothing is added to a name
that has the extension. -/
theorem C116_extension (file extension : List Char) : extension <:+ appendExtension file extension ∧
    file <+: appendExtension file extension ∧ appendExtension (appendExtension file extension) extension = appendExtension file extension := by
  have h1 : extension <:+ appendExtension file extension := by
    unfold appendExtension
    split
    · assumption
    · exact List.suffix_append _ _
  refine ⟨h1, ?_, ?_⟩
  · unfold appendExtension
    split
    · exact List.prefix_rfl
    · exact List.prefix_append _ _
  · conv_lhs => unfold appendExtension
    exact if_pos h1

end CB
