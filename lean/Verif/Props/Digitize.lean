import Mathlib.Tactic.Linarith
import Mathlib.Tactic.FieldSimp
import Mathlib.Tactic.Ring
import Mathlib.Tactic.NormNum
import Mathlib.Algebra.Order.Field.Rat
import Verif.Model.Histogram
import Verif.Spec.Histogram

set_option autoImplicit false
set_option linter.unusedSectionVars false

/-!
C98: binning of predictions for histograms.
-/
namespace CB

variable {K : Type*} [Field K] [LinearOrder K] [IsStrictOrderedRing K]

/-- In a sorted list the entries not above `v` come first. -/
theorem filter_le_sorted (v : K) : ∀ (l : List K), l.Pairwise (· ≤ ·) → ∀ (i : ℕ) (a : K), l[i]? = some a →
    (i < (l.filter (fun b => decide (b ≤ v))).length ↔ a ≤ v) := by
  intro l
  induction l with
  | nil => intro _ i a h; simp at h
  | cons x l ih =>
    intro hs i a h
    rw [List.pairwise_cons] at hs
    by_cases hx : x ≤ v
    · rw [List.filter_cons_of_pos (by simpa using hx), List.length_cons]
      cases i with
      | zero => simp only [List.getElem?_cons_zero, Option.some.injEq] at h; subst h; simp [hx]
      | succ i =>
        rw [List.getElem?_cons_succ] at h
        rw [← ih hs.2 i a h]
        omega
    · have hall : ∀ b ∈ l, ¬ b ≤ v := fun b hb hbv => hx (le_trans (hs.1 b hb) hbv)
      rw [List.filter_cons_of_neg (by simpa using hx),
        List.filter_eq_nil_iff.mpr (by intro b hb; simpa using hall b hb)]
      have ha : a ∈ x :: l := List.mem_of_getElem? h
      have : ¬ a ≤ v := by
        rcases List.mem_cons.mp ha with rfl | hb
        · exact hx
        · exact hall a hb
      simp [this]

theorem max?_sorted : ∀ (l : List K), l.Pairwise (· ≤ ·) → l.max? = l.getLast? := by
  intro l hs
  cases l with
  | nil => rfl
  | cons x l =>
    have hmem : (x :: l).getLast (by simp) ∈ x :: l := List.getLast_mem _
    rw [List.getLast?_eq_some_getLast (by simp)]
    rw [List.max?_eq_some_iff]
    refine ⟨hmem, fun b hb => ?_⟩
    obtain ⟨i, hi, rfl⟩ := List.getElem_of_mem hb
    rw [List.getLast_eq_getElem]
    rcases Nat.lt_or_ge i ((x :: l).length - 1) with h | h
    · exact (List.pairwise_iff_getElem.mp hs) i _ hi (by simp) h
    · have : i = (x :: l).length - 1 := by simp at hi h ⊢; omega
      exact le_of_eq (by congr 1)

theorem filter_length_all (v : K) (l : List K) (h : ∀ b ∈ l, b ≤ v) :
    (l.filter (fun b => decide (b ≤ v))).length = l.length := by
  rw [List.filter_eq_self.mpr (by intro b hb; simpa using h b hb)]

/-- **C98**: `digitize` with sorted boundaries: a value not below the largest boundary gets the last index, a value below the
smallest one gets 0, and any other value the index of the first boundary above it. -/
theorem C98_digitize (bins : List K) (hs : bins.Pairwise (· ≤ ·)) (hne : bins ≠ []) (v : K) :
    ((∀ b ∈ bins, b ≤ v) → digitize bins (.fin v) = bins.length - 1) ∧
    ((∀ b ∈ bins, v < b) → digitize bins (.fin v) = 0) ∧
    (∀ (k : ℕ) (lo hi : K), bins[k]? = some lo → bins[k + 1]? = some hi → lo ≤ v → v < hi → digitize bins (.fin v) = k + 1) := by
  obtain ⟨m, hm⟩ : ∃ m, bins.max? = some m := Option.ne_none_iff_exists'.mp (by simpa [List.max?_eq_none_iff] using hne)
  have hmm := List.max?_eq_some_iff.mp hm
  refine ⟨fun h => ?_, fun h => ?_, fun k lo hi h1 h2 hlo hhi => ?_⟩
  · have : m ≤ v := h m hmm.1
    simp [digitize, atLeastMax, hm, Flt.leOf, this, npDigitize, filter_length_all v bins h]
  · have : ¬ m ≤ v := not_le.mpr (h m hmm.1)
    simp only [digitize, atLeastMax, hm, Flt.leOf, this, npDigitize]
    rw [List.filter_eq_nil_iff.mpr (by intro b hb; simpa using h b hb)]
    simp
  · have hmv : ¬ m ≤ v := not_le.mpr (lt_of_lt_of_le hhi (hmm.2 hi (List.mem_of_getElem? h2)))
    simp only [digitize, atLeastMax, hm, Flt.leOf, hmv, npDigitize]
    have a1 := (filter_le_sorted v bins hs k lo h1).mpr hlo
    have a2 := mt (filter_le_sorted v bins hs (k + 1) hi h2).mp (not_le.mpr hhi)
    simp only [decide_false, Bool.false_eq_true, if_false]
    omega

/-- **C98**: `digitize` respects the order of the values. -/
theorem C98_monotone (bins : List K) (v v' : K) (h : v ≤ v') : digitize bins (.fin v) ≤ digitize bins (.fin v') := by
  have hsub : (bins.filter (fun b => decide (b ≤ v))).length ≤ (bins.filter (fun b => decide (b ≤ v'))).length := by
    rw [← List.countP_eq_length_filter, ← List.countP_eq_length_filter]
    exact List.countP_mono_left (fun b _ hb => by simp only [decide_eq_true_eq] at hb ⊢; exact le_trans hb h)
  unfold digitize
  cases hm : bins.max? with
  | none => simpa [atLeastMax, hm, npDigitize] using hsub
  | some m =>
    have hmm := List.max?_eq_some_iff.mp hm
    by_cases h1 : m ≤ v
    · have h2 := le_trans h1 h
      simp [atLeastMax, hm, Flt.leOf, h1, h2, npDigitize]
      omega
    · by_cases h2 : m ≤ v'
      · simp only [atLeastMax, hm, Flt.leOf, h1, h2, npDigitize, decide_false, decide_true, if_true, Bool.false_eq_true, if_false]
        rw [filter_length_all v' bins (fun b hb => le_trans (hmm.2 b hb) h2)]
        have : (bins.filter (fun b => decide (b ≤ v))).length < bins.length := by
          rw [List.length_filter_lt_length_iff_exists]
          exact ⟨m, hmm.1, by simpa using h1⟩
        omega
      · simpa [atLeastMax, hm, Flt.leOf, h1, h2, npDigitize] using hsub

/-- **C98**: the index is one of the indices of `bins` for every number. -/
theorem C98_range (bins : List K) (hne : bins ≠ []) (v : K) : digitize bins (.fin v) < bins.length := by
  have hl : 0 < bins.length := List.length_pos_of_ne_nil hne
  obtain ⟨m, hm⟩ : ∃ m, bins.max? = some m := Option.ne_none_iff_exists'.mp (by simpa [List.max?_eq_none_iff] using hne)
  have hmm := List.max?_eq_some_iff.mp hm
  unfold digitize
  by_cases h1 : m ≤ v
  · have := List.length_filter_le (fun b => decide (b ≤ v)) bins
    simp only [atLeastMax, hm, Flt.leOf, h1, npDigitize, decide_true, if_true]
    omega
  · simp only [atLeastMax, hm, Flt.leOf, h1, npDigitize, decide_false, Bool.false_eq_true, if_false]
    rw [List.length_filter_lt_length_iff_exists]
    exact ⟨m, hmm.1, by simpa using h1⟩

/-- **C98** fails for NaN: the index lies outside of `bins`. -/
theorem C98_nan (bins : List K) : digitize bins .nan = bins.length := by
  unfold digitize atLeastMax
  cases bins.max? <;> simp [Flt.leOf, npDigitize]

/-- **C98**: infinite values are treated like the largest and the smallest numbers. -/
theorem C98_infinite (bins : List K) (hne : bins ≠ []) : digitize bins .pinf = bins.length - 1 ∧ digitize bins .ninf = 0 := by
  obtain ⟨m, hm⟩ : ∃ m, bins.max? = some m := Option.ne_none_iff_exists'.mp (by simpa [List.max?_eq_none_iff] using hne)
  simp [digitize, atLeastMax, hm, Flt.leOf, npDigitize]

/-! ### Linear bins -/

theorem calcLinearBins_some (x : List K) (nbins : ℕ) (a b : K) (ha : x.min? = some a) (hb : x.max? = some b) :
    ∃ centers, calcLinearBins x nbins
        = some ((List.range (nbins + 1)).map (fun i : ℕ => a + (i : K) * ((b - a) / (nbins : K))), centers) ∧
      centers.length = nbins ∧
      ∀ k < nbins, centers[k]? = some (a + ((k : K) + 1 / 2) * ((b - a) / (nbins : K))) := by
  refine ⟨_, by simp only [calcLinearBins, ha, hb]; rfl, by simp, ?_⟩
  intro k hk
  rw [List.getElem?_zipWith]
  have h1 : ((List.range (nbins + 1)).map (fun i : ℕ => a + (i : K) * ((b - a) / (nbins : K)))).dropLast[k]?
      = some (a + (k : K) * ((b - a) / (nbins : K))) := by
    rw [List.getElem?_dropLast, if_pos (by simpa using hk), List.getElem?_map, List.getElem?_range (by omega)]; rfl
  rw [List.getElem?_drop, h1, List.getElem?_map, List.getElem?_range (by omega)]
  simp only [Option.map_some, Option.some.injEq]
  push_cast
  ring

theorem exists_extrema (x : List K) (v : K) (hv : v ∈ x) : ∃ a b, x.min? = some a ∧ x.max? = some b ∧ a ≤ v ∧ v ≤ b := by
  have hne : x ≠ [] := List.ne_nil_of_mem hv
  obtain ⟨a, ha⟩ : ∃ m, x.min? = some m := Option.ne_none_iff_exists'.mp (by simpa [List.min?_eq_none_iff] using hne)
  obtain ⟨b, hb⟩ : ∃ m, x.max? = some m := Option.ne_none_iff_exists'.mp (by simpa [List.max?_eq_none_iff] using hne)
  exact ⟨a, b, ha, hb, (List.min?_eq_some_iff.mp ha).2 v hv, (List.max?_eq_some_iff.mp hb).2 v hv⟩

theorem linear_sorted (a c : K) (hc : 0 ≤ c) (n : ℕ) :
    ((List.range n).map (fun i : ℕ => a + (i : K) * c)).Pairwise (· ≤ ·) := by
  rw [List.pairwise_map]
  exact List.Pairwise.imp (fun {i j} h => by
    have : (i : K) ≤ (j : K) := by exact_mod_cast le_of_lt h
    have := mul_le_mul_of_nonneg_right this hc
    linarith) List.pairwise_lt_range

theorem digitize_interval (bins : List K) (hs : bins.Pairwise (· ≤ ·)) (n : ℕ) (hn : 0 < n) (hl : bins.length = n + 1) (a b v : K)
    (ha : bins[0]? = some a) (hb : bins[n]? = some b) (hav : a ≤ v) (hvb : v ≤ b) :
    ∃ k < n, digitize bins (.fin v) = k + 1 ∧ Spec.InInterval bins k v := by
  have hlast : bins.max? = some b := by
    rw [max?_sorted bins hs, List.getLast?_eq_getElem?, hl]; exact hb
  have hmm := List.max?_eq_some_iff.mp hlast
  have hpos := (filter_le_sorted v bins hs 0 a ha).mpr hav
  by_cases hbv : b ≤ v
  · have hv : v = b := le_antisymm hvb hbv
    subst hv
    refine ⟨n - 1, by omega, ?_, ?_⟩
    · simp only [digitize, atLeastMax, hlast, Flt.leOf, hbv, npDigitize, decide_true, if_true]
      rw [filter_length_all v bins (fun c hc => hmm.2 c hc), hl]
      omega
    · have hlo : n - 1 < bins.length := by omega
      refine ⟨bins[n - 1], v, List.getElem?_eq_getElem hlo, ?_, hmm.2 _ (List.getElem_mem hlo), le_refl _, fun _ => by omega⟩
      rw [show n - 1 + 1 = n from by omega]; exact hb
  · have hle : (bins.filter (fun c => decide (c ≤ v))).length ≤ n := by
      by_contra hcon
      exact hbv ((filter_le_sorted v bins hs n b hb).mp (by omega))
    set k := (bins.filter (fun c => decide (c ≤ v))).length with hk
    have hlo : k - 1 < bins.length := by omega
    have hhi : k < bins.length := by omega
    refine ⟨k - 1, by omega, ?_, bins[k - 1], bins[k], List.getElem?_eq_getElem hlo, ?_, ?_, ?_, ?_⟩
    · simp only [digitize, atLeastMax, hlast, Flt.leOf, hbv, npDigitize, decide_false, Bool.false_eq_true, if_false]
      omega
    · rw [show k - 1 + 1 = k from by omega]; exact List.getElem?_eq_getElem hhi
    · exact (filter_le_sorted v bins hs (k - 1) _ (List.getElem?_eq_getElem hlo)).mp (by omega)
    · have := mt (filter_le_sorted v bins hs k _ (List.getElem?_eq_getElem hhi)).mpr (by omega)
      exact le_of_lt (not_le.mp this)
    · intro h
      have := mt (filter_le_sorted v bins hs k _ (List.getElem?_eq_getElem hhi)).mpr (by omega)
      exact absurd (le_of_eq h.symm) this

/-- **C98**: each value lies in the histogram bin it is assigned to: bin numbers run from 1 to `nbins`, bin `k + 1` lies between the
boundaries `k` and `k + 1`, all bins have the same width, and the value is at most half a width away from the centre. -/
theorem C98_bin (x : List K) (nbins : ℕ) (hn : 0 < nbins) (v : K) (hv : v ∈ x) :
    ∃ boundaries centers minx maxx, calcLinearBins x nbins = some (boundaries, centers) ∧
      x.min? = some minx ∧ x.max? = some maxx ∧ boundaries.length = nbins + 1 ∧ centers.length = nbins ∧
      ∃ k < nbins, digitize boundaries (.fin v) = k + 1 ∧ Spec.InInterval boundaries k v ∧
        ∃ c, centers[k]? = some c ∧ |v - c| ≤ (maxx - minx) / (2 * (nbins : K)) := by
  obtain ⟨a, b, ha, hb, hav, hvb⟩ := exists_extrema x v hv
  obtain ⟨centers, hcalc, hlen, hcen⟩ := calcLinearBins_some x nbins a b ha hb
  have hnK : (0 : K) < (nbins : K) := by exact_mod_cast hn
  have hc : 0 ≤ (b - a) / (nbins : K) := div_nonneg (by linarith) hnK.le
  obtain ⟨k, hk, hd, hin⟩ := digitize_interval _ (linear_sorted a _ hc (nbins + 1)) nbins hn (by simp) a b v
    (by rw [List.getElem?_map, List.getElem?_range (by omega)]; simp)
    (by rw [List.getElem?_map, List.getElem?_range (by omega)]; simp only [Option.map_some, Option.some.injEq]; field_simp; ring) hav hvb
  refine ⟨_, centers, a, b, hcalc, ha, hb, by simp, hlen, k, hk, hd, hin, _, hcen k hk, ?_⟩
  obtain ⟨lo, hi, h1, h2, h3, h4, -⟩ := hin
  rw [List.getElem?_map, List.getElem?_range (by omega)] at h1 h2
  simp only [Option.map_some, Option.some.injEq] at h1 h2
  have e : (b - a) / (2 * (nbins : K)) = ((b - a) / (nbins : K)) / 2 := by field_simp
  rw [e, abs_le]
  push_cast at h2
  constructor <;> nlinarith

/-- The hypotheses of `C98_bin` are met; the docstring example. -/
example : digitize ([0, 1, 5/2, 4, 10] : List ℚ) (.fin (-1000)) = 0 ∧ digitize ([0, 1, 5/2, 4, 10] : List ℚ) (.fin (32/5)) = 4
    ∧ digitize ([0, 1, 5/2, 4, 10] : List ℚ) (.fin 3) = 3 ∧ digitize ([0, 1, 5/2, 4, 10] : List ℚ) (.fin 1000) = 4 := by
  refine ⟨?_, ?_, ?_, ?_⟩ <;> norm_num [digitize, atLeastMax, npDigitize, Flt.leOf, List.max?, List.filter]

example : calcLinearBins ([0, 1, 3] : List ℚ) 3 = some ([0, 1, 2, 3], [1/2, 3/2, 5/2]) := by
  simp [calcLinearBins, List.range, List.range.loop, List.min?, List.max?]
  norm_num

end CB
