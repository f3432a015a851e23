import Verif.Lemmas.Cdf
import Verif.Props.BinNumbers
import Mathlib.Tactic.NormNum
import Mathlib.Data.Rat.Floor

set_option autoImplicit false
set_option linter.unusedSectionVars false

/-!
C03 (end to end), C05, C06, C07, C09: fitting the binning.

Throughout, `z` is a column with `none` for NaN and `w` the sample weights.
-/
namespace CB

variable {K : Type*} [Field K] [LinearOrder K] [IsStrictOrderedRing K]

/-- Weights are non-negative and no observed value has total weight zero. -/
def PosWeights (z : List (Option K)) (w : List K) : Prop :=
  z.length = w.length ∧ (∀ p ∈ Spec.samples z w, 0 ≤ p.2) ∧
    ∀ p ∈ Spec.samples z w, ∃ q ∈ Spec.samples z w, q.1 = p.1 ∧ 0 < q.2

/-- The usual case: every weight is positive (without a weight column all weights are 1). -/
theorem PosWeights.of_pos (z : List (Option K)) (w : List K) (hl : z.length = w.length) (hw : ∀ v ∈ w, 0 < v) :
    PosWeights z w :=
  ⟨hl, fun p hp => (samples_weight_pos z w hw p hp).le, fun p hp => ⟨p, hp, rfl, samples_weight_pos z w hw p hp⟩⟩

/-- **C09** (values with positive weight) `calculate_cdf_from_weighted_data` returns the distinct values in ascending
order and, for each of them, the fraction of the weight carried by samples not larger than it; the last one is 1.
The full property also covers values with zero total weight, for which it is false, see
`C09_zero_weight_misaligned`. -/
theorem C09_cdf_partial (z : List (Option K)) (w : List K) (hw : PosWeights z w) :
    ∃ values cdf : List K, calcCdf z w = .ok (values, cdf) ∧ values.length = cdf.length ∧
      values.Pairwise (· < ·) ∧ (∀ v, v ∈ values ↔ some v ∈ z) ∧
      (∀ (k : ℕ) (h : k < values.length) (h' : k < cdf.length),
        cdf[k] = Spec.weightShare (Spec.samples z w) values[k]) ∧
      (∀ h : cdf ≠ [], cdf.getLast h = 1) := by
  obtain ⟨bx, cx, e, h1, h2, h3, _, _, h4, h5⟩ := calcCdf_spec z w hw.1 hw.2.1 hw.2.2
  refine ⟨bx, cx, e, h1, h2, h3, h4, ?_⟩
  intro h
  have hl := List.length_pos_iff.mpr h
  have := h5 hl
  rw [List.getD_eq_getElem _ _ (by omega)] at this
  rw [List.getLast_eq_getElem]
  exact this

example : PosWeights [some (1 : ℚ), some 2, none, some 2] [4, 2, 1, 0] := by
  refine ⟨rfl, ?_, ?_⟩
  · simp [Spec.samples]
  · simp [Spec.samples]

/-- **C09 is false in general**: a value whose samples all have weight zero stays in the list of values but is dropped
from the list of cdf values, so that the two no longer correspond (and the last cdf value belongs to the wrong
value). This is the example of the docstring, shortened. -/
theorem C09_zero_weight_misaligned :
    calcCdf [some (1 : ℚ), some 2, some 3] [1, 0, 1] = .ok ([1, 2, 3], [1/2, 1]) := by
  decide +kernel

/-- With non-negative weights, the two returned lists have the same length exactly when no observed value has total
weight zero: the misalignment above happens for every such column. -/
theorem C09_aligned_iff (z : List (Option K)) (w : List K) (hl : z.length = w.length)
    (h0 : ∀ p ∈ Spec.samples z w, 0 ≤ p.2) (values cdf : List K) (e : calcCdf z w = .ok (values, cdf)) :
    values.length = cdf.length ↔
      ∀ v, some v ∈ z → ∃ q ∈ Spec.samples z w, q.1 = v ∧ 0 < q.2 := by
  have hfst := samples_fst z w hl
  constructor
  · intro hlen v hv
    by_contra hno
    push Not at hno
    unfold calcCdf at e
    rw [if_neg (by simpa using hl)] at e
    simp only [validSamples_eq, Except.ok.injEq, Prod.mk.injEq] at e
    obtain ⟨e1, e2⟩ := e
    rw [← e1, ← e2, List.length_map, cumsumFrom_length] at hlen
    have hlen' := List.length_filter_eq_length_iff.mp (by rw [← hlen, List.length_map])
    have hmem : v ∈ npUnique ((Spec.samples z w).map Prod.fst) := by
      rw [mem_npUnique, hfst]; simpa using hv
    have hne := hlen' (weightOf (Spec.samples z w) v) (List.mem_map.mpr ⟨v, hmem, rfl⟩)
    simp only [ne_eq, decide_eq_true_eq] at hne
    apply hne
    unfold weightOf
    apply List.sum_eq_zero
    intro x hx
    obtain ⟨q, hq, rfl⟩ := List.mem_map.mp hx
    rw [List.mem_filter] at hq
    have h1 := h0 q hq.1
    have h2 := hno q hq.1 (by simpa using hq.2)
    exact le_antisymm h2 h1
  · intro h
    obtain ⟨bx, cx, e', h1, _⟩ := calcCdf_spec z w hl h0 (by
      intro p hp
      apply h p.1
      have : p.1 ∈ z.filterMap id := by rw [← hfst]; exact List.mem_map.mpr ⟨p, hp, rfl⟩
      simpa using this)
    rw [e] at e'
    cases e'
    exact h1

/-! ### Discrete columns -/

theorem foldl_min_le_all (ds : List K) (d : K) : ds.foldl min d ≤ d ∧ ∀ x ∈ ds, ds.foldl min d ≤ x := by
  induction ds generalizing d with
  | nil => simp
  | cons b bs ih =>
    obtain ⟨h1, h2⟩ := ih (min d b)
    simp only [List.foldl_cons, List.mem_cons, forall_eq_or_imp]
    exact ⟨le_trans h1 (min_le_left _ _), le_trans h1 (min_le_right _ _), h2⟩

theorem foldl_min_pos (ds : List K) (d : K) (hd : 0 < d) (h : ∀ x ∈ ds, 0 < x) : 0 < ds.foldl min d := by
  induction ds generalizing d with
  | nil => simpa
  | cons b bs ih =>
    exact ih (min d b) (lt_min hd (h b (by simp))) (fun x hx => h x (by simp [hx]))

theorem minimalDifference_pos (values : List K) : 0 < minimalDifference values := by
  unfold minimalDifference
  simp only
  split
  · exact one_pos
  · rename_i d ds hd
    have hall : ∀ x ∈ d :: ds, 0 < x := by
      intro x hx
      rw [← hd, List.mem_filter] at hx
      simpa using hx.2
    exact foldl_min_pos ds d (hall d (by simp)) (fun x hx => hall x (by simp [hx]))

/-- Consecutive boundaries that differ, differ by at least the minimal difference. -/
theorem minimalDifference_le (values : List K) (i : ℕ) (hi : i + 1 < values.length)
    (hlt : values[i] < values[i + 1]) : minimalDifference values ≤ values[i + 1] - values[i] := by
  unfold minimalDifference
  simp only
  have hmem : values[i + 1] - values[i] ∈
      (List.zipWith (fun a b => b - a) values values.tail).filter (fun d => decide (0 < d)) := by
    rw [List.mem_filter]
    refine ⟨?_, by simpa using hlt⟩
    rw [List.mem_iff_getElem]
    refine ⟨i, by simp; omega, by simp⟩
  split
  · rename_i h
    rw [h] at hmem
    simp at hmem
  · rename_i d ds h
    rw [h] at hmem
    have := foldl_min_le_all ds d
    rcases List.mem_cons.mp hmem with e | e
    · rw [e]; exact this.1
    · exact this.2 _ e

/-- In a sorted list of boundaries any two different entries are at least the minimal difference apart. -/
theorem minimalDifference_le_of_lt (values : List K) (hs : Spec.Sorted values) (i j : ℕ) (hij : i < j)
    (hj : j < values.length) (hlt : values[i] < values[j]) :
    minimalDifference values ≤ values[j] - values[i] := by
  induction j, hij using Nat.le_induction with
  | base => exact minimalDifference_le values i hj hlt
  | succ j hij ih =>
    have h1 := sorted_get hs (i := j) (j := j + 1) (by omega) hj
    rcases lt_or_ge values[i] (values[j]'(by omega)) with h | h
    · have := ih (by omega) h
      linarith
    · have h3 : values[i] = values[j]'(by omega) :=
        le_antisymm (sorted_get hs (by omega) (by omega)) h
      have := minimalDifference_le values j hj (by rw [← h3]; exact hlt)
      rw [h3]; exact this

theorem rank_of_strict (us : List K) (hs : us.Pairwise (· < ·)) (k : ℕ) (hk : k < us.length) :
    (us.toFinset.filter (· < us[k])).card = k := by
  have hp := List.pairwise_iff_getElem.mp hs
  have : us.toFinset.filter (· < us[k]) = (us.take k).toFinset := by
    ext v
    simp only [Finset.mem_filter, List.mem_toFinset]
    constructor
    · rintro ⟨hv, hlt⟩
      obtain ⟨i, hi, rfl⟩ := List.getElem_of_mem hv
      rw [List.mem_take_iff_getElem]
      refine ⟨i, ?_, rfl⟩
      have : i < k := by
        by_contra h
        exact absurd hlt (not_lt.mpr (sorted_get (strict_sorted hs) (by omega) hi))
      omega
    · intro hv
      rw [List.mem_take_iff_getElem] at hv
      obtain ⟨i, hi, rfl⟩ := hv
      exact ⟨List.getElem_mem _, hp i k (by omega) hk (by omega)⟩
  rw [this, List.toFinset_card_of_nodup, List.length_take]
  · omega
  · exact ((List.take_sublist _ _).nodup (hs.imp (fun h => ne_of_lt h)))

section
variable [FloorRing K]

/-- What `fit` stores for a discrete column. -/
theorem fitColumn_discrete (z : List (Option K)) (w : List K) (hw : PosWeights z w) (nBins : ℕ) (eps tol : K)
    (hne : ∃ v, some v ∈ z) :
    ∃ (b0 : K) (values cdf : List K), fitColumn true z w nBins eps tol =
        .ok ⟨eps * minimalDifference (b0 :: values), some (b0 :: values, 0 :: cdf)⟩ ∧
      values.Pairwise (· < ·) ∧ (∀ v, v ∈ values ↔ some v ∈ z) ∧ values.head? = some b0 ∧
      values.length = cdf.length ∧
      ∀ (k : ℕ) (h : k < values.length) (h' : k < cdf.length), cdf[k] = Spec.weightShare (Spec.samples z w) values[k] := by
  obtain ⟨bx, cx, e, h1, h2, h3, -, -, h6, -⟩ := calcCdf_spec z w hw.1 hw.2.1 hw.2.2
  obtain ⟨v, hv⟩ := hne
  have hbx : v ∈ bx := (h3 v).mpr hv
  cases bx with
  | nil => simp at hbx
  | cons b0 bx =>
    refine ⟨b0, b0 :: bx, cx, ?_, h2, h3, rfl, h1, h6⟩
    unfold fitColumn
    rw [e]
    simp only [if_true]
    rw [if_neg (by simp at h1 ⊢; intro h; rw [h] at h1; simp at h1)]
    simp [h1]

/-- **C03** End to end: after fitting a discrete column with any positive weights and an epsilon below one, every
observed value is mapped to its rank among the distinct observed values, and every value that is farther than
`epsilon` times the smallest spacing from all observed values is mapped to `-1`. -/
theorem C03_rank (z : List (Option K)) (w : List K) (hw : PosWeights z w) (nBins : ℕ) (eps tol : K)
    (heps : 0 ≤ eps) (heps1 : eps < 1) (hne : ∃ v, some v ∈ z) :
    ∃ (e : K) (table : List K × List K), fitColumn true z w nBins eps tol = .ok ⟨e, some table⟩ ∧
      (∀ a b : K, some a ∈ z → some b ∈ z → a ≠ b → e ≤ eps * |a - b|) ∧
      ∀ (magic : Bool) (x : K), (magic = true → x ≠ -9 ∧ x ≠ -999) →
        (some x ∈ z → binNumber false magic e (some table.1) (.fin x) = .ok (Spec.rankIn z x : Int)) ∧
        ((∀ v, some v ∈ z → e < |v - x|) → binNumber false magic e (some table.1) (.fin x) = .ok (-1)) := by
  obtain ⟨b0, values, cdf, ef, hs, hm, hb0, hvc, -⟩ := fitColumn_discrete z w hw nBins eps tol hne
  have hne' : values ≠ [] := by
    intro h; rw [h] at hb0; simp at hb0
  have hsort : Spec.Sorted (b0 :: values) := by
    cases values with
    | nil => simp at hne'
    | cons c cs =>
      simp only [List.head?_cons, Option.some.injEq] at hb0
      subst hb0
      unfold Spec.Sorted
      rw [List.pairwise_cons]
      refine ⟨?_, strict_sorted hs⟩
      intro a ha
      rcases List.mem_cons.mp ha with rfl | ha
      · exact le_refl _
      · exact le_of_lt ((List.pairwise_cons.mp hs).1 a ha)
  have hmd := minimalDifference_pos (b0 :: values)
  have hgap : ∀ (i j : ℕ) (hj : j < values.length) (hij : i < j),
      minimalDifference (b0 :: values) ≤ values[j] - values[i] := by
    intro i j hj hij
    have := minimalDifference_le_of_lt (b0 :: values) hsort (i + 1) (j + 1) (by omega) (by simpa using hj)
      (by simpa using List.pairwise_iff_getElem.mp hs i j (by omega) hj hij)
    simpa using this
  have hgapv : ∀ a b : K, some a ∈ z → some b ∈ z → a ≠ b → minimalDifference (b0 :: values) ≤ |a - b| := by
    intro a b ha hb hab
    obtain ⟨i, hi, rfl⟩ := List.getElem_of_mem ((hm a).mpr ha)
    obtain ⟨j, hj, rfl⟩ := List.getElem_of_mem ((hm b).mpr hb)
    rcases Nat.lt_trichotomy i j with h | h | h
    · rw [abs_sub_comm]
      exact le_trans (hgap i j hj h) (le_abs_self _)
    · subst h; exact absurd rfl hab
    · exact le_trans (hgap j i hi h) (le_abs_self _)
  refine ⟨_, _, ef, ?_, ?_⟩
  · intro a b ha hb hab
    exact mul_le_mul_of_nonneg_left (hgapv a b ha hb hab) heps
  · intro magic x hx
    have key := C03_discrete_bin b0 values (strict_sorted hs) hne' magic (eps * minimalDifference (b0 :: values)) x hx
    constructor
    · intro hxz
      obtain ⟨j, hj, hjx⟩ := List.getElem_of_mem ((hm x).mpr hxz)
      have he0 : 0 ≤ eps * minimalDifference (b0 :: values) := mul_nonneg heps hmd.le
      rcases key with ⟨k, hk, e, h1, h2⟩ | ⟨_, h1⟩
      · have hkj : k = j := by
          by_contra hkj
          have hkx : values[k] ≠ x := by
            intro h
            rw [← hjx] at h
            exact hkj ((List.Nodup.getElem_inj_iff (hs.imp (fun h => ne_of_lt h))).mp h)
          have h3 := hgapv values[k] x ((hm _).mp (List.getElem_mem _)) hxz hkx
          have h4 : eps * minimalDifference (b0 :: values) < 1 * minimalDifference (b0 :: values) :=
            mul_lt_mul_of_pos_right heps1 hmd
          linarith
        simp only
        rw [e, hkj]
        have hr := rank_of_strict values hs j hj
        rw [hjx] at hr
        have : Spec.rankIn z x = j := by
          unfold Spec.rankIn
          rw [← hr]
          congr 2
          ext v
          simp only [List.mem_toFinset, List.mem_filterMap, id_eq, exists_eq_right]
          exact (hm v).symm
        rw [this]
      · have := h1 values[j] (List.getElem_mem _)
        rw [hjx, sub_self, abs_zero] at this
        exact absurd this (not_lt.mpr he0)
    · intro hfar
      rcases key with ⟨k, hk, e, h1, h2⟩ | ⟨e, _⟩
      · exact absurd (hfar _ ((hm _).mp (List.getElem_mem _))) (not_lt.mpr h1)
      · exact e

example : fitColumn true [some (12 : ℚ), some 10, none, some 11, some 10] [1, 1, 1, 1, 1] 100 (1/1000) (1/10)
    = .ok ⟨1/1000, some ([10, 10, 11, 12], [0, 1/2, 3/4, 1])⟩ := by decide +kernel

/-! ### Continuous columns -/

theorem shareBetween_none (zw : List (K × K)) (hi : K) :
    Spec.shareBetween zw none hi = Spec.weightShare zw hi := by
  simp [Spec.shareBetween, Spec.weightShare]

theorem shareBetween_some (zw : List (K × K)) (lo hi : K) (h : lo ≤ hi) :
    Spec.shareBetween zw (some lo) hi = Spec.weightShare zw hi - Spec.weightShare zw lo := by
  unfold Spec.shareBetween Spec.weightShare
  rw [← sub_div]
  congr 1
  rw [eq_sub_iff_add_eq]
  apply weightOf_disjoint
  · intro a _ h
    simp only [Option.all_some, Bool.and_eq_true, decide_eq_true_eq] at h
    exact absurd h.1.1 (not_lt.mpr h.2)
  · intro a _
    simp only [Option.all_some]
    rcases lt_or_ge lo a.1 with h1 | h1
    · simp [h1, not_le.mpr h1]
    · simp [h1, not_lt.mpr h1, le_trans h1 h]

theorem shareBetween_nonneg (zw : List (K × K)) (h0 : ∀ p ∈ zw, 0 ≤ p.2) (lo : Option K) (hi : K) :
    0 ≤ Spec.shareBetween zw lo hi := by
  unfold Spec.shareBetween
  apply div_nonneg
  · apply List.sum_nonneg
    intro x hx
    obtain ⟨q, hq, rfl⟩ := List.mem_map.mp hx
    exact h0 q (List.mem_filter.mp hq).1
  · apply List.sum_nonneg
    intro x hx
    obtain ⟨q, hq, rfl⟩ := List.mem_map.mp hx
    exact h0 q hq

/-- **C05** Fitting a continuous column always succeeds for `n_bins >= 2`, whatever the column, the positive weights,
epsilon and the non-negative tolerance: there is at least one and at most `n_bins` bins, the boundaries are sorted and
are observed values, and the first boundary is the smallest observed value. Every stored cdf value is the true weight
share up to its boundary. -/
theorem C05_reduced_bins (z : List (Option K)) (w : List K) (hw : PosWeights z w) (hne : ∃ v, some v ∈ z)
    (nBins : ℕ) (hN : 2 ≤ nBins) (eps tol : K) (htol : 0 ≤ tol) :
    ∃ (e b0 : K) (upper cdf : List K),
      fitColumn false z w nBins eps tol = .ok ⟨e, some (b0 :: upper, 0 :: cdf)⟩ ∧
      1 ≤ upper.length ∧ upper.length ≤ nBins ∧ upper.length = cdf.length ∧
      Spec.Sorted (b0 :: upper) ∧ (∀ b ∈ upper, some b ∈ z) ∧ Spec.IsMin (z.filterMap id) b0 ∧
      (∀ (k : ℕ) (h : k < upper.length) (h' : k < cdf.length),
        cdf[k] = Spec.weightShare (Spec.samples z w) upper[k]) := by
  obtain ⟨bx, cx, e, h1, h2, h3, h4, h5, h6, h7⟩ := calcCdf_spec z w hw.1 hw.2.1 hw.2.2
  obtain ⟨v, hv⟩ := hne
  have hbx : v ∈ bx := (h3 v).mpr hv
  cases hbx0 : bx with
  | nil => rw [hbx0] at hbx; simp at hbx
  | cons b0 bxt =>
    have hn : 0 < cx.length := by rw [← h1, hbx0]; simp
    obtain ⟨js, er, hlt, hmono, hnil, hle⟩ :=
      reduceLoop_weak bx cx nBins eps tol hN h1 hn h4 (h7 hn) htol b0 nBins [] (by simp) (by simp) (by simp)
    have hred : reduceCdf bx cx nBins eps tol
        = .ok (b0 :: js.map (fun j => bx.getD j 0), 0 :: js.map (fun j => cx.getD j 0)) := by
      unfold reduceCdf
      rw [if_neg (by omega), hbx0]
      simp only
      rw [← hbx0]
      exact er
    have hb0 : bx[0]'(by omega) = b0 := by simp [hbx0]
    refine ⟨eps * minimalDifference (b0 :: js.map (fun j => bx.getD j 0)), b0, js.map (fun j => bx.getD j 0),
      js.map (fun j => cx.getD j 0), ?_, ?_, ?_, ?_, ?_, ?_, ?_, ?_⟩
    · unfold fitColumn
      rw [e]
      simp only [Bool.false_eq_true, if_false]
      rw [if_neg (by omega), hred]
      simp
    · rw [List.length_map]
      exact List.length_pos_iff.mpr hnil
    · simpa using hle
    · simp
    · unfold Spec.Sorted
      rw [List.pairwise_cons]
      constructor
      · intro a ha
        obtain ⟨j, hj, rfl⟩ := List.mem_map.mp ha
        have hj' := hlt j hj
        rw [List.getD_eq_getElem _ _ (by omega), ← hb0]
        exact sorted_get (strict_sorted h2) (by omega) (by omega)
      · rw [List.pairwise_map]
        refine List.Pairwise.imp_of_mem ?_ hmono
        intro i j hi hj hij
        have hj' := hlt j hj
        exact getD_mono h2 hij (by omega)
    · intro b hb
      obtain ⟨j, hj, rfl⟩ := List.mem_map.mp hb
      have hj' := hlt j hj
      rw [← h3, List.getD_eq_getElem _ _ (by omega)]
      exact List.getElem_mem _
    · constructor
      · simp only [List.mem_filterMap, id_eq, exists_eq_right]
        rw [← h3, hbx0]; simp
      · intro u hu
        simp only [List.mem_filterMap, id_eq, exists_eq_right] at hu
        rw [← h3] at hu
        obtain ⟨i, hi, rfl⟩ := List.getElem_of_mem hu
        rw [← hb0]
        exact sorted_get (strict_sorted h2) (by omega) (by omega)
    · intro k h h'
      simp only [List.getElem_map]
      have hk : k < js.length := by simpa using h
      have hj := hlt js[k] (List.getElem_mem _)
      rw [List.getD_eq_getElem _ _ hj, List.getD_eq_getElem _ _ (by omega)]
      exact h6 _ (by omega) hj

/-- **C05** `n_bins < 2` is rejected. -/
theorem C05_too_few_bins (z : List (Option K)) (w : List K) (hw : PosWeights z w) (hne : ∃ v, some v ∈ z)
    (nBins : ℕ) (hN : nBins < 2) (eps tol : K) : fitColumn false z w nBins eps tol = .error .valueError := by
  obtain ⟨bx, cx, e, h1, h2, h3, _⟩ := calcCdf_spec z w hw.1 hw.2.1 hw.2.2
  obtain ⟨v, hv⟩ := hne
  have hbx : v ∈ bx := (h3 v).mpr hv
  have hl : 0 < bx.length := List.length_pos_of_mem hbx
  unfold fitColumn
  rw [e]
  simp only [Bool.false_eq_true, if_false]
  rw [if_neg (by omega)]
  unfold reduceCdf
  rw [if_pos hN]

example : fitColumn false [some (2.1 : ℚ), some 2.2, some 2.5, some 3.1, some 3.3, some 3.7, some 4.1, some 4.4]
    [1, 1, 1, 1, 1, 1, 1, 1] 4 (1/100000000) (1/10)
    = .ok ⟨1/1000000000, some ([2.1, 2.2, 3.1, 3.7, 4.4], [0, 1/4, 1/2, 3/4, 1])⟩ := by decide +kernel

/-- The strong form of the result of `fit` for a small epsilon. -/
theorem fitColumn_selected (z : List (Option K)) (w : List K) (hw : PosWeights z w) (hne : ∃ v, some v ∈ z)
    (nBins : ℕ) (hN : 2 ≤ nBins) (eps tol : K) (heps : 0 ≤ eps) (htol : 0 ≤ tol) (htol1 : tol < 1)
    (hsmall : eps < (1 - tol) * (1 / nBins)) :
    ∃ (e b0 : K) (bx cx : List K) (js : List ℕ),
      fitColumn false z w nBins eps tol = .ok ⟨e, some (b0 :: js.map (fun j => bx.getD j 0),
        0 :: js.map (fun j => cx.getD j 0))⟩ ∧
      Selected cx ((1 - tol) * (1 / nBins) - eps) js ∧ js ≠ [] ∧ bx.length = cx.length ∧
      bx.Pairwise (· < ·) ∧ (∀ v, v ∈ bx ↔ some v ∈ z) ∧ cx.Pairwise (· < ·) ∧
      (∀ k, k < cx.length → cx.getD k 0 = Spec.weightShare (Spec.samples z w) (bx.getD k 0)) ∧
      cx.getD (cx.length - 1) 0 = 1 ∧
      ((nBins : K) * eps < (1 - tol) * (1 / nBins) → 1 - nBins * eps ≤ prevOf cx js) := by
  obtain ⟨bx, cx, e, h1, h2, h3, h4, h5, h6, h7⟩ := calcCdf_spec z w hw.1 hw.2.1 hw.2.2
  obtain ⟨v, hv⟩ := hne
  have hbx : v ∈ bx := (h3 v).mpr hv
  cases hbx0 : bx with
  | nil => rw [hbx0] at hbx; simp at hbx
  | cons b0 bxt =>
    have hn : 0 < cx.length := by rw [← h1, hbx0]; simp
    have hN0 : (0 : K) < nBins := by
      have : 0 < nBins := by omega
      exact_mod_cast this
    obtain ⟨js, er, hsel, hnil, hle, hlow⟩ :=
      reduceLoop_spec bx cx nBins eps tol hN h1 hn h4 (h7 hn) heps htol htol1 hsmall b0 nBins []
        ⟨by simp, by simp, by simp⟩ (by simp) (by intro _; simp [prevOf])
    have hred : reduceCdf bx cx nBins eps tol
        = .ok (b0 :: js.map (fun j => bx.getD j 0), 0 :: js.map (fun j => cx.getD j 0)) := by
      unfold reduceCdf
      rw [if_neg (by omega), hbx0]
      simp only
      rw [← hbx0]
      exact er
    refine ⟨eps * minimalDifference (b0 :: js.map (fun j => bx.getD j 0)), b0, bx, cx, js, ?_, hsel, hnil, h1, h2, h3,
      h4, ?_, h7 hn, hlow⟩
    · unfold fitColumn
      rw [e]
      simp only [Bool.false_eq_true, if_false]
      rw [if_neg (by omega), hred]
      simp
    · intro k hk
      rw [List.getD_eq_getElem _ _ hk, List.getD_eq_getElem _ _ (by omega)]
      exact h6 k (by omega) hk

/-- **C06** Every bin of a continuous column carries at least `(1 - tolerance) / n_bins - epsilon` of the total weight,
including the last one. Bin `k` collects the samples above the upper boundary of bin `k - 1` and not above its own. -/
theorem C06_min_weight (z : List (Option K)) (w : List K) (hw : PosWeights z w) (hne : ∃ v, some v ∈ z)
    (nBins : ℕ) (hN : 2 ≤ nBins) (eps tol : K) (heps : 0 ≤ eps) (htol : 0 ≤ tol) (htol1 : tol < 1)
    (e b0 : K) (upper cdf : List K)
    (hfit : fitColumn false z w nBins eps tol = .ok ⟨e, some (b0 :: upper, 0 :: cdf)⟩)
    (k : ℕ) (hk : k < upper.length) :
    (1 - tol) / nBins - eps ≤
      Spec.shareBetween (Spec.samples z w) (if k = 0 then none else some (upper.getD (k - 1) 0)) upper[k] := by
  rw [div_eq_mul_one_div]
  by_cases hsmall : eps < (1 - tol) * (1 / nBins)
  · obtain ⟨e', b0', bx, cx, js, hf, hsel, hnil, hlen, hbs, hmem, hcs, hsh, hlast, _⟩ :=
      fitColumn_selected z w hw hne nBins hN eps tol heps htol htol1 hsmall
    rw [hfit] at hf
    simp only [Except.ok.injEq, ColFit.mk.injEq, Option.some.injEq, Prod.mk.injEq, List.cons.injEq] at hf
    obtain ⟨_, ⟨_, rfl⟩, _, rfl⟩ := hf
    have hkj : k < js.length := by simpa using hk
    have hjk := hsel.lt js[k] (List.getElem_mem _)
    have hg := List.pairwise_iff_getElem.mp hsel.gaps
    rw [List.getElem_map]
    by_cases h0 : k = 0
    · subst h0
      rw [if_pos rfl, shareBetween_none, ← hsh _ hjk]
      have := hg 0 1 (by simp) (by simp; omega) (by omega)
      simp only [List.getElem_cons_zero, List.getElem_cons_succ, List.getElem_map] at this
      linarith
    · rw [if_neg h0]
      have hjk' := hsel.lt js[k - 1] (List.getElem_mem _)
      have hlt := List.pairwise_iff_getElem.mp hsel.strict (k - 1) k (by omega) (by omega) (by omega)
      have hgd : (js.map (fun j => bx.getD j 0)).getD (k - 1) 0 = bx.getD js[k - 1] 0 := by
        rw [List.getD_eq_getElem _ _ (by simp; omega), List.getElem_map]
      rw [hgd, shareBetween_some _ _ _ (getD_strict hbs hlt (by omega)).le, ← hsh _ hjk, ← hsh _ hjk']
      have := hg k (k + 1) (by simp; omega) (by simp; omega) (by omega)
      simp only [List.getElem_cons_succ, List.getElem_map] at this
      have e2 : (0 :: js.map (fun j => cx.getD j 0))[k]'(by simp; omega) = cx.getD js[k - 1] 0 := by
        rw [List.getElem_cons]
        rw [dif_neg h0, List.getElem_map]
      rw [e2] at this
      linarith
  · have := shareBetween_nonneg (Spec.samples z w) hw.2.1 (if k = 0 then none else some (upper.getD (k - 1) 0)) upper[k]
    linarith

/-- **C07** The fitted boundaries cover the sample: if epsilon is small (`n_bins * epsilon < (1 - tolerance) / n_bins`)
and the values below the largest one carry less than `1 - n_bins * epsilon` of the weight, then the last boundary is
the largest observed value and the last cdf value is 1. Without a condition on epsilon this is false, see
`C07_needs_small_epsilon`. -/
theorem C07_covers (z : List (Option K)) (w : List K) (hw : PosWeights z w) (hne : ∃ v, some v ∈ z)
    (nBins : ℕ) (hN : 2 ≤ nBins) (eps tol : K) (heps : 0 ≤ eps) (htol : 0 ≤ tol) (htol1 : tol < 1)
    (hsmall : (nBins : K) * eps < (1 - tol) / nBins) (m : K) (hm : Spec.IsMax (z.filterMap id) m)
    (hbelow : ∀ v, some v ∈ z → v < m → Spec.weightShare (Spec.samples z w) v < 1 - nBins * eps) :
    ∃ (e : K) (bs cs : List K), fitColumn false z w nBins eps tol = .ok ⟨e, some (bs, cs)⟩ ∧
      bs.getLast? = some m ∧ cs.getLast? = some 1 := by
  have hN1 : (1 : K) ≤ nBins := by
    have : 1 ≤ nBins := by omega
    exact_mod_cast this
  rw [div_eq_mul_one_div] at hsmall
  have heps' : eps ≤ nBins * eps := le_mul_of_one_le_left heps hN1
  obtain ⟨e', b0', bx, cx, js, hf, hsel, hnil, hlen, hbs, hmem, hcs, hsh, hlast, hlow⟩ :=
    fitColumn_selected z w hw hne nBins hN eps tol heps htol htol1 (lt_of_le_of_lt heps' hsmall)
  have hlow := hlow hsmall
  refine ⟨_, _, _, hf, ?_⟩
  rcases List.eq_nil_or_concat js with rfl | ⟨l, j, rfl⟩
  · exact absurd rfl hnil
  · rw [List.concat_eq_append] at hsel hlow ⊢
    rw [prevOf_snoc] at hlow
    have hj := hsel.lt j (by simp)
    have hbj : some (bx.getD j 0) ∈ z := by
      rw [← hmem, List.getD_eq_getElem _ _ (by omega)]
      exact List.getElem_mem _
    have hmax : bx.getD j 0 = m := by
      by_contra hne'
      have hle := hm.2 (bx.getD j 0) (by simpa using hbj)
      have := hbelow _ hbj (lt_of_le_of_ne hle hne')
      rw [← hsh j hj] at this
      linarith
    have hjl : j = cx.length - 1 := by
      by_contra hne'
      have h1 : some (bx.getD (cx.length - 1) 0) ∈ z := by
        rw [← hmem, List.getD_eq_getElem _ _ (by omega)]
        exact List.getElem_mem _
      have h2 := getD_strict hbs (i := j) (j := cx.length - 1) (by omega) (by omega)
      have h3 := hm.2 (bx.getD (cx.length - 1) 0) (by simpa using h1)
      rw [hmax] at h2
      exact absurd h2 (not_lt.mpr h3)
    have e1 : cx.getD j 0 = 1 := by rw [hjl]; exact hlast
    constructor
    · simp only [List.map_append, List.map_cons, List.map_nil, ← List.cons_append]
      rw [List.getLast?_concat, hmax]
    · simp only [List.map_append, List.map_cons, List.map_nil, ← List.cons_append]
      rw [List.getLast?_concat, e1]

/-- **C07** With exact comparison (`epsilon = 0`) the boundaries always cover the sample. -/
theorem C07_covers_exact (z : List (Option K)) (w : List K) (hw : PosWeights z w) (hne : ∃ v, some v ∈ z)
    (nBins : ℕ) (hN : 2 ≤ nBins) (tol : K) (htol : 0 ≤ tol) (htol1 : tol < 1)
    (m : K) (hm : Spec.IsMax (z.filterMap id) m) :
    ∃ (e : K) (bs cs : List K), fitColumn false z w nBins 0 tol = .ok ⟨e, some (bs, cs)⟩ ∧
      bs.getLast? = some m ∧ cs.getLast? = some 1 := by
  have hN0 : (0 : K) < nBins := by
    have : 0 < nBins := by omega
    exact_mod_cast this
  apply C07_covers z w hw hne nBins hN 0 tol le_rfl htol htol1 _ m hm
  · intro v hv hvm
    obtain ⟨bx, cx, e, h1, h2, h3, h4, h5, h6, h7⟩ := calcCdf_spec z w hw.1 hw.2.1 hw.2.2
    obtain ⟨i, hi, rfl⟩ := List.getElem_of_mem ((h3 v).mpr hv)
    obtain ⟨j, hj, rfl⟩ := List.getElem_of_mem ((h3 m).mpr (by simpa using hm.1))
    rw [← h6 i hi (by omega)]
    have hij : i < j := by
      by_contra hlt
      exact absurd hvm (not_lt.mpr (sorted_get (strict_sorted h2) (by omega) hi))
    have := h7 (by omega)
    rw [mul_zero, sub_zero, ← this, ← List.getD_eq_getElem cx 0 (by omega)]
    exact getD_strict h4 (by omega) (by omega)
  · rw [mul_zero]
    exact div_pos (by linarith) hN0

/-- The condition on epsilon in `C07_covers` is needed: with `epsilon = 0.1` the largest value 3 is left outside and the
stored cdf ends at 0.9. (With the default `epsilon = 1e-9` the same happens on a correspondingly finer scale.) -/
theorem C07_needs_small_epsilon :
    fitColumn false [some (1 : ℚ), some 2, some 3] [45, 45, 10] 2 (1/10) (1/10)
      = .ok ⟨1/10, some ([1, 1, 2], [0, 9/20, 9/10])⟩ := by decide +kernel

example : ∃ (e : ℚ) (bs cs : List ℚ),
    fitColumn false [some (1 : ℚ), none, some 2, some 3] [1, 1, 1, 1] 2 (1/1000) (1/10) = .ok ⟨e, some (bs, cs)⟩ ∧
      bs.getLast? = some 3 ∧ cs.getLast? = some 1 := by
  apply C07_covers
  · exact PosWeights.of_pos _ _ rfl (by simp)
  · exact ⟨1, by simp⟩
  · norm_num
  · norm_num
  · norm_num
  · norm_num
  · norm_num
  · refine ⟨by decide +kernel, ?_⟩
    intro v hv
    simp at hv
    rcases hv with rfl | rfl | rfl <;> norm_num
  · intro v hv hlt
    simp at hv
    rcases hv with rfl | rfl | rfl
    · decide +kernel
    · decide +kernel
    · norm_num at hlt

end

end CB
