import Verif.Lemmas.Binning
import Mathlib.Tactic.NormNum

set_option autoImplicit false
set_option linter.unusedSectionVars false

/-!
Property theorems for bin numbers: C01, C02, C03, C04, C10.
-/
namespace CB
variable {K : Type*} [Field K] [LinearOrder K] [IsStrictOrderedRing K]

/-- **C01** A finite value of a continuous column gets the first bin whose upper boundary is at least `x - eps`; values
beyond all boundaries get the last bin; the result is always an existing bin. (`b0` is the lower end of the first bin;
`-9`/`-999` are missing values if the column is flagged accordingly, see C04.) -/
theorem C01_continuous_bin (b0 : K) (upper : List K) (hsort : Spec.Sorted upper) (hne : upper ≠ [])
    (magic : Bool) (eps x : K) (hx : magic = true → x ≠ -9 ∧ x ≠ -999) :
    ∃ k : ℕ, binNumber true magic eps (some (b0 :: upper)) (.fin x) = .ok (k : Int) ∧
      Spec.InBin upper (x - eps) k := by
  have hn : 0 < upper.length := List.length_pos_iff.mpr hne
  obtain ⟨r, e, h, h1, h2⟩ := ge_true_spec hsort hn (x - eps)
  refine ⟨r, ?_, h, h1, h2⟩
  unfold binNumber
  simp only [(isFiniteMagic_fin magic x).mpr hx, if_true, List.tail_cons, Flt.addFin, ← sub_eq_add_neg, e,
    recheck_nat]

/-- The specification of C01 determines the bin number uniquely. -/
theorem C01_bin_unique (upper : List K) (x : K) (k l : ℕ)
    (hk : Spec.InBin upper x k) (hl : Spec.InBin upper x l) : k = l := by
  obtain ⟨hk, hk1, hk2⟩ := hk
  obtain ⟨hl, hl1, hl2⟩ := hl
  rcases lt_trichotomy k l with h | h | h
  · have := hl1 k h
    rcases hk2 with h' | h'
    · exact absurd h' (not_le.mpr this)
    · omega
  · exact h
  · have := hk1 l h
    rcases hl2 with h' | h'
    · exact absurd h' (not_le.mpr this)
    · omega

example : Spec.Sorted [2.2, 3.1, 3.7, (4.4 : ℚ)] := by unfold Spec.Sorted; norm_num
example : binNumber true false (1/1000000 : ℚ) (some [2.1, 2.2, 3.1, 3.7, 4.4]) (.fin 2.4) = .ok 1 := by
  simp [binNumber, isFiniteMagic, Flt.isFinite, Flt.addFin, ge, geLoop, pyGet, Flt.geOf, recheck]; norm_num

/-- **C02** Bin numbers of a continuous column are monotone in the value. -/
theorem C02_monotone (b0 : K) (upper : List K) (hsort : Spec.Sorted upper) (hne : upper ≠ [])
    (magic : Bool) (eps x y : K) (hx : magic = true → x ≠ -9 ∧ x ≠ -999) (hy : magic = true → y ≠ -9 ∧ y ≠ -999)
    (hxy : x ≤ y) (i j : Int)
    (hi : binNumber true magic eps (some (b0 :: upper)) (.fin x) = .ok i)
    (hj : binNumber true magic eps (some (b0 :: upper)) (.fin y) = .ok j) : i ≤ j := by
  obtain ⟨k, e, hk, hk1, hk2⟩ := C01_continuous_bin b0 upper hsort hne magic eps x hx
  obtain ⟨l, e', hl, hl1, hl2⟩ := C01_continuous_bin b0 upper hsort hne magic eps y hy
  rw [hi] at e; rw [hj] at e'
  cases e; cases e'
  by_contra hlt
  have hlk : l < k := by omega
  have h1 := hk1 l hlk
  rcases hl2 with h2 | h2
  · exact absurd (lt_of_lt_of_le h1 (by linarith)) (not_lt.mpr h2)
  · omega

example : ∃ i j : Int, i ≤ j ∧
    binNumber true false (1/1000000 : ℚ) (some [2.1, 2.2, 3.1, 3.7, 4.4]) (.fin 2.4) = .ok i ∧
    binNumber true false (1/1000000 : ℚ) (some [2.1, 2.2, 3.1, 3.7, 4.4]) (.fin 9) = .ok j := by
  refine ⟨1, 3, by norm_num, ?_, ?_⟩ <;>
  · simp [binNumber, isFiniteMagic, Flt.isFinite, Flt.addFin, ge, geLoop, pyGet, Flt.geOf, recheck]; norm_num

/-- **C03** (all stored values) For a non-continuous column the bin number of `x` is the index of the last stored value
within `eps` of `x`, and `-1` exactly when no stored value is within `eps` of `x`. In particular the search result
"before the first element", which indexes the array with `-1`, never produces a match. -/
theorem C03_discrete_bin (b0 : K) (values : List K) (hsort : Spec.Sorted values) (hne : values ≠ [])
    (magic : Bool) (eps x : K) (hx : magic = true → x ≠ -9 ∧ x ≠ -999) :
    (∃ (k : ℕ) (h : k < values.length),
        binNumber false magic eps (some (b0 :: values)) (.fin x) = .ok (k : Int) ∧ |values[k] - x| ≤ eps ∧
        ∀ (j : ℕ) (hj : j < values.length), |values[j] - x| ≤ eps → j ≤ k) ∨
    (binNumber false magic eps (some (b0 :: values)) (.fin x) = .ok (-1) ∧
        ∀ v ∈ values, eps < |v - x|) := by
  have hn : 0 < values.length := List.length_pos_iff.mpr hne
  have hb : ∀ v, eqIndex values (.fin x) eps = some v →
      binNumber false magic eps (some (b0 :: values)) (.fin x) = .ok (recheck magic v) := by
    intro v hv
    unfold binNumber
    simp only [(isFiniteMagic_fin magic x).mpr hx, if_true, List.tail_cons, hv]
    rfl
  rcases eqIndex_spec hsort hn x eps with ⟨k, h, e, h1, h2⟩ | ⟨e, h1⟩
  · left
    exact ⟨k, h, by rw [hb _ e, recheck_nat], h1, h2⟩
  · right
    refine ⟨by rw [hb _ e]; rfl, ?_⟩
    intro v hv
    obtain ⟨j, hj, rfl⟩ := List.getElem_of_mem hv
    exact h1 j hj

example : Spec.Sorted [10, 11, (12 : ℚ)] := by unfold Spec.Sorted; norm_num
example : binNumber false false (1/1000000 : ℚ) (some [10, 10, 11, 12]) (.fin 11) = .ok 1 := by
  simp [binNumber, isFiniteMagic, Flt.isFinite, Flt.addFin, eqIndex, le, leLoop, pyGet, Flt.leOf, recheck,
    checkEqual]
  norm_num
example : binNumber false false (1/1000000 : ℚ) (some [10, 10, 11, 12]) (.fin 7) = .ok (-1) := by
  simp [binNumber, isFiniteMagic, Flt.isFinite, Flt.addFin, eqIndex, le, leLoop, pyGet, Flt.leOf, recheck,
    checkEqual, missingBinNo]
  norm_num
  rw [if_neg (by rw [not_le, lt_abs]; left; simp [show Int.toNat 2 = 2 from rfl]; norm_num)]

/-- **C04** Missing values become `-1`: NaN and infinities always, `-9` and `-999` for columns with the magic-integer
flag, and every value of a column without fitted bins. -/
theorem C04_missing (continuous magic : Bool) (eps : K) (bounds : Option (List K)) (x : Flt K)
    (h : x = .nan ∨ x = .pinf ∨ x = .ninf ∨ (magic = true ∧ (x = .fin (-9) ∨ x = .fin (-999))) ∨ bounds = none) :
    binNumber continuous magic eps bounds x = .ok (-1) := by
  cases bounds with
  | none => rfl
  | some bs =>
    have hf : isFiniteMagic magic x = false := by
      rcases h with h | h | h | ⟨hm, h | h⟩ | h
      · subst h; cases magic <;> rfl
      · subst h; cases magic <;> rfl
      · subst h; cases magic <;> rfl
      · subst h hm; simp [isFiniteMagic, Flt.eqFin]
      · subst h hm; simp [isFiniteMagic, Flt.eqFin]
      · cases h
    unfold binNumber
    simp only [hf]
    rfl

/-- **C04** The transform never fails and never leaves the range `-1 .. number of bins - 1`, for every input value. -/
theorem C04_range (continuous magic : Bool) (eps : K) (b0 : K) (upper : List K) (hsort : Spec.Sorted upper)
    (hne : upper ≠ []) (x : Flt K) :
    ∃ i : Int, binNumber continuous magic eps (some (b0 :: upper)) x = .ok i ∧ -1 ≤ i ∧ i < upper.length := by
  have hn : 0 < upper.length := List.length_pos_iff.mpr hne
  cases x with
  | fin x =>
    by_cases hx : magic = true → x ≠ -9 ∧ x ≠ -999
    · cases continuous with
      | true =>
        obtain ⟨k, e, h, _⟩ := C01_continuous_bin b0 upper hsort hne magic eps x hx
        exact ⟨k, e, by omega, by omega⟩
      | false =>
        rcases C03_discrete_bin b0 upper hsort hne magic eps x hx with ⟨k, h, e, _⟩ | ⟨e, _⟩
        · exact ⟨k, e, by omega, by omega⟩
        · exact ⟨-1, e, by omega, by omega⟩
    · refine ⟨-1, C04_missing continuous magic eps _ _ ?_, by omega, by omega⟩
      have hx := Classical.not_imp.mp hx
      by_cases h9 : x = -9
      · exact Or.inr (Or.inr (Or.inr (Or.inl ⟨hx.1, Or.inl (by rw [h9])⟩)))
      · have : x = -999 := by
          by_contra h; exact hx.2 ⟨h9, h⟩
        exact Or.inr (Or.inr (Or.inr (Or.inl ⟨hx.1, Or.inr (by rw [this])⟩)))
  | nan => exact ⟨-1, C04_missing continuous magic eps _ _ (by simp), by omega, by omega⟩
  | pinf => exact ⟨-1, C04_missing continuous magic eps _ _ (by simp), by omega, by omega⟩
  | ninf => exact ⟨-1, C04_missing continuous magic eps _ _ (by simp), by omega, by omega⟩

/-- **C04** Without the magic-integer flag, `-9` and `-999` are ordinary values: a fitted `-9` keeps its own bin. -/
theorem C04_magic_only_if_flagged (b0 : K) (values : List K) (hsort : Spec.Sorted values)
    (eps : K) (heps : 0 ≤ eps) (h9 : -9 ∈ values) :
    ∃ k : ℕ, binNumber false false eps (some (b0 :: values)) (.fin (-9)) = .ok (k : Int) := by
  rcases C03_discrete_bin b0 values hsort (List.ne_nil_of_mem h9) false eps (-9) (by simp) with ⟨k, h, e, _⟩ | ⟨_, h⟩
  · exact ⟨k, e⟩
  · have := h _ h9
    rw [sub_self, abs_zero] at this
    exact absurd this (not_lt.mpr heps)

example : (-9 : ℚ) ∈ [-9, 1, (2 : ℚ)] ∧ Spec.Sorted [-9, 1, (2 : ℚ)] := by
  constructor
  · simp
  · unfold Spec.Sorted; norm_num

theorem foldl_max_ge (as : List Int) (a : Int) : a ≤ as.foldl max a ∧ ∀ x ∈ as, x ≤ as.foldl max a := by
  induction as generalizing a with
  | nil => simp
  | cons b bs ih =>
    obtain ⟨h1, h2⟩ := ih (max a b)
    simp only [List.foldl_cons, List.mem_cons, forall_eq_or_imp]
    exact ⟨le_trans (le_max_left _ _) h1, le_trans (le_max_right _ _) h1, h2⟩

theorem foldl_min_le (as : List Int) (a : Int) : as.foldl min a ≤ a ∧ ∀ x ∈ as, as.foldl min a ≤ x := by
  induction as generalizing a with
  | nil => simp
  | cons b bs ih =>
    obtain ⟨h1, h2⟩ := ih (min a b)
    simp only [List.foldl_cons, List.mem_cons, forall_eq_or_imp]
    exact ⟨le_trans h1 (min_le_left _ _), le_trans h1 (min_le_right _ _), h2⟩

/-- **C10** Narrowing to the smallest integer type never changes a value, for every array of 64-bit integers. -/
theorem C10_narrowing_exact (arr : List Int) (h64 : ∀ v ∈ arr, -2 ^ 63 ≤ v ∧ v < 2 ^ 63) :
    (asIntArray arr).2 = arr := by
  cases arr with
  | nil => rfl
  | cons a as =>
    have hmax := foldl_max_ge as a
    have hmin := foldl_min_le as a
    have hbound : ∀ v ∈ a :: as, v ≤ as.foldl max a ∧ as.foldl min a ≤ v := by
      intro v hv
      rcases List.mem_cons.mp hv with rfl | hv
      · exact ⟨hmax.1, hmin.1⟩
      · exact ⟨hmax.2 v hv, hmin.2 v hv⟩
    unfold asIntArray
    simp only
    generalize hM : max (as.foldl max a) |as.foldl min a| = M
    have hM1 : as.foldl max a ≤ M := by rw [← hM]; exact le_max_left _ _
    have hM2 : -M ≤ as.foldl min a := by
      have h := neg_abs_le (as.foldl min a)
      have h' : |as.foldl min a| ≤ M := by rw [← hM]; exact le_max_right _ _
      omega
    conv_rhs => rw [← List.map_id (a :: as)]
    apply List.map_congr_left
    intro v hv
    have hb := hbound v hv
    have h6 := h64 v hv
    unfold castInt minDtype
    simp only [id_eq]
    split_ifs <;> simp only [IntType.bits] <;> rw [Int.bmod_eq_of_le] <;> norm_num <;> omega

example : asIntArray [-1, 127] = (.i8, [-1, 127]) := by decide
example : asIntArray [-1, 128] = (.i16, [-1, 128]) := by decide
example : asIntArray [-129, 5] = (.i16, [-129, 5]) := by decide

end CB
