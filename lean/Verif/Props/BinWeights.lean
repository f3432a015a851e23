import Verif.Props.PredictMore
import Verif.Props.Rows
import Mathlib.Tactic.Ring

/-!
# C90: the weights of the bins of a feature account for all training weight
-/

set_option autoImplicit false
set_option linter.unusedSectionVars false

namespace CB
open Finset

section
variable {K : Type*} [AddCommMonoid K]

theorem zip_filter_sum (n : ℕ) (code : ℕ → ℕ) (w : ℕ → K) (b : ℕ) :
    (((((List.range n).map code).zip ((List.range n).map w)).filter (fun p => p.1 = b)).map Prod.snd).sum =
      ∑ s ∈ range n, if code s = b then w s else 0 := by
  induction n with
  | zero => simp
  | succ n ih =>
    rw [List.range_succ, List.map_append, List.map_append, List.zip_append (by simp), List.filter_append, List.map_append,
      List.sum_append, ih, sum_range_succ]
    congr 1
    by_cases h : code n = b <;> simp [h]

theorem foldl_max_bound (l : List ℕ) (a m : ℕ) (ha : a ≤ m) (h : ∀ x ∈ l, x ≤ m) : l.foldl max a ≤ m := by
  induction l generalizing a with
  | nil => exact ha
  | cons x l ih =>
    rw [List.foldl_cons]
    exact ih _ (max_le ha (h x (by simp))) fun y hy => h y (by simp [hy])

theorem range_sum_codes (n m : ℕ) (code : ℕ → ℕ) (w : ℕ → K) (h : ∀ s < n, code s < m) :
    ((List.range m).map fun b => ∑ s ∈ range n, if code s = b then w s else 0).sum = ∑ s ∈ range n, w s := by
  rw [← List.sum_toFinset _ List.nodup_range, List.toFinset_range, sum_comm]
  refine sum_congr rfl fun s hs => ?_
  rw [sum_ite_eq, if_pos (mem_range.mpr (h s (mem_range.mp hs)))]

end

section
variable {K : Type*} [Field K] [LinearOrder K] [IsStrictOrderedRing K] [FloorRing K]

/-- **C90.** The weights of the bins of a feature, counted at training: one number for each finite bin and one for missing values;
the entry of a bin is the total weight of its rows; the last entry is the total weight of the rows with a missing, infinite or
negative bin number in a column of the feature; all together are the total weight of the training data. -/
theorem C90_bin_weights (X : Table K) (n : ℕ) (group : List String) (hg : group ≠ []) (w : ℕ → K) :
    let codes := (bindData X n group none).1
    let finite := (bindData X n group none).2.prod
    let weights := bincount codes ((List.range n).map w) (finite + 1)
    weights.length = finite + 1 ∧
      (∀ b ≤ finite, weights[b]? = some (∑ s ∈ range n, if codes[s]? = some b then w s else 0)) ∧
      (∀ isMissing : ℕ → Bool, (∀ s < n, isMissing s = true ↔ ∃ c ∈ group, ∀ x, X s c = .fin x → x < 0) →
        weights[finite]? = some (∑ s ∈ range n, if isMissing s then w s else 0)) ∧
      weights.sum = ∑ s ∈ range n, w s := by
  intro codes finite weights
  set f : FeatureSpec := ⟨group, false, false⟩ with hf
  set code := (f.cfg X n).bin with hcode
  have hfin : (f.cfg X n).nFinite = finite := rfl
  have hlen : codes.length = n := by
    show (bindData X n group none).1.length = n
    unfold bindData lexBinnos
    simp
  have hget : ∀ s < n, codes[s]? = some (code s) := by
    intro s hs
    show (bindData X n group none).1[s]? = some ((bindData X n group none).1.getD s 0)
    rw [List.getD_eq_getElem?_getD, List.getElem?_eq_getElem (by
      exact lt_of_lt_of_eq hs hlen.symm)]
    rfl
  have hcodes : codes = (List.range n).map code := by
    refine List.ext_getElem? fun s => ?_
    by_cases hs : s < n
    · rw [hget s hs, List.getElem?_map, List.getElem?_range hs]; rfl
    · rw [List.getElem?_eq_none (by omega), List.getElem?_eq_none (by simp; omega)]
  have hle : ∀ s < n, code s ≤ finite := by
    intro s hs
    obtain ⟨h1, h2⟩ := C19_missing_bin f hg X n s hs
    by_cases hall : ∀ c ∈ f.group, ∃ x, X s c = .fin x ∧ 0 ≤ x
    · exact le_of_lt (h2 hall)
    · push Not at hall
      exact le_of_eq (h1 hall)
  have hmax : max (finite + 1) ((codes.map (· + 1)).foldl max 0) = finite + 1 := by
    refine max_eq_left (foldl_max_bound _ 0 _ (Nat.zero_le _) fun x hx => ?_)
    obtain ⟨c, hc, rfl⟩ := List.mem_map.mp hx
    rw [hcodes] at hc
    obtain ⟨s, hs, rfl⟩ := List.mem_map.mp hc
    exact Nat.succ_le_succ (hle s (List.mem_range.mp hs))
  have hw : weights = (List.range (finite + 1)).map fun b => ∑ s ∈ range n, if code s = b then w s else 0 := by
    show bincount codes ((List.range n).map w) (finite + 1) = _
    unfold bincount
    rw [hmax]
    refine List.map_congr_left fun b _ => ?_
    rw [hcodes]
    exact zip_filter_sum n code w b
  refine ⟨by rw [hw]; simp, ?_, ?_, ?_⟩
  · intro b hb
    rw [hw, List.getElem?_map, List.getElem?_range (Nat.lt_succ_of_le hb), Option.map_some]
    congr 1
    refine sum_congr rfl fun s hs => ?_
    rw [hget s (mem_range.mp hs)]
    simp
  · intro isMissing hm
    rw [hw, List.getElem?_map, List.getElem?_range (Nat.lt_succ_self _), Option.map_some]
    congr 1
    refine sum_congr rfl fun s hs => ?_
    have hsn := mem_range.mp hs
    obtain ⟨h1, h2⟩ := C19_missing_bin f hg X n s hsn
    by_cases hall : ∀ c ∈ f.group, ∃ x, X s c = .fin x ∧ 0 ≤ x
    · have hne : code s ≠ finite := ne_of_lt (h2 hall)
      have hmf : ¬ isMissing s = true := by
        rw [hm s hsn]
        rintro ⟨c, hc, hx⟩
        obtain ⟨x, hxc, hx0⟩ := hall c hc
        exact absurd (hx x hxc) (not_lt.mpr hx0)
      rw [if_neg hne, if_neg hmf]
    · push Not at hall
      rw [if_pos (show code s = finite from h1 hall), if_pos ((hm s hsn).mpr hall)]
  · rw [hw]
    exact range_sum_codes n (finite + 1) code w fun s hs => Nat.lt_succ_of_le (hle s hs)

/-- What training uses for the weight of a bin is this entry. -/
theorem C90_training_weights (X : Table K) (n : ℕ) (f : FeatureSpec) (hg : f.group ≠ []) (w : ℕ → K) (b : ℕ)
    (hb : b ≤ (f.cfg X n).nFinite) :
    (bincount (bindData X n f.group none).1 ((List.range n).map w) ((f.cfg X n).nFinite + 1))[b]? =
      some (binSum n (f.cfg X n).bin w b) := by
  obtain ⟨-, h, -⟩ := C90_bin_weights X n f.group hg w
  rw [show (f.cfg X n).nFinite = (bindData X n f.group none).2.prod from rfl] at hb ⊢
  rw [h b hb]
  congr 1
  unfold binSum
  refine sum_congr rfl fun s hs => ?_
  have hlen : (bindData X n f.group none).1.length = n := by
    unfold bindData lexBinnos
    simp
  have hs' : s < (bindData X n f.group none).1.length := by rw [hlen]; exact mem_range.mp hs
  show _ = if (bindData X n f.group none).1.getD s 0 = b then w s else 0
  rw [List.getD_eq_getElem?_getD, List.getElem?_eq_getElem hs']
  simp

end

/-- Witness for C90: four rows in bins 0, 1, missing and 1, with weights 1, 2, 3 and 4. -/
example : bincount (bindData (K := ℚ) (fun s _ => [.fin 0, .fin 1, .nan, .fin 1].getD s .nan) 4 ["a"] none).1
    ((List.range 4).map fun s => (s : ℚ) + 1) 3 = [1, 6, 3] := by decide +kernel

end CB
