import Verif.Props.GroupBy
import Verif.Props.MetaSmoother

/-!
# C145: splitting does not keep the values of the bins
-/

set_option autoImplicit false
set_option linter.unusedSectionVars false

namespace CB

theorem scatter_map {α β : Type*} (p : α → Bool) (f g : α → β) (rows : List α) :
    scatter (rows.map p) ((rows.filter p).map f) ((rows.filter fun r => !p r).map g) = rows.map fun r => if p r then f r else g r := by
  induction rows with
  | nil => rfl
  | cons r rows ih => cases h : p r <;> simp [h, scatter, ih]

section
variable {K : Type*} [Field K] [LinearOrder K] [IsStrictOrderedRing K] [FloorRing K]

theorem rint_cast (j : ℕ) : rint (j : K) = j := by
  unfold rint
  simp

theorem range_split (n s : ℕ) (h : s + 1 ≤ n) : List.range n = List.range (s + 1) ++ (List.range (n - (s + 1))).map (s + 1 + ·) := by
  rw [← List.range_add]
  congr 1
  omega

theorem splitLowerFit_iff (s j : ℕ) (epsilon : K) (h0 : 0 ≤ epsilon) (h1 : epsilon < 1) (w u : K) :
    splitLowerFit (s : K) epsilon ⟨[j], w, u⟩ = decide (j ≤ s) := by
  unfold splitLowerFit
  rw [decide_eq_decide]
  simp only [List.headD_cons]
  constructor
  · intro h
    by_contra hj
    have : ((s + 1 : ℕ) : K) ≤ j := Nat.cast_le.mpr (by omega)
    push_cast at this
    linarith
  · intro h
    have : (j : K) ≤ s := Nat.cast_le.mpr h
    linarith

variable (n s : ℕ) (hs : s + 1 < n) (epsilon : K) (h0 : 0 ≤ epsilon) (h1 : epsilon < 1) (v w u : ℕ → K)

include hs h0 h1 in
theorem section_binValues : ∃ st, sectionFit binValues1 binValues1 (s : K) epsilon (smootherTable [n] w u) ((List.range n).map v) = some st ∧
    sectionPredict binValues1 binValues1 (s : K) epsilon st ((List.range n).map fun j : ℕ => [.fin (j : K)]) =
      (List.range n).map fun j => if j ≤ s then .fin (v j) else if j + (s + 1) < n then .fin (v (j + (s + 1))) else .nan := by
  have hX : (smootherTable [n] w u).zip ((List.range n).map v) = (List.range n).map fun j => ((⟨[j], w j, u j⟩ : FitRow K), v j) := by
    rw [smootherTable_eq, List.prod_singleton, List.zip_map, List.zip_eq_zipWith, List.zipWith_self, List.map_map]
    refine List.map_congr_left fun j hj => ?_
    have : j < n := List.mem_range.mp hj
    simp [digits, Nat.mod_eq_of_lt this]
  have hlow : ((List.range n).map fun j => ((⟨[j], w j, u j⟩ : FitRow K), v j)).filter (fun p => splitLowerFit (s : K) epsilon p.1) =
      (List.range (s + 1)).map fun j => ((⟨[j], w j, u j⟩ : FitRow K), v j) := by
    rw [range_split n s hs.le, List.map_append, List.filter_append]
    rw [List.filter_eq_self.mpr, List.filter_eq_nil_iff.mpr, List.append_nil]
    · intro p hp
      simp only [List.mem_map, List.mem_range] at hp
      obtain ⟨_, ⟨i, -, rfl⟩, rfl⟩ := hp
      rw [splitLowerFit_iff s _ epsilon h0 h1]
      simp; omega
    · intro p hp
      simp only [List.mem_map, List.mem_range] at hp
      obtain ⟨i, hi, rfl⟩ := hp
      rw [splitLowerFit_iff s _ epsilon h0 h1]
      simp; omega
  have hup : ((List.range n).map fun j => ((⟨[j], w j, u j⟩ : FitRow K), v j)).filter (fun p => !splitLowerFit (s : K) epsilon p.1) =
      (List.range (n - (s + 1))).map fun i => ((⟨[s + 1 + i], w (s + 1 + i), u (s + 1 + i)⟩ : FitRow K), v (s + 1 + i)) := by
    rw [range_split n s hs.le, List.map_append, List.filter_append]
    rw [List.filter_eq_nil_iff.mpr, List.filter_eq_self.mpr, List.nil_append, List.map_map]
    · rfl
    · intro p hp
      simp only [List.mem_map, List.mem_range] at hp
      obtain ⟨_, ⟨i, -, rfl⟩, rfl⟩ := hp
      rw [splitLowerFit_iff s _ epsilon h0 h1]
      simp; omega
    · intro p hp
      simp only [List.mem_map, List.mem_range] at hp
      obtain ⟨i, hi, rfl⟩ := hp
      rw [splitLowerFit_iff s _ epsilon h0 h1]
      simp; omega
  refine ⟨(some ((List.range (s + 1)).map v), some ((List.range (n - (s + 1))).map fun i => v (s + 1 + i))), ?_, ?_⟩
  · unfold sectionFit
    dsimp only
    rw [hX, hlow, hup]
    have e1 : ((List.range (s + 1)).map fun j => ((⟨[j], w j, u j⟩ : FitRow K), v j)).isEmpty = false := by simp
    have e2 : ((List.range (n - (s + 1))).map fun i =>
        ((⟨[s + 1 + i], w (s + 1 + i), u (s + 1 + i)⟩ : FitRow K), v (s + 1 + i))).isEmpty = false := by
      simp; omega
    rw [e1, e2]
    simp [binValues1, List.map_map, Function.comp_def]
  · unfold sectionPredict
    dsimp only
    simp only [binValues1]
    rw [scatter_map, List.map_map]
    refine List.map_congr_left fun j hj => ?_
    have hj : j < n := List.mem_range.mp hj
    have hlo : splitLower (s : K) epsilon [.fin (j : K)] = decide (j ≤ s) := splitLowerFit_iff s j epsilon h0 h1 0 0
    have hnn : (0 : K) ≤ j := Nat.cast_nonneg j
    simp only [Function.comp, hlo, decide_eq_true_eq]
    by_cases hjs : j ≤ s
    · rw [if_pos hjs, if_pos hjs]
      simp only [predictOneDim, List.headD_cons, rint_cast, hnn, true_and, List.length_map, List.length_range, Int.toNat_natCast]
      rw [if_pos (by omega)]
      simp [ofLookup, List.getD_eq_getElem?_getD, List.getElem?_range (show j < s + 1 by omega)]
    · rw [if_neg hjs, if_neg hjs]
      simp only [predictOneDim, List.headD_cons, rint_cast, hnn, true_and, List.length_map, List.length_range, Int.toNat_natCast]
      by_cases hjn : j + (s + 1) < n
      · rw [if_pos (by omega), if_pos hjn]
        simp [ofLookup, List.getD_eq_getElem?_getD, List.getElem?_range (show j < n - (s + 1) by omega), add_comm j]
      · rw [if_neg (by omega), if_neg hjn]
        rfl

include hs h0 h1 in
/-- **C145, partial.** A section smoother whose two smoothers keep the values of bins keeps those of the bins up to the split point `s`. What is missing:
the bins above, see `C145_upper`. -/
theorem C145_lower_partial : ∃ st, sectionFit binValues1 binValues1 (s : K) epsilon (smootherTable [n] w u) ((List.range n).map v) = some st ∧
    ∀ j ≤ s, (sectionPredict binValues1 binValues1 (s : K) epsilon st ((List.range n).map fun j : ℕ => [.fin (j : K)]))[j]? = some (.fin (v j)) := by
  obtain ⟨st, h, hp⟩ := section_binValues n s hs epsilon h0 h1 v w u
  refine ⟨st, h, fun j hj => ?_⟩
  rw [hp, List.getElem?_map, List.getElem?_range (by omega)]
  simp [hj]

include hs h0 h1 in
/-- **C145.** The bins above the split point do not keep their values: they get that of the bin which is as many bins higher as there are bins up to
the split point, and NaN if there is none. -/
theorem C145_upper : ∃ st, sectionFit binValues1 binValues1 (s : K) epsilon (smootherTable [n] w u) ((List.range n).map v) = some st ∧
    ∀ j, s < j → j < n →
      (sectionPredict binValues1 binValues1 (s : K) epsilon st ((List.range n).map fun j : ℕ => [.fin (j : K)]))[j]? =
        some (if j + (s + 1) < n then .fin (v (j + (s + 1))) else .nan) := by
  obtain ⟨st, h, hp⟩ := section_binValues n s hs epsilon h0 h1 v w u
  refine ⟨st, h, fun j hj hjn => ?_⟩
  rw [hp, List.getElem?_map, List.getElem?_range hjn]
  simp only [Option.map_some, if_neg (not_le.mpr hj)]

end

/-- **C145, counterexample.** Four bins with values 1, 2, 3, 4 and a split after the first: the second bin gets the value of the third, the third
that of the fourth and the fourth none. -/
theorem C145_counterexample : (sectionFit binValues1 binValues1 (0 : ℚ) (1 / 1000) (smootherTable [4] (fun _ => 1) (fun _ => 1)) [1, 2, 3, 4]).map
    (fun st => sectionPredict binValues1 binValues1 (0 : ℚ) (1 / 1000) st [[.fin 0], [.fin 1], [.fin 2], [.fin 3]]) =
      some [.fin 1, .fin 3, .fin 4, .nan] := by decide +kernel

/-- The hypotheses are met. -/
example : ∃ st, sectionFit binValues1 binValues1 ((1 : ℕ) : ℚ) (1 / 1000) (smootherTable [4] (fun _ => 1) (fun _ => 1)) ((List.range 4).map fun j => (j : ℚ)) = some st ∧
    ∀ j ≤ 1, (sectionPredict binValues1 binValues1 ((1 : ℕ) : ℚ) (1 / 1000) st ((List.range 4).map fun j : ℕ => [.fin (j : ℚ)]))[j]? = some (.fin (j : ℚ)) :=
  C145_lower_partial 4 1 (by norm_num) (1 / 1000) (by norm_num) (by norm_num) (fun j => (j : ℚ)) _ _

end CB
