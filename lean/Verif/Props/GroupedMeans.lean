import Mathlib.Algebra.BigOperators.Ring.List
import Verif.Props.GroupStats

set_option autoImplicit false
set_option linter.unusedSectionVars false

/-!
C99: the results of `calc_means_medians` and `calc_weighted_quantile` for all groups.
-/
namespace CB
open Spec

variable {K : Type*} [Field K] [LinearOrder K] [IsStrictOrderedRing K]

/-! ### Groups -/

theorem groupNumbers_mem {α : Type*} (l : List (ℕ × α)) (b : ℕ) : b ∈ groupNumbers l ↔ ∃ s ∈ l, s.1 = b := by
  unfold groupNumbers
  rw [(List.perm_insertionSort _ _).mem_iff, List.mem_dedup, List.mem_map]

theorem groupNumbers_nodup {α : Type*} (l : List (ℕ × α)) : (groupNumbers l).Nodup :=
  (List.perm_insertionSort _ _).nodup_iff.mpr (List.nodup_dedup _)

theorem groupNumbers_sorted {α : Type*} (l : List (ℕ × α)) : (groupNumbers l).Pairwise (· < ·) := by
  have h : (groupNumbers l).Pairwise (· ≤ ·) := List.pairwise_insertionSort _ _
  have hn := groupNumbers_nodup l
  rw [List.Nodup] at hn
  exact (h.and hn).imp (fun {a b} h => lt_of_le_of_ne h.1 h.2)

theorem groupNumbers_perm {α : Type*} (l l' : List (ℕ × α)) (h : l.Perm l') : groupNumbers l = groupNumbers l' := by
  refine List.Perm.eq_of_pairwise (le := (· ≤ ·)) (fun a b _ _ h1 h2 => le_antisymm h1 h2) ?_ ?_ ?_
  · exact List.pairwise_insertionSort _ _
  · exact List.pairwise_insertionSort _ _
  · rw [List.perm_ext_iff_of_nodup (groupNumbers_nodup l) (groupNumbers_nodup l')]
    intro b
    rw [groupNumbers_mem, groupNumbers_mem]
    exact ⟨fun ⟨s, hs, e⟩ => ⟨s, h.mem_iff.mp hs, e⟩, fun ⟨s, hs, e⟩ => ⟨s, h.mem_iff.mpr hs, e⟩⟩

theorem groupRows_perm {α : Type*} (l l' : List (ℕ × α)) (h : l.Perm l') (b : ℕ) : (groupRows l b).Perm (groupRows l' b) :=
  (h.filter _).map _

theorem groupRows_ne_nil {α : Type*} (l : List (ℕ × α)) (b : ℕ) (h : b ∈ groupNumbers l) : groupRows l b ≠ [] := by
  obtain ⟨s, hs, e⟩ := (groupNumbers_mem l b).mp h
  intro hn
  have : s.2 ∈ groupRows l b := List.mem_map.mpr ⟨s, List.mem_filter.mpr ⟨hs, by simpa using e⟩, rfl⟩
  rw [hn] at this
  simp at this

theorem groupRows_mem {α : Type*} (l : List (ℕ × α)) (b : ℕ) (r : α) (h : r ∈ groupRows l b) : (b, r) ∈ l := by
  obtain ⟨s, hs, rfl⟩ := List.mem_map.mp h
  obtain ⟨h1, h2⟩ := List.mem_filter.mp hs
  simp only [decide_eq_true_eq] at h2
  rw [← h2]
  exact h1

theorem sum_over_keys {α : Type*} (g : ℕ × α → K) (ks : List ℕ) (hnd : ks.Nodup) : ∀ (l : List (ℕ × α)), (∀ s ∈ l, s.1 ∈ ks) →
    (ks.map (fun b => ((l.filter (fun s => s.1 = b)).map g).sum)).sum = (l.map g).sum := by
  intro l
  induction l with
  | nil => intro _; simp
  | cons s l ih =>
    intro h
    have ih := ih (fun t ht => h t (by simp [ht]))
    have e : ∀ b, (((s :: l).filter (fun s => s.1 = b)).map g).sum
        = (if s.1 = b then g s else 0) + ((l.filter (fun s => s.1 = b)).map g).sum := by
      intro b
      by_cases hb : s.1 = b
      · rw [List.filter_cons_of_pos (by simpa using hb), List.map_cons, List.sum_cons, if_pos hb]
      · rw [List.filter_cons_of_neg (by simpa using hb), if_neg hb, zero_add]
    simp only [e]
    rw [List.sum_map_add, ih, List.map_cons, List.sum_cons]
    congr 1
    rw [← List.sum_toFinset _ hnd, Finset.sum_ite_eq, if_pos (List.mem_toFinset.mpr (h s (by simp)))]

theorem sum_groups (g : K × K → K) (l : List (ℕ × K × K)) :
    ((groupNumbers l).map (fun b => ((groupRows l b).map g).sum)).sum = (l.map (fun s => g s.2)).sum := by
  rw [← sum_over_keys (fun s => g s.2) (groupNumbers l) (groupNumbers_nodup l) l
    (fun s hs => (groupNumbers_mem l s.1).mpr ⟨s, hs, rfl⟩)]
  simp only [groupRows, List.map_map]
  rfl

/-! ### C99 -/

section
variable [FloorRing K]

/-- Samples of bin `b`. -/
def Spec.inGroup (l : List (ℕ × K × K)) (b : ℕ) : List (K × K) := (l.filter (fun s => s.1 = b)).map Prod.snd

/-- **C99**: there is one result for each bin number that occurs, and the bin numbers ascend. -/
theorem C99_groups (l : List (ℕ × K × K)) :
    ((calcMeansMedians l).map Prod.fst).Pairwise (· < ·) ∧ ∀ b, b ∈ (calcMeansMedians l).map Prod.fst ↔ ∃ s ∈ l, s.1 = b := by
  have e : (calcMeansMedians l).map Prod.fst = groupNumbers l := by simp [calcMeansMedians, Function.comp_def]
  rw [e]
  exact ⟨groupNumbers_sorted l, groupNumbers_mem l⟩

theorem calcMeansMedians_mem (l : List (ℕ × K × K)) (b : ℕ) (st : GroupStats K) (h : (b, st) ∈ calcMeansMedians l) :
    b ∈ groupNumbers l ∧ st = if weightsUniform (l.map (fun s => s.2.2)) then evenStats ((groupRows l b).map Prod.fst)
      else weightedStats (groupRows l b) := by
  obtain ⟨b', hb, e⟩ := List.mem_map.mp h
  obtain ⟨rfl, rfl⟩ := Prod.mk.injEq _ _ _ _ ▸ e
  exact ⟨hb, rfl⟩

theorem uniform_const (ws : List K) (h : weightsUniform ws = true) : ∃ c, ∀ w ∈ ws, w = c := by
  unfold weightsUniform at h
  rw [decide_eq_true_eq, List.length_eq_one_iff] at h
  obtain ⟨c, hc⟩ := h
  refine ⟨c, fun w hw => ?_⟩
  have : w ∈ ws.dedup := List.mem_dedup.mpr hw
  rw [hc] at this
  simpa using this

/-- **C99**: the mean of a group with a positive weight is the weighted mean of its targets, whether or not the weights are
uniform. -/
theorem C99_mean (l : List (ℕ × K × K)) (b : ℕ) (st : GroupStats K) (h : (b, st) ∈ calcMeansMedians l)
    (hpos : 0 < ((Spec.inGroup l b).map Prod.snd).sum) :
    ∃ m, st.mean = .fin m ∧ m * ((Spec.inGroup l b).map Prod.snd).sum = ((Spec.inGroup l b).map (fun s => s.1 * s.2)).sum := by
  obtain ⟨hb, rfl⟩ := calcMeansMedians_mem l b st h
  have eg : groupRows l b = Spec.inGroup l b := rfl
  rw [eg]
  set g := Spec.inGroup l b with hg
  by_cases hu : weightsUniform (l.map (fun s => s.2.2)) = true
  · rw [if_pos hu]
    obtain ⟨c, hc⟩ := uniform_const _ hu
    have hcg : ∀ s ∈ g, s.2 = c := fun s hs => hc s.2 (List.mem_map.mpr ⟨(b, s), groupRows_mem l b s hs, rfl⟩)
    have e1 : (g.map Prod.snd).sum = (g.length : K) * c := by
      rw [List.map_congr_left (g := fun _ => c) (fun s hs => hcg s hs)]
      simp
    have e2 : (g.map (fun s => s.1 * s.2)).sum = (g.map Prod.fst).sum * c := by
      rw [List.map_congr_left (g := fun s : K × K => s.1 * c) (fun s hs => by rw [hcg s hs]), List.sum_map_mul_right]
    refine ⟨(g.map Prod.fst).sum / ((g.map Prod.fst).length : K), rfl, ?_⟩
    have hl : (g.length : K) ≠ 0 := by
      intro h0; rw [e1, h0, zero_mul] at hpos; exact lt_irrefl _ hpos
    rw [e1, e2, List.length_map]
    field_simp
  · rw [if_neg hu]
    refine ⟨(g.map (fun s => s.1 * s.2)).sum / (g.map Prod.snd).sum, ?_, ?_⟩
    · simp only [weightedStats, weightedMeanFrame]
      rw [if_neg (ne_of_gt hpos)]
    · field_simp

/-- **C99**: the counts add up to the total weight; with uniform weights they add up to the number of samples. -/
theorem C99_counts (l : List (ℕ × K × K)) : ((calcMeansMedians l).map (fun g => g.2.count)).sum
    = if weightsUniform (l.map (fun s => s.2.2)) then (l.length : K) else (l.map (fun s => s.2.2)).sum := by
  unfold calcMeansMedians
  rw [List.map_map]
  by_cases hu : weightsUniform (l.map (fun s => s.2.2)) = true
  · simp only [hu, if_true, Function.comp_def, evenStats]
    have := sum_groups (fun _ => (1 : K)) l
    simpa using this
  · simp only [hu, Bool.false_eq_true, if_false, Function.comp_def, weightedStats, weightedSize]
    exact sum_groups Prod.snd l

/-- **C99**: the lower errors are not positive, the upper errors not negative, and the errors for two standard deviations enclose
those for one. -/
theorem C99_errors (l : List (ℕ × K × K)) (hw : ∀ s ∈ l, 0 ≤ s.2.2) (b : ℕ) (st : GroupStats K) (h : (b, st) ∈ calcMeansMedians l) :
    st.lower2 ≤ st.lower1 ∧ st.lower1 ≤ 0 ∧ 0 ≤ st.upper1 ∧ st.upper1 ≤ st.upper2 := by
  obtain ⟨hb, rfl⟩ := calcMeansMedians_mem l b st h
  split
  · exact evenStats_errors _
  · exact weightedStats_errors _ (groupRows_ne_nil l b hb) (fun s hs => hw _ (groupRows_mem l b s hs))

/-- **C99**: with weights that are not uniform, the median of a group is its smallest target at which half of the weight of the
group is reached, and likewise for the other quantiles. -/
theorem C99_median (l : List (ℕ × K × K)) (hw : ∀ s ∈ l, 0 ≤ s.2.2) (hu : weightsUniform (l.map (fun s => s.2.2)) = false) (b : ℕ)
    (st : GroupStats K) (h : (b, st) ∈ calcMeansMedians l) :
    IsLeastQuantile (1 / 2) (Spec.inGroup l b) st.median ∧
      IsLeastQuantile ((1 - 6827 / 10000) / 2) (Spec.inGroup l b) (st.median + st.lower1) ∧
      IsLeastQuantile (1 - (1 - 6827 / 10000) / 2) (Spec.inGroup l b) (st.median + st.upper1) ∧
      IsLeastQuantile ((1 - 9545 / 10000) / 2) (Spec.inGroup l b) (st.median + st.lower2) ∧
      IsLeastQuantile (1 - (1 - 9545 / 10000) / 2) (Spec.inGroup l b) (st.median + st.upper2) := by
  obtain ⟨hb, rfl⟩ := calcMeansMedians_mem l b st h
  rw [hu]
  simp only [Bool.false_eq_true, if_false]
  have hne := groupRows_ne_nil l b hb
  have hw' : ∀ s ∈ groupRows l b, 0 ≤ s.2 := fun s hs => hw _ (groupRows_mem l b s hs)
  have eg : groupRows l b = Spec.inGroup l b := rfl
  rw [eg] at hne hw' ⊢
  simp only [weightedStats]
  rw [weightedMedian_eq]
  obtain ⟨q1, a1, b1⟩ := frameQuantile (lower2Sigma) (by unfold lower2Sigma; norm_num) _ hne hw'
  obtain ⟨q2, a2, b2⟩ := frameQuantile (lower1Sigma) (by unfold lower1Sigma; norm_num) _ hne hw'
  obtain ⟨q3, a3, b3⟩ := frameQuantile (1 / 2) (by norm_num) _ hne hw'
  obtain ⟨q4, a4, b4⟩ := frameQuantile (1 - lower1Sigma) (by unfold lower1Sigma; norm_num) _ hne hw'
  obtain ⟨q5, a5, b5⟩ := frameQuantile (1 - lower2Sigma) (by unfold lower2Sigma; norm_num) _ hne hw'
  rw [a1, a2, a3, a4, a5]
  simp only [Option.getD_some, add_sub_cancel]
  exact ⟨b3, b2, b4, b1, b5⟩

/-- **C99**: with uniform weights, the median is the middle of the sorted targets. -/
theorem C99_even_median (l : List (ℕ × K × K)) (hu : weightsUniform (l.map (fun s => s.2.2)) = true) (b : ℕ)
    (st : GroupStats K) (h : (b, st) ∈ calcMeansMedians l) (sorted : List K) (hp : sorted.Perm ((Spec.inGroup l b).map Prod.fst))
    (hs : sorted.Pairwise (· ≤ ·)) :
    st.median = (sorted.getD ((sorted.length - 1) / 2) 0 + sorted.getD (sorted.length / 2) 0) / 2 := by
  obtain ⟨hb, rfl⟩ := calcMeansMedians_mem l b st h
  rw [hu]
  simp only [if_true, evenStats]
  have e : ((groupRows l b).map Prod.fst).insertionSort (· ≤ ·) = sorted :=
    List.Perm.eq_of_pairwise (le := (· ≤ ·)) (fun a b _ _ h1 h2 => le_antisymm h1 h2) (List.pairwise_insertionSort _ _) hs
      ((List.perm_insertionSort _ _).trans hp.symm)
  rw [e]
  unfold plainMedian
  split
  · rw [show (sorted.length - 1) / 2 = sorted.length / 2 from by omega]
    ring
  · rw [show (sorted.length - 1) / 2 = sorted.length / 2 - 1 from by omega]

theorem interpolatedQuantile_spec (q : K) (h0 : 0 ≤ q) (h1 : q ≤ 1) (sorted : List K) (hne : sorted ≠ []) :
    IsInterpolatedQuantile q sorted (interpolatedQuantile q sorted) := by
  have hl : 1 ≤ sorted.length := List.length_pos_of_ne_nil hne
  have hcast : ((sorted.length - 1 : ℕ) : K) = (sorted.length : K) - 1 := by rw [Nat.cast_sub hl, Nat.cast_one]
  set pos := q * ((sorted.length - 1 : ℕ) : K) with hpos
  have hp0 : 0 ≤ pos := mul_nonneg h0 (Nat.cast_nonneg _)
  have hp1 : pos ≤ ((sorted.length - 1 : ℕ) : K) := mul_le_of_le_one_left (Nat.cast_nonneg _) h1
  have hfl : 0 ≤ ⌊pos⌋ := Int.floor_nonneg.mpr hp0
  have hcl : ((⌊pos⌋.toNat : ℕ) : K) = (⌊pos⌋ : K) := by
    have : ((⌊pos⌋.toNat : ℕ) : ℤ) = ⌊pos⌋ := Int.toNat_of_nonneg hfl
    exact_mod_cast congrArg (fun z : ℤ => (z : K)) this
  have hlow : ((⌊pos⌋.toNat : ℕ) : K) ≤ pos := by rw [hcl]; exact Int.floor_le pos
  have hlt : pos < ((⌊pos⌋.toNat : ℕ) : K) + 1 := by rw [hcl]; exact Int.lt_floor_add_one pos
  have hi : ⌊pos⌋.toNat ≤ sorted.length - 1 := by exact_mod_cast le_trans hlow hp1
  have hi' : ⌊pos⌋.toNat < sorted.length := by omega
  refine ⟨⌊pos⌋.toNat, pos - ((⌊pos⌋.toNat : ℕ) : K), sorted[⌊pos⌋.toNat], ?_, by linarith, by linarith,
    List.getElem?_eq_getElem hi', ?_⟩
  · rw [← hcast, ← hpos]; ring
  · have hget : sorted.getD ⌊pos⌋.toNat 0 = sorted[⌊pos⌋.toNat] := by
      rw [List.getD_eq_getElem?_getD, List.getElem?_eq_getElem hi', Option.getD_some]
    unfold interpolatedQuantile
    simp only [← hpos]
    rw [hget]
    by_cases hn : ⌊pos⌋.toNat + 1 < sorted.length
    · right
      refine ⟨sorted[⌊pos⌋.toNat + 1], List.getElem?_eq_getElem hn, ?_⟩
      have hget2 : sorted.getD (⌊pos⌋.toNat + 1) sorted[⌊pos⌋.toNat] = sorted[⌊pos⌋.toNat + 1] := by
        rw [List.getD_eq_getElem?_getD, List.getElem?_eq_getElem hn, Option.getD_some]
      rw [hget2]
      ring
    · left
      have he : ⌊pos⌋.toNat = sorted.length - 1 := by omega
      have ht : pos - ((⌊pos⌋.toNat : ℕ) : K) = 0 := by
        have h2 : ((⌊pos⌋.toNat : ℕ) : K) = ((sorted.length - 1 : ℕ) : K) := by rw [he]
        linarith
      rw [ht]
      exact ⟨rfl, by ring⟩

/-- **C99**: with uniform weights, the errors lead from the median to the interpolated quantiles of the targets of the group. -/
theorem C99_even_errors (l : List (ℕ × K × K)) (hu : weightsUniform (l.map (fun s => s.2.2)) = true) (b : ℕ)
    (st : GroupStats K) (h : (b, st) ∈ calcMeansMedians l) (sorted : List K) (hp : sorted.Perm ((Spec.inGroup l b).map Prod.fst))
    (hs : sorted.Pairwise (· ≤ ·)) :
    IsInterpolatedQuantile ((1 - 6827 / 10000) / 2) sorted (st.median + st.lower1) ∧
      IsInterpolatedQuantile (1 - (1 - 6827 / 10000) / 2) sorted (st.median + st.upper1) ∧
      IsInterpolatedQuantile ((1 - 9545 / 10000) / 2) sorted (st.median + st.lower2) ∧
      IsInterpolatedQuantile (1 - (1 - 9545 / 10000) / 2) sorted (st.median + st.upper2) := by
  obtain ⟨hb, rfl⟩ := calcMeansMedians_mem l b st h
  rw [hu]
  have e : ((groupRows l b).map Prod.fst).insertionSort (· ≤ ·) = sorted :=
    List.Perm.eq_of_pairwise (le := (· ≤ ·)) (fun a b _ _ h1 h2 => le_antisymm h1 h2) (List.pairwise_insertionSort _ _) hs
      ((List.perm_insertionSort _ _).trans hp.symm)
  have hne : sorted ≠ [] := by
    intro hn
    have := groupRows_ne_nil l b hb
    rw [hn] at hp
    exact this (List.map_eq_nil_iff.mp hp.symm.eq_nil)
  simp only [if_true, evenStats, add_sub_cancel]
  rw [e]
  refine ⟨?_, ?_, ?_, ?_⟩ <;> exact interpolatedQuantile_spec _ (by norm_num [lower1Sigma, lower2Sigma]) (by norm_num [lower1Sigma, lower2Sigma]) _ hne

/-! ### Order of the rows and scale of the weights -/

theorem weightsUniform_perm (l l' : List K) (h : l.Perm l') : weightsUniform l = weightsUniform l' := by
  unfold weightsUniform
  rw [(List.Perm.dedup h).length_eq]

theorem evenStats_perm (l l' : List K) (h : l.Perm l') : evenStats l = evenStats l' := by
  have e : l.insertionSort (· ≤ ·) = l'.insertionSort (· ≤ ·) :=
    List.Perm.eq_of_pairwise (le := (· ≤ ·)) (fun a b _ _ h1 h2 => le_antisymm h1 h2) (List.pairwise_insertionSort _ _)
      (List.pairwise_insertionSort _ _) ((List.perm_insertionSort _ _).trans (h.trans (List.perm_insertionSort _ _).symm))
  unfold evenStats
  rw [e, h.sum_eq, h.length_eq]

theorem frameQuantile_perm (tau : K) (h1 : tau ≤ 1) (l l' : List (K × K)) (h : l.Perm l') (hne : l ≠ []) (hw : ∀ s ∈ l, 0 ≤ s.2) :
    weightedQuantile tau (sortByTarget l) = weightedQuantile tau (sortByTarget l') := by
  obtain ⟨q, a, b⟩ := frameQuantile tau h1 l hne hw
  obtain ⟨q', a', b'⟩ := frameQuantile tau h1 l' (fun e => hne (by rw [e] at h; exact h.eq_nil)) (fun s hs => hw s (h.mem_iff.mpr hs))
  rw [a, a', IsLeastQuantile_unique tau l' q q' (IsLeastQuantile_perm tau l l' h q b) b']

theorem weightedStats_perm (l l' : List (K × K)) (h : l.Perm l') (hne : l ≠ []) (hw : ∀ s ∈ l, 0 ≤ s.2) :
    weightedStats l = weightedStats l' := by
  unfold weightedStats weightedMeanFrame weightedSize
  simp only [weightedMedian_eq]
  rw [frameQuantile_perm (1 / 2) (by norm_num) l l' h hne hw,
    frameQuantile_perm lower1Sigma (by unfold lower1Sigma; norm_num) l l' h hne hw,
    frameQuantile_perm lower2Sigma (by unfold lower2Sigma; norm_num) l l' h hne hw,
    frameQuantile_perm (1 - lower1Sigma) (by unfold lower1Sigma; norm_num) l l' h hne hw,
    frameQuantile_perm (1 - lower2Sigma) (by unfold lower2Sigma; norm_num) l l' h hne hw,
    (h.map Prod.snd).sum_eq, (h.map (fun s => s.1 * s.2)).sum_eq]

/-- **C99**: the order of the samples does not matter. -/
theorem C99_order (l l' : List (ℕ × K × K)) (h : l.Perm l') (hw : ∀ s ∈ l, 0 ≤ s.2.2) : calcMeansMedians l = calcMeansMedians l' := by
  unfold calcMeansMedians
  rw [weightsUniform_perm _ _ (h.map (fun s : ℕ × K × K => s.2.2)), groupNumbers_perm l l' h]
  apply List.map_congr_left
  intro b hb
  rw [← groupNumbers_perm l l' h] at hb
  have hp := groupRows_perm l l' h b
  rw [evenStats_perm _ _ (hp.map Prod.fst),
    weightedStats_perm _ _ hp (groupRows_ne_nil l b hb) (fun s hs => hw _ (groupRows_mem l b s hs))]

/-- All weights multiplied by a constant. -/
def Spec.scaleWeights (c : K) (l : List (ℕ × K × K)) : List (ℕ × K × K) := l.map (fun s => (s.1, s.2.1, c * s.2.2))

theorem groupRows_scale (c : K) (l : List (ℕ × K × K)) (b : ℕ) :
    groupRows (Spec.scaleWeights c l) b = (groupRows l b).map (fun s => (s.1, c * s.2)) := by
  simp only [groupRows, Spec.scaleWeights, List.filter_map, List.map_map]
  rfl

theorem groupNumbers_scale (c : K) (l : List (ℕ × K × K)) : groupNumbers (Spec.scaleWeights c l) = groupNumbers l := by
  simp only [groupNumbers, Spec.scaleWeights, List.map_map]
  rfl

theorem IsLeastQuantile_scale (c : K) (hc : 0 < c) (tau : K) (l : List (K × K)) (q : K) (h : IsLeastQuantile tau l q) :
    IsLeastQuantile tau (l.map (fun s => (s.1, c * s.2))) q := by
  have e1 : ((l.map (fun s => (s.1, c * s.2))).map Prod.snd).sum = c * (l.map Prod.snd).sum := by
    rw [List.map_map, ← List.sum_map_mul_left]; rfl
  have e2 : ∀ y, weightUpTo (l.map (fun s => (s.1, c * s.2))) y = c * weightUpTo l y := by
    intro y
    unfold weightUpTo
    rw [List.map_map, ← List.sum_map_mul_left]
    congr 1
    apply List.map_congr_left
    intro s _
    simp only [Function.comp_apply]
    split
    · rfl
    · rw [mul_zero]
  obtain ⟨⟨s, hs, rfl⟩, h2, h3⟩ := h
  refine ⟨⟨(s.1, c * s.2), List.mem_map.mpr ⟨s, hs, rfl⟩, rfl⟩, ?_, ?_⟩
  · rw [e1, e2]
    have := mul_le_mul_of_nonneg_left h2 hc.le
    linarith
  · intro t ht hle
    obtain ⟨t', ht', rfl⟩ := List.mem_map.mp ht
    refine h3 t' ht' ?_
    rw [e1, e2] at hle
    exact le_of_mul_le_mul_left (by linarith) hc

theorem frameQuantile_scale (c : K) (hc : 0 < c) (tau : K) (h1 : tau ≤ 1) (l : List (K × K)) (hne : l ≠ []) (hw : ∀ s ∈ l, 0 ≤ s.2) :
    weightedQuantile tau (sortByTarget (l.map (fun s => (s.1, c * s.2)))) = weightedQuantile tau (sortByTarget l) := by
  obtain ⟨q, a, b⟩ := frameQuantile tau h1 l hne hw
  obtain ⟨q', a', b'⟩ := frameQuantile tau h1 (l.map (fun s => (s.1, c * s.2))) (by simpa using hne) (by
    intro s hs
    obtain ⟨t, ht, rfl⟩ := List.mem_map.mp hs
    exact mul_nonneg hc.le (hw t ht))
  rw [a, a', IsLeastQuantile_unique tau _ q q' (IsLeastQuantile_scale c hc tau l q b) b']

/-- **C99**: only the ratios of the weights matter: multiplying all weights by a positive constant multiplies the counts (unless the
weights are uniform, when counts are numbers of samples) and changes neither means nor medians nor errors. -/
theorem C99_scale (c : K) (hc : 0 < c) (l : List (ℕ × K × K)) (hw : ∀ s ∈ l, 0 ≤ s.2.2) :
    calcMeansMedians (Spec.scaleWeights c l) = (calcMeansMedians l).map (fun g =>
      (g.1, { g.2 with count := if weightsUniform (l.map (fun s => s.2.2)) then g.2.count else c * g.2.count })) := by
  have hu : weightsUniform ((Spec.scaleWeights c l).map (fun s => s.2.2)) = weightsUniform (l.map (fun s => s.2.2)) := by
    have : (Spec.scaleWeights c l).map (fun s => s.2.2) = (l.map (fun s => s.2.2)).map (fun w => c * w) := by
      simp [Spec.scaleWeights]
    rw [this]
    unfold weightsUniform
    rw [List.dedup_map_of_injective (fun a b h => mul_left_cancel₀ hc.ne' h), List.length_map]
  unfold calcMeansMedians
  rw [hu, groupNumbers_scale, List.map_map]
  apply List.map_congr_left
  intro b hb
  have hne := groupRows_ne_nil l b hb
  have hw' : ∀ s ∈ groupRows l b, 0 ≤ s.2 := fun s hs => hw _ (groupRows_mem l b s hs)
  simp only [Function.comp_apply, groupRows_scale]
  by_cases h : weightsUniform (l.map (fun s => s.2.2)) = true
  · simp only [h, if_true, List.map_map]
    rfl
  · simp only [h, Bool.false_eq_true, if_false]
    unfold weightedStats weightedMeanFrame weightedSize
    simp only [weightedMedian_eq]
    rw [frameQuantile_scale c hc (1 / 2) (by norm_num) _ hne hw',
      frameQuantile_scale c hc lower1Sigma (by unfold lower1Sigma; norm_num) _ hne hw',
      frameQuantile_scale c hc lower2Sigma (by unfold lower2Sigma; norm_num) _ hne hw',
      frameQuantile_scale c hc (1 - lower1Sigma) (by unfold lower1Sigma; norm_num) _ hne hw',
      frameQuantile_scale c hc (1 - lower2Sigma) (by unfold lower2Sigma; norm_num) _ hne hw']
    have e1 : (((groupRows l b).map (fun s => (s.1, c * s.2))).map Prod.snd).sum = c * ((groupRows l b).map Prod.snd).sum := by
      rw [List.map_map, ← List.sum_map_mul_left]; rfl
    have e2 : (((groupRows l b).map (fun s => (s.1, c * s.2))).map (fun s => s.1 * s.2)).sum
        = c * ((groupRows l b).map (fun s => s.1 * s.2)).sum := by
      rw [List.map_map, ← List.sum_map_mul_left]
      congr 1
      apply List.map_congr_left
      intro s _
      simp only [Function.comp_apply]
      ring
    rw [e1, e2]
    have e3 : (c * ((groupRows l b).map Prod.snd).sum = 0) = (((groupRows l b).map Prod.snd).sum = 0) := by
      simp [hc.ne']
    simp only [e3]
    rw [mul_div_mul_left _ _ hc.ne']

/-- **C99**: the quantile of each group is the smallest target at which the share is reached (histogram of a quantile model). -/
theorem C99_quantile (tau : K) (h1 : tau ≤ 1) (l : List (ℕ × K × K)) (hw : ∀ s ∈ l, 0 ≤ s.2.2) (b : ℕ) (q : K)
    (h : (b, q) ∈ calcWeightedQuantile tau l) : IsLeastQuantile tau (Spec.inGroup l b) q := by
  obtain ⟨b', hb, e⟩ := List.mem_map.mp h
  obtain ⟨rfl, rfl⟩ := Prod.mk.injEq _ _ _ _ ▸ e
  obtain ⟨q, a, hq⟩ := frameQuantile tau h1 (groupRows l b') (groupRows_ne_nil l b' hb) (fun s hs => hw _ (groupRows_mem l b' s hs))
  rw [a]
  exact hq

end

/-! ### Counterexamples and witnesses -/

/-- **C99** fails for uniform weights other than 1: the counts are numbers of samples, not weights. -/
theorem C99_uniform_counts :
    ((calcMeansMedians ([(1, 5, 3), (1, 7, 3)] : List (ℕ × ℚ × ℚ))).map (fun g => (g.1, g.2.count))) = [(1, 2)] ∧
    (([(1, 5, 3), (1, 7, 3)] : List (ℕ × ℚ × ℚ)).map (fun s => s.2.2)).sum = 6 := by
  constructor
  · decide +kernel
  · norm_num

/-- **C99**: medians change abruptly when weights stop being uniform: two samples with targets 0 and 1 have the median 1/2 if their
weights are equal, and 0 or 1 however small the difference of the weights. -/
theorem C99_median_jump (e : ℚ) (h0 : 0 < e) (h1 : e < 1) :
    ((calcMeansMedians ([(1, 0, 1), (1, 1, 1)] : List (ℕ × ℚ × ℚ))).map (fun g => (g.1, g.2.median))) = [(1, 1 / 2)] ∧
    ((calcMeansMedians ([(1, 0, 1 + e), (1, 1, 1)] : List (ℕ × ℚ × ℚ))).map (fun g => (g.1, g.2.median))) = [(1, 0)] ∧
    ((calcMeansMedians ([(1, 0, 1 - e), (1, 1, 1)] : List (ℕ × ℚ × ℚ))).map (fun g => (g.1, g.2.median))) = [(1, 1)] := by
  have key : ∀ w : ℚ, w ≠ 1 → (calcMeansMedians ([(1, 0, w), (1, 1, 1)] : List (ℕ × ℚ × ℚ))).map (fun g => (g.1, g.2.median))
      = [(1, if w + 1 ≤ 2 * w then 0 else if 0 ≤ w + 1 then 1 else 0)] := by
    intro w hw
    have hu : weightsUniform [w, (1 : ℚ)] = false := by
      unfold weightsUniform
      rw [List.dedup_eq_self.mpr (by simpa using hw)]
      rfl
    have hg : groupNumbers ([(1, 0, w), (1, 1, 1)] : List (ℕ × ℚ × ℚ)) = [1] := by
      simp [groupNumbers, List.dedup_cons_of_mem]
    have hr : groupRows ([(1, 0, w), (1, 1, 1)] : List (ℕ × ℚ × ℚ)) 1 = [(0, w), (1, 1)] := by simp [groupRows]
    simp only [calcMeansMedians, hg, List.map_cons, List.map_nil, hu, hr, weightedStats, weightedMedian, sortByTarget,
      List.insertionSort, List.orderedInsert]
    norm_num
    have hf : firstReaching ((w + 1) / 2) 0 [(0, w), (1, 1)]
        = if (w + 1) / 2 ≤ w then some 0 else if (w + 1) / 2 ≤ w + 1 then some 1 else none := by simp [firstReaching]
    rw [hf]
    have c1 : ((w + 1) / 2 ≤ w) ↔ (w + 1 ≤ 2 * w) := by constructor <;> intro h <;> linarith
    have c2 : ((w + 1) / 2 ≤ w + 1) ↔ (0 ≤ w + 1) := by constructor <;> intro h <;> linarith
    simp only [c1, c2]
    by_cases h : w + 1 ≤ 2 * w
    · simp [h]
    · by_cases h2 : 0 ≤ w + 1 <;> simp [h, h2]
  refine ⟨by decide +kernel, ?_, ?_⟩
  · rw [key _ (by linarith), if_pos (by linarith)]
  · rw [key _ (by linarith), if_neg (by linarith), if_pos (by linarith)]

/-- The hypotheses of the theorems on groups are met. -/
example : (calcMeansMedians ([(1, 0, 1), (2, 4, 1), (1, 6, 2)] : List (ℕ × ℚ × ℚ))).map (fun g => (g.1, g.2.mean, g.2.median, g.2.count))
    = [(1, .fin 4, 6, 3), (2, .fin 4, 4, 1)] := by decide +kernel

end CB
