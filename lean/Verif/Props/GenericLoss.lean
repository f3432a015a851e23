import Verif.Model.GenericLoss
import Mathlib.Algebra.BigOperators.Group.List.Basic
import Mathlib.Algebra.Order.BigOperators.Group.List
import Mathlib.Data.List.GetD
import Mathlib.Data.List.Perm.Basic
import Mathlib.Data.List.Range
import Mathlib.Data.Rat.Floor
import Mathlib.Algebra.Order.Field.Rat
import Mathlib.Tactic.Linarith
import Mathlib.Tactic.Ring
import Mathlib.Tactic.NormNum
import Mathlib.Tactic.FieldSimp
import Mathlib.Tactic.Positivity

set_option autoImplicit false
set_option linter.unusedSectionVars false

/-!
C37: the optimisation of a bin receives exactly the samples of the bin.
-/
namespace CB

/-- `sorting` is a result `numpy.argsort` may return: each index once, the values in ascending order. -/
def Spec.IsArgsort (n : ℕ) (codes : ℕ → ℕ) (sorting : List ℕ) : Prop :=
  sorting.Perm (List.range n) ∧ (sorting.map codes).Pairwise (· ≤ ·)

theorem npUniqueIdxAux_gt (a k : ℕ) (l : List ℕ) (hs : (a :: l).Pairwise (· ≤ ·)) :
    ∀ p ∈ npUniqueIdxAux (some a) k l, a < p.1 := by
  induction l generalizing a k with
  | nil => intro p hp; simp [npUniqueIdxAux] at hp
  | cons x xs ih =>
    intro p hp
    have hax : a ≤ x := (List.pairwise_cons.mp hs).1 x (by simp)
    have hxs : (x :: xs).Pairwise (· ≤ ·) := (List.pairwise_cons.mp hs).2
    unfold npUniqueIdxAux at hp
    by_cases h : a = x
    · rw [if_pos (by rw [h])] at hp
      rw [h] at hp ⊢
      exact ih x (k + 1) hxs p hp
    · rw [if_neg (by simpa using h)] at hp
      rcases List.mem_cons.mp hp with rfl | hp
      · exact lt_of_le_of_ne hax h
      · exact lt_of_le_of_lt hax (ih x (k + 1) hxs p hp)

/-- The values of `npUniqueIdxAux` are strictly ascending and are the values of the list other than `a`. -/
theorem npUniqueIdxAux_fst (a k : ℕ) (l : List ℕ) (hs : (a :: l).Pairwise (· ≤ ·)) :
    ((npUniqueIdxAux (some a) k l).map Prod.fst).Pairwise (· < ·) ∧
      ∀ b, b ∈ (npUniqueIdxAux (some a) k l).map Prod.fst ↔ (b ∈ l ∧ b ≠ a) := by
  induction l generalizing a k with
  | nil => simp [npUniqueIdxAux]
  | cons x xs ih =>
    have hax : a ≤ x := (List.pairwise_cons.mp hs).1 x (by simp)
    have hxs : (x :: xs).Pairwise (· ≤ ·) := (List.pairwise_cons.mp hs).2
    unfold npUniqueIdxAux
    by_cases h : a = x
    · rw [if_pos (by rw [h])]
      subst h
      obtain ⟨h1, h2⟩ := ih a (k + 1) hxs
      refine ⟨h1, fun b => ?_⟩
      rw [h2 b, List.mem_cons]
      constructor
      · rintro ⟨p, q⟩; exact ⟨Or.inr p, q⟩
      · rintro ⟨p | p, q⟩
        · exact absurd p q
        · exact ⟨p, q⟩
    · rw [if_neg (by simpa using h)]
      obtain ⟨h1, h2⟩ := ih x (k + 1) hxs
      rw [List.map_cons, List.pairwise_cons]
      refine ⟨⟨?_, h1⟩, ?_⟩
      · intro b hb
        rw [List.mem_map] at hb
        obtain ⟨p, hp, rfl⟩ := hb
        exact npUniqueIdxAux_gt x (k + 1) xs hxs p hp
      · intro b
        rw [List.mem_cons, h2 b, List.mem_cons]
        constructor
        · rintro (rfl | ⟨p, q⟩)
          · exact ⟨Or.inl rfl, fun hc => h hc.symm⟩
          · refine ⟨Or.inr p, fun hc => ?_⟩
            subst hc
            have := (List.pairwise_cons.mp hxs).1 b p
            exact q (le_antisymm hax this)
        · rintro ⟨p | p, q⟩
          · exact Or.inl p
          · by_cases hbx : b = x
            · exact Or.inl hbx
            · exact Or.inr ⟨p, hbx⟩

/-- The values of one run: the second components of the pairs with first component `b`. -/
def runOf {α : Type*} (l : List (ℕ × α)) (b : ℕ) : List α := (l.filter (fun p => decide (p.1 = b))).map Prod.snd

theorem runOf_cons_ne {α : Type*} (p : ℕ × α) (l : List (ℕ × α)) (b : ℕ) (h : p.1 ≠ b) : runOf (p :: l) b = runOf l b := by
  unfold runOf; rw [List.filter_cons_of_neg (by simpa using h)]

theorem runOf_cons_eq {α : Type*} (p : ℕ × α) (l : List (ℕ × α)) (b : ℕ) (h : p.1 = b) :
    runOf (p :: l) b = p.2 :: runOf l b := by
  unfold runOf; rw [List.filter_cons_of_pos (by simpa using h), List.map_cons]

theorem runOf_eq_nil {α : Type*} (l : List (ℕ × α)) (b : ℕ) (h : ∀ p ∈ l, p.1 ≠ b) : runOf l b = [] := by
  unfold runOf; rw [List.filter_eq_nil_iff.mpr (fun p hp => by simpa using h p hp), List.map_nil]

/-- Splitting a sorted array at the first index of each new value gives the runs. -/
theorem npSplitAux_runs {α : Type*} (a off : ℕ) (r : List α) (l : List (ℕ × α))
    (hs : (a :: l.map Prod.fst).Pairwise (· ≤ ·)) :
    npSplitAux (r ++ l.map Prod.snd) off ((npUniqueIdxAux (some a) (off + r.length) (l.map Prod.fst)).map Prod.snd)
      = (r ++ runOf l a) :: ((npUniqueIdxAux (some a) (off + r.length) (l.map Prod.fst)).map Prod.fst).map (runOf l) := by
  induction l generalizing a off r with
  | nil => simp [npUniqueIdxAux, npSplitAux, runOf]
  | cons p l ih =>
    obtain ⟨x, v⟩ := p
    simp only [List.map_cons] at hs ⊢
    have hax : a ≤ x := (List.pairwise_cons.mp hs).1 x (by simp)
    have hxs : (x :: l.map Prod.fst).Pairwise (· ≤ ·) := (List.pairwise_cons.mp hs).2
    unfold npUniqueIdxAux
    by_cases h : a = x
    · rw [if_pos (by rw [h])]
      subst h
      have := ih a off (r ++ [v]) hxs
      rw [List.length_append, List.length_singleton, ← Nat.add_assoc, List.append_assoc, List.singleton_append] at this
      rw [this, runOf_cons_eq _ _ _ rfl, List.append_assoc, List.singleton_append]
      congr 1
      apply List.map_congr_left
      intro b hb
      rw [List.mem_map] at hb
      obtain ⟨q, hq, rfl⟩ := hb
      exact (runOf_cons_ne _ _ _ (ne_of_lt (npUniqueIdxAux_gt a _ _ hxs q hq))).symm
    · rw [if_neg (by simpa using h)]
      simp only [List.map_cons]
      unfold npSplitAux
      rw [Nat.add_sub_cancel_left]
      have ih' := ih x (off + r.length) [v] hxs
      rw [List.length_singleton, List.singleton_append, List.singleton_append] at ih'
      rw [List.take_left, List.drop_left, ih']
      have hnil : runOf ((x, v) :: l) a = [] := by
        apply runOf_eq_nil
        intro q hq
        have : x ≤ q.1 := by
          rcases List.mem_cons.mp hq with rfl | hq
          · exact le_refl _
          · exact (List.pairwise_cons.mp hxs).1 _ (List.mem_map.mpr ⟨q, hq, rfl⟩)
        have := lt_of_le_of_ne hax h
        omega
      rw [hnil, List.append_nil, runOf_cons_eq _ _ _ rfl]
      congr 2
      apply List.map_congr_left
      intro b hb
      rw [List.mem_map] at hb
      obtain ⟨q, hq, rfl⟩ := hb
      exact (runOf_cons_ne _ _ _ (ne_of_lt (npUniqueIdxAux_gt x _ _ hxs q hq))).symm

/-- `np.split` at the unique indices, for a non-empty sorted array. -/
theorem npSplit_runs {α : Type*} (l : List (ℕ × α)) (hne : l ≠ []) (hs : (l.map Prod.fst).Pairwise (· ≤ ·)) :
    npSplit (l.map Prod.snd) ((npUniqueIdx (l.map Prod.fst)).map Prod.snd).tail
      = ((npUniqueIdx (l.map Prod.fst)).map Prod.fst).map (runOf l) := by
  cases l with
  | nil => exact absurd rfl hne
  | cons p l =>
    obtain ⟨x, v⟩ := p
    simp only [List.map_cons] at hs ⊢
    have h := npSplitAux_runs x 0 [v] l hs
    unfold npUniqueIdx npUniqueIdxAux npSplit
    rw [if_neg (by simp)]
    simp only [List.map_cons, List.tail_cons, Nat.zero_add]
    simp only [List.length_singleton, Nat.zero_add, List.singleton_append] at h
    rw [h, runOf_cons_eq _ _ _ rfl]
    congr 1
    apply List.map_congr_left
    intro b hb
    rw [List.mem_map] at hb
    obtain ⟨q, hq, rfl⟩ := hb
    exact (runOf_cons_ne _ _ _ (ne_of_lt (npUniqueIdxAux_gt x _ _ hs q hq))).symm

theorem npUniqueIdx_fst (l : List ℕ) (hs : l.Pairwise (· ≤ ·)) :
    ((npUniqueIdx l).map Prod.fst).Pairwise (· < ·) ∧ ∀ b, b ∈ (npUniqueIdx l).map Prod.fst ↔ b ∈ l := by
  cases l with
  | nil => simp [npUniqueIdx, npUniqueIdxAux]
  | cons x xs =>
    unfold npUniqueIdx npUniqueIdxAux
    rw [if_neg (by simp)]
    obtain ⟨h1, h2⟩ := npUniqueIdxAux_fst x 1 xs hs
    rw [List.map_cons]
    refine ⟨List.pairwise_cons.mpr ⟨?_, h1⟩, ?_⟩
    · intro b hb
      rw [List.mem_map] at hb
      obtain ⟨p, hp, rfl⟩ := hb
      exact npUniqueIdxAux_gt x 1 xs hs p hp
    · intro b
      rw [List.mem_cons, List.mem_cons, h2 b]
      constructor
      · rintro (h | ⟨h, _⟩)
        · exact Or.inl h
        · exact Or.inr h
      · rintro (h | h)
        · exact Or.inl h
        · by_cases hb : b = x
          · exact Or.inl hb
          · exact Or.inr ⟨h, hb⟩

/-- Inserting the empty bins in ascending order completes the list. -/
theorem insertEmpty_range {α : Type*} (F : ℕ → List α) (D : List ℕ) (hD : D.Pairwise (· < ·)) (N : ℕ)
    (hF : ∀ b, b ∉ D → F b = []) :
    insertEmpty (D.map F) ((List.range N).filter (fun b => decide (b ∉ D)))
      = (List.range N).map F ++ (D.filter (fun b => decide (N ≤ b))).map F := by
  unfold insertEmpty
  induction N with
  | zero => simp
  | succ N ih =>
    rw [List.range_succ, List.filter_append, List.foldl_append, ih]
    by_cases h : N ∈ D
    · have e : D.filter (fun b => decide (N ≤ b)) = N :: D.filter (fun b => decide (N + 1 ≤ b)) := by
        clear ih hF
        induction D with
        | nil => simp at h
        | cons d D ihD =>
          rw [List.pairwise_cons] at hD
          rcases List.mem_cons.mp h with h | h
          · subst h
            rw [List.filter_cons_of_pos (by simp), List.filter_cons_of_neg (by simp)]
            congr 1
            apply List.filter_congr
            intro b hb
            have := hD.1 b hb
            simp only [decide_eq_decide]
            omega
          · have hd := hD.1 N h
            rw [List.filter_cons_of_neg (by simpa using hd), List.filter_cons_of_neg (by simp; omega)]
            exact ihD hD.2 h
      rw [e]
      simp [h]
    · have e : D.filter (fun b => decide (N ≤ b)) = D.filter (fun b => decide (N + 1 ≤ b)) := by
        apply List.filter_congr
        intro b hb
        have : b ≠ N := fun hc => h (hc ▸ hb)
        simp only [decide_eq_decide]
        omega
      rw [e]
      simp only [h, not_false_eq_true, decide_true, List.filter_cons_of_pos, List.filter_nil, List.foldl_cons, List.foldl_nil]
      unfold pyInsert
      have hl : ((List.range N).map F).length = N := by simp
      rw [List.take_left' hl, List.drop_left' hl, List.map_append, List.append_assoc]
      simp [hF N h]

/-- **C37**: for every (possibly unstable) argsort of the bin numbers of `n > 0` samples, the optimisation is run for exactly
the bins `0 … nBins - 1`, and bin `b` receives exactly the rows (target, prediction, weight) of the samples with bin number
`b`, each as often as it occurs; a bin without samples receives no rows. -/
theorem C37_bins {α : Type*} (n : ℕ) (hn : 0 < n) (codes : ℕ → ℕ) (rows : ℕ → α) (nBins : ℕ) (hc : ∀ i < n, codes i < nBins)
    (sorting : List ℕ) (hs : Spec.IsArgsort n codes sorting) :
    (binRows sorting codes rows nBins).length = nBins ∧
      ∀ b < nBins, ∃ part, (binRows sorting codes rows nBins)[b]? = some part ∧
        part.Perm (((List.range n).filter (fun i => decide (codes i = b))).map rows) := by
  obtain ⟨hperm, hsort⟩ := hs
  set l : List (ℕ × α) := sorting.map (fun i => (codes i, rows i)) with hl
  have e1 : l.map Prod.fst = sorting.map codes := by rw [hl, List.map_map]; rfl
  have e2 : l.map Prod.snd = sorting.map rows := by rw [hl, List.map_map]; rfl
  have hne : l ≠ [] := by
    intro h
    have : sorting.length = n := by rw [hperm.length_eq, List.length_range]
    rw [hl, List.map_eq_nil_iff] at h
    rw [h] at this
    simp at this
    omega
  have hu := npUniqueIdx_fst (sorting.map codes) hsort
  set D := (npUniqueIdx (sorting.map codes)).map Prod.fst with hD
  have hbr : binRows sorting codes rows nBins
      = (List.range nBins).map (runOf l) ++ (D.filter (fun b => decide (nBins ≤ b))).map (runOf l) := by
    unfold binRows
    simp only []
    rw [← e1, ← e2, npSplit_runs l hne (by rw [e1]; exact hsort), e1]
    apply insertEmpty_range (runOf l) D hu.1
    intro b hb
    apply runOf_eq_nil
    intro p hp hpb
    apply hb
    rw [hu.2 b, ← e1, List.mem_map]
    exact ⟨p, hp, hpb⟩
  have hnil : D.filter (fun b => decide (nBins ≤ b)) = [] := by
    rw [List.filter_eq_nil_iff]
    intro b hb
    rw [hu.2 b, List.mem_map] at hb
    obtain ⟨i, hi, rfl⟩ := hb
    have : i < n := by rw [← List.mem_range]; exact hperm.mem_iff.mp hi
    have := hc i this
    simp; omega
  rw [hbr, hnil, List.map_nil, List.append_nil]
  refine ⟨by simp, fun b hb => ⟨runOf l b, ?_, ?_⟩⟩
  · rw [List.getElem?_map, List.getElem?_range hb]; rfl
  · have : runOf l b = (sorting.filter (fun i => decide (codes i = b))).map rows := by
      unfold runOf
      rw [hl, List.filter_map, List.map_map]
      rfl
    rw [this]
    exact (hperm.filter _).map _

/-- The completion depends on the order in which the empty bins are inserted: with bins 1 and 8 of 10 empty, inserting 8
before 1 (the order in which CPython would iterate over the set literal `{8, 1}`) gives bin 9 the data of no bin. The code
relies on the ascending iteration order of the set difference. -/
theorem C37_order_counterexample :
    let parts := [0, 2, 3, 4, 5, 6, 7, 9].map (fun b : ℕ => [b])
    (insertEmpty parts [1, 8])[9]? = some [9] ∧ (insertEmpty parts [8, 1])[9]? = some [] ∧
      (insertEmpty parts [8, 1])[8]? = some [9] := by decide

/-- Witness for C37: five samples, bins 0 and 3 of 4 empty, an unstable argsort. -/
example : Spec.IsArgsort 5 (fun i => [2, 1, 2, 1, 1].getD i 0) [3, 1, 4, 2, 0] ∧
    binRows [3, 1, 4, 2, 0] (fun i => [2, 1, 2, 1, 1].getD i 0) (fun i => 10 * i) 4 = [[], [30, 10, 40], [20, 0], []] := by
  refine ⟨⟨by decide, by decide⟩, by decide⟩

end CB
