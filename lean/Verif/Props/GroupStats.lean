import Mathlib.Algebra.Order.BigOperators.Group.List
import Mathlib.Algebra.Order.Floor.Ring
import Mathlib.Data.Rat.Floor
import Mathlib.Data.List.GetD
import Mathlib.Tactic.Linarith
import Mathlib.Tactic.FieldSimp
import Mathlib.Tactic.Ring
import Mathlib.Tactic.NormNum
import Mathlib.Algebra.Order.Field.Rat
import Verif.Model.Histogram
import Verif.Spec.Histogram
import Verif.Props.Quantile

set_option autoImplicit false
set_option linter.unusedSectionVars false

/-!
C99: grouped means, medians, counts and errors.
-/
namespace CB
open Spec

variable {K : Type*} [Field K] [LinearOrder K] [IsStrictOrderedRing K]

/-! ### Weighted quantiles -/

theorem weightUpTo_append (l l' : List (K × K)) (y : K) : weightUpTo (l ++ l') y = weightUpTo l y + weightUpTo l' y := by
  simp [weightUpTo]

theorem weightUpTo_cons (s : K × K) (l : List (K × K)) (y : K) :
    weightUpTo (s :: l) y = (if s.1 ≤ y then s.2 else 0) + weightUpTo l y := by simp [weightUpTo]

theorem weightUpTo_nonneg (l : List (K × K)) (hw : ∀ s ∈ l, 0 ≤ s.2) (y : K) : 0 ≤ weightUpTo l y := by
  apply List.sum_nonneg
  intro x hx
  obtain ⟨s, hs, rfl⟩ := List.mem_map.mp hx
  split
  · exact hw s hs
  · exact le_refl _

theorem weightUpTo_le_sum (l : List (K × K)) (hw : ∀ s ∈ l, 0 ≤ s.2) (y : K) : weightUpTo l y ≤ (l.map Prod.snd).sum := by
  apply List.sum_le_sum
  intro s hs
  split
  · exact le_refl _
  · exact hw s hs

theorem weightUpTo_all (l : List (K × K)) (y : K) (h : ∀ s ∈ l, s.1 ≤ y) : weightUpTo l y = (l.map Prod.snd).sum := by
  unfold weightUpTo
  congr 1
  apply List.map_congr_left
  intro s hs
  rw [if_pos (h s hs)]

theorem weightUpTo_none (l : List (K × K)) (y : K) (h : ∀ s ∈ l, y < s.1) : weightUpTo l y = 0 := by
  induction l with
  | nil => rfl
  | cons s l ih =>
    rw [weightUpTo_cons, ih (fun t ht => h t (by simp [ht])), if_neg (not_le.mpr (h s (by simp)))]
    simp

theorem weightUpTo_perm (l l' : List (K × K)) (h : l.Perm l') (y : K) : weightUpTo l y = weightUpTo l' y := (h.map _).sum_eq

theorem IsLeastQuantile_perm (tau : K) (l l' : List (K × K)) (h : l.Perm l') (q : K) (hq : IsLeastQuantile tau l q) :
    IsLeastQuantile tau l' q := by
  obtain ⟨⟨s, hs, rfl⟩, h2, h3⟩ := hq
  have hsum : (l.map Prod.snd).sum = (l'.map Prod.snd).sum := (h.map _).sum_eq
  refine ⟨⟨s, h.mem_iff.mp hs, rfl⟩, ?_, ?_⟩
  · rw [← weightUpTo_perm l l' h, ← hsum]; exact h2
  · intro t ht hle
    rw [← weightUpTo_perm l l' h, ← hsum] at hle
    exact h3 t (h.mem_iff.mpr ht) hle

theorem IsLeastQuantile_unique (tau : K) (l : List (K × K)) (q q' : K) (h : IsLeastQuantile tau l q) (h' : IsLeastQuantile tau l q') :
    q = q' := by
  obtain ⟨⟨s, hs, rfl⟩, h2, h3⟩ := h
  obtain ⟨⟨s', hs', rfl⟩, h2', h3'⟩ := h'
  exact le_antisymm (h3 s' hs' h2') (h3' s hs h2)

theorem IsLeastQuantile_mono (tau tau' : K) (l : List (K × K)) (hw : ∀ s ∈ l, 0 ≤ s.2) (ht : tau ≤ tau') (q q' : K)
    (h : IsLeastQuantile tau l q) (h' : IsLeastQuantile tau' l q') : q ≤ q' := by
  obtain ⟨⟨s', hs', rfl⟩, h2', h3'⟩ := h'
  refine h.2.2 s' hs' (le_trans ?_ h2')
  exact mul_le_mul_of_nonneg_right ht (List.sum_nonneg (by
    intro x hx; obtain ⟨s, hs, rfl⟩ := List.mem_map.mp hx; exact hw s hs))

theorem weightedQuantile_least (tau : K) (h1 : tau ≤ 1) (sorted : List (K × K)) (hne : sorted ≠ [])
    (hw : ∀ s ∈ sorted, 0 ≤ s.2) (hsort : (sorted.map Prod.fst).Pairwise (· ≤ ·)) :
    ∃ q, weightedQuantile tau sorted = some q ∧ IsLeastQuantile tau sorted q := by
  have hW : 0 ≤ (sorted.map Prod.snd).sum := List.sum_nonneg (by
    intro x hx; obtain ⟨s, hs, rfl⟩ := List.mem_map.mp hx; exact hw s hs)
  unfold weightedQuantile
  cases hf : firstReaching ((sorted.map Prod.snd).sum * tau) 0 sorted with
  | none =>
    exfalso
    have := firstReaching_none _ sorted 0 hne hf
    have := mul_le_mul_of_nonneg_left h1 hW
    linarith
  | some q =>
    refine ⟨q, by simp only [hf], ?_⟩
    obtain ⟨pre, post, w, hs, hge, hlt⟩ := firstReaching_spec _ _ _ _ hf
    have hsort' := hsort
    rw [hs, List.map_append, List.map_cons, List.pairwise_append, List.pairwise_cons] at hsort'
    have hpre : ∀ s ∈ pre, s.1 ≤ q := fun s hs' => hsort'.2.2 s.1 (List.mem_map.mpr ⟨s, hs', rfl⟩) q (by simp)
    have hpost : ∀ s ∈ post, q ≤ s.1 := fun s hs' => hsort'.2.1.1 s.1 (List.mem_map.mpr ⟨s, hs', rfl⟩)
    have hwpre : ∀ s ∈ pre, 0 ≤ s.2 := fun s hs' => hw s (by rw [hs]; simp [hs'])
    have hwpost : ∀ s ∈ post, 0 ≤ s.2 := fun s hs' => hw s (by rw [hs]; simp [hs'])
    refine ⟨⟨(q, w), by rw [hs]; simp, rfl⟩, ?_, ?_⟩
    · rw [mul_comm]
      refine le_trans hge ?_
      conv_rhs => rw [hs]
      rw [weightUpTo_append, weightUpTo_cons, weightUpTo_all pre q hpre, if_pos (le_refl _)]
      have := weightUpTo_nonneg post hwpost q
      linarith
    · intro s hmem hle
      by_contra hcon
      rw [not_le] at hcon
      rcases hlt with h | h
      · subst h
        rw [hs, List.nil_append, List.mem_cons] at hmem
        rcases hmem with rfl | hm
        · exact lt_irrefl _ hcon
        · exact absurd (hpost s hm) (not_le.mpr hcon)
      · rw [mul_comm] at hle
        have e : weightUpTo sorted s.1 = weightUpTo pre s.1 := by
          conv_lhs => rw [hs]
          rw [weightUpTo_append, weightUpTo_cons, if_neg (not_le.mpr hcon),
            weightUpTo_none post s.1 (fun t ht => lt_of_lt_of_le hcon (hpost t ht))]
          simp
        have := weightUpTo_le_sum pre hwpre s.1
        linarith

theorem sortByTarget_perm (l : List (K × K)) : (sortByTarget l).Perm l := List.perm_insertionSort _ l

theorem sortByTarget_sorted (l : List (K × K)) : ((sortByTarget l).map Prod.fst).Pairwise (· ≤ ·) := by
  rw [List.pairwise_map]
  have : Std.Total (fun a b : K × K => a.1 ≤ b.1) := ⟨fun a b => le_total a.1 b.1⟩
  have : IsTrans (K × K) (fun a b : K × K => a.1 ≤ b.1) := ⟨fun a b c => le_trans⟩
  exact List.pairwise_insertionSort (fun a b : K × K => a.1 ≤ b.1) l

/-- The quantile of a group of samples as the code computes it: sort by target, then take the first target that reaches the share. -/
theorem frameQuantile (tau : K) (h1 : tau ≤ 1) (l : List (K × K)) (hne : l ≠ []) (hw : ∀ s ∈ l, 0 ≤ s.2) :
    ∃ q, weightedQuantile tau (sortByTarget l) = some q ∧ IsLeastQuantile tau l q := by
  have hp := sortByTarget_perm l
  obtain ⟨q, h1, h2⟩ := weightedQuantile_least tau h1 (sortByTarget l)
    (fun h => hne (by rw [h] at hp; exact hp.symm.eq_nil)) (fun s hs => hw s (hp.mem_iff.mp hs)) (sortByTarget_sorted l)
  exact ⟨q, h1, IsLeastQuantile_perm tau _ _ hp q h2⟩

theorem weightedMedian_eq (l : List (K × K)) : weightedMedian l = weightedQuantile (1 / 2) (sortByTarget l) := by
  unfold weightedMedian weightedQuantile
  simp only [mul_one_div]
  cases firstReaching ((List.map Prod.snd (sortByTarget l)).sum / 2) 0 (sortByTarget l) <;> rfl

/-! ### Plain quantiles -/

section plain
variable [FloorRing K]

/-- Entry of a list, the last one repeated. -/
theorem sorted_getD_mono (l : List K) (hs : l.Pairwise (· ≤ ·)) (i j : ℕ) (hij : i ≤ j) (hj : j < l.length) : l.getD i 0 ≤ l.getD j 0 := by
  have hi : i < l.length := by omega
  rw [List.getD_eq_getElem _ _ hi, List.getD_eq_getElem _ _ hj]
  rcases Nat.lt_or_ge i j with h | h
  · exact (List.pairwise_iff_getElem.mp hs) i j hi hj h
  · have : i = j := by omega
    subst this; exact le_refl _

theorem next_ge (l : List K) (hs : l.Pairwise (· ≤ ·)) (i : ℕ) : l.getD i 0 ≤ l.getD (i + 1) (l.getD i 0) := by
  rcases Nat.lt_or_ge (i + 1) l.length with h | h
  · have := sorted_getD_mono l hs i (i + 1) (by omega) h
    rwa [List.getD_eq_getElem _ _ h] at this ⊢
  · rw [List.getD_eq_default _ _ h]

theorem interpolatedQuantile_mono (l : List K) (hs : l.Pairwise (· ≤ ·)) (q q' : K) (h0 : 0 ≤ q) (hq : q ≤ q') (h1 : q' ≤ 1) :
    interpolatedQuantile q l ≤ interpolatedQuantile q' l := by
  rcases Nat.eq_zero_or_pos l.length with hl | hl
  · have : l = [] := List.length_eq_zero_iff.mp hl
    subst this
    simp [interpolatedQuantile]
  unfold interpolatedQuantile
  simp only []
  set N : K := ((l.length - 1 : ℕ) : K) with hN
  have hN0 : 0 ≤ N := Nat.cast_nonneg _
  have hp0 : 0 ≤ q * N := mul_nonneg h0 hN0
  have hpp : q * N ≤ q' * N := mul_le_mul_of_nonneg_right hq hN0
  have hp1 : q' * N ≤ N := by nlinarith
  have hp0' : 0 ≤ q' * N := le_trans hp0 hpp
  obtain ⟨a, ha⟩ : ∃ a : ℕ, ⌊q * N⌋ = (a : ℤ) := Int.eq_ofNat_of_zero_le (Int.floor_nonneg.mpr hp0)
  obtain ⟨b, hb⟩ : ∃ b : ℕ, ⌊q' * N⌋ = (b : ℤ) := Int.eq_ofNat_of_zero_le (Int.floor_nonneg.mpr hp0')
  have ha1 : (a : K) ≤ q * N := by have := Int.floor_le (q * N); rw [ha] at this; exact_mod_cast this
  have ha2 : q * N < (a : K) + 1 := by have := Int.lt_floor_add_one (q * N); rw [ha] at this; exact_mod_cast this
  have hb1 : (b : K) ≤ q' * N := by have := Int.floor_le (q' * N); rw [hb] at this; exact_mod_cast this
  have hab : a ≤ b := by have := Int.floor_le_floor hpp; rw [ha, hb] at this; exact_mod_cast this
  have hbN : b ≤ l.length - 1 := by
    have : (b : K) ≤ ((l.length - 1 : ℕ) : K) := le_trans hb1 hp1
    exact_mod_cast this
  rw [ha, hb, Int.toNat_natCast, Int.toNat_natCast]
  have na := next_ge l hs a
  have nb := next_ge l hs b
  rcases Nat.lt_or_ge a b with h | h
  · have e : l.getD (a + 1) (l.getD a 0) = l.getD (a + 1) 0 := by
      rw [List.getD_eq_getElem _ _ (by omega), List.getD_eq_getElem _ _ (by omega)]
    have h2 := sorted_getD_mono l hs (a + 1) b (by omega) (by omega)
    rw [e] at na ⊢
    have h3 : (q * N - (a : K)) * (l.getD (a + 1) 0 - l.getD a 0) ≤ 1 * (l.getD (a + 1) 0 - l.getD a 0) :=
      mul_le_mul_of_nonneg_right (by linarith) (by linarith)
    have h4 : 0 ≤ (q' * N - (b : K)) * (l.getD (b + 1) (l.getD b 0) - l.getD b 0) := mul_nonneg (by linarith) (by linarith)
    linarith
  · have : a = b := by omega
    subst this
    have : (q * N - (a : K)) * (l.getD (a + 1) (l.getD a 0) - l.getD a 0)
        ≤ (q' * N - (a : K)) * (l.getD (a + 1) (l.getD a 0) - l.getD a 0) :=
      mul_le_mul_of_nonneg_right (by linarith) (by linarith)
    linarith

theorem plainMedian_eq (l : List K) : plainMedian l = interpolatedQuantile (1 / 2) l := by
  rcases Nat.eq_zero_or_pos l.length with hl | hl
  · have : l = [] := List.length_eq_zero_iff.mp hl
    subst this
    simp [interpolatedQuantile, plainMedian]
  unfold plainMedian interpolatedQuantile
  simp only []
  rcases Nat.mod_two_eq_zero_or_one l.length with h | h
  · obtain ⟨m, hm⟩ : ∃ m, l.length = 2 * (m + 1) := ⟨l.length / 2 - 1, by omega⟩
    have hpos : (1 / 2 : K) * ((l.length - 1 : ℕ) : K) = (m : K) + 1 / 2 := by
      rw [hm, show 2 * (m + 1) - 1 = 2 * m + 1 from by omega]; push_cast; ring
    have hfl : ⌊(m : K) + 1 / 2⌋ = (m : ℤ) := by
      rw [Int.floor_eq_iff]; push_cast; constructor <;> linarith
    have e1 : l.length / 2 - 1 = m := by omega
    have e2 : l.length / 2 = m + 1 := by omega
    rw [if_neg (by omega), hpos, hfl, Int.toNat_natCast, e1, e2]
    have e : l.getD (m + 1) (l.getD m 0) = l.getD (m + 1) 0 := by
      rw [List.getD_eq_getElem _ _ (by omega), List.getD_eq_getElem _ _ (by omega)]
    rw [e]
    ring
  · obtain ⟨m, hm⟩ : ∃ m, l.length = 2 * m + 1 := ⟨l.length / 2, by omega⟩
    have hpos : (1 / 2 : K) * ((l.length - 1 : ℕ) : K) = (m : K) := by
      rw [hm, show 2 * m + 1 - 1 = 2 * m from by omega]; push_cast; ring
    rw [if_pos h, hpos, Int.floor_natCast, Int.toNat_natCast, show l.length / 2 = m from by omega]
    ring

/-! ### Errors -/

theorem sigma_order : (0 : K) ≤ lower2Sigma ∧ (lower2Sigma : K) ≤ lower1Sigma ∧ (lower1Sigma : K) ≤ 1 / 2 ∧
    (1 / 2 : K) ≤ 1 - lower1Sigma ∧ (1 - lower1Sigma : K) ≤ 1 - lower2Sigma ∧ (1 - lower2Sigma : K) ≤ 1 := by
  have e1 : (lower1Sigma : K) = 3173 / 20000 := by unfold lower1Sigma; norm_num
  have e2 : (lower2Sigma : K) = 455 / 20000 := by unfold lower2Sigma; norm_num
  rw [e1, e2]
  norm_num

theorem evenStats_errors (ys : List K) : (evenStats ys).lower2 ≤ (evenStats ys).lower1 ∧ (evenStats ys).lower1 ≤ 0 ∧
    0 ≤ (evenStats ys).upper1 ∧ (evenStats ys).upper1 ≤ (evenStats ys).upper2 := by
  have hs : (ys.insertionSort (· ≤ ·)).Pairwise (· ≤ ·) := List.pairwise_insertionSort _ _
  obtain ⟨s0, s1, s2, s3, s4, s5⟩ := sigma_order (K := K)
  simp only [evenStats]
  rw [plainMedian_eq]
  have a := interpolatedQuantile_mono _ hs _ _ s0 s1 (by linarith)
  have b := interpolatedQuantile_mono _ hs _ _ (by linarith) s2 (by linarith)
  have c := interpolatedQuantile_mono _ hs _ _ (by norm_num) s3 (by linarith)
  have d := interpolatedQuantile_mono _ hs _ _ (by linarith) s4 s5
  exact ⟨by linarith, by linarith, by linarith, by linarith⟩

end plain

theorem weightedStats_errors (l : List (K × K)) (hne : l ≠ []) (hw : ∀ s ∈ l, 0 ≤ s.2) :
    (weightedStats l).lower2 ≤ (weightedStats l).lower1 ∧ (weightedStats l).lower1 ≤ 0 ∧
      0 ≤ (weightedStats l).upper1 ∧ (weightedStats l).upper1 ≤ (weightedStats l).upper2 := by
  have e1 : (lower1Sigma : K) = 3173 / 20000 := by unfold lower1Sigma; norm_num
  have e2 : (lower2Sigma : K) = 455 / 20000 := by unfold lower2Sigma; norm_num
  simp only [weightedStats]
  rw [weightedMedian_eq, e1, e2]
  obtain ⟨q1, a1, b1⟩ := frameQuantile (455 / 20000) (by norm_num) l hne hw
  obtain ⟨q2, a2, b2⟩ := frameQuantile (3173 / 20000) (by norm_num) l hne hw
  obtain ⟨q3, a3, b3⟩ := frameQuantile (1 / 2) (by norm_num) l hne hw
  obtain ⟨q4, a4, b4⟩ := frameQuantile (1 - 3173 / 20000) (by norm_num) l hne hw
  obtain ⟨q5, a5, b5⟩ := frameQuantile (1 - 455 / 20000) (by norm_num) l hne hw
  rw [a1, a2, a3, a4, a5]
  simp only [Option.getD_some]
  have c1 := IsLeastQuantile_mono _ _ l hw (by norm_num) _ _ b1 b2
  have c2 := IsLeastQuantile_mono _ _ l hw (by norm_num) _ _ b2 b3
  have c3 := IsLeastQuantile_mono _ _ l hw (by norm_num) _ _ b3 b4
  have c4 := IsLeastQuantile_mono _ _ l hw (by norm_num) _ _ b4 b5
  exact ⟨by linarith, by linarith, by linarith, by linarith⟩

end CB
