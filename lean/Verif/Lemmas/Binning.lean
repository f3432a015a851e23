import Verif.Model.Binning
import Verif.Spec.Binning
import Verif.Lemmas.BinarySearch
import Mathlib.Tactic.Ring
import Mathlib.Tactic.FieldSimp
import Mathlib.Tactic.Positivity

set_option autoImplicit false
set_option linter.unusedSectionVars false

namespace CB

section
variable {K : Type*} [LinearOrder K]

theorem strict_sorted {z : List K} (h : z.Pairwise (· < ·)) : Spec.Sorted z :=
  h.imp (fun h => le_of_lt h)

end

section
variable {K : Type*} [Field K] [LinearOrder K] [IsStrictOrderedRing K]

theorem npUnique_strict (xs : List K) : (npUnique xs).Pairwise (· < ·) := by
  have h1 : (npUnique xs).Pairwise (· ≤ ·) :=
    List.Pairwise.sublist (List.dedup_sublist _) (List.pairwise_insertionSort (· ≤ ·) xs)
  have h2 : (npUnique xs).Nodup := List.nodup_dedup _
  refine (h1.and h2).imp ?_
  intro a b h
  exact lt_of_le_of_ne h.1 h.2

theorem mem_npUnique {xs : List K} {v : K} : v ∈ npUnique xs ↔ v ∈ xs := by
  unfold npUnique
  rw [List.mem_dedup, List.mem_insertionSort]

/-- Result of the discrete search: the last stored value within epsilon, or NaN. -/
theorem eqIndex_spec {z : List K} (hz : Spec.Sorted z) (hn : 0 < z.length) (x eps : K) :
    (∃ (k : ℕ) (h : k < z.length), eqIndex z (.fin x) eps = some (.fin (k : Int)) ∧ |z[k] - x| ≤ eps ∧
        ∀ (j : ℕ) (hj : j < z.length), |z[j] - x| ≤ eps → j ≤ k) ∨
    (eqIndex z (.fin x) eps = some .nan ∧ ∀ (j : ℕ) (hj : j < z.length), eps < |z[j] - x|) := by
  obtain ⟨r, e, hr, h1, h2⟩ := le_false_spec hz (x + eps)
  unfold eqIndex
  simp only [Flt.addFin, e]
  rcases Nat.eq_zero_or_pos r with h0 | h0
  · subst h0
    right
    have hg : pyGet z ((0 : ℕ) - 1 : Int) = some (z[z.length - 1]'(by omega)) := by
      unfold pyGet
      rw [if_neg (by omega), if_pos (by omega)]
      have : ((z.length : Int) + ((0 : ℕ) - 1 : Int)).toNat = z.length - 1 := by omega
      rw [this]
      exact List.getElem?_eq_getElem (by omega)
    rw [hg]
    have hall : ∀ (j : ℕ) (hj : j < z.length), eps < |z[j] - x| := by
      intro j hj
      have := h2 j hj (by omega)
      exact lt_of_lt_of_le (by linarith) (le_abs_self _)
    refine ⟨?_, hall⟩
    have := hall (z.length - 1) (by omega)
    simp [checkEqual, not_le.mpr this]
  · have hg : pyGet z ((r : Int) - 1) = some (z[r - 1]'(by omega)) := by
      rw [pyGet_nat z _ (by omega) (by omega)]
      congr 1
      have : ((r : Int) - 1).toNat = r - 1 := by omega
      simp [this]
    rw [hg]
    by_cases hc : |z[r - 1]'(by omega) - x| ≤ eps
    · left
      refine ⟨r - 1, by omega, ?_, hc, ?_⟩
      · simp only [checkEqual, hc, zero_mul, add_zero, decide_true, if_true]
        rw [pyGet_nat _ _ (by omega) (by simp; omega)]
        simp only [List.getElem_range]
        congr 2
        omega
      · intro j hj hjx
        by_contra hlt
        have := h2 j hj (by omega)
        have h3 := (abs_le.mp hjx).2
        linarith
    · right
      refine ⟨by simp [checkEqual, hc], ?_⟩
      intro j hj
      by_contra hle
      have hle := not_lt.mp hle
      apply hc
      have hlast := h1 (r - 1) (by omega) (by omega)
      by_cases hjr : j ≤ r - 1
      · have hm := sorted_get hz hjr (by omega)
        rw [abs_le] at hle ⊢
        constructor <;> linarith [hle.1]
      · have := h2 j hj (by omega)
        have h3 := (abs_le.mp hle).2
        linarith

theorem isFiniteMagic_fin (magic : Bool) (x : K) :
    isFiniteMagic magic (.fin x) = true ↔ (magic = true → x ≠ -9 ∧ x ≠ -999) := by
  cases magic <;> simp [isFiniteMagic, Flt.isFinite, Flt.eqFin]

theorem recheck_nat (magic : Bool) (k : ℕ) : recheck magic (.fin (k : Int)) = k := by
  unfold recheck
  have h1 : ((k : Int) == -9) = false := by
    rw [beq_eq_false_iff_ne]; omega
  have h2 : ((k : Int) == -999) = false := by
    rw [beq_eq_false_iff_ne]; omega
  simp [h1, h2]

end

end CB
