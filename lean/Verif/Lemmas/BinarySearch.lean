import Verif.Model.BinarySearch
import Verif.Spec.Search
import Mathlib.Tactic.Linarith

set_option autoImplicit false
set_option linter.unusedSectionVars false

namespace CB
variable {K : Type*}

theorem pyGet_nat {α : Type*} (z : List α) (i : Int) (h0 : 0 ≤ i) (h1 : i < z.length) :
    pyGet z i = some (z[i.toNat]'(by omega)) := by
  unfold pyGet
  rw [if_pos h0]
  exact List.getElem?_eq_getElem (by omega)

theorem pyGet_natCast {α : Type*} (z : List α) (i : ℕ) (h1 : i < z.length) :
    pyGet z (i : Int) = some z[i] := by
  rw [pyGet_nat z i (by omega) (by omega)]
  simp

section
variable [LinearOrder K]

theorem sorted_get {z : List K} (hz : Spec.Sorted z) {i j : ℕ} (hij : i ≤ j) (hj : j < z.length) :
    z[i]'(by omega) ≤ z[j] := by
  rcases Nat.lt_or_eq_of_le hij with h | h
  · exact List.pairwise_iff_getElem.mp hz i j (by omega) hj h
  · subst h; exact le_refl _

theorem geOf_mono {a b : K} (s : Flt K) (hab : a ≤ b) (h : Flt.geOf a s = true) : Flt.geOf b s = true := by
  cases s with
  | fin x => simp only [Flt.geOf, decide_eq_true_eq] at *; exact le_trans h hab
  | nan => simp [Flt.geOf] at h
  | pinf => simp [Flt.geOf] at h
  | ninf => rfl

theorem leOf_mono {a b : K} (s : Flt K) (hab : a ≤ b) (h : Flt.leOf b s = true) : Flt.leOf a s = true := by
  cases s with
  | fin x => simp only [Flt.leOf, decide_eq_true_eq] at *; exact le_trans hab h
  | nan => simp [Flt.leOf] at h
  | pinf => rfl
  | ninf => simp [Flt.leOf] at h

/-- Loop invariant of `ge`/`ge_lim`; `l0` is the exclusive lower end of the region searched. -/
theorem geLoop_spec {z : List K} (hz : Spec.Sorted z) (s : Flt K) (l0 : Int) :
    ∀ (k : ℕ) (l r : Int), (r - l).toNat ≤ k → -1 ≤ l → l < r → r ≤ z.length →
      (∀ (j : ℕ) (h : j < z.length), l0 < (j : Int) → (j : Int) ≤ l → Flt.geOf z[j] s = false) →
      ∃ r' : ℕ, geLoop z s l r = some (r' : Int) ∧ l < r' ∧ (r' : Int) ≤ r ∧
        (∀ (j : ℕ) (h : j < z.length), l0 < (j : Int) → j < r' → Flt.geOf z[j] s = false) ∧
        ((r' : Int) = r ∨ ∃ h : r' < z.length, Flt.geOf z[r'] s = true) := by
  intro k
  induction k with
  | zero => intro l r hk _ hlr; omega
  | succ k ih =>
    intro l r hk hl hlr hr h1
    unfold geLoop
    by_cases hc : l < r - 1
    · rw [if_pos hc]
      have hi0 : 0 ≤ (l + r) / 2 := by omega
      have hi1 : (l + r) / 2 < z.length := by omega
      simp only [pyGet_nat z _ hi0 hi1]
      by_cases hg : Flt.geOf (z[((l + r) / 2).toNat]'(by omega)) s = true
      · rw [if_pos hg]
        obtain ⟨r', e, a, b, c, d⟩ := ih l ((l + r) / 2) (by omega) hl (by omega) (by omega) h1
        refine ⟨r', e, a, by omega, c, Or.inr ?_⟩
        rcases d with d | d
        · have : r' = ((l + r) / 2).toNat := by omega
          subst this
          exact ⟨by omega, hg⟩
        · exact d
      · rw [if_neg hg]
        have hg' : Flt.geOf (z[((l + r) / 2).toNat]'(by omega)) s = false := by simpa using hg
        obtain ⟨r', e, a, b, c, d⟩ := ih ((l + r) / 2) r (by omega) (by omega) (by omega) hr (by
          intro j h _ hj
          by_contra hne
          have ht : Flt.geOf z[j] s = true := by simpa using hne
          have := geOf_mono s (sorted_get hz (i := j) (j := ((l + r) / 2).toNat) (by omega) (by omega)) ht
          rw [hg'] at this
          exact absurd this (by decide))
        exact ⟨r', e, by omega, b, c, d⟩
    · rw [if_neg hc]
      refine ⟨r.toNat, by rw [Int.toNat_of_nonneg (by omega)], by omega, by omega, ?_, Or.inl (by omega)⟩
      intro j h h0 hj
      exact h1 j h h0 (by omega)

theorem leLoop_spec {z : List K} (hz : Spec.Sorted z) (s : Flt K) :
    ∀ (k : ℕ) (l r : Int), (r - l).toNat ≤ k → -1 ≤ l → l < r → r ≤ z.length →
      (∀ (j : ℕ) (h : j < z.length), r ≤ (j : Int) → Flt.leOf z[j] s = false) →
      ∃ l' : Int, leLoop z s l r = some l' ∧ l ≤ l' ∧ l' < r ∧
        (∀ (j : ℕ) (h : j < z.length), l' < (j : Int) → Flt.leOf z[j] s = false) ∧
        (l' = l ∨ ∃ (m : ℕ) (h : m < z.length), (m : Int) = l' ∧ Flt.leOf z[m] s = true) := by
  intro k
  induction k with
  | zero => intro l r hk _ hlr; omega
  | succ k ih =>
    intro l r hk hl hlr hr h1
    unfold leLoop
    by_cases hc : l < r - 1
    · rw [if_pos hc]
      have hi0 : 0 ≤ (l + r) / 2 := by omega
      have hi1 : (l + r) / 2 < z.length := by omega
      simp only [pyGet_nat z _ hi0 hi1]
      by_cases hg : Flt.leOf (z[((l + r) / 2).toNat]'(by omega)) s = true
      · rw [if_pos hg]
        obtain ⟨l', e, a, b, c, d⟩ := ih ((l + r) / 2) r (by omega) (by omega) (by omega) hr h1
        refine ⟨l', e, by omega, b, c, Or.inr ?_⟩
        rcases d with d | d
        · exact ⟨((l + r) / 2).toNat, by omega, by omega, hg⟩
        · exact d
      · rw [if_neg hg]
        have hg' : Flt.leOf (z[((l + r) / 2).toNat]'(by omega)) s = false := by simpa using hg
        obtain ⟨l', e, a, b, c, d⟩ := ih l ((l + r) / 2) (by omega) (by omega) (by omega) (by omega) (by
          intro j h hj
          by_contra hne
          have ht : Flt.leOf z[j] s = true := by simpa using hne
          have := leOf_mono s (sorted_get hz (i := ((l + r) / 2).toNat) (j := j) (by omega) h) ht
          rw [hg'] at this
          exact absurd this (by decide))
        exact ⟨l', e, a, by omega, c, d⟩
    · rw [if_neg hc]
      refine ⟨l, rfl, le_refl _, hlr, ?_, Or.inl rfl⟩
      intro j h hj
      exact h1 j h (by omega)

end
end CB

namespace CB
variable {K : Type*} [LinearOrder K]

theorem ge_false_spec {z : List K} (hz : Spec.Sorted z) (x : K) :
    ∃ r : ℕ, ge z (.fin x) false = some (r : Int) ∧ Spec.IsFirstGE z x r := by
  obtain ⟨r, e, _, b, c, d⟩ := geLoop_spec hz (.fin x) (-1) _ (-1) z.length le_rfl (by omega) (by omega) le_rfl
    (by intro j h h0 hj; omega)
  refine ⟨r, by simpa [ge] using e, by omega, ?_, ?_⟩
  · intro j h hj
    have := c j h (by omega) hj
    simpa [Flt.geOf] using this
  · intro j h hj
    rcases d with d | ⟨hr, d⟩
    · omega
    · have := geOf_mono (.fin x) (sorted_get hz hj h) d
      simpa [Flt.geOf] using this

theorem ge_true_spec {z : List K} (hz : Spec.Sorted z) (hn : 0 < z.length) (x : K) :
    ∃ r : ℕ, ge z (.fin x) true = some (r : Int) ∧ ∃ h : r < z.length,
      (∀ (j : ℕ) (hj : j < r), z[j]'(by omega) < x) ∧ (x ≤ z[r] ∨ r = z.length - 1) := by
  obtain ⟨r, e, _, b, c, d⟩ := geLoop_spec hz (.fin x) (-1) _ (-1) (z.length - 1) le_rfl (by omega) (by omega) (by omega)
    (by intro j h h0 hj; omega)
  refine ⟨r, by simpa [ge] using e, by omega, ?_, ?_⟩
  · intro j hj
    have := c j (by omega) (by omega) hj
    simpa [Flt.geOf] using this
  · rcases d with d | ⟨hr, d⟩
    · right; omega
    · left; simpa [Flt.geOf] using d

theorem geLim_true_spec {z : List K} (hz : Spec.Sorted z) (x : K) (i : ℕ) (hi : i < z.length) :
    ∃ r : ℕ, geLim z (.fin x) true i z.length = some (r : Int) ∧ i ≤ r ∧ ∃ h : r < z.length,
      (∀ (j : ℕ) (hj : j < r), i ≤ j → z[j]'(by omega) < x) ∧ (x ≤ z[r] ∨ r = z.length - 1) := by
  obtain ⟨r, e, a, b, c, d⟩ := geLoop_spec hz (.fin x) ((i : Int) - 1) _ ((i : Int) - 1) (z.length - 1) le_rfl
    (by omega) (by omega) (by omega) (by intro j h h0 hj; omega)
  refine ⟨r, by simpa [geLim] using e, by omega, by omega, ?_, ?_⟩
  · intro j hj hij
    have := c j (by omega) (by omega) hj
    simpa [Flt.geOf] using this
  · rcases d with d | ⟨hr, d⟩
    · right; omega
    · left; simpa [Flt.geOf] using d

theorem le_false_spec {z : List K} (hz : Spec.Sorted z) (x : K) :
    ∃ r : ℕ, le z (.fin x) false = some ((r : Int) - 1) ∧ Spec.IsCountLE z x r := by
  obtain ⟨l, e, a, b, c, d⟩ := leLoop_spec hz (.fin x) _ (-1) z.length le_rfl (by omega) (by omega) le_rfl
    (by intro j h hj; omega)
  refine ⟨(l + 1).toNat, ?_, by omega, ?_, ?_⟩
  · have : (((l + 1).toNat : ℕ) : Int) - 1 = l := by omega
    rw [this]
    simpa [le] using e
  · intro j h hj
    rcases d with d | ⟨m, hm, hml, d⟩
    · omega
    · have := leOf_mono (.fin x) (sorted_get hz (i := j) (j := m) (by omega) hm) d
      simpa [Flt.leOf] using this
  · intro j h hj
    have := c j h (by omega)
    simpa [Flt.leOf] using this

end CB
