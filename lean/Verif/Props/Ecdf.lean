import Verif.Props.Fit

set_option autoImplicit false
set_option linter.unusedSectionVars false

/-!
C08: the ECDF transform of a continuous column is total, bounded, monotone and exact at the boundaries.
-/
namespace CB

variable {K : Type*} [Field K] [LinearOrder K] [IsStrictOrderedRing K]

/-- What `le_interp` computes on a sorted array. -/
theorem leInterp_spec {z u : List K} (hz : Spec.Sorted z) (hlen : u.length = z.length) (hn : 0 < z.length)
    (outLeft eps x : K) :
    (x + eps < z[0] ∧ leInterp z (.fin x) u outLeft eps = some (.fin outLeft)) ∨
    ∃ (i : ℕ) (h : i < z.length), z[i] ≤ x + eps ∧ (∀ (j : ℕ) (hj : j < z.length), i < j → x + eps < z[j]) ∧
      ((leInterp z (.fin x) u outLeft eps = some (.fin (u[i]'(by omega))) ∧ (i = z.length - 1 ∨ x ≤ z[i])) ∨
       ∃ h1 : i + 1 < z.length, z[i] < x ∧ leInterp z (.fin x) u outLeft eps
          = some (.fin (u[i]'(by omega) + (x - z[i]) / (z[i + 1] - z[i]) * (u[i + 1]'(by omega) - u[i]'(by omega))))) := by
  obtain ⟨r, e, hr, h1, h2⟩ := le_false_spec hz (x + eps)
  unfold leInterp
  simp only [e]
  rw [if_neg (by omega)]
  rcases Nat.eq_zero_or_pos r with h0 | h0
  · subst h0
    left
    refine ⟨h2 0 hn le_rfl, ?_⟩
    have hg : ∀ l : List K, 0 < l.length → ∃ v, pyGet l ((0 : ℕ) - 1 : Int) = some v := by
      intro l hl
      unfold pyGet
      rw [if_neg (by omega), if_pos (by omega)]
      have : ((l.length : Int) + ((0 : ℕ) - 1 : Int)).toNat < l.length := by omega
      exact ⟨_, List.getElem?_eq_getElem this⟩
    obtain ⟨a, ha⟩ := hg z hn
    obtain ⟨b, hb⟩ := hg u (by omega)
    rw [ha, hb]
    simp
  · right
    have hr1 : ((r : Int) - 1) = ((r - 1 : ℕ) : Int) := by omega
    have hg : pyGet z ((r : Int) - 1) = some (z[r - 1]'(by omega)) := by
      rw [hr1, pyGet_natCast _ _ (by omega)]
    have hgu : pyGet u ((r : Int) - 1) = some (u[r - 1]'(by omega)) := by
      rw [hr1, pyGet_natCast _ _ (by omega)]
    rw [hg, hgu]
    simp only
    rw [if_neg (by omega)]
    refine ⟨r - 1, by omega, h1 _ _ (by omega), fun j hj hij => h2 j hj (by omega), ?_⟩
    by_cases hc : ((r : Int) - 1 < (z.length : Int) - 1 ∧ z[r - 1]'(by omega) < x)
    · right
      rw [if_pos hc]
      have hrr : r - 1 + 1 = r := by omega
      refine ⟨by omega, hc.2, ?_⟩
      have hg' : pyGet z ((r : Int) - 1 + 1) = some (z[r]'(by omega)) := by
        rw [show ((r : Int) - 1 + 1) = (r : Int) by omega, pyGet_natCast _ _ (by omega)]
      have hgu' : pyGet u ((r : Int) - 1 + 1) = some (u[r]'(by omega)) := by
        rw [show ((r : Int) - 1 + 1) = (r : Int) by omega, pyGet_natCast _ _ (by omega)]
      rw [hg', hgu']
      simp only [hrr]
    · left
      rw [if_neg hc]
      refine ⟨rfl, ?_⟩
      by_cases hi : r - 1 = z.length - 1
      · exact Or.inl hi
      · right
        by_contra hx
        exact hc ⟨by omega, not_le.mp hx⟩

/-- The interpolated value lies between the stored values at both ends of its interval. -/
theorem leInterp_bounds {z u : List K} (hz : Spec.Sorted z) (hu : Spec.Sorted u) (hlen : u.length = z.length)
    (hn : 0 < z.length) (outLeft eps x : K) (heps : 0 ≤ eps) :
    (x + eps < z[0] ∧ leInterp z (.fin x) u outLeft eps = some (.fin outLeft)) ∨
    ∃ (i : ℕ) (h : i < z.length) (a : K), z[i] ≤ x + eps ∧ (∀ (j : ℕ) (hj : j < z.length), i < j → x + eps < z[j]) ∧
      leInterp z (.fin x) u outLeft eps = some (.fin a) ∧ u[i]'(by omega) ≤ a ∧
      (∀ h' : i + 1 < u.length, a ≤ u[i + 1]) ∧ (i + 1 = u.length → a = u[i]'(by omega)) := by
  rcases leInterp_spec hz hlen hn outLeft eps x with h | ⟨i, hi, h1, h2, ⟨h3, h4⟩ | ⟨h3, h4, h5⟩⟩
  · exact Or.inl h
  · right
    refine ⟨i, hi, _, h1, h2, h3, le_rfl, ?_, fun _ => rfl⟩
    intro h'
    exact sorted_get hu (by omega) h'
  · right
    refine ⟨i, hi, _, h1, h2, h5, ?_, ?_, fun h' => by omega⟩
    · have hz1 := h2 (i + 1) h3 (by omega)
      have hu1 := sorted_get hu (i := i) (j := i + 1) (by omega) (by omega)
      have : 0 ≤ (x - z[i]) / (z[i + 1] - z[i]) * (u[i + 1]'(by omega) - u[i]'(by omega)) := by
        apply mul_nonneg
        · apply div_nonneg <;> linarith
        · linarith
      linarith
    · intro h'
      have hz1 := h2 (i + 1) h3 (by omega)
      have hu1 := sorted_get hu (i := i) (j := i + 1) (by omega) (by omega)
      have hfrac : (x - z[i]) / (z[i + 1] - z[i]) ≤ 1 := by
        rw [div_le_one (by linarith)]; linarith
      have : (x - z[i]) / (z[i + 1] - z[i]) * (u[i + 1] - u[i]'(by omega)) ≤ 1 * (u[i + 1] - u[i]'(by omega)) :=
        mul_le_mul_of_nonneg_right hfrac (by linarith)
      linarith

theorem ecdfValue_continuous (eps : K) (bs cs : List K) (x v : Flt K) :
    leInterp bs x cs 0 eps = some v ↔ ecdfValue true eps (some (bs, cs)) x = .ok v := by
  unfold ecdfValue
  simp only [if_true]
  cases leInterp bs x cs 0 eps <;> simp

/-- **C08** The transform of a finite value is a number between 0 and 1. -/
theorem C08_bounded (bs cs : List K) (hbs : Spec.Sorted bs) (hcs : Spec.Sorted cs) (hlen : cs.length = bs.length)
    (hn : 0 < bs.length) (h01 : ∀ c ∈ cs, 0 ≤ c ∧ c ≤ 1) (eps : K) (heps : 0 ≤ eps) (x : K) :
    ∃ a : K, ecdfValue true eps (some (bs, cs)) (.fin x) = .ok (.fin a) ∧ 0 ≤ a ∧ a ≤ 1 := by
  rcases leInterp_bounds hbs hcs hlen hn 0 eps x heps with ⟨_, h⟩ | ⟨i, hi, a, _, _, h3, h4, h5, h6⟩
  · exact ⟨0, (ecdfValue_continuous ..).mp h, le_rfl, zero_le_one⟩
  · refine ⟨a, (ecdfValue_continuous ..).mp h3, ?_, ?_⟩
    · exact le_trans (h01 _ (List.getElem_mem _)).1 h4
    · by_cases hc : i + 1 < cs.length
      · exact le_trans (h5 hc) (h01 _ (List.getElem_mem _)).2
      · rw [h6 (by omega)]
        exact (h01 _ (List.getElem_mem _)).2

/-- **C08** The transform is nondecreasing in the value. -/
theorem C08_monotone (bs cs : List K) (hbs : Spec.Sorted bs) (hcs : Spec.Sorted cs) (hlen : cs.length = bs.length)
    (hn : 0 < bs.length) (h0 : ∀ c ∈ cs, 0 ≤ c) (eps : K) (heps : 0 ≤ eps) (x y a b : K) (hxy : x ≤ y)
    (ha : ecdfValue true eps (some (bs, cs)) (.fin x) = .ok (.fin a))
    (hb : ecdfValue true eps (some (bs, cs)) (.fin y) = .ok (.fin b)) : a ≤ b := by
  rw [← ecdfValue_continuous] at ha hb
  rcases leInterp_bounds hbs hcs hlen hn 0 eps x heps with ⟨hx, h⟩ | ⟨i, hi, a', i1, i2, i3, i4, i5, i6⟩
  · rw [ha] at h
    cases h
    rcases leInterp_bounds hbs hcs hlen hn 0 eps y heps with ⟨_, h'⟩ | ⟨j, hj, b', _, _, j3, j4, _⟩
    · rw [hb] at h'
      cases h'
      exact le_rfl
    · rw [hb] at j3
      cases j3
      exact le_trans (h0 _ (List.getElem_mem _)) j4
  · rw [ha] at i3
    cases i3
    rcases leInterp_bounds hbs hcs hlen hn 0 eps y heps with ⟨hy, _⟩ | ⟨j, hj, b', j1, j2, j3, j4, _⟩
    · have := sorted_get hbs (Nat.zero_le i) hi
      exfalso; linarith
    · rw [hb] at j3
      cases j3
      rcases Nat.lt_trichotomy i j with hij | hij | hij
      · exact le_trans (i5 (by omega)) (le_trans (sorted_get hcs (by omega) (by omega)) j4)
      · subst hij
        -- same interval: compare the two formulas
        rcases leInterp_spec hbs hlen hn 0 eps x with ⟨hx, _⟩ | ⟨i', hi', k1, k2, hk⟩
        · have := sorted_get hbs (Nat.zero_le i) hi
          exfalso; linarith
        · have hii : i' = i := by
            rcases Nat.lt_trichotomy i' i with h | h | h
            · have := k2 i hi h; exfalso; linarith
            · exact h
            · have := i2 i' hi' h; exfalso; linarith
          subst hii
          rcases hk with ⟨k3, k4⟩ | ⟨k3, k4, k5⟩
          · rw [ha] at k3
            cases k3
            exact j4
          · rw [ha] at k5
            cases k5
            rcases leInterp_spec hbs hlen hn 0 eps y with ⟨hy, _⟩ | ⟨j', hj', l1, l2, hl⟩
            · have := sorted_get hbs (Nat.zero_le i') hi
              exfalso; linarith
            · have hjj : j' = i' := by
                rcases Nat.lt_trichotomy j' i' with h | h | h
                · have := l2 i' hi h; exfalso; linarith
                · exact h
                · have := j2 j' hj' h; exfalso; linarith
              subst hjj
              rcases hl with ⟨l3, l4⟩ | ⟨l3, l4, l5⟩
              · exfalso
                rcases l4 with l4 | l4
                · omega
                · linarith
              · rw [hb] at l5
                cases l5
                have hz1 := k2 (j' + 1) k3 (by omega)
                have hu1 := sorted_get hcs (i := j') (j := j' + 1) (by omega) (by omega)
                have hfr : (x - bs[j']) / (bs[j' + 1] - bs[j']) ≤ (y - bs[j']) / (bs[j' + 1] - bs[j']) :=
                  div_le_div_of_nonneg_right (by linarith) (by linarith)
                have := mul_le_mul_of_nonneg_right hfr (sub_nonneg.mpr hu1)
                linarith
      · have := i2 i hi
        have h1 := j2 i hi hij
        exfalso; linarith

/-- **C08** At a stored boundary that is separated by more than epsilon from the following ones the stored cdf value
is returned. -/
theorem C08_exact (bs cs : List K) (hbs : Spec.Sorted bs) (hlen : cs.length = bs.length)
    (eps : K) (heps : 0 ≤ eps) (k : ℕ) (hk : k < bs.length)
    (hsep : ∀ (j : ℕ) (hj : j < bs.length), k < j → bs[k] + eps < bs[j]) :
    ecdfValue true eps (some (bs, cs)) (.fin bs[k]) = .ok (.fin (cs[k]'(by omega))) := by
  rw [← ecdfValue_continuous]
  rcases leInterp_spec hbs hlen (by omega) 0 eps bs[k] with ⟨h, _⟩ | ⟨i, hi, h1, h2, hh⟩
  · have := sorted_get hbs (Nat.zero_le k) hk
    exfalso; linarith
  · have hik : i = k := by
      rcases Nat.lt_trichotomy i k with h | h | h
      · have := h2 k hk h; exfalso; linarith
      · exact h
      · have := hsep i hi h; exfalso; linarith
    subst hik
    rcases hh with ⟨h3, _⟩ | ⟨_, h3, _⟩
    · exact h3
    · exact absurd h3 (lt_irrefl _)

/-- **C08** Values below the first boundary give 0, values at or above the last one give the last cdf value. -/
theorem C08_extremes (bs cs : List K) (hbs : Spec.Sorted bs) (hlen : cs.length = bs.length)
    (hn : 0 < bs.length) (eps : K) (heps : 0 ≤ eps) (x : K) :
    (x + eps < bs[0] → ecdfValue true eps (some (bs, cs)) (.fin x) = .ok (.fin 0)) ∧
    (bs[bs.length - 1] ≤ x → ecdfValue true eps (some (bs, cs)) (.fin x) = .ok (.fin (cs[bs.length - 1]'(by omega)))) := by
  constructor
  · intro hx
    rw [← ecdfValue_continuous]
    rcases leInterp_spec hbs hlen hn 0 eps x with ⟨_, h⟩ | ⟨i, hi, h1, _⟩
    · exact h
    · have := sorted_get hbs (Nat.zero_le i) hi
      exfalso; linarith
  · intro hx
    rw [← ecdfValue_continuous]
    rcases leInterp_spec hbs hlen hn 0 eps x with ⟨h, _⟩ | ⟨i, hi, h1, h2, hh⟩
    · have := sorted_get hbs (Nat.zero_le (bs.length - 1)) (by omega)
      exfalso; linarith
    · have hil : i = bs.length - 1 := by
        by_contra hne
        have := h2 (bs.length - 1) (by omega) (by omega)
        linarith
      subst hil
      rcases hh with ⟨h3, _⟩ | ⟨h3, _⟩
      · exact h3
      · omega

/-- **C08** Special values and columns without fitted boundaries give NaN. -/
theorem C08_missing (continuous : Bool) (eps : K) (b0 : K) (bs cs : List K) (table : Option (List K × List K)) (x : Flt K)
    (h : table = none ∨ (continuous = true ∧ table = some (b0 :: bs, cs) ∧ ∀ v, x ≠ .fin v)) :
    ecdfValue continuous eps table x = .ok .nan := by
  rcases h with rfl | ⟨rfl, rfl, hx⟩
  · rfl
  · cases x with
    | fin v => exact absurd rfl (hx v)
    | nan => rfl
    | pinf => rfl
    | ninf => rfl

/-- What `eq_multi` computes on a sorted array. -/
theorem eqOne_spec {z u : List K} (hz : Spec.Sorted z) (hlen : u.length = z.length) (hn : 0 < z.length) (x eps : K) :
    (∃ (k : ℕ) (h : k < z.length), eqOne z (.fin x) u eps = some (.fin (u[k]'(by omega))) ∧ |z[k] - x| ≤ eps ∧
        ∀ (j : ℕ) (hj : j < z.length), |z[j] - x| ≤ eps → j ≤ k) ∨
    (eqOne z (.fin x) u eps = some .nan ∧ ∀ (j : ℕ) (hj : j < z.length), eps < |z[j] - x|) := by
  obtain ⟨r, e, hr, h1, h2⟩ := le_false_spec hz (x + eps)
  unfold eqOne
  simp only [Flt.addFin, e]
  rcases Nat.eq_zero_or_pos r with h0 | h0
  · subst h0
    right
    have hg : pyGet z ((0 : ℕ) - 1 : Int) = some (z[z.length - 1]'(by omega)) := by
      unfold pyGet
      rw [if_neg (by omega), if_pos (by omega)]
      have : ((z.length : Int) + ((0 : ℕ) - 1 : Int)).toNat = z.length - 1 := by omega
      rw [this]
      exact List.getElem?_eq_getElem (by omega)
    rw [hg]
    have hall : ∀ (j : ℕ) (hj : j < z.length), eps < |z[j] - x| := by
      intro j hj
      have := h2 j hj (by omega)
      exact lt_of_lt_of_le (by linarith) (le_abs_self _)
    refine ⟨?_, hall⟩
    have := hall (z.length - 1) (by omega)
    simp [checkEqual, not_le.mpr this]
  · have hr1 : ((r : Int) - 1) = ((r - 1 : ℕ) : Int) := by omega
    have hg : pyGet z ((r : Int) - 1) = some (z[r - 1]'(by omega)) := by
      rw [hr1, pyGet_natCast _ _ (by omega)]
    have hgu : pyGet u ((r : Int) - 1) = some (u[r - 1]'(by omega)) := by
      rw [hr1, pyGet_natCast _ _ (by omega)]
    rw [hg, hgu]
    by_cases hc : |z[r - 1]'(by omega) - x| ≤ eps
    · left
      refine ⟨r - 1, by omega, ?_, hc, ?_⟩
      · simp [checkEqual, hc]
      · intro j hj hjx
        by_contra hlt
        have h3 := h2 j hj (by omega)
        have := (abs_le.mp hjx).2
        linarith
    · right
      refine ⟨by simp [checkEqual, hc], ?_⟩
      intro j hj
      by_contra hjx
      push Not at hjx
      by_cases hjr : j < r
      · -- `z[j] ≤ z[r - 1] ≤ x + eps`, so that `z[r - 1]` is not farther from `x` than allowed
        have h3 := sorted_get hz (i := j) (j := r - 1) (by omega) (by omega)
        have h4 := h1 (r - 1) (by omega) (by omega)
        have h5 := (abs_le.mp hjx).1
        exact hc (abs_le.mpr ⟨by linarith, by linarith⟩)
      · have h3 := h2 j hj (by omega)
        have := (abs_le.mp hjx).2
        linarith

section
variable [FloorRing K]

/-- **C08 for discrete columns.** After fitting an ordered or unordered column, the transform of an observed value is the share of
the training weight that is not larger than it; a value farther than `e` from all observed values (with `e` at most `eps` times
each distance of two observed values) and special values give NaN. -/
theorem C08_discrete (z : List (Option K)) (w : List K) (hw : PosWeights z w) (nBins : ℕ) (eps tol : K)
    (heps : 0 ≤ eps) (heps1 : eps < 1) (hne : ∃ v, some v ∈ z) :
    ∃ (e : K) (table : List K × List K), fitColumn true z w nBins eps tol = .ok ⟨e, some table⟩ ∧
      (∀ a b : K, some a ∈ z → some b ∈ z → a ≠ b → e ≤ eps * |a - b|) ∧
      (∀ x : K, some x ∈ z → ecdfValue false e (some table) (.fin x) = .ok (.fin (Spec.weightShare (Spec.samples z w) x))) ∧
      (∀ x : K, (∀ v, some v ∈ z → e < |v - x|) → ecdfValue false e (some table) (.fin x) = .ok .nan) ∧
      ∀ x : Flt K, x.isFinite = false → ecdfValue false e (some table) x = .ok .nan := by
  obtain ⟨b0, values, cdf, ef, hs, hm, hb0, hvc, hsh⟩ := fitColumn_discrete z w hw nBins eps tol hne
  obtain ⟨e, table, ef', hgap, -⟩ := C03_rank z w hw nBins eps tol heps heps1 hne
  rw [ef] at ef'
  simp only [Except.ok.injEq, ColFit.mk.injEq, Option.some.injEq] at ef'
  obtain ⟨he, rfl⟩ := ef'
  cases values with
  | nil => cases hb0
  | cons v0 values =>
    simp only [List.head?_cons, Option.some.injEq] at hb0
    subst hb0
    have hmd := minimalDifference_pos (v0 :: v0 :: values)
    have he0 : 0 ≤ e := by rw [← he]; exact mul_nonneg heps hmd.le
    have hsort : Spec.Sorted (v0 :: v0 :: values) := by
      unfold Spec.Sorted
      rw [List.pairwise_cons]
      refine ⟨fun a ha => ?_, strict_sorted hs⟩
      rcases List.mem_cons.mp ha with rfl | ha
      · exact le_refl _
      · exact le_of_lt ((List.pairwise_cons.mp hs).1 a ha)
    have hlen : (0 :: cdf).length = (v0 :: v0 :: values).length := by simpa using hvc.symm
    have hmem : ∀ (j : ℕ) (hj : j < (v0 :: v0 :: values).length), some ((v0 :: v0 :: values)[j]) ∈ z := by
      intro j hj
      rw [← hm]
      rcases j with _ | j
      · simp
      · exact List.getElem_mem _
    have hspec := fun x => eqOne_spec hsort hlen (by simp) x e
    refine ⟨e, (v0 :: v0 :: values, 0 :: cdf), by rw [ef, he], hgap, fun x hx => ?_, fun x hx => ?_, fun x hx => ?_⟩
    · unfold ecdfValue
      simp only [Bool.false_eq_true, if_false]
      obtain ⟨j, hj, rfl⟩ := List.getElem_of_mem ((hm x).mpr hx)
      rcases hspec ((v0 :: values)[j]) with ⟨k, hk, h1, h2, h3⟩ | ⟨-, h1⟩
      · have hjk : j + 1 ≤ k := h3 (j + 1) (by simpa using hj) (by simpa using he0)
        obtain ⟨k, rfl⟩ : ∃ k', k = k' + 1 := ⟨k - 1, by omega⟩
        have hkv : k < (v0 :: values).length := by simpa using hk
        have heq : (v0 :: values)[k] = (v0 :: values)[j] := by
          by_contra hne'
          have h4 := hgap _ _ ((hm _).mp (List.getElem_mem hkv)) hx hne'
          have h5 : 0 < |(v0 :: values)[k] - (v0 :: values)[j]| := abs_pos.mpr (sub_ne_zero.mpr hne')
          have h6 : |(v0 :: values)[k] - (v0 :: values)[j]| ≤ e := h2
          have h7 : eps * |(v0 :: values)[k] - (v0 :: values)[j]| < 1 * |(v0 :: values)[k] - (v0 :: values)[j]| :=
            mul_lt_mul_of_pos_right heps1 h5
          linarith
        rw [h1]
        simp only [List.getElem_cons_succ]
        rw [hsh k hkv (by rw [← hvc]; exact hkv), heq]
      · have := h1 (j + 1) (by simpa using hj)
        rw [List.getElem_cons_succ, sub_self, abs_zero] at this
        exact absurd this (not_lt.mpr he0)
    · unfold ecdfValue
      simp only [Bool.false_eq_true, if_false]
      rcases hspec x with ⟨k, hk, h1, h2, h3⟩ | ⟨h1, -⟩
      · exact absurd (hx _ (hmem k hk)) (not_lt.mpr h2)
      · rw [h1]
    · unfold ecdfValue
      simp only [Bool.false_eq_true, if_false]
      have hl : ∀ s : Flt K, ∃ i, le (v0 :: v0 :: values) s false = some i ∧ -1 ≤ i ∧ i < ((v0 :: v0 :: values).length : Int) :=
        fun s => by
          obtain ⟨l, h1, h2, h3, -⟩ := leLoop_spec hsort s _ (-1) (v0 :: v0 :: values).length le_rfl (by omega) (by omega) le_rfl
            (by intro j h hj; omega)
          exact ⟨l, h1, h2, h3⟩
      obtain ⟨i, hi, h1, h2⟩ := hl (x.addFin e)
      unfold eqOne
      rw [hi]
      dsimp only
      obtain ⟨v, hv⟩ : ∃ v, pyGet (v0 :: v0 :: values) i = some v := by
        unfold pyGet
        simp only [List.length_cons] at h2 ⊢
        split
        · exact ⟨_, List.getElem?_eq_getElem (by simp; omega)⟩
        · rw [if_pos (by omega)]
          exact ⟨_, List.getElem?_eq_getElem (by simp; omega)⟩
      rw [hv]
      cases x with
      | fin x => cases hx
      | nan => rfl
      | pinf => rfl
      | ninf => rfl

/-- Witness: what C08 says of a discrete column. -/
example : fitColumn true [some (12 : ℚ), some 10, none, some 11, some 10] [1, 1, 1, 1, 1] 100 (1/1000) (1/10)
      = .ok ⟨1/1000, some ([10, 10, 11, 12], [0, 1/2, 3/4, 1])⟩ ∧
    ecdfValue false (1/1000 : ℚ) (some ([10, 10, 11, 12], [0, 1/2, 3/4, 1])) (.fin 10) = .ok (.fin (1/2)) ∧
    Spec.weightShare [((12 : ℚ), 1), (10, 1), (11, 1), (10, 1)] 10 = 1/2 ∧
    ecdfValue false (1/1000 : ℚ) (some ([10, 10, 11, 12], [0, 1/2, 3/4, 1])) (.fin (21/2)) = .ok .nan := by decide +kernel

/-- **C08** End to end: after fitting a continuous column (small epsilon), the transform of every finite value lies
in `[0,1]`, is monotone, and at each bin boundary equals the share of the training weight that is not larger than that
boundary. -/
theorem C08_fitted (z : List (Option K)) (w : List K) (hw : PosWeights z w) (hne : ∃ v, some v ∈ z)
    (nBins : ℕ) (hN : 2 ≤ nBins) (eps tol : K) (heps : 0 ≤ eps) (htol : 0 ≤ tol) (htol1 : tol < 1)
    (hsmall : eps < (1 - tol) / nBins) :
    ∃ (e b0 : K) (upper cdf : List K),
      fitColumn false z w nBins eps tol = .ok ⟨e, some (b0 :: upper, 0 :: cdf)⟩ ∧
      (∀ x : K, ∃ a : K, ecdfValue true e (some (b0 :: upper, 0 :: cdf)) (.fin x) = .ok (.fin a) ∧ 0 ≤ a ∧ a ≤ 1) ∧
      (∀ x y a b : K, x ≤ y → ecdfValue true e (some (b0 :: upper, 0 :: cdf)) (.fin x) = .ok (.fin a) →
        ecdfValue true e (some (b0 :: upper, 0 :: cdf)) (.fin y) = .ok (.fin b) → a ≤ b) ∧
      (∀ b ∈ upper, ecdfValue true e (some (b0 :: upper, 0 :: cdf)) (.fin b)
        = .ok (.fin (Spec.weightShare (Spec.samples z w) b))) := by
  have hN1 : (1 : K) ≤ nBins := by
    have : 1 ≤ nBins := by omega
    exact_mod_cast this
  have heps1 : eps < 1 := by
    have h1 : (1 - tol) / nBins ≤ (1 - tol) := div_le_self (by linarith) hN1
    linarith
  rw [div_eq_mul_one_div] at hsmall
  obtain ⟨e', b0', bx, cx, js, hf, hsel, hnil, hlen, hbs, hmem, hcs, hsh, hlast, _⟩ :=
    fitColumn_selected z w hw hne nBins hN eps tol heps htol htol1 hsmall
  obtain ⟨e, b0, upper, cdf, hf2, u1, u2, u3, u4, u5, u6, u7⟩ := C05_reduced_bins z w hw hne nBins hN eps tol htol
  have he : e = eps * minimalDifference (b0 :: upper) := by
    have hf3 := hf2
    unfold fitColumn at hf3
    obtain ⟨bx', cx', ec, hl, _⟩ := calcCdf_spec z w hw.1 hw.2.1 hw.2.2
    rw [ec] at hf3
    simp only [Bool.false_eq_true, if_false] at hf3
    split at hf3
    · cases hf3
    · split at hf3
      · cases hf3
      · split at hf3
        · cases hf3
        · simp only [Except.ok.injEq, ColFit.mk.injEq, Option.some.injEq, Prod.mk.injEq] at hf3
          rw [← hf3.1, hf3.2.1]
  have hmd := minimalDifference_pos (b0 :: upper)
  have he0 : 0 ≤ e := by rw [he]; exact mul_nonneg heps hmd.le
  have hem : e < minimalDifference (b0 :: upper) := by
    rw [he]
    have := mul_lt_mul_of_pos_right heps1 hmd
    linarith
  rw [hf2] at hf
  simp only [Except.ok.injEq, ColFit.mk.injEq, Option.some.injEq, Prod.mk.injEq, List.cons.injEq] at hf
  obtain ⟨_, ⟨_, hup⟩, _, hcdf⟩ := hf
  have hm : 0 < (1 - tol) * (1 / nBins) - eps := by linarith
  have hcsort : Spec.Sorted (0 :: cdf) := by
    rw [hcdf]
    refine hsel.gaps.imp ?_
    intro a b hab
    linarith
  have hc01 : ∀ c ∈ (0 :: cdf), 0 ≤ c ∧ c ≤ 1 := by
    intro c hc
    rcases List.mem_cons.mp hc with rfl | hc
    · exact ⟨le_rfl, zero_le_one⟩
    · refine ⟨(List.pairwise_cons.mp hcsort).1 c hc, ?_⟩
      rw [hcdf] at hc
      obtain ⟨j, hj, rfl⟩ := List.mem_map.mp hc
      have := hsel.lt j hj
      rw [← hlast]
      exact getD_mono hcs (by omega) (by omega)
  have hl2 : (0 :: cdf).length = (b0 :: upper).length := by simp [u3]
  refine ⟨e, b0, upper, cdf, hf2, ?_, ?_, ?_⟩
  · intro x
    exact C08_bounded _ _ u4 hcsort hl2 (by simp) hc01 e he0 x
  · intro x y a b hxy ha hb
    exact C08_monotone _ _ u4 hcsort hl2 (by simp) (fun c hc => (hc01 c hc).1) e he0 x y a b hxy ha hb
  · intro b hb
    obtain ⟨k, hk, rfl⟩ := List.getElem_of_mem hb
    have hsep : ∀ (j : ℕ) (hj : j < (b0 :: upper).length), k + 1 < j →
        (b0 :: upper)[k + 1]'(by simp; omega) + e < (b0 :: upper)[j] := by
      intro j hj hkj
      have hlt : (b0 :: upper)[k + 1]'(by simp; omega) < (b0 :: upper)[j] := by
        obtain ⟨j, rfl⟩ : ∃ j', j = j' + 1 := ⟨j - 1, by omega⟩
        simp only [List.getElem_cons_succ]
        have hjl : j < upper.length := by simpa using hj
        have hmapl : upper.length = js.length := by rw [hup]; simp
        have h1 := List.pairwise_iff_getElem.mp hsel.strict k j (by omega) (by omega) (by omega)
        have h2 := hsel.lt js[j] (List.getElem_mem _)
        have h3 := getD_strict hbs h1 (by omega)
        simp only [hup, List.getElem_map]
        exact h3
      have := minimalDifference_le_of_lt _ u4 (k + 1) j hkj hj hlt
      linarith
    have := C08_exact (b0 :: upper) (0 :: cdf) u4 hl2 e he0 (k + 1) (by simpa using hk) hsep
    simp only [List.getElem_cons_succ] at this
    rw [this, u7 k hk (by omega)]

end

example : ecdfValue true (1/1000000000 : ℚ) (some ([2.1, 2.2, 3.1, 3.7, 4.4], [0, 1/4, 1/2, 3/4, 1])) (.fin 2.65)
    = .ok (.fin (3/8)) := by decide +kernel

end CB
