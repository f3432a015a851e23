import Mathlib.Tactic.IntervalCases
import Mathlib.Tactic.NormNum
import Mathlib.Tactic.Linarith
import Mathlib.Tactic.Ring
import Mathlib.Algebra.Order.Ring.Rat
import Verif.Spec.ArrayViews

/-!
# C164: searches of whole arrays that write into their input
-/

set_option autoImplicit false
set_option linter.unusedSectionVars false

namespace CB
open Spec

section
variable {K : Type*}

theorem mapM_finite_iff (l : List (Flt K)) (xs : List K) :
    l.mapM finiteOnly = some xs ↔ l = xs.map Flt.fin := by
  induction l generalizing xs with
  | nil => cases xs <;> simp
  | cons a l ih =>
    rw [List.mapM_cons]
    cases a with
    | fin x =>
      simp only [finiteOnly, Option.bind_eq_bind, Option.bind_some]
      cases hl : l.mapM finiteOnly with
      | none =>
        simp only [Option.bind_none, reduceCtorEq, false_iff]
        intro h
        cases xs with
        | nil => simp at h
        | cons y ys =>
          simp only [List.map_cons, List.cons.injEq] at h
          rw [(ih ys).mpr h.2] at hl
          cases hl
      | some ys =>
        have := (ih ys).mp hl
        subst this
        cases xs with
        | nil => simp
        | cons z zs =>
          simp only [Option.bind_some, Option.pure_def, Option.some.injEq, List.cons.injEq, List.map_cons, Flt.fin.injEq]
          refine and_congr_right fun _ => ?_
          rw [List.map_inj_right]
          intro a b h
          exact Flt.fin.inj h
    | _ =>
      simp only [finiteOnly, Option.bind_eq_bind, Option.bind_none, reduceCtorEq, false_iff]
      intro h
      cases xs <;> simp at h

theorem readFinite_iff (m : ℕ → Flt K) (v : ArrayView) (xs : List K) : readFinite m v = some xs ↔ Contains m v xs := by
  unfold readFinite Contains
  rw [mapM_finite_iff]
  constructor
  · intro h
    have hl : xs.length = v.length := by
      have := congrArg List.length h
      simpa using this.symm
    refine ⟨hl, fun i x hx => ?_⟩
    have h2 := congrArg (fun l => l[i]?) h
    have hi : i < v.length := by rw [← hl]; exact (List.getElem?_eq_some_iff.mp hx).1
    simp only [List.getElem?_map, List.getElem?_range hi, hx, Option.map_some, Option.some.injEq] at h2
    exact h2
  · rintro ⟨hl, h⟩
    refine List.ext_getElem (by simp [hl]) fun i h1 h2 => ?_
    simp only [List.length_map] at h2
    simp only [List.getElem_map, List.getElem_range]
    exact h i xs[i] (List.getElem?_eq_getElem h2)

theorem readFinite_congr (m m' : ℕ → Flt K) (v : ArrayView) (h : ∀ a, Holds v a → m a = m' a) : readFinite m v = readFinite m' v := by
  unfold readFinite
  congr 1
  refine List.map_congr_left fun i hi => ?_
  exact h _ ⟨i, List.mem_range.mp hi, rfl⟩

theorem cell_injective (v : ArrayView) (h : NoRepeats v) (i j : ℕ) (hi : i < v.length) (hj : j < v.length) (he : v.cell i = v.cell j) :
    i = j := by
  rcases h with h | h
  · omega
  · unfold ArrayView.cell at he
    exact Nat.eq_of_mul_eq_mul_left h (by omega)

/-- The loop, if it never writes what it reads later. -/
theorem searchLoop_iff (search : (ℕ → Flt K) → Flt K → Option (Flt K)) (s r : ArrayView) (n : ℕ) (hn : n ≤ r.length)
    (hr : NoRepeats r) (hlater : ∀ i j, i < j → j < n → r.cell i ≠ s.cell j)
    (hsearch : ∀ m m', (∀ a, ¬ Holds r a → m a = m' a) → search m = search m') (len k : ℕ) (hk : k + len = n) (m m' : ℕ → Flt K) :
    searchLoop search s r (List.range' k len) m = .ok m' ↔
      (∀ i, k ≤ i → i < n → search m (m (s.cell i)) = some (m' (r.cell i))) ∧
      ∀ a, (∀ i, k ≤ i → i < n → a ≠ r.cell i) → m' a = m a := by
  induction len generalizing k m with
  | zero =>
    simp only [List.range'_zero, searchLoop, Except.ok.injEq]
    constructor
    · rintro rfl
      exact ⟨fun i h1 h2 => by omega, fun _ _ => rfl⟩
    · rintro ⟨-, h⟩
      funext a
      exact (h a fun i h1 h2 => by omega).symm
  | succ len ih =>
    rw [List.range'_succ]
    simp only [searchLoop]
    cases hv : search m (m (s.cell k)) with
    | none =>
      simp only [reduceCtorEq, false_iff, not_and]
      intro h
      have := h k le_rfl (by omega)
      rw [hv] at this
      cases this
    | some v =>
      simp only
      rw [ih (k + 1) (by omega)]
      have hs : search (Function.update m (r.cell k) v) = search m := by
        refine hsearch _ _ fun a ha => ?_
        rw [Function.update_of_ne]
        rintro rfl
        exact ha ⟨k, by omega, rfl⟩
      have hread : ∀ i, k + 1 ≤ i → i < n → Function.update m (r.cell k) v (s.cell i) = m (s.cell i) := fun i h1 h2 =>
        Function.update_of_ne (Ne.symm (hlater k i (by omega) h2)) _ _
      rw [hs]
      constructor
      · rintro ⟨h1, h2⟩
        refine ⟨fun i hi hin => ?_, fun a ha => ?_⟩
        · rcases Nat.eq_or_lt_of_le hi with rfl | hi
          · rw [hv, h2 _ fun i hi hin he => ?_, Function.update_self]
            have := cell_injective r hr _ _ (by omega) (by omega) he
            omega
          · rw [← hread i hi hin]
            exact h1 i hi hin
        · rw [h2 a fun i hi hin => ha i (by omega) hin, Function.update_of_ne (ha k le_rfl (by omega))]
      · rintro ⟨h1, h2⟩
        refine ⟨fun i hi hin => by rw [hread i hi hin]; exact h1 i (by omega) hin, fun a ha => ?_⟩
        by_cases hak : a = r.cell k
        · subst hak
          have := h1 k le_rfl (by omega)
          rw [hv, Option.some.injEq] at this
          rw [Function.update_self, this]
        · rw [Function.update_of_ne hak]
          refine h2 a fun i hi hin => ?_
          rcases Nat.eq_or_lt_of_le hi with rfl | hi
          · exact hak
          · exact ha i hi hin

/-- Input and output may be the same array, or separate arrays. -/
theorem never_later (s r : ArrayView) (hl : r.length = s.length) (hr : NoRepeats r) (h : r = s ∨ Separate r s) (i j : ℕ) (hij : i < j)
    (hj : j < s.length) : r.cell i ≠ s.cell j := by
  intro he
  rcases h with rfl | h
  · exact absurd (cell_injective r hr i j (by omega) hj he) (by omega)
  · exact h (r.cell i) ⟨i, by omega, rfl⟩ ⟨j, hj, he⟩

/-- A whole search: success, results and the memory outside the output. -/
theorem search_iff (search : (ℕ → Flt K) → Flt K → Option (Flt K)) (s r : ArrayView) (hl : r.length = s.length) (hr : NoRepeats r)
    (h : r = s ∨ Separate r s) (hsearch : ∀ m m', (∀ a, ¬ Holds r a → m a = m' a) → search m = search m') (m m' : ℕ → Flt K) :
    searchLoop search s r (List.range s.length) m = .ok m' ↔
      (∀ i < s.length, search m (m (s.cell i)) = some (m' (r.cell i))) ∧ ∀ a, ¬ Holds r a → m' a = m a := by
  rw [List.range_eq_range', searchLoop_iff search s r s.length (by omega) hr (never_later s r hl hr h) hsearch s.length 0 (by omega)]
  refine and_congr ⟨fun h i hi => h i (by omega) hi, fun h i _ hi => h i hi⟩ ⟨fun h a ha => h a fun i _ hi he => ha ⟨i, by omega, he⟩,
    fun h a ha => h a ?_⟩
  rintro ⟨i, hi, he⟩
  exact ha i (by omega) (by omega) he

variable [Field K] [LinearOrder K]

theorem search_table (f : List K → List K → Flt K → Option (Flt K)) (z u r : ArrayView) (hz : Separate r z) (hu : Separate r u)
    (m m' : ℕ → Flt K) (h : ∀ a, ¬ Holds r a → m a = m' a) : readFinite m z = readFinite m' z ∧ readFinite m u = readFinite m' u :=
  ⟨readFinite_congr _ _ _ fun a ha => h a fun hr => hz a hr ha, readFinite_congr _ _ _ fun a ha => h a fun hr => hu a hr ha⟩

/-- **C164.** `eq_multi` with an output array that is the input array, or has no cell in common with it, and that has no cell in common with
the table: it succeeds exactly if the lengths match and every single search succeeds; then the output holds, element by element, what the
search for the original input gives, and no other cell of the memory has changed. -/
theorem C164_equal (z s u r : ArrayView) (eps : K) (zs us : List K) (m m' : ℕ → Flt K) (hz : Contains m z zs) (hu : Contains m u us)
    (hr : NoRepeats r) (hrz : Separate r z) (hru : Separate r u) (hrs : r = s ∨ Separate r s) :
    eqMulti z s u eps r m = .ok m' ↔
      r.length = s.length ∧ zs.length = us.length ∧
      (∀ i < s.length, eqOne zs (m (s.offset + s.stride * i)) us eps = some (m' (r.offset + r.stride * i))) ∧
      ∀ a, ¬ Holds r a → m' a = m a := by
  unfold eqMulti
  rw [hz.1, hu.1]
  by_cases hl : r.length = s.length
  · by_cases ht : z.length = u.length
    · simp only [hl, ht, ne_eq, not_true_eq_false, if_false, true_and]
      rw [search_iff _ s r hl hr hrs fun m m' h => by
        funext x
        obtain ⟨e1, e2⟩ := search_table (fun _ _ _ => none) z u r hrz hru m m' h
        simp only [eqSearch, e1, e2]]
      simp only [eqSearch, (readFinite_iff m z zs).mpr hz, (readFinite_iff m u us).mpr hu]
      rfl
    · simp [hl, ht]
  · simp [hl]

/-- **C164**, the same for `le_interp_multi`, which does not compare the lengths of the two parts of its table. -/
theorem C164_interpolation (z s u r : ArrayView) (outLeft eps : K) (zs us : List K) (m m' : ℕ → Flt K) (hz : Contains m z zs)
    (hu : Contains m u us) (hr : NoRepeats r) (hrz : Separate r z) (hru : Separate r u) (hrs : r = s ∨ Separate r s) :
    leInterpMulti z s u outLeft eps r m = .ok m' ↔
      r.length = s.length ∧
      (∀ i < s.length, leInterp zs (m (s.offset + s.stride * i)) us outLeft eps = some (m' (r.offset + r.stride * i))) ∧
      ∀ a, ¬ Holds r a → m' a = m a := by
  unfold leInterpMulti
  by_cases hl : r.length = s.length
  · simp only [hl, ne_eq, not_true_eq_false, if_false, true_and]
    rw [search_iff _ s r hl hr hrs fun m m' h => by
      funext x
      obtain ⟨e1, e2⟩ := search_table (fun _ _ _ => none) z u r hrz hru m m' h
      simp only [interpSearch, e1, e2]]
    simp only [interpSearch, (readFinite_iff m z zs).mpr hz, (readFinite_iff m u us).mpr hu]
    rfl
  · simp [hl]

/-- **C164**, the same for `ge_multi`. -/
theorem C164_greater (z s r : ArrayView) (inclusive : Bool) (zs : List K) (m m' : ℕ → Flt K) (hz : Contains m z zs)
    (hr : NoRepeats r) (hrz : Separate r z) (hrs : r = s ∨ Separate r s) :
    geMulti z s inclusive r m = .ok m' ↔
      r.length = s.length ∧
      (∀ i < s.length, ∃ k, ge zs (m (s.offset + s.stride * i)) inclusive = some k ∧ m' (r.offset + r.stride * i) = .fin (k : K)) ∧
      ∀ a, ¬ Holds r a → m' a = m a := by
  unfold geMulti
  by_cases hl : r.length = s.length
  · simp only [hl, ne_eq, not_true_eq_false, if_false, true_and]
    rw [search_iff _ s r hl hr hrs fun m m' h => by
      funext x
      obtain ⟨e1, -⟩ := search_table (fun _ _ _ => none) z z r hrz hrz m m' h
      simp only [geSearch, e1]]
    simp only [geSearch, (readFinite_iff m z zs).mpr hz, Option.map_eq_some_iff]
    refine and_congr (forall₂_congr fun i hi => exists_congr fun k => and_congr_right fun _ => ?_) Iff.rfl
    exact eq_comm
  · simp [hl]

/-! ### The columns of a matrix -/

theorem column_cell (X : MatrixView) (i j : ℕ) : (X.column j).cell i = entryCell X i j := by
  unfold MatrixView.column entryCell ArrayView.cell
  cases X.order <;> simp only <;> ring

theorem matrixColumn_length (X : MatrixView) (j : ℕ) : (X.column j).length = X.rows := by
  unfold MatrixView.column
  cases X.order <;> rfl

theorem entryCell_injective (X : MatrixView) (i i' j j' : ℕ) (hi : i < X.rows) (hi' : i' < X.rows) (hj : j < X.cols) (hj' : j' < X.cols)
    (h : entryCell X i j = entryCell X i' j') : i = i' ∧ j = j' := by
  unfold entryCell at h
  cases ho : X.order <;> rw [ho] at h <;> simp only at h
  · have h2 : X.cols * i + j = X.cols * i' + j' := by omega
    have e1 := congrArg (· / X.cols) h2
    have e2 := congrArg (· % X.cols) h2
    simp only [Nat.mul_add_div (by omega : 0 < X.cols), Nat.div_eq_of_lt hj, Nat.div_eq_of_lt hj', Nat.mul_add_mod, Nat.mod_eq_of_lt hj,
      Nat.mod_eq_of_lt hj'] at e1 e2
    omega
  · have h2 : X.rows * j + i = X.rows * j' + i' := by omega
    have e1 := congrArg (· / X.rows) h2
    have e2 := congrArg (· % X.rows) h2
    simp only [Nat.mul_add_div (by omega : 0 < X.rows), Nat.div_eq_of_lt hi, Nat.div_eq_of_lt hi', Nat.mul_add_mod, Nat.mod_eq_of_lt hi,
      Nat.mod_eq_of_lt hi'] at e1 e2
    omega

theorem entryCell_inMatrix (X : MatrixView) (i j : ℕ) (hi : i < X.rows) (hj : j < X.cols) : InMatrix X (entryCell X i j) := by
  unfold InMatrix entryCell
  cases X.order <;> simp only
  · have : X.cols * (i + 1) ≤ X.cols * X.rows := Nat.mul_le_mul_left _ hi
    rw [Nat.mul_add, Nat.mul_comm X.cols X.rows] at this
    omega
  · have : X.rows * (j + 1) ≤ X.rows * X.cols := Nat.mul_le_mul_left _ hj
    rw [Nat.mul_add] at this
    omega

theorem holds_column (X : MatrixView) (j a : ℕ) : Holds (X.column j) a ↔ ∃ i < X.rows, a = entryCell X i j := by
  unfold Holds
  rw [matrixColumn_length]
  refine exists_congr fun i => and_congr_right fun _ => ?_
  rw [← column_cell]
  rfl

theorem column_noRepeats (X : MatrixView) (j : ℕ) (hj : j < X.cols) : NoRepeats (X.column j) := by
  refine Or.inr ?_
  unfold MatrixView.column
  cases X.order <;> simp only <;> omega

/-- **C164.** Different columns of a matrix have no cell in common, in both storage orders. -/
theorem C164_columns_separate (X : MatrixView) (j k : ℕ) (hj : j < X.cols) (hk : k < X.cols) (hjk : j ≠ k) :
    Separate (X.column j) (X.column k) := by
  intro a h1 h2
  rw [holds_column] at h1 h2
  obtain ⟨i, hi, rfl⟩ := h1
  obtain ⟨i', hi', he⟩ := h2
  exact hjk (entryCell_injective X i i' j k hi hi' hj hk he).2

theorem ecdfValue_iff (c : Bool) (eps : K) (zs us : List K) (x v : Flt K) :
    ecdfValue c eps (some (zs, us)) x = .ok v ↔ (if c then leInterp zs x us 0 eps else eqOne zs x us eps) = some v := by
  simp only [ecdfValue]
  split <;> rename_i h <;> simp [h]

theorem table_separate (X t : MatrixView) (j k : ℕ) (hj : j < X.cols) (hk : k < t.cols) (h : ∀ a, InMatrix t a → ¬ InMatrix X a) :
    Separate (X.column j) (t.column k) := by
  intro a h1 h2
  rw [holds_column] at h1 h2
  obtain ⟨i, hi, rfl⟩ := h1
  obtain ⟨i', hi', he⟩ := h2
  exact h _ (he ▸ entryCell_inMatrix t i' k hi' hk) (entryCell_inMatrix X i j hi hj)

/-- One column. -/
theorem ecdfColumnStep_iff (X : MatrixView) (e : EcdfEntry K) (he : e.position < X.cols)
    (ht : ∀ t, e.table = some t → 2 ≤ t.cols ∧ ∀ a, InMatrix t a → ¬ InMatrix X a) (m m' : ℕ → Flt K) :
    ecdfColumnStep X e m = .ok m' ↔
      EntryDone X e m m' ∧ ∀ a, (e.continuous.isSome → ∀ i < X.rows, a ≠ entryCell X i e.position) → m' a = m a := by
  have hout : ∀ c, e.continuous = some c → ((∀ a, ¬ Holds (X.column e.position) a → m' a = m a) ↔
      ∀ a, (e.continuous.isSome → ∀ i < X.rows, a ≠ entryCell X i e.position) → m' a = m a) := by
    intro c hc
    refine forall_congr' fun a => imp_congr_left ?_
    rw [holds_column, hc]
    simp only [Option.isSome_some, forall_const, not_exists, not_and]
  have hsame := fun (search : (ℕ → Flt K) → Flt K → Option (Flt K)) h => search_iff search (X.column e.position) (X.column e.position) rfl
    (column_noRepeats X _ he) (Or.inl rfl) h m m'
  unfold ecdfColumnStep
  cases hc : e.continuous with
  | none =>
    simp only [Except.ok.injEq, Option.isSome_none, Bool.false_eq_true, false_imp_iff, forall_const]
    constructor
    · rintro rfl
      exact ⟨fun c h => (by rw [hc] at h; cases h), fun _ => rfl⟩
    · rintro ⟨-, h⟩
      funext a
      exact (h a).symm
  | some c =>
    have hO := hout c hc
    rw [hc] at hO
    rw [← hO]
    simp only
    unfold EntryDone
    cases hT : e.table with
    | none =>
      have h1 := hsame (fun _ _ => some .nan) fun _ _ _ => rfl
      rw [matrixColumn_length] at h1
      simp only
      rw [h1]
      refine and_congr_left fun _ => ⟨fun h _ _ i hi => ?_, fun h i hi => ?_⟩
      · have := h i hi
        rw [Option.some.injEq, column_cell] at this
        exact this.symm
      · rw [column_cell, h c hc i hi]
    | some t =>
      obtain ⟨h2, hd⟩ := ht t hT
      have s0 := table_separate X t e.position 0 he (by omega) hd
      have s1 := table_separate X t e.position 1 he (by omega) hd
      have key : ∀ (search : (ℕ → Flt K) → Flt K → Option (Flt K)),
          (∀ m x v, search m x = some v ↔ ∃ zs us, Contains m (t.column 0) zs ∧ Contains m (t.column 1) us ∧
            ecdfValue c e.eps (some (zs, us)) x = .ok v) →
          (∀ m m', (∀ a, ¬ Holds (X.column e.position) a → m a = m' a) → search m = search m') →
          (searchLoop search (X.column e.position) (X.column e.position) (List.range (X.column e.position).length) m = .ok m' ↔
            (∀ c, e.continuous = some c → ∀ i < X.rows, ∃ zs us, Contains m (t.column 0) zs ∧ Contains m (t.column 1) us ∧
              ecdfValue c e.eps (some (zs, us)) (m (entryCell X i e.position)) = .ok (m' (entryCell X i e.position))) ∧
            ∀ a, ¬ Holds (X.column e.position) a → m' a = m a) := by
        intro search hs hcongr
        rw [hsame search hcongr]
        refine and_congr_left fun _ => ⟨fun h c' hc' i hi => ?_, fun h i hi => ?_⟩
        · rw [hc, Option.some.injEq] at hc'
          subst hc'
          have := h i (by rw [matrixColumn_length]; exact hi)
          rw [hs, column_cell] at this
          exact this
        · rw [hs, column_cell]
          rw [matrixColumn_length] at hi
          exact h c hc i hi
      cases c with
      | true =>
        simp only [if_true, leInterpMulti, ne_eq, not_true_eq_false, if_false]
        refine key _ (fun m x v => ?_) fun m m' h => ?_
        · simp only [interpSearch, ecdfValue_iff, if_true, ← readFinite_iff]
          cases readFinite m (t.column 0) <;> cases readFinite m (t.column 1) <;> simp
        · funext x
          obtain ⟨e1, e2⟩ := search_table (fun _ _ _ => none) _ _ _ s0 s1 m m' h
          simp only [interpSearch, e1, e2]
      | false =>
        have hll : (t.column 0).length = (t.column 1).length := by rw [matrixColumn_length, matrixColumn_length]
        simp only [Bool.false_eq_true, eqMulti, ne_eq, not_true_eq_false, if_false, hll]
        refine key _ (fun m x v => ?_) fun m m' h => ?_
        · simp only [eqSearch, ecdfValue_iff, Bool.false_eq_true, if_false, ← readFinite_iff]
          cases readFinite m (t.column 0) <;> cases readFinite m (t.column 1) <;> simp
        · funext x
          obtain ⟨e1, e2⟩ := search_table (fun _ _ _ => none) _ _ _ s0 s1 m m' h
          simp only [eqSearch, e1, e2]

theorem contains_congr (m m' : ℕ → Flt K) (v : ArrayView) (xs : List K) (h : ∀ a, Holds v a → m a = m' a) :
    Contains m v xs ↔ Contains m' v xs := by
  rw [← readFinite_iff, ← readFinite_iff, readFinite_congr m m' v h]

/-- The statement about a column depends only on the column and on its table. -/
theorem entryDone_congr (X : MatrixView) (e : EcdfEntry K) (ht : ∀ t, e.table = some t → 2 ≤ t.cols ∧ ∀ a, InMatrix t a → ¬ InMatrix X a)
    (m n m' n' : ℕ → Flt K) (hout : ∀ a, ¬ InMatrix X a → m a = n a)
    (hin : e.continuous.isSome → ∀ i < X.rows, m (entryCell X i e.position) = n (entryCell X i e.position))
    (hin' : e.continuous.isSome → ∀ i < X.rows, m' (entryCell X i e.position) = n' (entryCell X i e.position)) :
    EntryDone X e m m' ↔ EntryDone X e n n' := by
  unfold EntryDone
  refine forall₂_congr fun c hc => forall₂_congr fun i hi => ?_
  have hsome : e.continuous.isSome := by rw [hc]; rfl
  rw [hin hsome i hi, hin' hsome i hi]
  cases hT : e.table with
  | none => exact Iff.rfl
  | some t =>
    obtain ⟨h2, hd⟩ := ht t hT
    have hh : ∀ k < 2, ∀ a, Holds (t.column k) a → m a = n a := by
      intro k hk a ha
      rw [holds_column] at ha
      obtain ⟨i, hi, rfl⟩ := ha
      exact hout _ (hd _ (entryCell_inMatrix t i k hi (by omega)))
    simp only
    refine exists_congr fun zs => exists_congr fun us => ?_
    rw [contains_congr m n _ zs (hh 0 (by omega)), contains_congr m n _ us (hh 1 (by omega))]

/-- **C164.** `ECdfTransformer.transform` overwrites the columns of the matrix one after the other, in place. For different columns of a matrix
in either storage order and tables outside the matrix, it succeeds exactly if every value can be looked up; then every fitted column
holds, entry by entry, the value for the original entry and the original table, and no other cell of the memory has changed. -/
theorem C164_transform (X : MatrixView) (es : List (EcdfEntry K)) (hpos : ∀ e ∈ es, e.position < X.cols)
    (hnd : (es.map EcdfEntry.position).Nodup)
    (ht : ∀ e ∈ es, ∀ t, e.table = some t → 2 ≤ t.cols ∧ ∀ a, InMatrix t a → ¬ InMatrix X a) (m m' : ℕ → Flt K) :
    ecdfColumns X es m = .ok m' ↔
      (∀ e ∈ es, EntryDone X e m m') ∧
      ∀ a, (∀ e ∈ es, e.continuous.isSome → ∀ i < X.rows, a ≠ entryCell X i e.position) → m' a = m a := by
  induction es generalizing m with
  | nil =>
    simp only [ecdfColumns, Except.ok.injEq, List.not_mem_nil, false_imp_iff, forall_const]
    exact ⟨fun h => ⟨fun _ => trivial, fun a => by rw [h]⟩, fun h => funext fun a => (h.2 a).symm⟩
  | cons e es ih =>
    have he := hpos e (by simp)
    have hte := ht e (by simp)
    have hpos' := fun e' h => hpos e' (List.mem_cons_of_mem e h)
    have ht' := fun e' h => ht e' (List.mem_cons_of_mem e h)
    rw [List.map_cons, List.nodup_cons] at hnd
    have hne : ∀ e' ∈ es, e'.position ≠ e.position := fun e' h he => hnd.1 (he ▸ List.mem_map_of_mem h)
    have hcells : ∀ e' ∈ es, ∀ i < X.rows, ∀ i' < X.rows, entryCell X i e.position ≠ entryCell X i' e'.position :=
      fun e' h i hi i' hi' hh => hne e' h (entryCell_injective X i i' _ _ hi hi' he (hpos' e' h) hh).2.symm
    have hsplit : ecdfColumns X (e :: es) m = .ok m' ↔ ∃ m₁, ecdfColumnStep X e m = .ok m₁ ∧ ecdfColumns X es m₁ = .ok m' := by
      simp only [ecdfColumns]
      cases ecdfColumnStep X e m <;> simp
    rw [hsplit]
    simp only [ecdfColumnStep_iff X e he hte, ih hpos' hnd.2 ht']
    constructor
    · rintro ⟨m₁, ⟨h1, h2⟩, h3, h4⟩
      have hlast : ∀ i < X.rows, m₁ (entryCell X i e.position) = m' (entryCell X i e.position) := fun i hi =>
        (h4 _ fun e' h _ i' hi' => hcells e' h i hi i' hi').symm
      have hfirst : ∀ a, ¬ InMatrix X a → m₁ a = m a := fun a ha =>
        h2 a fun _ i hi hh => ha (hh ▸ entryCell_inMatrix X i _ hi he)
      refine ⟨fun e' he' => ?_, fun a ha => ?_⟩
      · rcases List.mem_cons.mp he' with rfl | he'
        · exact (entryDone_congr X e' hte m m m₁ m' (fun _ _ => rfl) (fun _ _ _ => rfl) fun _ => hlast).mp h1
        · exact (entryDone_congr X e' (ht' e' he') m₁ m m' m' hfirst
            (fun _ i hi => h2 _ fun _ i' hi' => (hcells e' he' i' hi' i hi).symm) fun _ _ _ => rfl).mp (h3 e' he')
      · rw [h4 a fun e' h => ha e' (List.mem_cons_of_mem e h), h2 a (ha e (by simp))]
    · rintro ⟨h1, h2⟩
      classical
      set m₁ : ℕ → Flt K := fun a => if e.continuous.isSome ∧ ∃ i < X.rows, a = entryCell X i e.position then m' a else m a with hm
      have in1 : e.continuous.isSome → ∀ i < X.rows, m₁ (entryCell X i e.position) = m' (entryCell X i e.position) := by
        intro hs i hi
        rw [hm]
        exact if_pos ⟨hs, i, hi, rfl⟩
      have out1 : ∀ a, (e.continuous.isSome → ∀ i < X.rows, a ≠ entryCell X i e.position) → m₁ a = m a := by
        intro a ha
        rw [hm]
        refine if_neg ?_
        rintro ⟨hs, i, hi, rfl⟩
        exact ha hs i hi rfl
      have hfirst : ∀ a, ¬ InMatrix X a → m₁ a = m a := fun a ha =>
        out1 a fun _ i hi hh => ha (hh ▸ entryCell_inMatrix X i _ hi he)
      refine ⟨m₁, ⟨?_, out1⟩, fun e' he' => ?_, fun a ha => ?_⟩
      · exact (entryDone_congr X e hte m m m₁ m' (fun _ _ => rfl) (fun _ _ _ => rfl) in1).mpr (h1 e (by simp))
      · exact (entryDone_congr X e' (ht' e' he') m₁ m m' m' hfirst
          (fun _ i hi => out1 _ fun _ i' hi' => (hcells e' he' i' hi' i hi).symm) fun _ _ _ => rfl).mpr (h1 e' (List.mem_cons_of_mem e he'))
      · by_cases hin : e.continuous.isSome ∧ ∃ i < X.rows, a = entryCell X i e.position
        · rw [hm]
          exact (if_pos hin).symm
        · rw [out1 a fun hs i hi hh => hin ⟨hs, i, hi, hh⟩]
          refine h2 a fun e' he' hs i hi hh => ?_
          rcases List.mem_cons.mp he' with rfl | he'
          · exact hin ⟨hs, i, hi, hh⟩
          · exact ha e' he' hs i hi hh

end

/-! ### Examples -/

theorem ge_single (x : ℚ) (s : Flt ℚ) : ge [x] s false = some (if Flt.geOf x s then 0 else 1) := by
  unfold ge
  rw [geLoop]
  simp only [List.length_singleton, Bool.false_eq_true, if_false]
  norm_num [pyGet]
  split_ifs <;> (rw [geLoop]; simp)

theorem le_single (x : ℚ) (s : Flt ℚ) : le [x] s false = some (if Flt.leOf x s then 0 else -1) := by
  unfold le
  rw [leLoop]
  simp only [List.length_singleton, Bool.false_eq_true, if_false]
  norm_num [pyGet]
  split_ifs <;> (rw [leLoop]; simp)

/-- Table, two searched values, one more cell. -/
def overlapMemory : ℕ → Flt ℚ := fun a => if a = 0 then .fin 0 else if a = 1 then .fin 1 else if a = 2 then .fin (-1) else .nan

/-- **C164**, why the condition on the arrays is needed: if the output starts at the second element of the input, the second result is the
one for the first result, not for the second input. -/
theorem C164_overlap_counterexample :
    ∃ m', geMulti (K := ℚ) ⟨0, 1, 1⟩ ⟨1, 1, 2⟩ false ⟨2, 1, 2⟩ overlapMemory = .ok m' ∧
      ge [(0 : ℚ)] (overlapMemory 2) false = some 0 ∧ m' 3 = .fin 1 := by
  have hread : ∀ m : ℕ → Flt ℚ, m 0 = .fin 0 → readFinite m ⟨0, 1, 1⟩ = some [0] := by
    intro m h
    rw [readFinite_iff]
    refine ⟨rfl, fun i x hx => ?_⟩
    rcases i with _ | i
    · simp at hx
      simp [h, ← hx]
    · simp at hx
  refine ⟨Function.update (Function.update overlapMemory 2 (.fin 1)) 3 (.fin 1), ?_, ?_, by simp⟩
  · have h1 : geSearch (K := ℚ) ⟨0, 1, 1⟩ false overlapMemory (overlapMemory 1) = some (.fin 1) := by
      simp only [geSearch, hread overlapMemory rfl, ge_single]
      norm_num [overlapMemory, Flt.geOf]
    have h2 : geSearch (K := ℚ) ⟨0, 1, 1⟩ false (Function.update overlapMemory 2 (.fin 1)) (.fin 1) = some (.fin 1) := by
      simp only [geSearch, hread (Function.update overlapMemory 2 (.fin 1)) (by simp [overlapMemory]), ge_single]
      norm_num [Flt.geOf]
    simp [geMulti, searchLoop, List.range_succ, ArrayView.cell, h1, h2]
  · rw [ge_single]
    norm_num [overlapMemory, Flt.geOf]

/-- A table with one row (1, 1/2) in the cells 0 and 1, and a matrix with two rows and two columns behind it. -/
def viewMemory : ℕ → Flt ℚ := fun a =>
  if a = 0 then .fin 1 else if a = 1 then .fin (1 / 2) else if a = 2 then .fin 7 else if a = 3 then .fin 1 else if a = 4 then .fin 8
  else if a = 5 then .fin 3 else .fin 9

/-- Witness: the first column has no table and becomes missing, in the second one the 1 is found and the 3 is not. The rest stays. -/
example : ecdfColumns (K := ℚ) ⟨2, 2, 2, .rowMajor⟩ [⟨0, some true, 0, none⟩, ⟨1, some false, 0, some ⟨0, 1, 2, .rowMajor⟩⟩] viewMemory =
    .ok fun a => if a = 0 then .fin 1 else if a = 1 then .fin (1 / 2) else if a = 2 then .nan else if a = 3 then .fin (1 / 2)
      else if a = 4 then .nan else if a = 5 then .nan else .fin 9 := by
  rw [C164_transform]
  · refine ⟨fun e he => ?_, fun a ha => ?_⟩
    · simp only [List.mem_cons, List.not_mem_nil, or_false] at he
      rcases he with rfl | rfl
      · intro c hc i hi
        simp only at hi
        interval_cases i <;> simp [entryCell]
      · intro c hc i hi
        simp only [Option.some.injEq] at hc hi
        subst hc
        refine ⟨[1], [1 / 2], ⟨rfl, fun i x hx => ?_⟩, ⟨rfl, fun i x hx => ?_⟩, ?_⟩
        · rcases i with _ | i
          · simp at hx
            simp [MatrixView.column, viewMemory, ← hx]
          · simp at hx
        · rcases i with _ | i
          · simp at hx
            simp [MatrixView.column, viewMemory, ← hx]
          · simp at hx
        · rw [ecdfValue_iff]
          interval_cases i <;> norm_num [entryCell, viewMemory, eqOne, le_single, Flt.addFin, Flt.leOf, pyGet, checkEqual]
    · have h1 := fun i hi => ha ⟨0, some true, 0, none⟩ (by simp) rfl i hi
      have h2 := fun i hi => ha ⟨1, some false, 0, some ⟨0, 1, 2, .rowMajor⟩⟩ (by simp) rfl i hi
      have a0 := h1 0 (by simp)
      have a1 := h1 1 (by simp)
      have b0 := h2 0 (by simp)
      have b1 := h2 1 (by simp)
      simp only [entryCell] at a0 a1 b0 b1
      norm_num at a0 a1 b0 b1
      simp [viewMemory, a0, a1, b0, b1]
  · simp
  · simp
  · intro e he t ht
    simp only [List.mem_cons, List.not_mem_nil, or_false] at he
    rcases he with rfl | rfl
    · simp at ht
    · simp only [Option.some.injEq] at ht
      subst ht
      refine ⟨le_rfl, fun a h1 h2 => ?_⟩
      simp only [InMatrix] at h1 h2
      omega

end CB
