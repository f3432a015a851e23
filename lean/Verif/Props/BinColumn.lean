import Mathlib.Algebra.Order.Ring.Cast
import Mathlib.Data.Int.Cast.Lemmas
import Mathlib.Algebra.Order.Ring.Rat
import Mathlib.Tactic.NormNum
import Verif.Model.BinColumn

/-!
# C165: the bins of a whole column are the bins of its values
-/

set_option autoImplicit false
set_option linter.unusedSectionVars false

namespace CB

section
variable {K : Type*} [Field K] [LinearOrder K] [IsStrictOrderedRing K]

/-- The value written for one entry of the column. -/
theorem eqOne_arange (z : List K) (s : Flt K) (eps : K) :
    eqOne z s (floatArange z.length) eps = (eqIndex z s eps).map fun v => match v with
      | .fin i => .fin (i : K)
      | _ => .nan := by
  unfold eqOne eqIndex
  cases le z (s.addFin eps) false with
  | none => rfl
  | some ind =>
    simp only
    cases hz : pyGet z ind with
    | none => rfl
    | some zi =>
      simp only
      by_cases hc : checkEqual zi s eps 0
      · simp only [hc, if_true]
        have : pyGet (floatArange (K := K) z.length) ind = (pyGet (List.range z.length) ind).map fun i : ℕ => (i : K) := by
          unfold pyGet floatArange
          rw [List.length_map, List.length_range]
          split_ifs <;> simp
        rw [this]
        cases pyGet (List.range z.length) ind <;> simp
      · simp [hc]

theorem isFiniteMagic_int (magic : Bool) (i : ℤ) :
    (if isFiniteMagic magic (.fin (i : K)) then Flt.fin (i : K) else .fin (missingBinNo : K)) = .fin ((recheck magic (.fin i) : ℤ) : K) := by
  have h9 : ((i : K) = -9) ↔ i = -9 := by
    rw [show (-9 : K) = ((-9 : ℤ) : K) by norm_num]
    exact Int.cast_inj
  have h999 : ((i : K) = -999) ↔ i = -999 := by
    rw [show (-999 : K) = ((-999 : ℤ) : K) by norm_num]
    exact Int.cast_inj
  unfold isFiniteMagic recheck
  cases magic
  · simp [Flt.isFinite]
  · simp only [if_true, Flt.eqFin, Flt.isFinite, h9, h999]
    by_cases a : i = -9
    · simp [a]
    · by_cases b : i = -999 <;> simp [a, b]

theorem isFiniteMagic_nan (magic : Bool) : isFiniteMagic magic (.nan : Flt K) = false := by
  unfold isFiniteMagic
  cases magic <;> simp [Flt.isFinite]

/-- One search and the second check. -/
def searchOne (continuous : Bool) (eps : K) (z : List K) (x : Flt K) : Option (Flt K) :=
  if continuous then (ge z (x.addFin (-eps)) true).map fun i : ℤ => Flt.fin (i : K) else eqOne z x (floatArange z.length) eps

theorem searchBins_eq (continuous : Bool) (eps : K) (z : List K) (values : List (Flt K)) :
    searchBins continuous eps z values = values.mapM (searchOne continuous eps z) := by
  unfold searchBins
  cases continuous
  · simp only [Bool.false_eq_true, if_false]
    rfl
  · simp only [if_true]
    induction values with
    | nil => rfl
    | cons x xs ih =>
      rw [List.map_cons, List.mapM_cons, List.mapM_cons, ih]
      rfl

theorem binNumber_finite (continuous magic : Bool) (eps : K) (bs : List K) (x : Flt K) (h : isFiniteMagic magic x = true) (b : ℤ) :
    binNumber continuous magic eps (some bs) x = .ok b → ∃ v, searchOne continuous eps bs.tail x = some v ∧
      (if isFiniteMagic magic v then v else .fin (missingBinNo : K)) = .fin (b : K) := by
  unfold binNumber searchOne
  simp only [h, if_true]
  cases continuous
  · simp only [Bool.false_eq_true, if_false]
    rw [eqOne_arange]
    cases eqIndex bs.tail x eps with
    | none => simp
    | some v =>
      simp only [Except.ok.injEq, Option.map_some, Option.some.injEq, exists_eq_left']
      rintro rfl
      cases v with
      | fin i => exact isFiniteMagic_int magic i
      | _ => simp [isFiniteMagic_nan, recheck]
  · simp only [if_true]
    cases ge bs.tail (x.addFin (-eps)) true with
    | none => simp
    | some i =>
      simp only [Except.ok.injEq, Option.map_some, Option.some.injEq, exists_eq_left']
      rintro rfl
      exact isFiniteMagic_int magic i

theorem binNumber_of_search (continuous magic : Bool) (eps : K) (bs : List K) (x v : Flt K) (h : isFiniteMagic magic x = true)
    (hv : searchOne continuous eps bs.tail x = some v) : ∃ b, binNumber continuous magic eps (some bs) x = .ok b := by
  unfold binNumber
  unfold searchOne at hv
  simp only [h, if_true]
  cases continuous
  · simp only [Bool.false_eq_true, if_false] at hv ⊢
    rw [eqOne_arange] at hv
    cases he : eqIndex bs.tail x eps with
    | none => rw [he] at hv; simp at hv
    | some w => exact ⟨_, rfl⟩
  · simp only [if_true] at hv ⊢
    cases he : ge bs.tail (x.addFin (-eps)) true with
    | none => rw [he] at hv; simp at hv
    | some i => exact ⟨_, rfl⟩

/-- The masked search, as a function of the list. -/
theorem masked_iff (continuous magic : Bool) (eps : K) (bs : List K) (xs zs : List (Flt K)) :
    (∃ found ys, searchBins continuous eps bs.tail (maskedValues (xs.map (isFiniteMagic magic)) xs) = some found ∧
      assignMasked (xs.map (isFiniteMagic magic)) xs found = some ys ∧
      (ys.map fun y => if isFiniteMagic magic y then y else .fin (missingBinNo : K)) = zs) ↔
    List.Forall₂ (fun x z => ∃ b, binNumber continuous magic eps (some bs) x = .ok b ∧ z = .fin (b : K)) xs zs := by
  simp only [searchBins_eq]
  induction xs generalizing zs with
  | nil =>
    simp only [List.map_nil, maskedValues, List.mapM_nil, Option.pure_def, Option.some.injEq, List.forall₂_nil_left_iff]
    constructor
    · rintro ⟨found, ys, rfl, h, rfl⟩
      simp [assignMasked] at h
      simp [h]
    · rintro rfl
      exact ⟨[], [], rfl, rfl, rfl⟩
  | cons x xs ih =>
    rw [List.forall₂_cons_left_iff]
    simp only [List.map_cons]
    cases hx : isFiniteMagic magic x with
    | true =>
      simp only [maskedValues, List.mapM_cons, Option.bind_eq_bind, Option.pure_def]
      constructor
      · rintro ⟨found, ys, h1, h2, h3⟩
        simp only [Option.bind_eq_some_iff, Option.some.injEq] at h1
        obtain ⟨v, hv, vs, hvs, rfl⟩ := h1
        simp only [assignMasked, Option.map_eq_some_iff] at h2
        obtain ⟨ys', hys, rfl⟩ := h2
        rw [List.map_cons] at h3
        obtain ⟨b, hb⟩ := binNumber_of_search continuous magic eps bs x v hx hv
        obtain ⟨v', hv', hb'⟩ := binNumber_finite continuous magic eps bs x hx b hb
        rw [hv, Option.some.injEq] at hv'
        subst hv'
        exact ⟨_, _, ⟨b, hb, hb'⟩, (ih _).mp ⟨vs, ys', hvs, hys, rfl⟩, h3.symm⟩
      · rintro ⟨z, zs', ⟨b, hb, rfl⟩, htail, rfl⟩
        obtain ⟨vs, ys', hvs, hys, rfl⟩ := (ih _).mpr htail
        obtain ⟨v, hv, hb'⟩ := binNumber_finite continuous magic eps bs x hx b hb
        refine ⟨v :: vs, v :: ys', ?_, ?_, ?_⟩
        · simp [hv, hvs]
        · simp [assignMasked, hys]
        · rw [List.map_cons, hb']
    | false =>
      have hbin : binNumber continuous magic eps (some bs) x = .ok missingBinNo := by simp [binNumber, hx]
      simp only [maskedValues]
      constructor
      · rintro ⟨found, ys, h1, h2, h3⟩
        simp only [assignMasked, Option.map_eq_some_iff] at h2
        obtain ⟨ys', hys, rfl⟩ := h2
        rw [List.map_cons, hx] at h3
        exact ⟨_, _, ⟨_, hbin, rfl⟩, (ih _).mp ⟨found, ys', h1, hys, rfl⟩, by rw [← h3]; simp⟩
      · rintro ⟨z, zs', ⟨b, hb, rfl⟩, htail, rfl⟩
        rw [hbin, Except.ok.injEq] at hb
        subst hb
        obtain ⟨vs, ys', hvs, hys, rfl⟩ := (ih _).mpr htail
        exact ⟨vs, x :: ys', hvs, by simp [assignMasked, hys], by rw [List.map_cons, hx]; simp⟩

theorem transformOneFeature_iff (continuous magic : Bool) (eps : K) (bounds : Option (List K)) (xs zs : List (Flt K)) :
    transformOneFeature continuous magic eps bounds xs = .ok zs ↔
      List.Forall₂ (fun x z => ∃ b, binNumber continuous magic eps bounds x = .ok b ∧ z = .fin (b : K)) xs zs := by
  unfold transformOneFeature
  cases bounds with
  | none =>
    simp only [Except.ok.injEq, binNumber, exists_eq_left']
    constructor
    · rintro rfl
      rw [List.forall₂_map_right_iff]
      exact List.forall₂_same.mpr fun _ _ => rfl
    · intro h
      induction h with
      | nil => rfl
      | cons h _ ih => rw [List.map_cons, ih, h]
  | some bs =>
    rw [← masked_iff]
    simp only
    cases h1 : searchBins continuous eps bs.tail (maskedValues (xs.map (isFiniteMagic magic)) xs) with
    | none => simp
    | some found =>
      cases h2 : assignMasked (xs.map (isFiniteMagic magic)) xs found with
      | none =>
        simp only [h2, reduceCtorEq, false_iff]
        rintro ⟨_, ys, h, h', -⟩
        cases h
        rw [h2] at h'
        cases h'
      | some ys =>
        simp only [h2, Except.ok.injEq]
        refine ⟨fun h => ⟨found, ys, rfl, h2, h⟩, ?_⟩
        rintro ⟨_, ys', h, h', h3⟩
        cases h
        rw [h2] at h'
        cases h'
        exact h3

/-- **C165.** The binning of a whole column with mask, array search, assignment and second check gives, entry by entry, the bin of the value
alone; it succeeds exactly if every value has a bin. -/
theorem C165_entries (continuous magic : Bool) (eps : K) (bounds : Option (List K)) (xs zs : List (Flt K)) :
    transformOneFeature continuous magic eps bounds xs = .ok zs ↔
      zs.length = xs.length ∧ ∀ (i : ℕ) (x z : Flt K), xs[i]? = some x → zs[i]? = some z →
        ∃ b, binNumber continuous magic eps bounds x = .ok b ∧ z = .fin (b : K) := by
  rw [transformOneFeature_iff, List.forall₂_iff_get]
  constructor
  · rintro ⟨hl, h⟩
    refine ⟨hl.symm, fun i x z hx hz => ?_⟩
    obtain ⟨hi, rfl⟩ := List.getElem?_eq_some_iff.mp hx
    obtain ⟨hi', rfl⟩ := List.getElem?_eq_some_iff.mp hz
    exact h i hi hi'
  · rintro ⟨hl, h⟩
    refine ⟨hl.symm, fun i hi hi' => ?_⟩
    exact h i _ _ (List.getElem?_eq_getElem hi) (List.getElem?_eq_getElem hi')

/-- **C165**, never a wrong number of values: the assignment through the mask does not fail. -/
theorem C165_no_value_error (continuous magic : Bool) (eps : K) (bounds : Option (List K)) (xs : List (Flt K)) :
    transformOneFeature continuous magic eps bounds xs ≠ .error .valueError := by
  unfold transformOneFeature
  cases bounds with
  | none => simp
  | some bs =>
    simp only [searchBins_eq]
    have key : ∀ (xs : List (Flt K)) found, (maskedValues (xs.map (isFiniteMagic magic)) xs).mapM (searchOne continuous eps bs.tail) = some found →
        ∃ ys, assignMasked (xs.map (isFiniteMagic magic)) xs found = some ys := by
      intro xs
      induction xs with
      | nil =>
        intro found h
        simp [maskedValues] at h
        exact ⟨[], by simp [assignMasked, h]⟩
      | cons x xs ih =>
        intro found h
        rw [List.map_cons] at h ⊢
        cases hx : isFiniteMagic magic x with
        | true =>
          rw [hx] at h
          simp only [maskedValues, List.mapM_cons, Option.bind_eq_bind, Option.pure_def, Option.bind_eq_some_iff, Option.some.injEq] at h
          obtain ⟨v, -, vs, hvs, rfl⟩ := h
          obtain ⟨ys, hys⟩ := ih vs hvs
          exact ⟨v :: ys, by simp [assignMasked, hys]⟩
        | false =>
          rw [hx] at h
          obtain ⟨ys, hys⟩ := ih found h
          exact ⟨x :: ys, by simp [assignMasked, hys]⟩
    cases h1 : (maskedValues (xs.map (isFiniteMagic magic)) xs).mapM (searchOne continuous eps bs.tail) with
    | none => simp
    | some found =>
      obtain ⟨ys, hys⟩ := key xs found h1
      simp [hys]

/-- **C165**, rows: picking rows (any rows, in any order, repeated or not) before binning is the same as picking them afterwards. -/
theorem C165_rows (continuous magic : Bool) (eps : K) (bounds : Option (List K)) (xs zs : List (Flt K))
    (h : transformOneFeature continuous magic eps bounds xs = .ok zs) (rows : List ℕ) (hr : ∀ r ∈ rows, r < xs.length) (fill : Flt K) :
    transformOneFeature continuous magic eps bounds (rows.map fun r => xs.getD r fill) = .ok (rows.map fun r => zs.getD r fill) := by
  rw [C165_entries] at h
  rw [transformOneFeature_iff, List.forall₂_map_left_iff, List.forall₂_map_right_iff]
  refine List.forall₂_same.mpr fun r hrr => ?_
  have h1 : r < xs.length := hr r hrr
  have h2 : r < zs.length := by rw [h.1]; exact h1
  rw [List.getD_eq_getElem?_getD, List.getD_eq_getElem?_getD, List.getElem?_eq_getElem h1, List.getElem?_eq_getElem h2]
  exact h.2 r _ _ (List.getElem?_eq_getElem h1) (List.getElem?_eq_getElem h2)

/-- **C165**, other rows: two columns that agree in a row get the same bin there, whatever the other rows are. -/
theorem C165_row_independent (continuous magic : Bool) (eps : K) (bounds : Option (List K)) (xs xs' zs zs' : List (Flt K))
    (h : transformOneFeature continuous magic eps bounds xs = .ok zs) (h' : transformOneFeature continuous magic eps bounds xs' = .ok zs')
    (i j : ℕ) (hi : i < xs.length) (hij : xs'[j]? = xs[i]?) : zs'[j]? = zs[i]? := by
  rw [C165_entries] at h h'
  have hx := List.getElem?_eq_getElem hi
  rw [hx] at hij
  have hj : j < xs'.length := (List.getElem?_eq_some_iff.mp hij).1
  have hz := List.getElem?_eq_getElem (show i < zs.length by rw [h.1]; exact hi)
  have hz' := List.getElem?_eq_getElem (show j < zs'.length by rw [h'.1]; exact hj)
  obtain ⟨b, hb, e⟩ := h.2 i _ _ hx hz
  obtain ⟨b', hb', e'⟩ := h'.2 j _ _ hij hz'
  rw [hb, Except.ok.injEq] at hb'
  rw [hz, hz', e, e', hb']

end

/-- Witness: a magic value, a missing one and two numbers, with the single inner boundary 5. -/
example : transformOneFeature (K := ℚ) true true 0 (some [0, 5]) [.fin (-9), .nan, .fin 3, .pinf] =
    .ok [.fin (-1), .fin (-1), .fin 0, .fin (-1)] := by
  have hge : ge [(5 : ℚ)] (.fin 3) true = some 0 := by
    unfold ge
    rw [geLoop]
    simp
  rw [transformOneFeature_iff]
  refine .cons ⟨-1, ?_, by norm_num⟩ (.cons ⟨-1, ?_, by norm_num⟩ (.cons ⟨0, ?_, by norm_num⟩ (.cons ⟨-1, ?_, by norm_num⟩ .nil)))
  · simp [binNumber, isFiniteMagic, Flt.eqFin, Flt.isFinite, missingBinNo]
  · simp [binNumber, isFiniteMagic, Flt.eqFin, Flt.isFinite, missingBinNo]
  · norm_num [binNumber, isFiniteMagic, Flt.eqFin, Flt.isFinite, Flt.addFin, hge, recheck]
  · simp [binNumber, isFiniteMagic, Flt.eqFin, Flt.isFinite, missingBinNo]

end CB
