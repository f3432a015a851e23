import Verif.Model.ArrayClipping
import Verif.Spec.ArrayClipping
import Verif.Props.OrthoFit

/-!
# C171: smoothing of arrays
-/

set_option autoImplicit false
set_option linter.unusedSectionVars false

open Finset

namespace CB
open Spec

theorem selected_one (n : ℕ) (x : Flt ℝ) : selectedInterpolating [n] [x] = (fltNeg x || fltGt ((n : ℝ) - 1 / 2) x) := by
  cases x <;> simp [selectedInterpolating, minNeg, fltNeg, fltGt, fltIsNan]

/-- What the model of the smoother for single rows computes. -/
theorem orthoValueAt_clip (s : OrthoSmoother) (hs : s.minimal ≤ s.maximal) (x : Flt ℝ) :
    orthoValueAt s (clipBin s x) = orthoSmootherPredict s x := by
  cases x <;> simp [orthoValueAt, clipBin, orthoSmootherPredict, not_lt.mpr hs]

theorem clipBin_range (s : OrthoSmoother) (hs : s.minimal ≤ s.maximal) (x : Flt ℝ) :
    clipBin s x = .nan ∨ ∃ b, clipBin s x = .fin b ∧ s.minimal ≤ b ∧ b ≤ s.maximal := by
  cases x with
  | fin b =>
    right
    simp only [clipBin]
    split_ifs with h1 h2 h2
    · exact absurd h2 (not_lt.mpr hs)
    · exact ⟨_, rfl, le_refl _, hs⟩
    · exact ⟨_, rfl, hs, le_refl _⟩
    · exact ⟨_, rfl, not_lt.mp h1, not_lt.mp h2⟩
  | nan => exact Or.inl rfl
  | pinf => exact Or.inr ⟨_, rfl, hs, le_refl _⟩
  | ninf => exact Or.inr ⟨s.minimal, by simp [clipBin, not_lt.mpr hs], le_refl _, hs⟩

theorem clipBin_id (s : OrthoSmoother) (b : ℝ) (h1 : s.minimal ≤ b) (h2 : b ≤ s.maximal) : clipBin s (.fin b) = .fin b := by
  simp [clipBin, not_lt.mpr h1, not_lt.mpr h2]

theorem clipBin_twice (s : OrthoSmoother) (hs : s.minimal ≤ s.maximal) (x : Flt ℝ) : clipBin s (clipBin s x) = clipBin s x := by
  rcases clipBin_range s hs x with h | ⟨b, h, h1, h2⟩
  · rw [h]; rfl
  · rw [h, clipBin_id s b h1 h2]

theorem zipWith_self_map {α β γ : Type*} (g : α → β → γ) (f : α → β) (l : List α) :
    List.zipWith g l (l.map f) = l.map fun x => g x (f x) := by
  induction l with
  | nil => rfl
  | cons a l ih => simp [ih]

theorem interpolated_eq (s : OrthoSmoother) (hs : s.minimal ≤ s.maximal) (nBins : ℕ) (norm : ℝ) (x : Flt ℝ) :
    (if selectedInterpolating [nBins] [x] then Flt.nan else (orthoValueAt s (clipBin s x)).addFin norm) =
      interpolated (fun x => (orthoSmootherPredict s x).addFin norm) nBins x := by
  rw [selected_one, orthoValueAt_clip s hs]
  cases x with
  | fin b =>
    simp only [fltNeg, fltGt, interpolated]
    by_cases h1 : b < 0
    · simp [h1, not_le.mpr h1]
    · by_cases h2 : (nBins : ℝ) - 1 / 2 < b
      · simp only [h1, h2, decide_false, decide_true, Bool.or_true, if_true]
        rw [if_neg fun h => absurd h.2 (not_le.mpr h2)]
      · simp only [h1, h2, decide_false, Bool.or_false, Bool.false_eq_true, if_false]
        rw [if_pos ⟨not_lt.mp h1, not_lt.mp h2⟩]
  | nan => simp [fltNeg, fltGt, interpolated]
  | pinf => simp [fltNeg, fltGt, interpolated]
  | ninf => simp [fltNeg, fltGt, interpolated]

/-- The promise for a whole table. -/
theorem interpolatingPredict_eq (s : OrthoSmoother) (hs : s.minimal ≤ s.maximal) (nBins : ℕ) (norm : ℝ) (a : BinArray)
    (h : (orthoPredictArray s a).2 = a) :
    interpolatingPredict s nBins norm a =
      (a.column.map (interpolated (fun x => (orthoSmootherPredict s x).addFin norm) nBins), a) := by
  unfold interpolatingPredict
  dsimp only
  rw [h]
  refine Prod.ext ?_ rfl
  simp only [orthoPredictArray, List.map_map]
  rw [zipWith_self_map]
  exact List.map_congr_left fun x _ => interpolated_eq s hs nBins norm x

/-- **C171 (partial).** If the bin numbers are not 64 bit floats, or their rows do not follow each other directly and there are several: the
smoother for continuous features gives the values of the polynomial within the range of the bins, no value outside it, and leaves the table as
it was. Missing for the full claim: the other tables (`C171_layout_counterexample`). -/
theorem C171_copied_partial (s : OrthoSmoother) (hs : s.minimal ≤ s.maximal) (nBins : ℕ) (norm : ℝ) (a : BinArray)
    (h : a.float64 = false ∨ 2 ≤ a.column.length ∧ a.stride ≠ 1) :
    interpolatingPredict s nBins norm a =
      (a.column.map (interpolated (fun x => (orthoSmootherPredict s x).addFin norm) nBins), a) := by
  refine interpolatingPredict_eq s hs nBins norm a ?_
  have : a.shares = false := by
    unfold BinArray.shares
    rcases h with h | ⟨h1, h2⟩
    · simp [h]
    · simp [h2, show ¬ a.column.length ≤ 1 by omega]
  simp [orthoPredictArray, this]

/-- **C171 (partial).** For all tables: if all bin numbers are within the range of the fit, the same holds. -/
theorem C171_in_range_partial (s : OrthoSmoother) (hs : s.minimal ≤ s.maximal) (nBins : ℕ) (norm : ℝ) (a : BinArray)
    (h : ∀ x ∈ a.column, ∃ b, x = .fin b ∧ s.minimal ≤ b ∧ b ≤ s.maximal) :
    interpolatingPredict s nBins norm a =
      (a.column.map (interpolated (fun x => (orthoSmootherPredict s x).addFin norm) nBins), a) := by
  refine interpolatingPredict_eq s hs nBins norm a ?_
  have : a.column.map (clipBin s) = a.column := by
    rw [List.map_congr_left (g := id), List.map_id]
    intro x hx
    obtain ⟨b, rfl, h1, h2⟩ := h x hx
    exact clipBin_id s b h1 h2
  unfold orthoPredictArray
  dsimp only
  rw [this]
  simp

/-- **C171**, training: the bins 0, ..., n - 1 with which a continuous feature is smoothed are within the range, so that training is not affected
by the memory layout: every bin gets the value of the polynomial. -/
theorem C171_training (n : ℕ) (y err : ℕ → ℝ) (s : OrthoSmoother) (h : orthoSmootherFit n (fun i => (i : ℝ)) y err = some s) (norm : ℝ)
    (float64 : Bool) (stride : ℕ) :
    interpolatingPredict s n norm ⟨(List.range n).map fun (i : ℕ) => Flt.fin (i : ℝ), float64, stride⟩ =
      ((List.range n).map fun (i : ℕ) => (orthoSmootherPredict s (.fin (i : ℝ))).addFin norm,
        ⟨(List.range n).map fun (i : ℕ) => Flt.fin (i : ℝ), float64, stride⟩) := by
  unfold orthoSmootherFit at h
  split_ifs at h with hne
  simp only [Option.some.injEq] at h
  have hmin : ∀ i < n, s.minimal ≤ (i : ℝ) := fun i hi => by
    rw [← h]
    exact Finset.inf'_le (fun i : ℕ => (i : ℝ)) (by simpa using hi)
  have hmax : ∀ i < n, (i : ℝ) ≤ s.maximal := fun i hi => by
    rw [← h]
    exact Finset.le_sup' (fun i : ℕ => (i : ℝ)) (by simpa using hi)
  have hn : 0 < n := by
    obtain ⟨i, hi⟩ := hne
    have : i < n := by simpa using hi
    omega
  rw [C171_in_range_partial s (le_trans (hmin 0 hn) (hmax 0 hn)) n norm _ ?_]
  · refine Prod.ext ?_ rfl
    dsimp only
    rw [List.map_map]
    refine List.map_congr_left fun i hi => ?_
    have hi' : i < n := by simpa using hi
    have : (i : ℝ) + 1 ≤ n := by exact_mod_cast hi'
    simp only [Function.comp, interpolated]
    rw [if_pos ⟨Nat.cast_nonneg i, by linarith⟩]
  · intro x hx
    obtain ⟨i, hi, rfl⟩ := List.mem_map.mp hx
    have hi' : i < n := by simpa using hi
    exact ⟨_, rfl, hmin i hi', hmax i hi'⟩

/-- **C171**, what happens otherwise: with 64 bit floats that follow each other directly, no row is without value although the bin number is
outside the range of the bins: it gets the value at the border; and the table is changed. -/
theorem C171_in_place (s : OrthoSmoother) (hs : s.minimal ≤ s.maximal) (nBins : ℕ) (h0 : 0 ≤ s.minimal) (h1 : s.maximal ≤ (nBins : ℝ) - 1 / 2)
    (norm : ℝ) (a : BinArray) (h : a.float64 = true ∧ (a.column.length ≤ 1 ∨ a.stride = 1)) :
    interpolatingPredict s nBins norm a =
      (a.column.map fun x => (orthoSmootherPredict s x).addFin norm, { a with column := a.column.map (clipBin s) }) := by
  have hsh : a.shares = true := by simpa [BinArray.shares] using h
  unfold interpolatingPredict
  simp only [orthoPredictArray, hsh, if_true]
  refine Prod.ext ?_ rfl
  dsimp only
  rw [zipWith_self_map, List.map_map]
  refine List.map_congr_left fun x _ => ?_
  simp only [Function.comp]
  rw [orthoValueAt_clip s hs, if_neg]
  rw [selected_one]
  rcases clipBin_range s hs x with hx | ⟨b, hx, hb1, hb2⟩
  · simp [hx, fltNeg, fltGt]
  · rw [hx]
    simp only [fltNeg, fltGt, Bool.or_eq_true, decide_eq_true_eq, not_or, not_lt]
    exact ⟨le_trans h0 hb1, le_trans hb2 h1⟩

/-- **C171**: a second call with the same table gives the same values and changes nothing more. -/
theorem C171_again (s : OrthoSmoother) (hs : s.minimal ≤ s.maximal) (nBins : ℕ) (h0 : 0 ≤ s.minimal) (h1 : s.maximal ≤ (nBins : ℝ) - 1 / 2)
    (norm : ℝ) (a : BinArray) :
    interpolatingPredict s nBins norm (interpolatingPredict s nBins norm a).2 = interpolatingPredict s nBins norm a := by
  by_cases h : a.float64 = true ∧ (a.column.length ≤ 1 ∨ a.stride = 1)
  · rw [C171_in_place s hs nBins h0 h1 norm a h]
    dsimp only
    rw [C171_in_place s hs nBins h0 h1 norm _ (by simpa using h)]
    refine Prod.ext ?_ ?_
    · dsimp only
      rw [List.map_map]
      refine List.map_congr_left fun x _ => ?_
      simp only [Function.comp]
      rw [← orthoValueAt_clip s hs, clipBin_twice s hs, orthoValueAt_clip s hs]
    · dsimp only
      rw [List.map_map]
      congr 1
      exact List.map_congr_left fun x _ => clipBin_twice s hs x
  · have h' : a.float64 = false ∨ 2 ≤ a.column.length ∧ a.stride ≠ 1 := by
      rw [not_and_or, not_or] at h
      rcases h with h | ⟨h2, h3⟩
      · exact Or.inl (by simpa using h)
      · exact Or.inr ⟨by omega, h3⟩
    rw [C171_copied_partial s hs nBins norm a h']
    dsimp only
    rw [C171_copied_partial s hs nBins norm a h']

/-- **C171**, what does not hold: the value for bin 7 of a continuous feature that was trained with three bins depends on the type of the table:
none for integers, a number for floats. -/
theorem C171_layout_counterexample (y err : ℕ → ℝ) (norm : ℝ) : ∃ s v, orthoSmootherFit 3 (fun i => (i : ℝ)) y err = some s ∧
    interpolatingPredict s 3 norm ⟨[.fin 7], false, 1⟩ = ([.nan], ⟨[.fin 7], false, 1⟩) ∧
    interpolatingPredict s 3 norm ⟨[.fin 7], true, 1⟩ = ([.fin v], ⟨[.fin 2], true, 1⟩) := by
  obtain ⟨s, hs⟩ := (C72_total 3 (fun i => (i : ℝ)) y err).mpr (by norm_num)
  have hs' := hs
  unfold orthoSmootherFit at hs'
  split_ifs at hs' with hne
  simp only [Option.some.injEq] at hs'
  have hmin : s.minimal = 0 := by
    have e : s.minimal = (range 3).inf' hne fun i : ℕ => (i : ℝ) := by rw [← hs']
    rw [e]
    refine le_antisymm ?_ (Finset.le_inf' hne _ fun i _ => Nat.cast_nonneg i)
    have := Finset.inf'_le (fun i : ℕ => (i : ℝ)) (show 0 ∈ range 3 by simp)
    simpa using this
  have hmax : s.maximal = 2 := by
    have e : s.maximal = (range 3).sup' hne fun i : ℕ => (i : ℝ) := by rw [← hs']
    rw [e]
    refine le_antisymm (Finset.sup'_le hne _ fun i hi => ?_) ?_
    · have : i ≤ 2 := by
        have : i < 3 := by simpa using hi
        omega
      exact_mod_cast this
    · have := Finset.le_sup' (fun i : ℕ => (i : ℝ)) (show 2 ∈ range 3 by simp)
      exact le_trans (by norm_num) this
  have hle : s.minimal ≤ s.maximal := by rw [hmin, hmax]; norm_num
  refine ⟨s, orthoApply s.params s.nDegrees 2 + norm, hs, ?_, ?_⟩
  · rw [C171_copied_partial s hle 3 norm _ (Or.inl rfl)]
    simp only [List.map_cons, List.map_nil, interpolated]
    rw [if_neg (by norm_num)]
  · rw [C171_in_place s hle 3 (by rw [hmin]) (by rw [hmax]; norm_num) norm _ ⟨rfl, Or.inr rfl⟩]
    simp only [List.map_cons, List.map_nil, orthoSmootherPredict, clipBin, hmin, hmax, Flt.addFin]
    norm_num

end CB
