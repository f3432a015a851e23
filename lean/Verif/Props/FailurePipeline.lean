import Verif.Props.Failure
import Verif.Props.BinnedFit
import Verif.Props.Flags

/-!
# C138 for pipelines: what can make binning fail
-/

set_option autoImplicit false
set_option linter.unusedSectionVars false

namespace CB
open Spec

section
variable (B : Binner) (X : Table ℝ) (n : ℕ)

theorem column_value (c : String) : (∃ v, some v ∈ X.column n c) ↔ ∃ s < n, ∃ v : ℝ, X s c = .fin v := by
  unfold Table.column
  constructor
  · rintro ⟨v, hv⟩
    obtain ⟨s, hs, h⟩ := List.mem_map.mp hv
    refine ⟨s, List.mem_range.mp hs, v, ?_⟩
    split at h
    · rename_i x hx
      rw [hx, Option.some.inj h]
    · cases h
  · rintro ⟨s, hs, v, hv⟩
    exact ⟨v, List.mem_map.mpr ⟨s, List.mem_range.mpr hs, by rw [hv]⟩⟩

theorem fitOne_error (htol : 0 ≤ B.tolerance) (c : String) :
    ((∃ e, B.fitOne X n c = some (.error e)) ↔ CannotBeBinned B X n c) ∧
      ∀ e, B.fitOne X n c = some (.error e) → e = .valueError := by
  unfold Binner.fitOne CannotBeBinned
  cases hp : B.props.lookup c with
  | none => simp
  | some fp =>
    have hacc := Flags.C14_accepts_iff fp
    have hw := column_weights X n c
    dsimp only
    cases hc : Flags.checkConsistency fp with
    | error e =>
      rw [hc] at hacc
      simp only [reduceCtorEq, false_iff] at hacc
      refine ⟨⟨fun _ => ⟨fp, rfl, .inl hacc⟩, fun _ => ⟨_, rfl⟩⟩, ?_⟩
      rintro e h
      simpa using h.symm
    | ok u =>
      rw [hc] at hacc
      have hok := hacc.mp rfl
      have hd : (Flags.isSet fp Flags.IS_ORDERED || Flags.isSet fp Flags.IS_UNORDERED) = (fp.testBit 1 || fp.testBit 2) := by
        unfold Flags.IS_ORDERED Flags.IS_UNORDERED
        simp only [Flags.isSet_bit]
      dsimp only
      rw [hd]
      by_cases hne : ∃ v, some v ∈ X.column n c
      · cases h1 : fp.testBit 1 || fp.testBit 2 with
        | true =>
          obtain ⟨b0, values, cdf, hfit, -⟩ := fitColumn_discrete (X.column n c) (List.replicate n (1 : ℝ)) hw (B.nBins c) B.epsilon
            B.tolerance hne
          rw [hfit]
          refine ⟨⟨by simp, ?_⟩, by simp⟩
          rintro ⟨fp', hfp', h | ⟨h3, h4, -⟩⟩
          · rw [Option.some.inj hfp'] at hok
            exact absurd hok h
          · rw [← Option.some.inj hfp'] at h3 h4
            rw [h3, h4] at h1
            cases h1
        | false =>
          have h1' := h1
          rw [Bool.or_eq_false_iff] at h1'
          by_cases hN : 2 ≤ B.nBins c
          · obtain ⟨e, b0, upper, cdf, hfit, -⟩ := C05_reduced_bins (X.column n c) (List.replicate n (1 : ℝ)) hw hne (B.nBins c) hN
              B.epsilon B.tolerance htol
            rw [hfit]
            refine ⟨⟨by simp, ?_⟩, by simp⟩
            rintro ⟨fp', hfp', h | ⟨-, -, h, -⟩⟩
            · rw [Option.some.inj hfp'] at hok
              exact absurd hok h
            · omega
          · rw [C05_too_few_bins (X.column n c) (List.replicate n (1 : ℝ)) hw hne (B.nBins c) (by omega) B.epsilon B.tolerance]
            refine ⟨⟨fun _ => ⟨fp, rfl, .inr ⟨h1'.1, h1'.2, by omega, (column_value X n c).mp hne⟩⟩, fun _ => ⟨_, rfl⟩⟩, ?_⟩
            intro e h
            simpa using h.symm
      · have hne' : ∀ v, some v ∉ X.column n c := fun v hv => hne ⟨v, hv⟩
        rw [fitColumn_empty _ (X.column n c) (List.replicate n (1 : ℝ)) hw.1 (B.nBins c) B.epsilon B.tolerance hne']
        refine ⟨⟨by simp, ?_⟩, by simp⟩
        rintro ⟨fp', hfp', h | ⟨-, -, -, h⟩⟩
        · rw [Option.some.inj hfp'] at hok
          exact absurd hok h
        · exact absurd ((column_value X n c).mpr h) hne

theorem fitColumns_error (htol : 0 ≤ B.tolerance) (columns : List String) :
    ((∃ e, B.fitColumns X n columns = .error e) ↔ ∃ c ∈ columns, CannotBeBinned B X n c) ∧
      ∀ e, B.fitColumns X n columns = .error e → e = .valueError := by
  induction columns with
  | nil => simp [Binner.fitColumns]
  | cons c cs ih =>
    obtain ⟨h1, h2⟩ := fitOne_error B X n htol c
    unfold Binner.fitColumns
    cases hf : B.fitOne X n c with
    | none =>
      rw [hf] at h1
      simp only [reduceCtorEq, exists_false, false_iff] at h1
      refine ⟨?_, ih.2⟩
      dsimp only
      rw [ih.1]
      simp [h1]
    | some r =>
      cases r with
      | error e =>
        refine ⟨⟨fun _ => ⟨c, List.mem_cons_self, h1.mp ⟨e, hf⟩⟩, fun _ => ⟨e, rfl⟩⟩, ?_⟩
        intro e' he'
        simp only [Except.error.injEq] at he'
        rw [← he']
        exact h2 e hf
      | ok f =>
        rw [hf] at h1
        simp only [Option.some.injEq, reduceCtorEq, exists_false, false_iff] at h1
        cases hr : B.fitColumns X n cs with
        | error e =>
          rw [hr] at ih
          obtain ⟨c', hc', hb⟩ := ih.1.mp ⟨e, rfl⟩
          refine ⟨⟨fun _ => ⟨c', List.mem_cons_of_mem _ hc', hb⟩, fun _ => ⟨e, rfl⟩⟩, ?_⟩
          intro e' he'
          simp only [Except.error.injEq] at he'
          rw [← he']
          exact ih.2 e rfl
        | ok rest =>
          rw [hr] at ih
          have := ih.1
          simp only [reduceCtorEq, exists_false, false_iff, not_exists, not_and] at this
          refine ⟨⟨by simp, ?_⟩, by simp⟩
          rintro ⟨c', hc', hb⟩
          rcases List.mem_cons.mp hc' with rfl | hc'
          · exact absurd hb h1
          · exact absurd hb (this c' hc')

/-- **C138, binning.** The binner of a pipeline fails exactly if the table has no rows or no columns or if one of its columns cannot be binned:
an inconsistent feature property, or a continuous column with a number in it for which fewer than two bins are asked. The exception
is always a `ValueError`. -/
theorem C138_binning (htol : 0 ≤ B.tolerance) (columns : List String) :
    ((∃ e, B.fit columns X n = .error e) ↔ n = 0 ∨ columns = [] ∨ ∃ c ∈ columns, CannotBeBinned B X n c) ∧
      ∀ e, B.fit columns X n = .error e → e = .valueError := by
  unfold Binner.fit
  by_cases hn : n = 0 ∨ columns = []
  · rw [if_pos hn]
    refine ⟨⟨fun _ => hn.imp_right .inl, fun _ => ⟨_, rfl⟩⟩, ?_⟩
    intro e h
    simpa using h.symm
  · rw [if_neg hn]
    obtain ⟨h1, h2⟩ := fitColumns_error B X n htol columns
    rw [h1]
    exact ⟨⟨fun h => .inr (.inr h), fun h => (h.resolve_left (mt .inl hn)).resolve_left (mt .inr hn)⟩, h2⟩

end

/-- **C138, pipelines.** If the table has rows and columns and all columns can be binned, the fit of a pipeline ends as the fit of its estimator
on the table of bin numbers; otherwise it raises a `ValueError`. No raw value makes the binning fail. -/
theorem C138_pipeline {σ : Type*} (B : Binner) (htol : 0 ≤ B.tolerance) (columns : List String) (S : Setup σ) (E : Estimator)
    (D : TrainSet) (fuel : ℕ) :
    ((D.n = 0 ∨ columns = [] ∨ ∃ c ∈ columns, CannotBeBinned B D.X D.n c) →
      pipelineFit B columns S E D fuel = some (.error (.binning .valueError))) ∧
    (¬ (D.n = 0 ∨ columns = [] ∨ ∃ c ∈ columns, CannotBeBinned B D.X D.n c) → ∃ Xt,
      (∀ e, pipelineFit B columns S E D fuel = some (.error e) ↔
        ∃ e', e = .fit e' ∧ S.fit E { D with X := Xt } fuel = some (.error e')) ∧
      ((∃ P, pipelineFit B columns S E D fuel = some (.ok P)) ↔ ∃ m, S.fit E { D with X := Xt } fuel = some (.ok m)) ∧
      ∀ s < D.n, ∀ c, (∃ f, B.fit columns D.X D.n = .ok f ∧ B.cell f c (D.X s c) = .ok (Xt s c))) := by
  obtain ⟨h1, h2⟩ := C138_binning B D.X D.n htol columns
  constructor
  · intro h
    obtain ⟨e, he⟩ := h1.mpr h
    unfold pipelineFit
    rw [he, h2 e he]
  · intro h
    cases hf : B.fit columns D.X D.n with
    | error e => exact absurd (h1.mp ⟨e, hf⟩) h
    | ok f =>
      obtain ⟨Xt, hXt⟩ := transform_ok B htol columns D.X D.n f hf D.X D.n
      refine ⟨Xt, ?_, ?_, ?_⟩
      · intro e
        unfold pipelineFit
        rw [hf]
        dsimp only
        rw [hXt]
        dsimp only
        cases hS : S.fit E { D with X := Xt } fuel with
        | none => simp
        | some r =>
          cases r with
          | error e' =>
            simp only [Option.some.injEq, Except.error.injEq]
            exact ⟨fun h => ⟨e', h.symm, rfl⟩, fun ⟨e'', h, h'⟩ => by rw [h, h']⟩
          | ok m => simp
      · unfold pipelineFit
        rw [hf]
        dsimp only
        rw [hXt]
        dsimp only
        cases hS : S.fit E { D with X := Xt } fuel with
        | none => simp
        | some r => cases r <;> simp
      · intro s hs c
        refine ⟨f, rfl, ?_⟩
        unfold Binner.transform at hXt
        split at hXt
        · rename_i hall
          rw [Except.ok.injEq] at hXt
          obtain ⟨v, hv⟩ := hall s hs c
          rw [← hXt]
          dsimp only
          rw [hv]
        · cases hXt

/-- Witness: a table with a continuous column can be binned into 100 bins, but not into one; also if all entries are missing it can be
binned. -/
example : ¬ CannotBeBinned ⟨fun _ => 100, [("a", Flags.IS_CONTINUOUS)], 1 / 10 ^ 9, 1 / 10⟩ (fun s _ => .fin s) 5 "a" ∧
    CannotBeBinned ⟨fun _ => 1, [("a", Flags.IS_CONTINUOUS)], 1 / 10 ^ 9, 1 / 10⟩ (fun s _ => .fin s) 5 "a" ∧
    ¬ CannotBeBinned ⟨fun _ => 1, [("a", Flags.IS_CONTINUOUS)], 1 / 10 ^ 9, 1 / 10⟩ (fun _ _ => .nan) 5 "a" := by
  refine ⟨?_, ⟨Flags.IS_CONTINUOUS, rfl, .inr ⟨by decide, by decide, by norm_num, 0, by norm_num, 0, by simp⟩⟩, ?_⟩
  · rintro ⟨fp, hfp, h | ⟨-, -, h, -⟩⟩
    · rw [← show Flags.IS_CONTINUOUS = fp from by simpa using hfp] at h
      exact h (by decide)
    · norm_num at h
  · rintro ⟨fp, hfp, h | ⟨-, -, -, s, -, v, h⟩⟩
    · rw [← show Flags.IS_CONTINUOUS = fp from by simpa using hfp] at h
      exact h (by decide)
    · cases h

end CB
