import Verif.Model.ColumnNames
import Mathlib.Data.List.Nodup
import Mathlib.Data.List.Count

/-! C152: the feature columns of a table are its columns without the excluded ones. -/

set_option autoImplicit false
set_option linter.unusedSectionVars false

namespace CB

variable {α : Type} [DecidableEq α]

/-- **C152** The result for a table whose column names differ: exactly the columns that are not excluded, in the order of the table;
excluded names that are no columns, or are given twice, do not matter. -/
theorem C152_distinct_partial (columns exclude : List α) (h : columns.Nodup) :
    featureColumnNames columns exclude = columns.filter fun c => c ∉ exclude := by
  unfold featureColumnNames
  induction exclude generalizing columns with
  | nil => simp
  | cons e es ih =>
    have he : withoutColumn columns e = columns.filter fun c => c ≠ e := by
      unfold withoutColumn
      split_ifs with hm
      · rw [h.erase_eq_filter]
        exact List.filter_congr fun x _ => by simp [bne, Bool.beq_eq_decide_eq]
      · refine (List.filter_eq_self.2 fun a ha => ?_).symm
        simp only [decide_eq_true_eq]
        rintro rfl
        exact hm ha
    rw [List.foldl_cons, he, ih _ (h.filter _), List.filter_filter]
    refine List.filter_congr fun x _ => ?_
    by_cases h1 : x = e <;> by_cases h2 : x ∈ es <;> simp [h1, h2]

/-- **C152** In every table: how often a name is left. Each mention of a name among the excluded ones takes away one column of it. -/
theorem C152_count (columns exclude : List α) (c : α) :
    (featureColumnNames columns exclude).count c = columns.count c - exclude.count c := by
  unfold featureColumnNames
  induction exclude generalizing columns with
  | nil => simp
  | cons e es ih =>
    have he : (withoutColumn columns e).count c = columns.count c - if e = c then 1 else 0 := by
      unfold withoutColumn
      split_ifs with hm h2 h2
      · rw [h2, List.count_erase_self]
      · rw [List.count_erase_of_ne (Ne.symm h2)]; rfl
      · rw [← h2, List.count_eq_zero_of_not_mem hm]
      · rfl
    rw [List.foldl_cons, ih, he, List.count_cons]
    by_cases h : e = c
    · rw [if_pos h, if_pos (by simpa using h)]; omega
    · rw [if_neg h, if_neg (by simpa using h)]; omega

/-- **C152** In every table: the result is the list of its columns with some of them left out. No name is invented and the order is kept. -/
theorem C152_order (columns exclude : List α) : (featureColumnNames columns exclude).Sublist columns := by
  unfold featureColumnNames
  induction exclude generalizing columns with
  | nil => exact List.Sublist.refl _
  | cons e es ih =>
    rw [List.foldl_cons]
    refine (ih _).trans ?_
    unfold withoutColumn
    split_ifs
    · exact List.erase_sublist
    · exact List.Sublist.refl _

/-- **C152** The claim without the condition on the names is false of the code: of two columns with the same excluded name one is left. -/
theorem C152_full_claim_fails : ∃ columns exclude : List String, ∃ c ∈ exclude, c ∈ featureColumnNames columns exclude :=
  ⟨["sales", "date", "sales"], ["sales"], "sales", by simp, by decide⟩

/-- Witness for `C152_distinct_partial`. -/
example : featureColumnNames ["store", "sales", "date", "item"] ["sales", "price", "date", "sales"] = ["store", "item"] := by
  rw [C152_distinct_partial _ _ (by decide)]
  decide

end CB
