import Verif.Spec.ColumnAccess
import Mathlib.Data.List.Perm.Basic
import Mathlib.Data.List.Nodup
import Mathlib.Tactic.SplitIfs
import Mathlib.Tactic.Push

/-!
# C162: columns are picked by their name or position
-/

set_option autoImplicit false
set_option linter.unusedSectionVars false

namespace CB
open Spec

section
variable {α : Type} {X : DataTable α}

theorem namedColumns_of_unique (before after : List (Label × (ℕ → α))) (label : Label) (c : ℕ → α)
    (h : ∀ d ∈ before ++ after, d.1 ≠ label) : namedColumns (before ++ (label, c) :: after) label = [c] := by
  unfold namedColumns
  have h1 : before.filter (fun d => decide (d.1 = label)) = [] :=
    List.filter_eq_nil_iff.mpr fun d hd => by simpa using h d (List.mem_append_left _ hd)
  have h2 : after.filter (fun d => decide (d.1 = label)) = [] :=
    List.filter_eq_nil_iff.mpr fun d hd => by simpa using h d (List.mem_append_right _ hd)
  rw [List.filter_append, List.filter_cons, h1, h2]
  simp

theorem arrayPosition_start (width j : ℕ) (h : j < width) : arrayPosition width (.int j) = some j := by
  unfold arrayPosition
  dsimp only
  rw [if_pos ⟨by omega, by omega⟩]
  simp

theorem arrayPosition_end (width j : ℕ) (h : j < width) : arrayPosition width (.int ((j : ℤ) - width)) = some j := by
  unfold arrayPosition
  dsimp only
  rw [if_neg (by omega), if_pos ⟨by omega, by omega⟩]
  simp

theorem pickOne_column (label : Label) (c : ℕ → α) (h : IsColumn X label c) : pickOne X label = .ok (.vector c) := by
  cases X with
  | frame columns =>
    obtain ⟨before, after, rfl, hu⟩ := h
    simp only [pickOne, namedColumns_of_unique before after label c hu]
  | array width entry =>
    obtain ⟨j, hj, hl, rfl⟩ := h
    have : arrayPosition width label = some j := by
      rcases hl with rfl | rfl
      · exact arrayPosition_start width j hj
      · exact arrayPosition_end width j hj
    simp only [pickOne, this]

theorem pickMany_columns (labels : List Label) (cs : List (ℕ → α)) (h : List.Forall₂ (IsColumn X) labels cs) :
    pickMany X labels = .ok cs := by
  induction h with
  | nil => cases X <;> rfl
  | @cons label c labels cs h _ ih =>
    cases X with
    | frame columns =>
      obtain ⟨before, after, rfl, hu⟩ := h
      simp only [pickMany, namedColumns_of_unique before after label c hu, ih]
      rfl
    | array width entry =>
      obtain ⟨j, hj, hl, rfl⟩ := h
      have : arrayPosition width label = some j := by
        rcases hl with rfl | rfl
        · exact arrayPosition_start width j hj
        · exact arrayPosition_end width j hj
      simp only [pickMany, this, ih]

/-- **C162**, one column: it is returned as a vector, or as a matrix with one column without `array_for_1_dim`, whether its label comes
alone, in a list or in a tuple. `column_selector` returns the same vector. -/
theorem C162_one (label : Label) (c : ℕ → α) (h : IsColumn X label c) (arg : ColumnArg)
    (harg : arg = .one label ∨ arg = .list [label] ∨ arg = .tuple [label]) :
    getXColumn X arg true = .ok (.vector c) ∧ getXColumn X arg false = .ok (.matrix [c]) ∧ columnSelector X label = .ok (.vector c) := by
  have h1 := pickOne_column label c h
  have h2 := pickMany_columns [label] [c] (.cons h .nil)
  rcases harg with rfl | rfl | rfl <;>
    exact ⟨h1, by simp only [getXColumn, pickList, h2], h1⟩

/-- **C162**, several columns: the matrix of the columns in the order of the labels, for lists and tuples and both settings of
`array_for_1_dim`. -/
theorem C162_many (labels : List Label) (cs : List (ℕ → α)) (h : List.Forall₂ (IsColumn X) labels cs) (hl : labels.length ≠ 1) (flag : Bool)
    (arg : ColumnArg) (harg : arg = .list labels ∨ arg = .tuple labels) : getXColumn X arg flag = .ok (.matrix cs) := by
  have h2 := pickMany_columns labels cs h
  have key : getXColumn X (.list labels) flag = .ok (.matrix cs) := by
    match labels, hl with
    | [], _ => cases flag <;> simp only [getXColumn, pickList, h2]
    | a :: b :: rest, _ => cases flag <;> simp only [getXColumn, pickList, h2]
  rcases harg with rfl | rfl
  · exact key
  · exact key

theorem isColumn_exists_frame (columns : List (Label × (ℕ → α))) (hn : (columns.map Prod.fst).Nodup) (label : Label)
    (h : label ∈ columns.map Prod.fst) : ∃ c, IsColumn (.frame columns) label c := by
  obtain ⟨⟨l, c⟩, hmem, rfl⟩ := List.mem_map.mp h
  obtain ⟨before, after, rfl⟩ := List.append_of_mem hmem
  refine ⟨c, before, after, rfl, fun d hd he => ?_⟩
  rw [List.map_append, List.map_cons, List.nodup_append] at hn
  obtain ⟨-, h2, h3⟩ := hn
  rcases List.mem_append.mp hd with hd | hd
  · exact h3 d.1 (List.mem_map_of_mem hd) l (by simp) he
  · rw [List.nodup_cons] at h2
    exact h2.1 (he ▸ List.mem_map_of_mem hd)

theorem namedColumns_none (columns : List (Label × (ℕ → α))) (label : Label) (h : label ∉ columns.map Prod.fst) :
    namedColumns columns label = [] := by
  unfold namedColumns
  rw [List.map_eq_nil_iff, List.filter_eq_nil_iff]
  intro d hd
  simp only [decide_eq_true_eq]
  intro he
  exact h (he ▸ List.mem_map_of_mem hd)

/-- A frame knows a label if a column has this name, an array if it is a position inside. -/
theorem pickMany_error (labels : List Label) (label : Label) (hmem : label ∈ labels) (hX : ∀ cs, pickMany X [label] ≠ .ok cs) :
    ∃ e, pickMany X labels = .error e := by
  induction labels with
  | nil => cases hmem
  | cons l ls ih =>
    cases X with
    | frame columns =>
      simp only [pickMany] at hX ⊢
      cases hl : namedColumns columns l with
      | nil => exact ⟨_, rfl⟩
      | cons c cs =>
        rcases List.mem_cons.mp hmem with rfl | hm
        · rw [hl] at hX
          exact absurd rfl (hX _)
        · obtain ⟨e, he⟩ := ih hm
          dsimp only
          rw [he]
          exact ⟨e, rfl⟩
    | array width entry =>
      simp only [pickMany] at hX ⊢
      cases hl : arrayPosition width l with
      | none => exact ⟨_, rfl⟩
      | some j =>
        rcases List.mem_cons.mp hmem with rfl | hm
        · rw [hl] at hX
          exact absurd rfl (hX _)
        · obtain ⟨e, he⟩ := ih hm
          dsimp only
          rw [he]
          exact ⟨e, rfl⟩

/-- **C162**, failures: on arrays and on frames with different names, picking fails exactly if the table does not have one of the
labels. -/
theorem C162_fails_iff (hX : ∀ columns, X = .frame columns → (columns.map Prod.fst).Nodup) (arg : ColumnArg) (flag : Bool) :
    (∃ e, getXColumn X arg flag = .error e) ↔ ∃ l ∈ arg.labels, ¬ X.has l := by
  have hcol : ∀ l, X.has l → ∃ c, IsColumn X l c := by
    intro l hl
    cases X with
    | frame columns => exact isColumn_exists_frame columns (hX columns rfl) l hl
    | array width entry =>
      obtain ⟨j, hj, h⟩ := hl
      exact ⟨_, j, hj, h, rfl⟩
  have hbad : ∀ l, ¬ X.has l → (∃ e, pickOne X l = .error e) ∧ ∀ cs, pickMany X [l] ≠ .ok cs := by
    intro l hl
    cases X with
    | frame columns =>
      have := namedColumns_none columns l hl
      simp only [pickOne, pickMany, this]
      exact ⟨⟨_, rfl⟩, fun cs h => by cases h⟩
    | array width entry =>
      have : arrayPosition width l = none := by
        cases l with
        | str s => rfl
        | int k =>
          unfold arrayPosition
          dsimp only
          split_ifs with h1 h2
          · exact absurd ⟨k.toNat, by omega, Or.inl (by congr 1; omega)⟩ hl
          · exact absurd ⟨(k + width).toNat, by omega, Or.inr (by congr 1; omega)⟩ hl
          · rfl
      simp only [pickOne, pickMany, this]
      exact ⟨⟨_, rfl⟩, fun cs h => by cases h⟩
  constructor
  · rintro ⟨e, he⟩
    by_contra hno
    push Not at hno
    have hall : ∃ cs, List.Forall₂ (IsColumn X) arg.labels cs := by
      have : ∀ ls : List Label, (∀ l ∈ ls, X.has l) → ∃ cs, List.Forall₂ (IsColumn X) ls cs := by
        intro ls
        induction ls with
        | nil => exact fun _ => ⟨[], .nil⟩
        | cons l ls ih =>
          intro h
          obtain ⟨c, hc⟩ := hcol l (h l (by simp))
          obtain ⟨cs, hcs⟩ := ih fun l hl => h l (by simp [hl])
          exact ⟨c :: cs, .cons hc hcs⟩
      exact this _ hno
    obtain ⟨cs, hcs⟩ := hall
    by_cases hlen : arg.labels.length = 1
    · obtain ⟨l, hl⟩ := List.length_eq_one_iff.mp hlen
      rw [hl] at hcs
      cases hcs with
      | @cons _ c _ _ hc _ =>
        have hone := C162_one l c hc arg (by cases arg <;> simp_all [ColumnArg.labels])
        cases flag
        · rw [hone.2.1] at he; cases he
        · rw [hone.1] at he; cases he
    · have := C162_many arg.labels cs hcs hlen flag arg (by cases arg <;> simp_all [ColumnArg.labels])
      rw [this] at he; cases he
  · rintro ⟨l, hl, hnot⟩
    obtain ⟨⟨e, he⟩, hm⟩ := hbad l hnot
    obtain ⟨e', he'⟩ := pickMany_error arg.labels l hl hm
    cases arg with
    | one l' =>
      obtain rfl : l = l' := by simpa [ColumnArg.labels] using hl
      cases flag
      · exact ⟨e', by simp only [getXColumn, pickList]; rw [show pickMany X [l] = _ from he']⟩
      · exact ⟨e, he⟩
    | list ls =>
      match ls, flag with
      | [l'], true =>
        obtain rfl : l = l' := by simpa [ColumnArg.labels] using hl
        exact ⟨e, he⟩
      | [], true => exact absurd hl (by simp [ColumnArg.labels])
      | a :: b :: rest, true => exact ⟨e', by simp only [getXColumn, pickList]; rw [show pickMany X (a :: b :: rest) = _ from he']⟩
      | ls, false => exact ⟨e', by simp only [getXColumn, pickList]; rw [show pickMany X ls = _ from he']⟩
    | tuple ls =>
      match ls, flag with
      | [l'], true =>
        obtain rfl : l = l' := by simpa [ColumnArg.labels] using hl
        exact ⟨e, he⟩
      | [], true => exact absurd hl (by simp [ColumnArg.labels])
      | a :: b :: rest, true => exact ⟨e', by simp only [getXColumn, pickList]; rw [show pickMany X (a :: b :: rest) = _ from he']⟩
      | ls, false => exact ⟨e', by simp only [getXColumn, pickList]; rw [show pickMany X ls = _ from he']⟩

/-- **C162**, order: the order of the columns of a frame with different names does not matter. -/
theorem C162_order (columns columns' : List (Label × (ℕ → α))) (hperm : columns'.Perm columns) (hn : (columns.map Prod.fst).Nodup)
    (arg : ColumnArg) (flag : Bool) : getXColumn (.frame columns') arg flag = getXColumn (.frame columns) arg flag := by
  have hn' : (columns'.map Prod.fst).Nodup := (hperm.map Prod.fst).nodup_iff.mpr hn
  have hnamed : ∀ l, namedColumns columns' l = namedColumns columns l := by
    intro l
    by_cases hl : l ∈ columns.map Prod.fst
    · obtain ⟨c, before, after, rfl, hu⟩ := isColumn_exists_frame columns hn l hl
      obtain ⟨c', before', after', rfl, hu'⟩ := isColumn_exists_frame columns' hn' l ((hperm.map Prod.fst).mem_iff.mpr hl)
      rw [namedColumns_of_unique _ _ _ _ hu, namedColumns_of_unique _ _ _ _ hu']
      have hmem : (l, c') ∈ before ++ (l, c) :: after := hperm.mem_iff.mp (by simp)
      rcases List.mem_append.mp hmem with h | h
      · exact absurd rfl (hu _ (List.mem_append_left _ h))
      · rcases List.mem_cons.mp h with h | h
        · rw [(Prod.mk.inj h).2]
        · exact absurd rfl (hu _ (List.mem_append_right _ h))
    · rw [namedColumns_none _ _ hl, namedColumns_none _ _ (fun h => hl ((hperm.map Prod.fst).mem_iff.mp h))]
  have hmany : ∀ ls, pickMany (.frame columns') ls = pickMany (.frame columns) ls := by
    intro ls
    induction ls with
    | nil => rfl
    | cons l ls ih => simp only [pickMany, hnamed, ih]
  have hone : ∀ l, pickOne (.frame columns') l = pickOne (.frame columns) l := by
    intro l
    simp only [pickOne, hnamed]
  unfold getXColumn pickList
  dsimp only
  split <;> simp only [hmany, hone]

/-- **C162**, positions: the index `get_column_index` finds for a name is the position of the column of that name in `X.values`, and an
array is indexed with the label itself. So binning `X.values` by position and `X` by name reads the same column. -/
theorem C162_index (fill : ℕ → α) (columns : List (Label × (ℕ → α))) (label : Label) (c : ℕ → α) (h : IsColumn (.frame columns) label c) :
    ∃ j, getColumnIndex (.frame columns) label = .ok j ∧ IsColumn (frameValues fill columns) j c := by
  obtain ⟨before, after, rfl, hu⟩ := h
  have hi : ((before ++ (label, c) :: after).map Prod.fst).idxOf label = before.length := by
    rw [List.map_append, List.map_cons, List.idxOf_append_of_notMem, List.idxOf_cons_self]
    · simp
    · intro hm
      obtain ⟨d, hd, he⟩ := List.mem_map.mp hm
      exact hu d (List.mem_append_left _ hd) he
  refine ⟨.int before.length, ?_, before.length, by simp, Or.inl rfl, ?_⟩
  · simp only [getColumnIndex]
    rw [if_pos (by simp), hi]
  · funext i
    simp

/-- **C162**, positions: `get_column_index` fails exactly for names the frame does not have, and leaves positions in arrays as they are. -/
theorem C162_index_fails_iff (X : DataTable α) (label : Label) :
    match X with
    | .frame columns => (∃ e, getColumnIndex (.frame columns) label = .error e) ↔ ∀ d ∈ columns, d.1 ≠ label
    | .array width entry => getColumnIndex (.array width entry) label = .ok label := by
  cases X with
  | array width entry => rfl
  | frame columns =>
    dsimp only
    simp only [getColumnIndex]
    split_ifs with h
    · obtain ⟨d, hd, he⟩ := List.mem_map.mp h
      exact ⟨(by rintro ⟨e, h⟩; cases h), fun hn => absurd he (hn d hd)⟩
    · exact ⟨fun _ d hd he => h (he ▸ List.mem_map_of_mem hd), fun _ => ⟨_, rfl⟩⟩

/-- **C162**, a frame whose columns are numbered from 0 and the array of its values give the same for all non-negative labels. -/
theorem C162_frame_as_array (fill : ℕ → α) (cs : List (ℕ → α)) (arg : ColumnArg) (flag : Bool)
    (hpos : ∀ l ∈ arg.labels, ∃ j : ℕ, j < cs.length ∧ l = .int j) :
    getXColumn (.frame (cs.zipIdx.map fun p => (Label.int p.2, p.1))) arg flag =
      getXColumn (frameValues fill (cs.zipIdx.map fun p => (Label.int p.2, p.1))) arg flag := by
  set columns := cs.zipIdx.map fun p => (Label.int p.2, p.1) with hcolumns
  have hlen : columns.length = cs.length := by simp [hcolumns]
  have hnames : columns.map Prod.fst = (List.range cs.length).map fun j => Label.int (j : ℕ) := by
    rw [hcolumns, List.map_map]
    apply List.ext_getElem
    · simp
    · intro n h1 h2
      simp
  have hn : (columns.map Prod.fst).Nodup := by
    rw [hnames]
    exact List.Nodup.map (fun a b h => Int.ofNat.inj (Label.int.inj h)) List.nodup_range
  have hget : ∀ l ∈ arg.labels, ∃ c, IsColumn (.frame columns) l c ∧ IsColumn (frameValues fill columns) l c := by
    intro l hl
    obtain ⟨j, hj, rfl⟩ := hpos l hl
    obtain ⟨c, hc⟩ := isColumn_exists_frame columns hn (.int j) (by rw [hnames]; exact List.mem_map.mpr ⟨j, by simpa using hj, rfl⟩)
    refine ⟨c, hc, ?_⟩
    obtain ⟨k, hk, hcol⟩ := C162_index fill columns (.int j) c hc
    have hidx : (columns.map Prod.fst).idxOf (Label.int j) = j := by
      have hlt : j < (columns.map Prod.fst).length := by rw [List.length_map, hlen]; exact hj
      have : (columns.map Prod.fst)[j] = Label.int j := by
        simp only [hnames, List.getElem_map, List.getElem_range]
      rw [← this]
      exact hn.idxOf_getElem j hlt
    simp only [getColumnIndex] at hk
    rw [if_pos (by rw [hnames]; exact List.mem_map.mpr ⟨j, by simpa using hj, rfl⟩), hidx] at hk
    cases hk
    exact hcol
  have hall : ∃ ds, List.Forall₂ (IsColumn (.frame columns)) arg.labels ds ∧ List.Forall₂ (IsColumn (frameValues fill columns)) arg.labels ds := by
    have : ∀ ls : List Label, (∀ l ∈ ls, ∃ c, IsColumn (.frame columns) l c ∧ IsColumn (frameValues fill columns) l c) →
        ∃ ds, List.Forall₂ (IsColumn (.frame columns)) ls ds ∧ List.Forall₂ (IsColumn (frameValues fill columns)) ls ds := by
      intro ls
      induction ls with
      | nil => exact fun _ => ⟨[], .nil, .nil⟩
      | cons l ls ih =>
        intro h
        obtain ⟨c, h1, h2⟩ := h l (by simp)
        obtain ⟨ds, h3, h4⟩ := ih fun l hl => h l (by simp [hl])
        exact ⟨c :: ds, .cons h1 h3, .cons h2 h4⟩
    exact this _ hget
  obtain ⟨ds, h1, h2⟩ := hall
  by_cases hl : arg.labels.length = 1
  · obtain ⟨l, hl⟩ := List.length_eq_one_iff.mp hl
    rw [hl] at h1 h2
    cases h1 with
    | @cons _ c _ _ hc hnil =>
      cases hnil
      cases h2 with
      | @cons _ _ _ _ hc' _ =>
        have harg : arg = .one l ∨ arg = .list [l] ∨ arg = .tuple [l] := by cases arg <;> simp_all [ColumnArg.labels]
        have e1 := C162_one l c hc arg harg
        have e2 := C162_one l c hc' arg harg
        cases flag
        · rw [e1.2.1, e2.2.1]
        · rw [e1.1, e2.1]
  · have harg : arg = .list arg.labels ∨ arg = .tuple arg.labels := by cases arg <;> simp_all [ColumnArg.labels]
    rw [C162_many arg.labels ds h1 hl flag arg harg, C162_many arg.labels ds h2 hl flag arg harg]

end

/-- Witness: the second column of an array, from the start and from the end, and by name. -/
example : IsColumn (.array 2 fun i j => i + j) (.int 1) (fun i => i + 1) ∧ IsColumn (.array 2 fun i j => i + j) (.int (-1)) (fun i => i + 1) ∧
    IsColumn (.frame [(.str "a", fun i => i), (.str "b", fun i => i + 1)]) (.str "b") (fun i => i + 1) ∧
    getXColumn (.frame [(.str "a", fun i => i), (.str "b", fun i => i + 1)]) (.tuple [.str "b"]) true = .ok (.vector fun i => i + 1) ∧
    getColumnIndex (.frame [(.str "a", fun i => i), (.str "b", fun i => i + 1)]) (.str "b") = .ok (.int 1) :=
  ⟨⟨1, by omega, Or.inl rfl, rfl⟩, ⟨1, by omega, Or.inr rfl, rfl⟩, ⟨[(.str "a", fun i => i)], [], rfl, by simp⟩, rfl, rfl⟩

/-- Witness: a name that occurs twice, which the theorems exclude, gives a matrix even with `array_for_1_dim`. -/
example : getXColumn (.frame [(.str "a", fun i => i), (.str "a", fun i => i + 1)]) (.one (.str "a")) true =
    .ok (.matrix [fun i => i, fun i => i + 1]) := rfl

end CB
