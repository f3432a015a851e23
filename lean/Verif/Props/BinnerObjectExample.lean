import Verif.Props.BinnerObject
import Verif.Props.PipelineRowsExample

/-!
# Witnesses for C140
-/

set_option autoImplicit false

namespace CB

/-- The training table. -/
def catFrame : DataFrame := ⟨["a"], exRaw.X, 2⟩

/-- A table with the unknown category 20, the known 30 and a missing value, and another column. -/
noncomputable def newFrame : DataFrame :=
  ⟨["b", "a"], fun s c => if c = "a" then (if s = 0 then .fin 20 else if s = 1 then .fin 30 else .nan) else .fin 7, 3⟩

/-- At address 1 is the table from above, everywhere else the training table. -/
noncomputable def exMemory : Memory := ⟨fun b => if b = 1 then newFrame else catFrame, 2⟩

theorem catObject_fit (inplace : Bool) : ((BinnerObject.new catBinner none inplace).fit catFrame).2 = none := by
  rw [(C140_pipeline_fit catBinner inplace catFrame _).mpr catBins]

theorem cat_binColumns : Spec.binColumns catBinner.props none catFrame.columns = ["a"] := by
  classical
  have : Spec.ToBin catBinner.props none "a" := ⟨by simp, _, by simp [catBinner]; rfl⟩
  simp [Spec.binColumns, catFrame, this]

theorem new_binColumns : Spec.binColumns catBinner.props none newFrame.columns = ["a"] := by
  classical
  have h1 : Spec.ToBin catBinner.props none "a" := ⟨by simp, _, by simp [catBinner]; rfl⟩
  have h2 : ¬ Spec.ToBin catBinner.props none "b" := by
    rintro ⟨-, fp, h⟩
    simp [catBinner, List.lookup] at h
  simp [Spec.binColumns, newFrame, h1, h2]

/-- The hypotheses of `C140_transform`, third case, and of `C140_categories` are met. -/
example (inplace : Bool) : ((BinnerObject.new catBinner none inplace).fit catFrame).2 = none ∧ 0 ≤ catBinner.tolerance ∧ catFrame.columns.Nodup ∧
    (exMemory.frames 1).columns.Nodup ∧
    (Spec.binColumns catBinner.props none (exMemory.frames 1).columns).length = (Spec.binColumns catBinner.props none catFrame.columns).length ∧
    (∀ c ∈ Spec.binColumns catBinner.props none catFrame.columns, c ∈ (exMemory.frames 1).columns) := by
  have e : exMemory.frames 1 = newFrame := by simp [exMemory]
  refine ⟨catObject_fit inplace, by norm_num [catBinner], by simp [catFrame], by rw [e]; simp [newFrame], ?_, ?_⟩
  · rw [e, cat_binColumns, new_binColumns]
  · rw [e, cat_binColumns]; simp [newFrame]

/-- The unknown category becomes -1, the known one 1, the missing value -1; the other column stays, and so does the table that was passed. -/
example : ∃ a', (((BinnerObject.new catBinner none false).fit catFrame).1.transform exMemory 1).2 = .ok a' ∧
    (((BinnerObject.new catBinner none false).fit catFrame).1.transform exMemory 1).1.frames 1 = newFrame ∧
    let G := (((BinnerObject.new catBinner none false).fit catFrame).1.transform exMemory 1).1.frames a'
    G.X 0 "a" = .fin (-1) ∧ G.X 1 "a" = .fin 1 ∧ G.X 2 "a" = .fin (-1) ∧ G.X 0 "b" = .fin 7 := by
  have e : exMemory.frames 1 = newFrame := by simp [exMemory]
  have hcol : catFrame.X.column catFrame.n "a" = [some 10, some 30] := exColumn
  obtain ⟨-, -, h3⟩ := C140_transform (BinnerObject.new catBinner none false) (by norm_num [BinnerObject.new, catBinner]) catFrame
    (by simp [catFrame]) (fun c hc => by cases hc) (catObject_fit false) [] (by simp) exMemory exMemory 1 (by rw [e]; simp [newFrame])
  obtain ⟨a', G, h4, h5, h6, h7, h8⟩ := h3 (by
      rw [e]
      change (Spec.binColumns catBinner.props none newFrame.columns).length = (Spec.binColumns catBinner.props none catFrame.columns).length
      rw [cat_binColumns, new_binColumns]) (by
      rw [e]
      change ∀ c ∈ Spec.binColumns catBinner.props none catFrame.columns, c ∈ newFrame.columns
      rw [cat_binColumns]; simp [newFrame])
  rw [List.foldl_nil] at h4 h5
  have hcat := fun s (hs : s < 3) => C140_categories (BinnerObject.new catBinner none false) (by norm_num [BinnerObject.new, catBinner])
    (by norm_num [BinnerObject.new, catBinner]) (by norm_num [BinnerObject.new, catBinner]) catFrame
    (by simp [catFrame]) (fun c hc => by cases hc) (catObject_fit false) exMemory 1 a' (by rw [e]; simp [newFrame])
    (by
      rw [e]
      change (Spec.binColumns catBinner.props none newFrame.columns).length = (Spec.binColumns catBinner.props none catFrame.columns).length
      rw [cat_binColumns, new_binColumns]) (by
      rw [e]
      change ∀ c ∈ Spec.binColumns catBinner.props none catFrame.columns, c ∈ newFrame.columns
      rw [cat_binColumns]; simp [newFrame]) h4 "a" (by rw [e]; simp [newFrame]) (by simp [BinnerObject.new])
    (Flags.IS_UNORDERED ||| Flags.MISSING_NOT_LEARNED) (by simp [BinnerObject.new, catBinner]) (by decide) (by decide) (by decide)
    ⟨10, by rw [hcol]; simp⟩ s (by rw [e]; exact hs)
  refine ⟨a', h4, ?_, ?_, ?_, ?_, ?_⟩
  · rw [C140_untouched _ _ _ 1 (by simp [exMemory]) (.inl (by
      rw [(C140_pipeline_fit catBinner false catFrame _).mpr catBins]))]
    exact e
  · refine (hcat 0 (by norm_num)).2.1 20 (by rw [e]; simp [newFrame]) ⟨10, 30, by rw [hcol]; simp, by rw [hcol]; simp, by norm_num, ?_⟩
    rw [hcol]
    intro t ht
    have : t = 10 ∨ t = 30 := by simpa using ht
    rcases this with rfl | rfl <;> norm_num [BinnerObject.new, catBinner, abs_of_pos, abs_of_neg]
  · rw [(hcat 1 (by norm_num)).1 30 (by rw [e]; simp [newFrame]) (by rw [hcol]; simp), hcol]
    congr 1
    unfold Spec.rankIn
    have : ((([some (10 : ℝ), some 30].filterMap id).toFinset).filter (· < 30)) = {10} := by
      ext x
      simp only [List.filterMap_cons, id, List.filterMap_nil, List.toFinset_cons, List.toFinset_nil, Finset.mem_filter, Finset.mem_insert,
        Finset.notMem_empty, or_false, Finset.mem_singleton]
      constructor
      · rintro ⟨rfl | rfl, h⟩
        · rfl
        · norm_num at h
      · rintro rfl; norm_num
    rw [this]
    simp
  · exact (hcat 2 (by norm_num)).2.2 (by rw [e]; simp [newFrame])
  · rw [h5, ((h8 0 (by rw [h7, e]; simp [newFrame]) "b" (by rw [h6, e]; simp [newFrame])).1 (by
      rintro ⟨-, fp, h⟩
      simp [BinnerObject.new, catBinner, List.lookup] at h)), e]
    simp [newFrame]

/-- A fit that raises (here because the table has no rows): the binner then raises for every table with the column. -/
example (m : Memory) : ((BinnerObject.new catBinner none false).fit ⟨["a"], exRaw.X, 0⟩).1.transform { m with frames := fun _ => newFrame } 0 =
    ({ m with frames := fun _ => newFrame }, .error .valueError) := by
  have h : ((BinnerObject.new catBinner none false).fit ⟨["a"], exRaw.X, 0⟩).2 = some .valueError := by
    unfold BinnerObject.fit
    rw [if_pos (by simp)]
  have hcat : Spec.binColumns catBinner.props none ["a"] = ["a"] := cat_binColumns
  refine C140_failed_fit (BinnerObject.new catBinner none false) _ _ h ?_ [] (by simp) m _ 0 ?_
  · change Spec.binColumns catBinner.props none ["a"] ≠ []
    rw [hcat]; simp
  · change (Spec.binColumns catBinner.props none ["a"]).length ≤ (Spec.binColumns catBinner.props none newFrame.columns).length
    rw [hcat, new_binColumns]

end CB
