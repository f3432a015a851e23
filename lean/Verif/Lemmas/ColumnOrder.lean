import Verif.Lemmas.RelabelBins
import Mathlib.Data.List.Nodup

/-!
# Bins of a feature whose columns are listed in another order
-/

set_option autoImplicit false
set_option linter.unusedSectionVars false

namespace CB
open Spec

/-! ### The bins -/

section
variable (N : String → ℕ) {g g' : List String}

theorem tuple_of_columns (t : String → ℕ) (ht : ∀ c ∈ g, t c < N c) : IsBinTuple (g.map N) (g.map t) := by
  refine ⟨by simp, fun i h h' => ?_⟩
  rw [List.getElem_map, List.getElem_map]
  exact ht _ (List.getElem_mem _)

theorem map_entries (hg : g.Nodup) (ds : List ℕ) (hl : ds.length = g.length) : (g.map fun c => ds.getD (g.idxOf c) 0) = ds := by
  apply List.ext_getElem
  · simp [hl]
  · intro i h1 h2
    rw [List.getElem_map, List.Nodup.idxOf_getElem hg, List.getD_eq_getElem _ _ h2]

/-- Every bin belongs to one category of each column. -/
theorem bin_of_columns (hg : g.Nodup) (b : ℕ) (hb : b < (g.map N).prod) :
    ∃ t : String → ℕ, (∀ c ∈ g, t c < N c) ∧ encode (g.map N) (g.map t) = b := by
  have hv := digits_valid (g.map N) b (by omega)
  have hl : (digits (g.map N) b).length = g.length := by rw [digits_length, List.length_map]
  have he := map_entries hg _ hl
  refine ⟨fun c => (digits (g.map N) b).getD (g.idxOf c) 0, fun c hc => ?_, ?_⟩
  · obtain ⟨i, hi, rfl⟩ := List.getElem_of_mem hc
    dsimp only
    rw [List.Nodup.idxOf_getElem hg, List.getD_eq_getElem _ _ (by omega)]
    have := hv.2 i (by omega) (by simpa using hi)
    rwa [List.getElem_map] at this
  · rw [he, encode_digits, Nat.mod_eq_of_lt hb]

/-- The number of the bin if the columns are listed in the order `g'`. -/
def reorderBin (N : String → ℕ) (g g' : List String) (b : ℕ) : ℕ :=
  if b < (g.map N).prod then encode (g'.map N) (g'.map fun c => (digits (g.map N) b).getD (g.idxOf c) 0) else b

theorem reorderBin_encode (hg : g.Nodup) (hp : g'.Perm g) (t : String → ℕ) (ht : ∀ c ∈ g, t c < N c) :
    reorderBin N g g' (encode (g.map N) (g.map t)) = encode (g'.map N) (g'.map t) := by
  have hv := tuple_of_columns N t ht
  unfold reorderBin
  rw [if_pos (encode_lt _ _ hv), digits_encode _ _ hv]
  congr 1
  refine List.map_congr_left fun c hc => ?_
  obtain ⟨i, hi, rfl⟩ := List.getElem_of_mem (hp.mem_iff.mp hc)
  rw [List.Nodup.idxOf_getElem hg, List.getD_eq_getElem _ _ (by simpa using hi), List.getElem_map]

theorem reorder_prod (hp : g'.Perm g) : (g'.map N).prod = (g.map N).prod := (hp.map N).prod_eq

theorem reorderBin_inverse (hg : g.Nodup) (hp : g'.Perm g) (b : ℕ) : reorderBin N g' g (reorderBin N g g' b) = b := by
  by_cases hb : b < (g.map N).prod
  · obtain ⟨t, ht, rfl⟩ := bin_of_columns N hg b hb
    rw [reorderBin_encode N hg hp t ht,
      reorderBin_encode N (hp.nodup_iff.mpr hg) hp.symm t fun c hc => ht c (hp.mem_iff.mp hc)]
  · have e : reorderBin N g g' b = b := if_neg hb
    rw [e]
    exact if_neg (by rwa [reorder_prod N hp])

/-- The renumbering of the bins. -/
def reorderPerm (N : String → ℕ) {g g' : List String} (hg : g.Nodup) (hp : g'.Perm g) : Equiv.Perm ℕ where
  toFun := reorderBin N g g'
  invFun := reorderBin N g' g
  left_inv := reorderBin_inverse N hg hp
  right_inv := reorderBin_inverse N (hp.nodup_iff.mpr hg) hp.symm

theorem reorderPerm_numbering (hg : g.Nodup) (hp : g'.Perm g) : IsNumbering (reorderPerm N hg hp) (g.map N).prod where
  missing := if_neg (lt_irrefl _)
  finite b := by
    show reorderBin N g g' b < _ ↔ _
    by_cases hb : b < (g.map N).prod
    · obtain ⟨t, ht, rfl⟩ := bin_of_columns N hg b hb
      rw [reorderBin_encode N hg hp t ht, ← reorder_prod N hp]
      refine iff_of_true (encode_lt _ _ (tuple_of_columns N t fun c hc => ht c (hp.mem_iff.mp hc))) ?_
      rw [reorder_prod N hp]
      exact hb
    · rw [show reorderBin N g g' b = b from if_neg hb]

end

/-! ### Binding a table -/

/-- The number of bins of a column, given the usable samples. -/
noncomputable def columnBins (X : Table ℝ) (samples : List ℕ) (c : String) : ℕ :=
  if samples = [] then 0 else (samples.map fun s => floorComp (X s c)).foldl max 0 + 1

theorem bindData_columns (X : Table ℝ) (n : ℕ) (g : List String) :
    (bindData X n g none).2 = g.map (columnBins X (usableSamples X n g)) := by
  rw [bindData_bins]
  unfold columnBins
  split
  · simp
  · apply List.ext_getElem
    · simp
    · intro i h1 h2
      simp only [List.length_map, List.length_range] at h1
      rw [List.getElem_map, List.getElem_map, List.getElem_range]
      congr 2
      refine List.map_congr_left fun s _ => ?_
      rw [row_getD X g s i h1]

theorem usable_reorder (X : Table ℝ) {g g' : List String} (hp : g'.Perm g) (s : ℕ) :
    finiteSemiPositive (X.row g' s) = finiteSemiPositive (X.row g s) := by
  rw [Bool.eq_iff_iff, finiteSemiPositive_iff, finiteSemiPositive_iff]
  have : ∀ b, b ∈ X.row g' s ↔ b ∈ X.row g s := fun b => (hp.map (X s)).mem_iff
  simp only [this]

theorem usableSamples_reorder (X : Table ℝ) (n : ℕ) {g g' : List String} (hp : g'.Perm g) :
    usableSamples X n g' = usableSamples X n g := by
  unfold usableSamples
  simp only [usable_reorder X hp]

theorem bindData_reorder (X : Table ℝ) (n : ℕ) {g g' : List String} (hp : g'.Perm g) :
    (bindData X n g' none).2 = g'.map (columnBins X (usableSamples X n g)) := by
  rw [bindData_columns, usableSamples_reorder X n hp]

theorem row_floor (X : Table ℝ) (g : List String) (s : ℕ) : (X.row g s).map floorComp = g.map fun c => floorComp (X s c) := by
  unfold Table.row
  rw [List.map_map]
  rfl

theorem code_reorder (X : Table ℝ) (n : ℕ) {g g' : List String} (hne : g ≠ []) (hg : g.Nodup) (hp : g'.Perm g) (s : ℕ) (hs : s < n) :
    (bindData X n g' none).1.getD s 0
      = reorderPerm (columnBins X (usableSamples X n g)) hg hp ((bindData X n g none).1.getD s 0) := by
  have hne' : g' ≠ [] := fun h => hne (by rw [h] at hp; exact hp.symm.eq_nil)
  rw [bindData_code X n g' hne' s hs, bindData_code X n g hne s hs, usable_reorder X hp, bindData_reorder X n hp]
  split
  · next hf =>
    have ht : IsBinTuple (bindData X n g none).2 ((X.row g s).map floorComp) :=
      validRow_tuple _ _ (by unfold Table.row; rw [List.length_map, bindData_length]) (bindData_valid X n g hne s hs hf)
    rw [bindData_columns, row_floor] at ht ⊢
    rw [row_floor]
    refine (reorderBin_encode _ hg hp _ fun c hc => ?_).symm
    obtain ⟨i, hi, rfl⟩ := List.getElem_of_mem hc
    have := ht.2 i (by simpa using hi) (by simpa using hi)
    simpa using this
  · rw [reorder_prod _ hp, bindData_columns]
    exact (reorderPerm_numbering _ hg hp).missing.symm

/-- What a feature contributes to a sample. -/
theorem predict_reorder (N : String → ℕ) {g g' : List String} (h2 : 2 ≤ g.length) (hg : g.Nodup) (hp : g'.Perm g) (e : Bool)
    (fac : ℕ → ℝ) (X : Table ℝ) (s : ℕ) :
    (⟨g', e, g'.map N, fun b => fac ((reorderPerm N hg hp).symm b)⟩ : FittedFeature ℝ).predict (X.row g' s)
      = (⟨g, e, g.map N, fac⟩ : FittedFeature ℝ).predict (X.row g s) := by
  by_cases hf : finiteSemiPositive (X.row g s) = true
  · have hf' : finiteSemiPositive (X.row g' s) = true := by rw [usable_reorder X hp, hf]
    rw [predict_multi ⟨g', e, g'.map N, _⟩ (by simp) (by rw [hp.length_eq]; exact h2) _ (by simp [Table.row]) hf',
      predict_multi ⟨g, e, g.map N, _⟩ (by simp) h2 _ (by simp [Table.row]) hf]
    dsimp only
    have hval : ∀ l : List String, validRow (l.map N) (X.row l s) = true ↔ ∀ c ∈ l, ∃ x : ℝ, X s c = .fin x ∧ 0 ≤ x ∧ x < (N c : ℝ) := by
      intro l
      rw [validRow_iff _ _ (by simp [Table.row])]
      constructor
      · intro h c hc
        obtain ⟨i, hi, rfl⟩ := List.getElem_of_mem hc
        have := h i (by simpa [Table.row] using hi) (by simpa using hi)
        simpa [Table.row] using this
      · intro h i h1 h2
        have := h (l[i]'(by simpa using h2)) (List.getElem_mem _)
        simpa [Table.row] using this
    by_cases hv : validRow (g.map N) (X.row g s) = true
    · have hv' : validRow (g'.map N) (X.row g' s) = true := (hval g').mpr fun c hc => (hval g).mp hv c (hp.mem_iff.mp hc)
      rw [if_pos hv, if_pos hv', row_floor, row_floor]
      congr 1
      rw [Equiv.symm_apply_eq]
      have ht := validRow_tuple _ _ (by simp [Table.row]) hv
      rw [row_floor] at ht
      refine (reorderBin_encode N hg hp _ fun c hc => ?_).symm
      obtain ⟨i, hi, rfl⟩ := List.getElem_of_mem hc
      have := ht.2 i (by simpa using hi) (by simpa using hi)
      simpa using this
    · have hv' : ¬ validRow (g'.map N) (X.row g' s) = true :=
        fun h => hv ((hval g).mpr fun c hc => (hval g').mp h c (hp.mem_iff.mpr hc))
      rw [if_neg hv, if_neg hv']
  · have hf' : ¬ finiteSemiPositive (X.row g' s) = true := by rw [usable_reorder X hp]; exact hf
    unfold FittedFeature.predict FittedFeature.nFinite
    rw [if_neg hf, if_neg hf']
    dsimp only
    rw [reorder_prod N hp, (reorderPerm_numbering N hg hp).symm.missing]

end CB
