import Verif.Model.Interactions
import Verif.Props.Multidim
import Mathlib.Data.List.Nodup
import Mathlib.Data.Nat.Choose.Basic
import Mathlib.Algebra.BigOperators.Group.Finset.Basic
import Mathlib.Algebra.BigOperators.Intervals

/-!
# C47: the interaction candidates
-/

set_option autoImplicit false
set_option linter.unusedSectionVars false

namespace CB

section
variable {α : Type*}

theorem mem_combinations : ∀ (n : ℕ) (l c : List α),
    c ∈ combinations n l ↔ c.Sublist l ∧ c.length = n
  | 0, l, c => by
    simp only [combinations, List.mem_singleton]
    constructor
    · rintro rfl; exact ⟨List.nil_sublist _, rfl⟩
    · rintro ⟨-, h⟩; exact List.length_eq_zero_iff.mp h
  | n + 1, [], c => by
    simp only [combinations, List.not_mem_nil, false_iff, not_and]
    intro h
    rw [List.sublist_nil.mp h]
    simp
  | n + 1, x :: xs, c => by
    simp only [combinations, List.mem_append, List.mem_map, mem_combinations n xs,
      mem_combinations (n + 1) xs]
    constructor
    · rintro (⟨d, ⟨h1, h2⟩, rfl⟩ | ⟨h1, h2⟩)
      · exact ⟨h1.cons_cons x, by simp [h2]⟩
      · exact ⟨h1.cons x, h2⟩
    · rintro ⟨h1, h2⟩
      cases h1 with
      | cons _ h => exact Or.inr ⟨h, h2⟩
      | cons_cons _ h => exact Or.inl ⟨_, ⟨h, by simpa using h2⟩, rfl⟩

theorem nodup_combinations : ∀ (n : ℕ) (l : List α), l.Nodup → (combinations n l).Nodup
  | 0, l, _ => by simp [combinations]
  | n + 1, [], _ => by simp [combinations]
  | n + 1, x :: xs, h => by
    obtain ⟨hx, hxs⟩ := List.nodup_cons.mp h
    simp only [combinations]
    apply List.Nodup.append
    · exact (nodup_combinations n xs hxs).map (fun a b hab => (List.cons.inj hab).2)
    · exact nodup_combinations (n + 1) xs hxs
    · intro c h1 h2
      simp only [List.mem_map] at h1
      obtain ⟨d, _, rfl⟩ := h1
      have := ((mem_combinations (n + 1) xs _).mp h2).1
      exact hx (this.subset (by simp))

theorem length_combinations : ∀ (n : ℕ) (l : List α),
    (combinations n l).length = l.length.choose n
  | 0, l => by simp [combinations]
  | n + 1, [] => by simp [combinations]
  | n + 1, x :: xs => by
    simp [combinations, length_combinations n xs, length_combinations (n + 1) xs,
      Nat.choose_succ_succ]

theorem foldl_append_flatMap {β : Type*} (f : β → List (List α)) : ∀ (l : List β)
    (acc : List (List α)), l.foldl (fun acc n => acc ++ f n) acc = acc ++ l.flatMap f
  | [], acc => by simp
  | x :: l, acc => by
    simp [foldl_append_flatMap f l, List.append_assoc]

theorem createInteractions_eq (features : List α) (dim : ℕ) :
    createInteractions features dim
      = ((List.range (dim + 1)).drop 2).flatMap fun n => combinations n features := by
  unfold createInteractions
  rw [foldl_append_flatMap]
  rfl

theorem mem_range_drop (dim k n : ℕ) : n ∈ (List.range dim).drop k ↔ k ≤ n ∧ n < dim := by
  rw [List.mem_drop_iff_getElem]
  constructor
  · rintro ⟨i, hi, h⟩
    simp only [List.getElem_range, List.length_range] at h hi
    omega
  · rintro ⟨h1, h2⟩
    exact ⟨n - k, by simp; omega, by simp; omega⟩

/-- **C47.**  The candidates are exactly the combinations of two up to `dim` features,
in the order of the feature list. -/
theorem C47_complete (features : List α) (dim : ℕ) (c : List α) :
    c ∈ createInteractions features dim
      ↔ c.Sublist features ∧ 2 ≤ c.length ∧ c.length ≤ dim := by
  rw [createInteractions_eq, List.mem_flatMap]
  simp only [mem_range_drop, mem_combinations]
  constructor
  · rintro ⟨n, ⟨h1, h2⟩, h3, rfl⟩
    exact ⟨h3, h1, by omega⟩
  · rintro ⟨h1, h2, h3⟩
    exact ⟨c.length, ⟨h2, by omega⟩, h1, rfl⟩

/-- **C47.**  For distinct features no candidate is listed twice, and the features
within a candidate are distinct. -/
theorem C47_nodup (features : List α) (dim : ℕ) (h : features.Nodup) :
    (createInteractions features dim).Nodup ∧
    ∀ c ∈ createInteractions features dim, c.Nodup := by
  refine ⟨?_, fun c hc => ((C47_complete features dim c).mp hc).1.nodup h⟩
  rw [createInteractions_eq, List.nodup_flatMap]
  refine ⟨fun n _ => nodup_combinations n features h, ?_⟩
  have hnd : ((List.range (dim + 1)).drop 2).Nodup :=
    (List.drop_sublist 2 _).nodup List.nodup_range
  refine hnd.imp ?_
  intro a b hab c h1 h2
  have e1 := ((mem_combinations _ _ _).mp h1).2
  have e2 := ((mem_combinations _ _ _).mp h2).2
  exact hab (e1.symm.trans e2)

/-- **C47.**  Two different sets of features give two candidates, one set gives one: a
candidate is determined by the set of its features. -/
theorem C47_one_per_set (features : List α) (dim : ℕ) (h : features.Nodup) (c d : List α)
    (hc : c ∈ createInteractions features dim) (hd : d ∈ createInteractions features dim)
    (hset : ∀ f, f ∈ c ↔ f ∈ d) : c = d := by
  have h1 := ((C47_complete features dim c).mp hc).1
  have h2 := ((C47_complete features dim d).mp hd).1
  clear hc hd
  induction features generalizing c d with
  | nil => rw [List.sublist_nil.mp h1, List.sublist_nil.mp h2]
  | cons x xs ih =>
    obtain ⟨hx, hxs⟩ := List.nodup_cons.mp h
    cases h1 with
    | cons _ h1 =>
      cases h2 with
      | cons _ h2 => exact ih hxs c d hset h1 h2
      | cons_cons _ h2 => exact absurd (h1.subset ((hset x).mpr (by simp))) hx
    | cons_cons _ h1 =>
      cases h2 with
      | cons _ h2 => exact absurd (h2.subset ((hset x).mp (by simp))) hx
      | cons_cons _ h2 =>
        rename_i c' d'
        congr 1
        apply ih hxs c' d' _ h1 h2
        intro f
        constructor
        · intro hf
          have hne : f ≠ x := fun e => hx (e ▸ h1.subset hf)
          have := (hset f).mp (List.mem_cons_of_mem _ hf)
          simpa [hne] using this
        · intro hf
          have hne : f ≠ x := fun e => hx (e ▸ h2.subset hf)
          have := (hset f).mpr (List.mem_cons_of_mem _ hf)
          simpa [hne] using this

/-- **C47.**  The number of candidates is the sum of the binomial coefficients. -/
theorem C47_count (features : List α) (dim : ℕ) :
    (createInteractions features dim).length
      = ∑ n ∈ Finset.Ico 2 (dim + 1), features.length.choose n := by
  rw [createInteractions_eq, List.length_flatMap]
  simp only [length_combinations]
  rcases Nat.lt_or_ge (dim + 1) 2 with h | h
  · rw [List.drop_eq_nil_of_le (by simp; omega), Finset.Ico_eq_empty (by omega)]
    rfl
  · obtain ⟨k, hk⟩ : ∃ k, dim + 1 = 2 + k := ⟨dim - 1, by omega⟩
    rw [Finset.sum_Ico_eq_sum_range, hk]
    have e : (List.range (2 + k)).drop 2 = (List.range k).map (2 + ·) := by
      rw [List.range_add]
      simp
    rw [e, List.map_map]
    have : 2 + k - 2 = k := by omega
    rw [this]
    clear e hk h
    induction k with
    | zero => simp
    | succ k ih =>
      rw [List.range_succ, List.map_append, List.sum_append, Finset.sum_range_succ]
      rw [show 2 + k - 2 = k by omega] at ih
      rw [ih (by omega)]
      simp

end

section
variable {α K : Type*} [Field K] [LinearOrder K] [IsStrictOrderedRing K] [FloorRing K]

/-- **C47, binned interaction features.**  If all binned columns of a term are bin
numbers, then two samples get the same value of the interaction feature exactly
when they are in the same bin for every feature of the term. -/
theorem C47_interaction_column (col : α → ℕ) (term : List α)
    (rows : List (List (Flt K))) (bin : ℕ → ℕ → ℕ)
    (hbin : ∀ (i : ℕ) (r : List (Flt K)), rows[i]? = some r →
      ∀ f ∈ term, r.getD (col f) .nan = .fin (bin i (col f) : K))
    (i j : ℕ) (hi : i < rows.length) (hj : j < rows.length) :
    ∃ a b, (interactionColumn col term rows)[i]? = some a ∧
      (interactionColumn col term rows)[j]? = some b ∧
      (a = b ↔ ∀ f ∈ term, bin i (col f) = bin j (col f)) := by
  set tab := rows.map fun r => term.map fun f => r.getD (col f) .nan with htab
  set ns := (lexBinnos term.length tab none).2 with hns
  have hrow : ∀ k, k < rows.length → tab[k]?
      = some ((term.map fun f => (bin k (col f) : K)).map .fin) := by
    intro k hk
    rw [htab, List.getElem?_map, List.getElem?_eq_getElem hk, Option.map_some, List.map_map]
    congr 1
    apply List.map_congr_left
    intro f hf
    exact hbin k _ (List.getElem?_eq_getElem hk) f hf
  have hlen : ∀ row ∈ tab, row.length = term.length := by
    intro row hr
    rw [htab, List.mem_map] at hr
    obtain ⟨r, -, rfl⟩ := hr
    simp
  have hnslen : ns.length = term.length := by
    rw [hns, lexBinnos_snd]
    simp only [Option.getD]
    unfold inferBins
    split
    · simp
    · simp [maxPlusOne]
  have hfsp : ∀ k, k < rows.length →
      (term.map fun f => (bin k (col f) : K)).map Flt.fin ∈ tab.filter finiteSemiPositive := by
    intro k hk
    rw [List.mem_filter, finiteSemiPositive_iff]
    refine ⟨List.mem_of_getElem? (hrow k hk), ?_⟩
    intro b hb
    rw [List.map_map, List.mem_map] at hb
    obtain ⟨f, -, rfl⟩ := hb
    exact ⟨_, rfl, Nat.cast_nonneg _⟩
  have htup : ∀ k, k < rows.length → Spec.IsBinTuple ns (term.map fun f => bin k (col f)) := by
    intro k hk
    refine ⟨by simp [hnslen], fun m h1 h2 => ?_⟩
    simp only [List.length_map] at h1
    have hnsval : ns = maxPlusOne term.length (tab.filter finiteSemiPositive) := by
      rw [hns, lexBinnos_snd]
      simp only [Option.getD]
      unfold inferBins
      split
      · rename_i he
        exact absurd he (List.ne_nil_of_mem (hfsp k hk))
      · rfl
    have hge := (natFoldlMax_ge ((tab.filter finiteSemiPositive).map
      (fun r => floorComp (r.getD m .nan))) 0).2 (bin k (col term[m])) (by
        rw [List.mem_map]
        refine ⟨_, hfsp k hk, ?_⟩
        rw [List.getD_eq_getElem _ _ (by simpa using h1)]
        simp [floorComp])
    have hnj : ns[m] = ((tab.filter finiteSemiPositive).map
        (fun r => floorComp (r.getD m .nan))).foldl max 0 + 1 := by
      simp only [hnsval, maxPlusOne, List.getElem_map, List.getElem_range]
    rw [List.getElem_map]
    omega
  have hcell : ∀ k, Spec.InCell (term.map fun f => (bin k (col f) : K))
      (term.map fun f => bin k (col f)) := by
    intro k
    refine ⟨by simp, fun m h1 h2 => ?_⟩
    simp
  obtain ⟨a, b, h1, h2, -, -, h3, -⟩ := C11_bijective_ordered term.length tab none ns rfl i j _ _ _ _
    (hrow i hi) (hrow j hj) (htup i hi) (htup j hj) (hcell i) (hcell j)
  refine ⟨a, b, h1, h2, h3.trans ?_⟩
  rw [List.map_inj_left]

end

/-- Witness: four features, interactions up to dimension 3. -/
example : createInteractions ["a", "b", "c"] 3
    = [["a", "b"], ["a", "c"], ["b", "c"], ["a", "b", "c"]] := by decide +kernel

example : (createInteractions [0, 1, 2, 3] 3).length = 10 := by decide +kernel

/-- Witness for the binned interaction features. -/
example : interactionColumn (fun f : ℕ => f) [0, 2]
    [[.fin (1 : ℚ), .fin 5, .fin 0], [.fin 0, .fin 5, .fin 2], [.fin 1, .fin 4, .fin 0]]
    = [3, 2, 3] := by decide +kernel

end CB
