import Verif.Model.PlotLabels
import Verif.Props.BinnedFit

/-!
# C132: the labels on the x axis of factor plots
-/

set_option autoImplicit false
set_option linter.unusedSectionVars false

namespace CB

section
variable {K : Type*} [Field K] [LinearOrder K] [IsStrictOrderedRing K]

/-- **C132**, several binners: the bounds of the last binner that knows the column are shown. -/
theorem C132_last_binner (before after : List (List (String × Option (List K × List K)))) (columns : List (String × Option (List K × List K)))
    (name : String) (bs cs : List K) (hu : ∀ e ∈ columns, e.1 = name → e.2 = some (bs, cs)) (hm : ∃ e ∈ columns, e.1 = name)
    (ha : ∀ d ∈ after, ∀ e ∈ d, e.1 ≠ name) : binBounds (some (before ++ columns :: after)) name = some bs := by
  unfold binBounds
  dsimp only
  have hafter : after.flatten.reverse.find? (fun e => e.1 == name) = none := by
    rw [List.find?_eq_none]
    intro e he
    rw [List.mem_reverse, List.mem_flatten] at he
    obtain ⟨d, hd, hed⟩ := he
    simpa using ha d hd e hed
  rw [List.flatten_append, List.flatten_cons, List.reverse_append, List.reverse_append, List.find?_append, List.find?_append, hafter]
  cases hf : columns.reverse.find? (fun e => e.1 == name) with
  | none =>
    exfalso
    obtain ⟨e, he, hn⟩ := hm
    rw [List.find?_eq_none] at hf
    exact hf e (by simpa using he) (by simpa using hn)
  | some e =>
    have h1 := List.find?_some hf
    have h2 := List.mem_of_find?_eq_some hf
    have := hu e (by simpa using h2) (by simpa using h1)
    obtain ⟨n, v⟩ := e
    dsimp only at this
    subst this
    rfl

theorem xPositions_get (n : ℕ) (m : Bool) (hn : 1 ≤ n) (k : ℕ) (hk : k < n) : (xPositions (K := K) (n + 1) m)[k]? = some (k : K) := by
  unfold xPositions
  rw [if_pos (by omega : n + 1 > 1)]
  cases m
  · simp [hk]
  · simp [show k < n + 1 by omega]

theorem xPositions_length (n : ℕ) (m : Bool) (hn : 1 ≤ n) : (xPositions (K := K) (n + 1) m).length = if m then n + 1 else n := by
  unfold xPositions
  rw [if_pos (by omega : n + 1 > 1)]
  cases m <;> simp

theorem xTicks_get (positions labels : List K) (continuous : Bool)
    (hlen : positions.length = labels.length ∨ positions.length = labels.length + 1) :
    ∃ ticks, xTicks positions (some labels) continuous = .ok ticks ∧
      (∀ (k : ℕ) (p l : K), positions[k]? = some p → labels[k]? = some l →
        ticks[k]? = some ((if continuous then p - 1 / 2 else p), some l)) ∧
      (∀ p, positions[labels.length]? = some p → ticks[labels.length]? = some ((if continuous then p - 1 / 2 else p), none)) := by
  unfold xTicks
  dsimp only
  have hp : (if continuous = true then positions.map (· - 1 / 2) else positions).length = positions.length := by
    split_ifs <;> simp
  rw [hp]
  have hget : ∀ (k : ℕ) (p : K), positions[k]? = some p →
      (if continuous = true then positions.map (· - 1 / 2) else positions)[k]? = some (if continuous then p - 1 / 2 else p) := by
    intro k p h
    split_ifs
    · simp [h]
    · exact h
  rw [List.length_map]
  by_cases h1 : positions.length = labels.length + 1
  · rw [if_pos h1, if_pos (by simpa using h1)]
    refine ⟨_, rfl, ?_, ?_⟩
    · intro k p l hkp hkl
      rw [List.getElem?_zip_eq_some]
      refine ⟨hget k p hkp, ?_⟩
      have hk : k < labels.length := (List.getElem?_eq_some_iff.mp hkl).1
      rw [List.getElem?_append_left (by simpa using hk), List.getElem?_map, hkl]
      rfl
    · intro p hkp
      rw [List.getElem?_zip_eq_some]
      refine ⟨hget _ p hkp, ?_⟩
      rw [List.getElem?_append_right (by simp)]
      simp
  · have h2 : positions.length = labels.length := by omega
    rw [if_neg h1, if_pos (by simpa using h2)]
    refine ⟨_, rfl, ?_, ?_⟩
    · intro k p l hkp hkl
      rw [List.getElem?_zip_eq_some]
      refine ⟨hget k p hkp, ?_⟩
      rw [List.getElem?_map, hkl]
      rfl
    · intro p hkp
      have := (List.getElem?_eq_some_iff.mp hkp).1
      omega

variable [FloorRing K]

/-- **C132**, categorical columns. After a binner has been fitted on a column and the estimator on all of its values (one factor per
distinct value and one for missing values), the plot of the factors shows at the position of the factor of each observed value exactly
that value, and nothing at the position of the factor for missing values. -/
theorem C132_categorical (z : List (Option K)) (w : List K) (hw : PosWeights z w) (nBins : ℕ) (eps tol : K)
    (heps : 0 ≤ eps) (heps1 : eps < 1) (hne : ∃ v, some v ∈ z) (showsMissing : Bool) :
    ∃ (e : K) (table : List K × List K) (ticks : List (K × Option K)), fitColumn true z w nBins eps tol = .ok ⟨e, some table⟩ ∧
      xTicks (xPositions ((z.filterMap id).toFinset.card + 1) showsMissing) (xLabels (some table.1) false) false = .ok ticks ∧
      (∀ (magic : Bool) (x : K), (magic = true → x ≠ -9 ∧ x ≠ -999) → some x ∈ z →
        ∃ k : ℕ, binNumber false magic e (some table.1) (.fin x) = .ok (k : Int) ∧ ticks[k]? = some ((k : K), some x) ∧
          (smoothedPositions (xPositions (K := K) ((z.filterMap id).toFinset.card + 1) showsMissing) false)[k]? = some (k : K)) ∧
      (showsMissing = true → ticks[(z.filterMap id).toFinset.card]? = some (((z.filterMap id).toFinset.card : K), none)) := by
  obtain ⟨b0, values, cdf, ef, hs, hm, hb0, hvc, -⟩ := fitColumn_discrete z w hw nBins eps tol hne
  obtain ⟨e, table, ef', -, hbin⟩ := C03_rank z w hw nBins eps tol heps heps1 hne
  rw [ef] at ef'
  simp only [Except.ok.injEq, ColFit.mk.injEq, Option.some.injEq] at ef'
  obtain ⟨rfl, rfl⟩ := ef'
  have hset : (z.filterMap id).toFinset = values.toFinset := by
    ext v
    simp [hm v]
  have hcard : (z.filterMap id).toFinset.card = values.length := by
    rw [hset]
    exact List.toFinset_card_of_nodup (hs.imp fun h => ne_of_lt h)
  have hpos : 1 ≤ values.length := by
    cases values with
    | nil => simp at hb0
    | cons => simp
  rw [hcard]
  obtain ⟨ticks, ht, hl, hmiss⟩ := xTicks_get (xPositions (K := K) (values.length + 1) showsMissing) values false (by
    rw [xPositions_length _ _ hpos]
    cases showsMissing <;> simp)
  refine ⟨_, _, ticks, ef, ht, ?_, ?_⟩
  · intro magic x hx hz
    obtain ⟨k, hk, hkx⟩ := List.getElem_of_mem ((hm x).mpr hz)
    have hr : Spec.rankIn z x = k := by
      unfold Spec.rankIn
      rw [hset, ← hkx]
      exact rank_of_strict values hs k hk
    refine ⟨k, ?_, ?_, xPositions_get _ _ hpos k hk⟩
    · rw [(hbin magic x hx).1 hz, hr]
    · exact hl k (k : K) x (xPositions_get _ _ hpos k hk) (by rw [← hkx]; exact List.getElem?_eq_getElem hk)
  · intro hsm
    subst hsm
    refine hmiss _ ?_
    unfold xPositions
    simp

/-- Rounding to five decimals changes a number by at most half a unit of the fifth decimal. -/
theorem round5_close (x : K) : |round5 x - x| ≤ 1 / 200000 := by
  unfold round5 rint
  dsimp only
  have h1 := Int.floor_le (x * 100000)
  have h2 := Int.lt_floor_add_one (x * 100000)
  rw [abs_le]
  split_ifs with g1 g2 g3 <;> push_cast <;> constructor <;> linarith

/-- The factors of continuous columns are drawn at the numbers of the bins. -/
theorem smoothedPositions_get (N k : ℕ) (hk : k < N) :
    (smoothedPositions ((List.range N).map fun i : ℕ => (i : K)) true)[k]? = some (k : K) := by
  unfold smoothedPositions
  rw [if_pos rfl]
  dsimp only
  have hl : ((List.range N).map fun i : ℕ => (i : K)).map (fun x : K => x - 1 / 2) = (List.range N).map fun i : ℕ => (i : K) - 1 / 2 := by
    rw [List.map_map]
    rfl
  rw [hl]
  have h2 : (((List.range N).map fun i : ℕ => (i : K) - 1 / 2).tail ++ [((List.range N).map fun i : ℕ => (i : K) - 1 / 2).getLastD 0 + 1])[k]?
      = some ((k : K) + 1 - 1 / 2) := by
    by_cases h : k + 1 < N
    · rw [List.getElem?_append_left (by simp; omega), List.getElem?_tail]
      simp [h]
    · have hN : N = k + 1 := by omega
      subst hN
      rw [List.getElem?_append_right (by simp)]
      simp [List.range_succ]
      ring
  rw [List.getElem?_zipWith, h2]
  simp [hk]
  ring

/-- **C132**, continuous columns. The labels are the middles of the bins, rounded to five decimals; the ticks stand half a position to the
left of the factors. -/
theorem C132_continuous_partial (b0 : K) (upper : List K) (hsort : Spec.Sorted upper) (hne : upper ≠ []) (showsMissing : Bool) :
    ∃ ticks, xTicks (xPositions (upper.length + 1) showsMissing) (xLabels (some (b0 :: upper)) true) true = .ok ticks ∧
      ∀ (magic : Bool) (eps x : K), (magic = true → x ≠ -9 ∧ x ≠ -999) →
        ∃ (k : ℕ) (label : K), binNumber true magic eps (some (b0 :: upper)) (.fin x) = .ok (k : Int) ∧
          ticks[k]? = some ((k : K) - 1 / 2, some label) ∧
          (smoothedPositions (xPositions (K := K) (upper.length + 1) showsMissing) true)[k]? = some (k : K) ∧
          (∃ low high, (b0 :: upper)[k]? = some low ∧ upper[k]? = some high ∧ |label - (low + high) / 2| ≤ 1 / 200000) := by
  have hpos : 1 ≤ upper.length := List.length_pos_iff.mpr hne
  have hlen : (List.zipWith (fun a b => round5 ((a + b) / 2)) (b0 :: upper).dropLast upper).length = upper.length := by simp
  obtain ⟨ticks, ht, hl, -⟩ := xTicks_get (xPositions (K := K) (upper.length + 1) showsMissing)
    (List.zipWith (fun a b => round5 ((a + b) / 2)) (b0 :: upper).dropLast upper) true (by
    rw [xPositions_length _ _ hpos, hlen]
    cases showsMissing <;> simp)
  refine ⟨ticks, ht, ?_⟩
  intro magic eps x hx
  obtain ⟨k, hk, hin⟩ := C01_continuous_bin b0 upper hsort hne magic eps x hx
  obtain ⟨hlt, -⟩ := hin
  have hlow : (b0 :: upper)[k]? = some ((b0 :: upper)[k]'(by simp; omega)) := List.getElem?_eq_getElem _
  refine ⟨k, round5 (((b0 :: upper)[k]'(by simp; omega) + upper[k]) / 2), hk, ?_, ?_, _, _, hlow, List.getElem?_eq_getElem hlt, round5_close _⟩
  swap
  · unfold xPositions
    refine smoothedPositions_get _ k ?_
    split_ifs <;> omega
  have := hl k (k : K) (round5 (((b0 :: upper)[k]'(by simp; omega) + upper[k]) / 2)) (xPositions_get _ _ hpos k hlt) (by
    rw [List.getElem?_eq_getElem (by rw [hlen]; exact hlt), List.getElem_zipWith, List.getElem_dropLast])
  simpa using this

/-- **C132**: the statement for continuous columns is false: no label stands where the factor of its bin is drawn. -/
theorem C132_continuous_shifted (b0 : K) (upper : List K) (hsort : Spec.Sorted upper) (hne : upper ≠ []) (showsMissing : Bool) :
    ∃ ticks, xTicks (xPositions (upper.length + 1) showsMissing) (xLabels (some (b0 :: upper)) true) true = .ok ticks ∧
      ∀ (magic : Bool) (eps x : K), (magic = true → x ≠ -9 ∧ x ≠ -999) →
        ∃ (k : ℕ) (tick : K × Option K) (factor : K), binNumber true magic eps (some (b0 :: upper)) (.fin x) = .ok (k : Int) ∧
          ticks[k]? = some tick ∧
          (smoothedPositions (xPositions (K := K) (upper.length + 1) showsMissing) true)[k]? = some factor ∧ tick.1 < factor := by
  obtain ⟨ticks, h1, h2⟩ := C132_continuous_partial b0 upper hsort hne showsMissing
  refine ⟨ticks, h1, fun magic eps x hx => ?_⟩
  obtain ⟨k, label, e1, e2, e3, -⟩ := h2 magic eps x hx
  exact ⟨k, _, _, e1, e2, e3, by dsimp only; linarith⟩

end

/-- **C132**: the bins have to be those of the estimator. A binner knows the categories 10, 20 and 30; the estimator was fitted on rows with
10 and 20 only. Then the label 30 is shown under the factor for missing values. -/
theorem C132_wrong_label : fitColumn true [some (10 : ℚ), some 20, some 30] [1, 1, 1] 5 0 0 = .ok ⟨0, some ([10, 10, 20, 30], [0, 1/3, 2/3, 1])⟩ ∧
    binNumber false false 0 (some [10, 10, 20, (30 : ℚ)]) (.fin 30) = .ok 2 ∧
    xTicks (xPositions (K := ℚ) 3 true) (xLabels (some [10, 10, 20, 30]) false) false = .ok [(0, some 10), (1, some 20), (2, some 30)] := by
  decide +kernel

/-- **C132**: with two categories less the plot fails. -/
theorem C132_mismatch : xTicks (xPositions (K := ℚ) 2 true) (xLabels (some [10, 10, 20, 30]) false) false = .error "ValueError" := by
  decide +kernel

/-- Witness for the categorical case. -/
example : ∃ (e : ℚ) (table : List ℚ × List ℚ), fitColumn true [some (30 : ℚ), some 10, none, some 20] [1, 1, 1, 1] 5 (1/1000) 0 = .ok ⟨e, some table⟩ ∧
    xTicks (xPositions (K := ℚ) 4 true) (xLabels (some table.1) false) false
      = .ok [(0, some 10), (1, some 20), (2, some 30), (3, none)] :=
  ⟨1/100, ([10, 10, 20, 30], [0, 1/3, 2/3, 1]), by decide +kernel, by decide +kernel⟩

example : PosWeights [some (30 : ℚ), some 10, none, some 20] [1, 1, 1, 1] := PosWeights.of_pos _ _ rfl (by simp)

/-- Witness for the continuous case. -/
example : Spec.Sorted [2, (4 : ℚ)] ∧ xTicks (xPositions (K := ℚ) 3 false) (xLabels (some [1, 2, 4]) true) true
    = .ok [(-(1/2), some (3/2)), (1/2, some 3)] :=
  ⟨by unfold Spec.Sorted; norm_num, by decide +kernel⟩

end CB
