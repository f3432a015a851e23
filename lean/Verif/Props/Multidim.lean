import Verif.Lemmas.Multidim
import Mathlib.Data.Rat.Floor

set_option autoImplicit false
set_option linter.unusedSectionVars false

/-!
C11, C12, C13: numbering of multi-dimensional bins.
-/
namespace CB

section
variable {K : Type*} [Field K] [LinearOrder K] [IsStrictOrderedRing K] [FloorRing K]

theorem lexBinnos_snd (dims : ℕ) (rows : List (List (Flt K))) (nb : Option (List ℕ)) :
    (lexBinnos dims rows nb).2 = nb.getD (inferBins dims rows) := by
  cases nb <;> rfl

theorem lexBinnos_getElem? (dims : ℕ) (rows : List (List (Flt K))) (nb : Option (List ℕ)) (i : ℕ)
    (row : List (Flt K)) (hrow : rows[i]? = some row) (ns : List ℕ) (hns : (lexBinnos dims rows nb).2 = ns) :
    (lexBinnos dims rows nb).1[i]? =
      some (if validRow ns row then dotRow row (binSteps ns).tail
        else if rows.any (validRow ns) then ns.prod else 0) := by
  have h2 : nb.getD (inferBins dims rows) = ns := by rw [← lexBinnos_snd]; exact hns
  subst h2
  cases nb <;> simp [lexBinnos, hrow, Option.getD]

/-- The code of a row that lies in the cells of a bin tuple. -/
theorem lexBinnos_cell (dims : ℕ) (rows : List (List (Flt K))) (nb : Option (List ℕ)) (i : ℕ) (r : List K)
    (hrow : rows[i]? = some (r.map .fin)) (ns : List ℕ) (hns : (lexBinnos dims rows nb).2 = ns) (t : List ℕ)
    (ht : Spec.IsBinTuple ns t) (hc : Spec.InCell r t) :
    (lexBinnos dims rows nb).1[i]? = some (encode ns t) := by
  rw [lexBinnos_getElem? dims rows nb i _ hrow ns hns]
  have hlen : (r.map Flt.fin).length = ns.length := by rw [List.length_map, hc.1, ht.1]
  have hv : validRow ns (r.map Flt.fin) = true := by
    rw [validRow_iff ns _ hlen]
    intro j h1 h2
    rw [List.length_map] at h1
    have h3 : j < t.length := by rw [ht.1]; exact h2
    obtain ⟨a, b⟩ := hc.2 j h1 h3
    refine ⟨r[j], by simp, le_trans (Nat.cast_nonneg _) a, lt_of_lt_of_le b ?_⟩
    have := ht.2 j h3 h2
    exact_mod_cast this
  rw [if_pos hv, dotRow_eq ns _ hlen]
  congr 2
  apply List.ext_getElem
  · simp [hc.1]
  · intro j h1 h2
    simp only [List.length_map] at h1
    simp only [List.getElem_map]
    obtain ⟨a, b⟩ := hc.2 j h1 h2
    exact floorComp_cell _ _ a b

/-- **C11.** In any table of bin numbers (with given or with inferred numbers of bins `ns`), take two rows that lie in the
bin tuples `t` and `u`. Their combined bin numbers are below the product of the numbers of bins, coincide exactly when
the tuples coincide, and compare as the tuples compare lexicographically. -/
theorem C11_bijective_ordered (dims : ℕ) (rows : List (List (Flt K))) (nb : Option (List ℕ)) (ns : List ℕ)
    (hns : (lexBinnos dims rows nb).2 = ns) (i j : ℕ) (r s : List K) (t u : List ℕ)
    (hi : rows[i]? = some (r.map .fin)) (hj : rows[j]? = some (s.map .fin))
    (ht : Spec.IsBinTuple ns t) (hu : Spec.IsBinTuple ns u) (hr : Spec.InCell r t) (hs : Spec.InCell s u) :
    ∃ a b : ℕ, (lexBinnos dims rows nb).1[i]? = some a ∧ (lexBinnos dims rows nb).1[j]? = some b ∧
      a < ns.prod ∧ b < ns.prod ∧ (a = b ↔ t = u) ∧ (a < b ↔ List.Lex (· < ·) t u) :=
  ⟨encode ns t, encode ns u, lexBinnos_cell dims rows nb i r hi ns hns t ht hr,
    lexBinnos_cell dims rows nb j s hj ns hns u hu hs, encode_lt ns t ht, encode_lt ns u hu,
    ⟨fun h => encode_inj ns t u ht hu h, fun h => by rw [h]⟩, encode_lex ns t u ht hu⟩

/-- **C11**, all numbers are used: every number below the product of the numbers of bins is the combined bin number of a
bin tuple, in whatever table a row of that tuple occurs. -/
theorem C11_onto (ns : List ℕ) (k : ℕ) (hk : k < ns.prod) :
    ∃ t : List ℕ, Spec.IsBinTuple ns t ∧
      ∀ (dims : ℕ) (rows : List (List (Flt K))) (nb : Option (List ℕ)), (lexBinnos dims rows nb).2 = ns →
        ∀ (i : ℕ) (r : List K), rows[i]? = some (r.map .fin) → Spec.InCell r t →
          (lexBinnos dims rows nb).1[i]? = some k := by
  refine ⟨digits ns k, digits_valid ns k (by omega), ?_⟩
  intro dims rows nb hns i r hi hr
  rw [lexBinnos_cell dims rows nb i r hi ns hns _ (digits_valid ns k (by omega)) hr, encode_digits,
    Nat.mod_eq_of_lt hk]

/-- **C12.** `arange_multi` has one row per combined bin number; its row `k` is a bin tuple, and a data row of that tuple
gets the combined bin number `k`. -/
theorem C12_inverse (ns : List ℕ) :
    (arangeMulti ns).length = ns.prod ∧
      ∀ (k : ℕ) (t : List ℕ), (arangeMulti ns)[k]? = some t →
        Spec.IsBinTuple ns t ∧
          ∀ (dims : ℕ) (rows : List (List (Flt K))) (nb : Option (List ℕ)), (lexBinnos dims rows nb).2 = ns →
            ∀ i : ℕ, rows[i]? = some (t.map (fun b : ℕ => Flt.fin (b : K))) →
              (lexBinnos dims rows nb).1[i]? = some k := by
  have hlen : (arangeMulti ns).length = ns.prod := by
    unfold arangeMulti
    simp [binSteps_headD, -List.headD_eq_head?_getD]
  refine ⟨hlen, ?_⟩
  intro k t hk
  have hlt : k < ns.prod := by
    rw [← hlen]
    by_contra hc
    rw [List.getElem?_eq_none (not_lt.mp hc)] at hk
    cases hk
  rw [arangeMulti_getElem? ns k hlt, Option.some.injEq] at hk
  subst hk
  have hv := digits_valid ns k (by omega)
  refine ⟨hv, ?_⟩
  intro dims rows nb hns i hi
  have := lexBinnos_cell dims rows nb i ((digits ns k).map (fun b : ℕ => (b : K)))
    (by rw [hi, List.map_map]; rfl) ns hns (digits ns k) hv
    ⟨by simp, by intro j h1 h2; simp⟩
  rw [this, encode_digits, Nat.mod_eq_of_lt hlt]

/-- **C12**, together with C11: the rows of `arange_multi` are listed in strictly increasing lexicographic order. -/
theorem C12_increasing (ns : List ℕ) (k l : ℕ) (t u : List ℕ) (hk : (arangeMulti ns)[k]? = some t)
    (hl : (arangeMulti ns)[l]? = some u) : k < l ↔ List.Lex (· < ·) t u := by
  have hlen := (C12_inverse (K := ℚ) ns).1
  have hb : ∀ (k : ℕ) (t : List ℕ), (arangeMulti ns)[k]? = some t → k < ns.prod ∧ digits ns k = t := by
    intro k t hk
    have hlt : k < ns.prod := by
      rw [← hlen]
      by_contra hc
      rw [List.getElem?_eq_none (not_lt.mp hc)] at hk
      cases hk
    rw [arangeMulti_getElem? ns k hlt, Option.some.injEq] at hk
    exact ⟨hlt, hk⟩
  obtain ⟨h1, rfl⟩ := hb k t hk
  obtain ⟨h2, rfl⟩ := hb l u hl
  rw [← encode_lex ns _ _ (digits_valid ns k (by omega)) (digits_valid ns l (by omega)), encode_digits, encode_digits,
    Nat.mod_eq_of_lt h1, Nat.mod_eq_of_lt h2]

/-- A row has an unusable component: missing, infinite, negative or at/above the number of bins. -/
def HasBadComponent (ns : List ℕ) (row : List (Flt K)) : Prop :=
  ∃ (i : ℕ) (h1 : i < row.length) (h2 : i < ns.length), ∀ x : K, row[i] = .fin x → x < 0 ∨ (ns[i] : K) ≤ x

theorem validRow_false_iff (ns : List ℕ) (row : List (Flt K)) (h : row.length = ns.length) :
    validRow ns row = false ↔ HasBadComponent ns row := by
  rw [← Bool.not_eq_true, validRow_iff ns row h]
  unfold HasBadComponent
  push Not
  constructor
  · rintro ⟨i, h1, h2, hx⟩
    refine ⟨i, h1, h2, fun x hr => ?_⟩
    by_cases h0 : 0 ≤ x
    · exact Or.inr (hx x hr h0)
    · exact Or.inl (not_le.mp h0)
  · rintro ⟨i, h1, h2, hx⟩
    refine ⟨i, h1, h2, fun x hr h0 => ?_⟩
    rcases hx x hr with h' | h'
    · exact absurd h0 (not_le.mpr h')
    · exact h'

/-- **C13**, given numbers of bins: if at least one row of the table is usable, a row with a missing, infinite, negative or
out-of-range component gets the extra number `prod(n_bins)`, and every other row a number below it. What is missing for
the full claim: tables without any usable row, see `C13_no_valid_row`. -/
theorem C13_given_partial (dims : ℕ) (rows : List (List (Flt K))) (ns : List ℕ)
    (hdims : ∀ row ∈ rows, row.length = ns.length) (hsome : ∃ row ∈ rows, ¬ HasBadComponent ns row)
    (i : ℕ) (row : List (Flt K)) (hrow : rows[i]? = some row) :
    ∃ c : ℕ, (lexBinnos dims rows (some ns)).1[i]? = some c ∧
      (HasBadComponent ns row ↔ c = ns.prod) ∧ (¬ HasBadComponent ns row ↔ c < ns.prod) := by
  have hmem : row ∈ rows := List.mem_of_getElem? hrow
  have hl := hdims row hmem
  refine ⟨_, lexBinnos_getElem? dims rows (some ns) i row hrow ns rfl, ?_⟩
  have hany : rows.any (validRow ns) = true := by
    obtain ⟨r, hr, hb⟩ := hsome
    rw [List.any_eq_true]
    refine ⟨r, hr, ?_⟩
    rw [← validRow_false_iff ns r (hdims r hr)] at hb
    simpa using hb
  rw [hany]
  cases hv : validRow ns row with
  | false =>
    have hb := (validRow_false_iff ns row hl).mp hv
    simp [hb]
  | true =>
    have hb : ¬ HasBadComponent ns row := by
      rw [← validRow_false_iff ns row hl, hv]; simp
    have hlt := encode_lt ns _ (validRow_tuple ns row hl hv)
    simp only [if_true, dotRow_eq ns row hl, hb, false_iff, not_false_eq_true, true_iff]
    exact ⟨by omega, hlt⟩

/-- **C13** fails for a table without a usable row: whatever the given numbers of bins, every row gets the number 0,
which is a regular bin. -/
theorem C13_no_valid_row (dims : ℕ) (rows : List (List (Flt K))) (ns : List ℕ)
    (hdims : ∀ row ∈ rows, row.length = ns.length) (hnone : ∀ row ∈ rows, HasBadComponent ns row) :
    (lexBinnos dims rows (some ns)).1 = List.replicate rows.length 0 := by
  have hall : ∀ row ∈ rows, validRow ns row = false := fun row h =>
    (validRow_false_iff ns row (hdims row h)).mpr (hnone row h)
  have hany : rows.any (validRow ns) = false := by
    rw [List.any_eq_false]
    intro r hr
    rw [hall r hr]; simp
  have : (lexBinnos dims rows (some ns)).1 = rows.map (fun _ => 0) := by
    unfold lexBinnos
    simp only [hany]
    apply List.map_congr_left
    intro r hr
    simp [hall r hr]
  rw [this, List.map_const']

theorem natFoldlMax_ge (l : List ℕ) (a : ℕ) : a ≤ l.foldl max a ∧ ∀ x ∈ l, x ≤ l.foldl max a := by
  induction l generalizing a with
  | nil => simp
  | cons y l ih =>
    obtain ⟨h1, h2⟩ := ih (max a y)
    refine ⟨by simp only [List.foldl_cons]; omega, ?_⟩
    intro x hx
    simp only [List.foldl_cons]
    rcases List.mem_cons.mp hx with rfl | hx
    · omega
    · exact h2 x hx

theorem finiteSemiPositive_iff (row : List (Flt K)) :
    finiteSemiPositive row = true ↔ ∀ b ∈ row, ∃ x : K, b = .fin x ∧ 0 ≤ x := by
  unfold finiteSemiPositive
  rw [List.all_eq_true]
  constructor
  · intro h b hb
    have := h b hb
    cases b with
    | fin x => exact ⟨x, rfl, by simpa using this⟩
    | nan => simp at this
    | pinf => simp at this
    | ninf => simp at this
  · intro h b hb
    obtain ⟨x, rfl, hx⟩ := h b hb
    simpa using hx

/-- **C13**, numbers of bins inferred from the table (training): for tables with at least one column, every row with a
missing, infinite or negative component gets the extra number `prod(n_bins)`, and every other row a number below it. -/
theorem C13_inferred (dims : ℕ) (hpos : 0 < dims) (rows : List (List (Flt K)))
    (hdims : ∀ row ∈ rows, row.length = dims) (i : ℕ) (row : List (Flt K)) (hrow : rows[i]? = some row) :
    ∃ c : ℕ, (lexBinnos dims rows none).1[i]? = some c ∧
      ((∃ b ∈ row, ∀ x : K, b = .fin x → x < 0) ↔ c = (lexBinnos dims rows none).2.prod) ∧
      ((∀ b ∈ row, ∃ x : K, b = .fin x ∧ 0 ≤ x) ↔ c < (lexBinnos dims rows none).2.prod) := by
  have hmem : row ∈ rows := List.mem_of_getElem? hrow
  have hl := hdims row hmem
  set ns := (lexBinnos dims rows none).2 with hns
  have hnsval : ns = inferBins dims rows := by rw [hns, lexBinnos_snd]; rfl
  have hnslen : ns.length = dims := by
    rw [hnsval]; unfold inferBins
    split
    · simp
    · simp [maxPlusOne]
  have hbadgood : (∃ b ∈ row, ∀ x : K, b = .fin x → x < 0) ↔ ¬ ∀ b ∈ row, ∃ x : K, b = .fin x ∧ 0 ≤ x := by
    push Not
    rfl
  rw [hbadgood]
  -- a row is usable exactly when it is finite and not negative
  have hval : ∀ r ∈ rows, validRow ns r = true ↔ finiteSemiPositive r = true := by
    intro r hr
    have hrl := hdims r hr
    rw [validRow_iff ns r (by omega), finiteSemiPositive_iff]
    constructor
    · intro h b hb
      obtain ⟨j, hj, rfl⟩ := List.getElem_of_mem hb
      obtain ⟨x, hx, h0, _⟩ := h j hj (by omega)
      exact ⟨x, hx, h0⟩
    · intro h j h1 h2
      obtain ⟨x, hx, h0⟩ := h _ (List.getElem_mem h1)
      refine ⟨x, hx, h0, ?_⟩
      have hmemf : r ∈ rows.filter finiteSemiPositive := by
        rw [List.mem_filter]
        exact ⟨hr, (finiteSemiPositive_iff r).mpr h⟩
      have hval' : ns = maxPlusOne dims (rows.filter finiteSemiPositive) := by
        rw [hnsval]; unfold inferBins
        split
        · rename_i he; rw [he] at hmemf; cases hmemf
        · rfl
      have hnj : ns[j] = ((rows.filter finiteSemiPositive).map (fun r => floorComp (r.getD j .nan))).foldl max 0 + 1 := by
        simp only [hval', maxPlusOne, List.getElem_map, List.getElem_range]
      have hge := (natFoldlMax_ge ((rows.filter finiteSemiPositive).map (fun r => floorComp (r.getD j .nan))) 0).2
        (floorComp r[j]) (by
          rw [List.mem_map]
          exact ⟨r, hmemf, by rw [List.getD_eq_getElem _ _ h1]⟩)
      rw [hx] at hge
      have hfl : ⌊x⌋ < (ns[j] : ℤ) := by
        have h0' : 0 ≤ ⌊x⌋ := Int.floor_nonneg.mpr h0
        have he : floorComp (Flt.fin x) = ⌊x⌋.toNat := rfl
        rw [he] at hge
        omega
      have := Int.floor_lt.mp hfl
      exact_mod_cast this
  refine ⟨_, lexBinnos_getElem? dims rows none i row hrow ns hns.symm, ?_⟩
  rw [← finiteSemiPositive_iff]
  cases hv : validRow ns row with
  | true =>
    have hf := (hval row hmem).mp hv
    have hlt := encode_lt ns _ (validRow_tuple ns row (by omega) hv)
    simp only [if_true, hf, not_true_eq_false, false_iff, true_iff, dotRow_eq ns row (by omega)]
    exact ⟨by omega, hlt⟩
  | false =>
    have hf : finiteSemiPositive row = false := by
      rw [← Bool.not_eq_true, ← hval row hmem, hv]; simp
    have hfill : (if rows.any (validRow ns) = true then ns.prod else 0) = ns.prod := by
      by_cases hany : rows.any (validRow ns) = true
      · rw [if_pos hany]
      · rw [if_neg hany]
        have hempty : rows.filter finiteSemiPositive = [] := by
          rw [List.filter_eq_nil_iff]
          intro r hr hc
          apply hany
          rw [List.any_eq_true]
          exact ⟨r, hr, (hval r hr).mpr hc⟩
        have : ns = List.replicate dims 0 := by
          rw [hnsval]; unfold inferBins; rw [hempty]
        rw [this, List.prod_replicate]
        rw [zero_pow (by omega)]
    rw [hfill]
    simp [hf]

end

/-- Witness for C11: a table of two columns with inferred numbers of bins 3 and 2. -/
example : lexBinnos 2 [[.fin (2 : ℚ), .fin (1/2)], [.fin 0, .fin 1], [.nan, .fin 1], [.fin (-1), .fin 0]] none
    = ([4, 1, 6, 6], [3, 2]) := by decide +kernel

example : Spec.IsBinTuple [3, 2] [2, 0] ∧ Spec.InCell [(2 : ℚ), 1/2] [2, 0] := by
  refine ⟨⟨rfl, ?_⟩, rfl, ?_⟩
  · intro i h h'
    match i, h with
    | 0, _ => simp
    | 1, _ => simp
  · intro i h h'
    match i, h with
    | 0, _ => simp
    | 1, _ => simp; norm_num

/-- Witness for C12. -/
example : arangeMulti [3, 2] = [[0, 0], [0, 1], [1, 0], [1, 1], [2, 0], [2, 1]] := by decide +kernel

/-- Witness for C13: the extra number when one row is usable, and the number 0 when none is. -/
example : (lexBinnos 2 [[.fin (5 : ℚ), .fin 0], [.fin 1, .fin 1]] (some [3, 2])).1 = [6, 3]
    ∧ (lexBinnos 2 [[.fin (5 : ℚ), .fin 0], [.nan, .fin 1]] (some [3, 2])).1 = [0, 0] := by decide +kernel

end CB
