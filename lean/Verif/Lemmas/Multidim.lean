import Verif.Model.Multidim
import Verif.Spec.Multidim
import Mathlib.Tactic.Linarith
import Mathlib.Tactic.Ring
import Mathlib.Data.List.GetD
import Mathlib.Data.List.Lex
import Mathlib.Algebra.Order.BigOperators.Group.List
import Mathlib.Algebra.BigOperators.Group.List.Basic

set_option autoImplicit false
set_option linter.unusedSectionVars false

namespace CB

/-- Mixed-radix value of a tuple. -/
def encode : List ℕ → List ℕ → ℕ
  | _ :: ns, t :: ts => t * ns.prod + encode ns ts
  | _, _ => 0

/-- Mixed-radix digits of a number. -/
def digits : List ℕ → ℕ → List ℕ
  | [], _ => []
  | n :: ns, i => (i / ns.prod) % n :: digits ns i

theorem binSteps_ne_nil (ns : List ℕ) : binSteps ns ≠ [] := by
  induction ns with
  | nil => simp [binSteps]
  | cons n ns ih =>
    unfold binSteps
    split
    · contradiction
    · simp

theorem binSteps_headD (ns : List ℕ) : (binSteps ns).headD 0 = ns.prod := by
  induction ns with
  | nil => simp [binSteps]
  | cons n ns ih =>
    unfold binSteps
    split
    · rename_i h; exact absurd h (binSteps_ne_nil ns)
    · rename_i s rest h
      rw [h] at ih
      simp only [List.headD_cons] at ih ⊢
      rw [ih, List.prod_cons]

theorem binSteps_tail_cons (n : ℕ) (ns : List ℕ) :
    (binSteps (n :: ns)).tail = ns.prod :: (binSteps ns).tail := by
  have hh := binSteps_headD ns
  rw [binSteps]
  split
  · rename_i h; exact absurd h (binSteps_ne_nil ns)
  · rename_i s rest h
    rw [h] at hh
    simp only [List.headD_cons] at hh
    simp [hh, h]

theorem binSteps_tail_length (ns : List ℕ) : (binSteps ns).tail.length = ns.length := by
  induction ns with
  | nil => simp [binSteps]
  | cons n ns ih => rw [binSteps_tail_cons]; simp [ih]

theorem encode_lt (ns ts : List ℕ) (h : Spec.IsBinTuple ns ts) : encode ns ts < ns.prod := by
  induction ns generalizing ts with
  | nil => simp [encode]
  | cons n ns ih =>
    cases ts with
    | nil => have := h.1; simp at this
    | cons t ts =>
      have h0 : t < n := h.2 0 (by simp) (by simp)
      have ht : Spec.IsBinTuple ns ts := by
        refine ⟨by simpa using h.1, ?_⟩
        intro i hi hi'
        exact h.2 (i + 1) (by simpa using hi) (by simpa using hi')
      have := ih ts ht
      simp only [encode, List.prod_cons]
      calc t * ns.prod + encode ns ts < t * ns.prod + ns.prod := by omega
        _ = (t + 1) * ns.prod := by ring
        _ ≤ n * ns.prod := Nat.mul_le_mul_right _ h0

theorem IsBinTuple_tail {n t : ℕ} {ns ts : List ℕ} (h : Spec.IsBinTuple (n :: ns) (t :: ts)) :
    t < n ∧ Spec.IsBinTuple ns ts := by
  refine ⟨h.2 0 (by simp) (by simp), by simpa using h.1, ?_⟩
  intro i hi hi'
  exact h.2 (i + 1) (by simpa using hi) (by simpa using hi')

theorem lex_cons_cons (t u : ℕ) (ts us : List ℕ) :
    List.Lex (· < ·) (t :: ts) (u :: us) ↔ t < u ∨ (t = u ∧ List.Lex (· < ·) ts us) := by
  constructor
  · intro h
    cases h with
    | rel h => exact Or.inl h
    | cons h => exact Or.inr ⟨rfl, h⟩
  · rintro (h | ⟨rfl, h⟩)
    · exact .rel h
    · exact .cons h

/-- Lexicographic comparison of tuples is numeric comparison of their codes. -/
theorem encode_lex (ns ts us : List ℕ) (ht : Spec.IsBinTuple ns ts) (hu : Spec.IsBinTuple ns us) :
    encode ns ts < encode ns us ↔ List.Lex (· < ·) ts us := by
  induction ns generalizing ts us with
  | nil =>
    have h1 := ht.1
    have h2 := hu.1
    simp at h1 h2
    subst h1 h2
    simp [encode]
  | cons n ns ih =>
    cases ts with
    | nil => have := ht.1; simp at this
    | cons t ts =>
      cases us with
      | nil => have := hu.1; simp at this
      | cons u us =>
        obtain ⟨h1, h2⟩ := IsBinTuple_tail ht
        obtain ⟨h3, h4⟩ := IsBinTuple_tail hu
        have a := encode_lt ns ts h2
        have b := encode_lt ns us h4
        have ih := ih ts us h2 h4
        simp only [encode]
        rw [lex_cons_cons]
        rcases Nat.lt_trichotomy t u with h | h | h
        · have : (t + 1) * ns.prod ≤ u * ns.prod := Nat.mul_le_mul_right _ h
          rw [Nat.add_mul] at this
          constructor
          · intro _; exact Or.inl h
          · intro _; omega
        · subst h
          constructor
          · intro h'; exact Or.inr ⟨rfl, ih.mp (by omega)⟩
          · rintro (h' | ⟨_, h'⟩)
            · omega
            · have := ih.mpr h'; omega
        · have : (u + 1) * ns.prod ≤ t * ns.prod := Nat.mul_le_mul_right _ h
          rw [Nat.add_mul] at this
          constructor
          · intro _; omega
          · rintro (h' | ⟨h', _⟩) <;> omega

theorem encode_inj (ns ts us : List ℕ) (ht : Spec.IsBinTuple ns ts) (hu : Spec.IsBinTuple ns us)
    (h : encode ns ts = encode ns us) : ts = us := by
  induction ns generalizing ts us with
  | nil =>
    have h1 := ht.1
    have h2 := hu.1
    simp at h1 h2
    subst h1 h2
    rfl
  | cons n ns ih =>
    cases ts with
    | nil => have := ht.1; simp at this
    | cons t ts =>
      cases us with
      | nil => have := hu.1; simp at this
      | cons u us =>
        obtain ⟨h1, h2⟩ := IsBinTuple_tail ht
        obtain ⟨h3, h4⟩ := IsBinTuple_tail hu
        have a := encode_lt ns ts h2
        have b := encode_lt ns us h4
        simp only [encode] at h
        rcases Nat.lt_trichotomy t u with hh | hh | hh
        · have : (t + 1) * ns.prod ≤ u * ns.prod := Nat.mul_le_mul_right _ hh
          rw [Nat.add_mul] at this
          omega
        · subst hh
          rw [ih ts us h2 h4 (by omega)]
        · have : (u + 1) * ns.prod ≤ t * ns.prod := Nat.mul_le_mul_right _ hh
          rw [Nat.add_mul] at this
          omega

theorem digits_length (ns : List ℕ) (i : ℕ) : (digits ns i).length = ns.length := by
  induction ns with
  | nil => rfl
  | cons n ns ih => simp [digits, ih]

theorem encode_digits (ns : List ℕ) (i : ℕ) : encode ns (digits ns i) = i % ns.prod := by
  induction ns with
  | nil => simp [encode, Nat.mod_one]
  | cons n ns ih =>
    simp only [digits, encode, List.prod_cons]
    rw [ih, Nat.mul_comm n, Nat.mod_mul]
    ring

theorem digits_valid (ns : List ℕ) (i : ℕ) (h : 0 < ns.prod) : Spec.IsBinTuple ns (digits ns i) := by
  induction ns with
  | nil => exact ⟨rfl, by intro i h; simp [digits] at h⟩
  | cons n ns ih =>
    rw [List.prod_cons] at h
    have hn : 0 < n := Nat.pos_of_mul_pos_right h
    have hp : 0 < ns.prod := Nat.pos_of_mul_pos_left h
    obtain ⟨h1, h2⟩ := ih hp
    refine ⟨by simp [digits, h1], ?_⟩
    intro j hj hj'
    cases j with
    | zero => simp only [digits, List.getElem_cons_zero]; exact Nat.mod_lt _ hn
    | succ j =>
      simp only [digits, List.getElem_cons_succ]
      exact h2 j _ _

theorem arangeCol_getElem? (step stop : ℕ) (hstep : 0 < step) (hstop : 0 < stop) :
    ∀ (blocks binno i : ℕ), binno < stop → i < blocks * step →
      (arangeCol step stop blocks binno)[i]? = some ((binno + i / step) % stop) := by
  intro blocks
  induction blocks with
  | zero => intro binno i _ h; omega
  | succ blocks ih =>
    intro binno i hb hi
    rw [arangeCol]
    by_cases hlt : i < step
    · rw [List.getElem?_append_left (by simpa using hlt), Nat.div_eq_of_lt hlt]
      rw [List.getElem?_replicate, if_pos hlt, Nat.add_zero, Nat.mod_eq_of_lt hb]
    · rw [List.getElem?_append_right (by simpa using not_lt.mp hlt), List.length_replicate]
      rw [ih _ (i - step)]
      · have hd : i / step = (i - step) / step + 1 := by
          rw [Nat.div_eq_sub_div hstep (not_lt.mp hlt)]
        rw [hd]
        congr 1
        by_cases hw : binno + 1 ≥ stop
        · rw [if_pos hw]
          have : binno + ((i - step) / step + 1) = (i - step) / step + stop := by omega
          rw [this, Nat.add_mod_right, Nat.zero_add]
        · rw [if_neg hw]
          congr 1
          omega
      · split <;> omega
      · rw [Nat.add_mul] at hi; omega

/-- Row `i` of `arange_multi` consists of the mixed-radix digits of `i`. -/
theorem arangeMulti_getElem? (ns : List ℕ) (i : ℕ) (hi : i < ns.prod) :
    (arangeMulti ns)[i]? = some (digits ns i) := by
  unfold arangeMulti
  simp only [binSteps_headD]
  rw [List.getElem?_map, List.getElem?_range hi]
  simp only [Option.map_some, Option.some.injEq]
  have gen : ∀ (ms : List ℕ) (k total : ℕ), total = k * ms.prod → i < total → 0 < total →
      (List.zipWith (fun stop step => arangeCol step stop ((total + step - 1) / step) 0) ms (binSteps ms).tail).map
        (fun col => col.getD i 0) = digits ms i := by
    intro ms
    induction ms with
    | nil => intro k total _ _ _; simp [binSteps, digits]
    | cons n ms ih =>
      intro k total ht hit hpos
      rw [binSteps_tail_cons]
      simp only [List.zipWith_cons_cons, List.map_cons, digits]
      rw [List.prod_cons] at ht
      have hprod : 0 < k * (n * ms.prod) := by omega
      have hnm : 0 < n * ms.prod := Nat.pos_of_mul_pos_left hprod
      have hn : 0 < n := Nat.pos_of_mul_pos_right hnm
      have hm : 0 < ms.prod := Nat.pos_of_mul_pos_left hnm
      congr 1
      · have hbl : (total + ms.prod - 1) / ms.prod * ms.prod = total := by
          have hdvd : total = (k * n) * ms.prod := by rw [ht]; ring
          have : (total + ms.prod - 1) / ms.prod = k * n := by
            rw [hdvd]
            have e : k * n * ms.prod + ms.prod - 1 = (ms.prod - 1) + (k * n) * ms.prod := by omega
            rw [e, Nat.add_mul_div_right _ _ hm, Nat.div_eq_of_lt (by omega)]
            omega
          rw [this, ← hdvd]
        rw [List.getD_eq_getElem?_getD, arangeCol_getElem? _ _ hm hn _ _ _ hn (by rw [hbl]; exact hit)]
        simp
      · exact ih (k * n) total (by rw [ht]; ring) hit hpos
  exact gen ns 1 ns.prod (by simp) hi (by omega)

section
variable {K : Type*} [Field K] [LinearOrder K] [IsStrictOrderedRing K] [FloorRing K]

theorem floorComp_cell (x : K) (t : ℕ) (h1 : (t : K) ≤ x) (h2 : x < (t : K) + 1) : floorComp (.fin x) = t := by
  unfold floorComp
  have : ⌊x⌋ = (t : ℤ) := by
    rw [Int.floor_eq_iff]
    constructor
    · exact_mod_cast h1
    · exact_mod_cast h2
  simp [this]

/-- The dot product with the bin steps is the mixed-radix code. -/
theorem dotRow_eq (ns : List ℕ) (row : List (Flt K)) (h : row.length = ns.length) :
    dotRow row (binSteps ns).tail = encode ns (row.map floorComp) := by
  induction ns generalizing row with
  | nil =>
    have : row = [] := by simpa using h
    subst this
    simp [dotRow, encode]
  | cons n ns ih =>
    cases row with
    | nil => simp at h
    | cons b row =>
      have := ih row (by simpa using h)
      unfold dotRow at this ⊢
      rw [binSteps_tail_cons]
      simp only [List.zipWith_cons_cons, List.sum_cons, List.map_cons, encode]
      rw [this]

theorem validRow_iff (ns : List ℕ) (row : List (Flt K)) (h : row.length = ns.length) :
    validRow ns row = true ↔
      ∀ (i : ℕ) (h1 : i < row.length) (h2 : i < ns.length), ∃ x : K, row[i] = .fin x ∧ 0 ≤ x ∧ x < (ns[i] : K) := by
  unfold validRow
  rw [List.all_eq_true]
  constructor
  · intro hall i h1 h2
    have hv := hall (validComp row[i] ns[i]) (by
      rw [List.mem_iff_getElem]
      exact ⟨i, by simp; omega, by simp⟩)
    simp only [id_eq, validComp] at hv
    cases hr : row[i] with
    | fin x =>
      rw [hr] at hv
      simp only [Bool.and_eq_true, decide_eq_true_eq] at hv
      exact ⟨x, rfl, hv.1, hv.2⟩
    | nan => rw [hr] at hv; simp at hv
    | pinf => rw [hr] at hv; simp at hv
    | ninf => rw [hr] at hv; simp at hv
  · intro hall b hb
    obtain ⟨i, hi, rfl⟩ := List.getElem_of_mem hb
    rw [List.length_zipWith] at hi
    obtain ⟨x, hx, h1, h2⟩ := hall i (by omega) (by omega)
    simp [validComp, hx, h1, h2]

/-- A valid row lies in the cell of the tuple of its floors. -/
theorem validRow_tuple (ns : List ℕ) (row : List (Flt K)) (h : row.length = ns.length)
    (hv : validRow ns row = true) : Spec.IsBinTuple ns (row.map floorComp) := by
  rw [validRow_iff ns row h] at hv
  refine ⟨by simpa using h, ?_⟩
  intro i h1 h2
  rw [List.length_map] at h1
  obtain ⟨x, hx, hx0, hxn⟩ := hv i h1 h2
  rw [List.getElem_map, hx]
  unfold floorComp
  have h3 : ⌊x⌋ < (ns[i] : ℤ) := by
    rw [Int.floor_lt]; exact_mod_cast hxn
  have h4 : 0 ≤ ⌊x⌋ := Int.floor_nonneg.mpr hx0
  simp only
  omega

end

end CB
