import Verif.Model.Flags
import Mathlib.Tactic.Linarith

set_option autoImplicit false

/-!
C14, C15: feature properties.
-/
namespace CB.Flags

/-- The predicate for a flag holds exactly when all bits of the flag are set in the feature property. -/
theorem isSet_iff (fp flag : ℕ) : isSet fp flag = true ↔ ∀ i, flag.testBit i = true → fp.testBit i = true := by
  unfold isSet
  rw [beq_iff_eq]
  constructor
  · intro h i hi
    have := congrArg (fun n => Nat.testBit n i) h
    simp only [Nat.testBit_and, hi, Bool.and_true] at this
    exact this
  · intro h
    apply Nat.eq_of_testBit_eq
    intro i
    rw [Nat.testBit_and]
    cases hf : flag.testBit i with
    | true => simp [h i hf]
    | false => simp

theorem testBit_shift (k i : ℕ) : (1 <<< k).testBit i = decide (k = i) := by
  rw [Nat.one_shiftLeft, Nat.testBit_two_pow]

theorem isSet_bit (fp k : ℕ) : isSet fp (1 <<< k) = fp.testBit k := by
  rw [Bool.eq_iff_iff, isSet_iff]
  constructor
  · intro h; exact h k (by rw [testBit_shift]; simp)
  · intro h i hi
    rw [testBit_shift, decide_eq_true_eq] at hi
    rw [← hi]; exact h

theorem isSet_bits (fp k l : ℕ) : isSet fp ((1 <<< k) ||| (1 <<< l)) = (fp.testBit k && fp.testBit l) := by
  rw [Bool.eq_iff_iff, isSet_iff, Bool.and_eq_true]
  constructor
  · intro h
    exact ⟨h k (by rw [Nat.testBit_or, testBit_shift, testBit_shift]; simp),
      h l (by rw [Nat.testBit_or, testBit_shift, testBit_shift]; simp)⟩
  · rintro ⟨h1, h2⟩ i hi
    rw [Nat.testBit_or, testBit_shift, testBit_shift, Bool.or_eq_true, decide_eq_true_eq, decide_eq_true_eq] at hi
    rcases hi with rfl | rfl
    · exact h1
    · exact h2

/-- **C14.** The consistency check accepts a feature property exactly when exactly one of the bits for continuous (0),
ordered (1) and unordered (2) is set and the bits for increasing (11) and decreasing (12) are not both set. -/
theorem C14_accepts_iff (fp : ℕ) :
    checkConsistency fp = .ok () ↔
      ((fp.testBit 0 = true ∧ fp.testBit 1 = false ∧ fp.testBit 2 = false) ∨
        (fp.testBit 0 = false ∧ fp.testBit 1 = true ∧ fp.testBit 2 = false) ∨
        (fp.testBit 0 = false ∧ fp.testBit 1 = false ∧ fp.testBit 2 = true)) ∧
      ¬ (fp.testBit 11 = true ∧ fp.testBit 12 = true) := by
  unfold checkConsistency IS_CONTINUOUS IS_ORDERED IS_UNORDERED INCREASING DECREASING
  simp only [isSet_bit]
  cases fp.testBit 0 <;> cases fp.testBit 1 <;> cases fp.testBit 2 <;> cases fp.testBit 11 <;> cases fp.testBit 12 <;>
    simp

/-- **C14.** The compound flags contain their parent flag: a monotonic feature is continuous, a feature with unlearned or
magic-integer missing values has missing values. -/
theorem C14_implications (fp : ℕ) :
    (isSet fp IS_MONOTONIC = true → isSet fp IS_CONTINUOUS = true) ∧
      (isSet fp MISSING_NOT_LEARNED = true → isSet fp HAS_MISSING = true) ∧
      (isSet fp HAS_MAGIC_INT_MISSING = true → isSet fp HAS_MISSING = true) := by
  unfold IS_MONOTONIC MISSING_NOT_LEARNED HAS_MAGIC_INT_MISSING IS_CONTINUOUS HAS_MISSING
  simp only [isSet_bits, isSet_bit, Bool.and_eq_true]
  exact ⟨fun h => h.1, fun h => h.1, fun h => h.1⟩

/-- **C14.** Adding a flag with `|` makes its predicate true and leaves every flag set that was set before. -/
theorem C14_union (fp flag other : ℕ) :
    isSet (fp ||| flag) flag = true ∧ (isSet fp other = true → isSet (fp ||| flag) other = true) := by
  rw [isSet_iff, isSet_iff, isSet_iff]
  constructor
  · intro i hi; rw [Nat.testBit_or, hi, Bool.or_true]
  · intro h i hi; rw [Nat.testBit_or, h i hi, Bool.true_or]

example : checkConsistency (IS_MONOTONIC ||| HAS_MISSING ||| INCREASING) = .ok () := by decide
example : (checkConsistency (IS_CONTINUOUS ||| INCREASING ||| DECREASING)).isOk = false := by decide

/-! ### C15 -/

/-- The bits of a feature property that the printing loop does not remove. -/
theorem convertLoop_spec (value : ℕ) (l : List (String × ℕ)) (acc : List String × ℕ) :
    (convertLoop value l acc).1 = acc.1 ++ (l.filter (fun p => isSet value p.2)).map Prod.fst ∧
      ∀ i, (convertLoop value l acc).2.testBit i =
        (acc.2.testBit i && !(l.any (fun p => isSet value p.2 && p.2.testBit i))) := by
  induction l generalizing acc with
  | nil => simp [convertLoop]
  | cons p l ih =>
    obtain ⟨name, flag⟩ := p
    obtain ⟨lst, flags1⟩ := acc
    have hcomm : ((flag &&& value) == flag) = isSet value flag := by
      unfold isSet; rw [Nat.and_comm]
    rw [convertLoop, hcomm]
    cases hs : isSet value flag with
    | true =>
      simp only [if_true]
      obtain ⟨h1, h2⟩ := ih (lst ++ [name], Nat.ldiff flags1 flag)
      refine ⟨?_, ?_⟩
      · rw [h1]; simp [hs]
      · intro i
        rw [h2 i]
        simp only [Nat.testBit_ldiff, List.any_cons, hs, Bool.true_and]
        cases flags1.testBit i <;> cases flag.testBit i <;> simp
    | false =>
      simp only [Bool.false_eq_true, if_false]
      obtain ⟨h1, h2⟩ := ih (lst, flags1)
      refine ⟨?_, ?_⟩
      · rw [h1]; simp [hs]
      · intro i
        rw [h2 i]
        simp [hs]

/-- **C15**, what is printed: if printing succeeds, the names are those of the flags contained in the feature property, and
the union of these flags is the feature property itself, so nothing is lost. -/
theorem C15_faithful (value : ℕ) (names : List String) (h : toNames value = .ok names) :
    names = (flagList.filter (fun p => isSet value p.2)).map Prod.fst ∧
      ((flagList.filter (fun p => isSet value p.2)).map Prod.snd).foldr (· ||| ·) 0 = value := by
  obtain ⟨h1, h2⟩ := convertLoop_spec value flagList ([], value)
  unfold toNames at h
  simp only at h
  split at h
  · cases h
  · rename_i hz
    have hz : (convertLoop value flagList ([], value)).2 = 0 := by simpa using hz
    have hn : (convertLoop value flagList ([], value)).1 = names := by
      injection h
    refine ⟨by rw [← hn, h1]; simp, ?_⟩
    apply Nat.eq_of_testBit_eq
    intro i
    have h3 := h2 i
    rw [hz, Nat.zero_testBit] at h3
    have hfold : ∀ l : List ℕ, (l.foldr (· ||| ·) 0).testBit i = l.any (fun f => f.testBit i) := by
      intro l
      induction l with
      | nil => simp
      | cons a l ih => simp [Nat.testBit_or, ih]
    rw [hfold, List.any_map, List.any_filter]
    simp only [Function.comp_def]
    cases hv : value.testBit i with
    | true =>
      rw [hv, Bool.true_and] at h3
      simpa using h3.symm
    | false =>
      rw [Bool.eq_false_iff]
      intro hc
      rw [List.any_eq_true] at hc
      obtain ⟨p, _, hp⟩ := hc
      rw [Bool.and_eq_true] at hp
      have := (isSet_iff value p.2).mp hp.1 i hp.2
      rw [hv] at this
      cases this

/-- **C15**, exactly which feature properties can be printed: those without a bit above 9, with the monotonic bit only
together with the continuous bit, and with the missing-not-learned bit only together with the missing bit. The full
claim, that every accepted feature property can be printed, is false: see `C15_increasing_not_printable`. -/
theorem C15_printable_iff_partial (value : ℕ) :
    (∃ names, toNames value = .ok names) ↔
      (∀ i, 10 ≤ i → value.testBit i = false) ∧ (value.testBit 3 = true → value.testBit 0 = true) ∧
        (value.testBit 5 = true → value.testBit 4 = true) := by
  obtain ⟨h1, h2⟩ := convertLoop_spec value flagList ([], value)
  have hok : (∃ names, toNames value = .ok names) ↔ (convertLoop value flagList ([], value)).2 = 0 := by
    unfold toNames
    simp only
    split
    · rename_i hne
      constructor
      · rintro ⟨_, h⟩; cases h
      · intro h; exact absurd h hne
    · rename_i hz
      constructor
      · intro _; simpa using hz
      · intro _; exact ⟨_, rfl⟩
  rw [hok]
  have hany : ∀ i, (flagList.any (fun p => isSet value p.2 && p.2.testBit i)) =
      ((value.testBit 0 && decide (0 = i)) || (value.testBit 1 && decide (1 = i)) || (value.testBit 2 && decide (2 = i)) ||
        ((value.testBit 0 && value.testBit 3) && (decide (0 = i) || decide (3 = i))) ||
        (value.testBit 4 && decide (4 = i)) ||
        ((value.testBit 4 && value.testBit 5) && (decide (4 = i) || decide (5 = i))) ||
        (value.testBit 6 && decide (6 = i)) || (value.testBit 7 && decide (7 = i)) ||
        (value.testBit 8 && decide (8 = i)) || (value.testBit 9 && decide (9 = i))) := by
    intro i
    unfold flagList IS_MONOTONIC MISSING_NOT_LEARNED IS_CONTINUOUS IS_ORDERED IS_UNORDERED HAS_MISSING USE_ORIGINAL
      CORR_TO_WIDTH IS_LINEAR IS_SEASONAL
    simp only [List.any_cons, List.any_nil, isSet_bit, isSet_bits, Nat.testBit_or, testBit_shift, Bool.or_false,
      Bool.or_assoc]
  constructor
  · intro hz
    have h3 : ∀ i, (value.testBit i && !(flagList.any (fun p => isSet value p.2 && p.2.testBit i))) = false := by
      intro i
      have := h2 i
      rw [hz, Nat.zero_testBit] at this
      exact this.symm
    refine ⟨?_, ?_, ?_⟩
    · intro i hi
      have h4 := h3 i
      rw [hany i] at h4
      have e : ∀ k, k < 10 → decide (k = i) = false := by intro k hk; rw [decide_eq_false_iff_not]; omega
      simpa [e 0 (by omega), e 1 (by omega), e 2 (by omega), e 3 (by omega), e 4 (by omega), e 5 (by omega),
        e 6 (by omega), e 7 (by omega), e 8 (by omega), e 9 (by omega)] using h4
    · intro hb
      have h4 := h3 3
      rw [hany 3] at h4
      simpa [hb] using h4
    · intro hb
      have h4 := h3 5
      rw [hany 5] at h4
      simpa [hb] using h4
  · rintro ⟨ha, hb, hc⟩
    apply Nat.eq_of_testBit_eq
    intro i
    rw [h2 i, hany i, Nat.zero_testBit]
    clear h1 h2 hok hany
    by_cases hi : 10 ≤ i
    · simp [ha i hi]
    · have : i = 0 ∨ i = 1 ∨ i = 2 ∨ i = 3 ∨ i = 4 ∨ i = 5 ∨ i = 6 ∨ i = 7 ∨ i = 8 ∨ i = 9 := by omega
      rcases this with rfl | rfl | rfl | rfl | rfl | rfl | rfl | rfl | rfl | rfl
      all_goals
        clear ha hi
        revert hb hc
        cases value.testBit 0 <;> cases value.testBit 3 <;> cases value.testBit 4 <;> cases value.testBit 5 <;> simp

/-- **C15** fails: every feature property with INCREASING, DECREASING or HAS_MAGIC_INT_MISSING makes `flags_to_string`
raise a `ValueError`, although the consistency check accepts such properties. -/
theorem C15_increasing_not_printable (fp : ℕ) (hset : isSet fp INCREASING = true ∨ isSet fp DECREASING = true ∨
    isSet fp HAS_MAGIC_INT_MISSING = true) : ¬ ∃ names, toNames fp = .ok names := by
  rw [C15_printable_iff_partial]
  rintro ⟨h, _, _⟩
  unfold INCREASING DECREASING HAS_MAGIC_INT_MISSING HAS_MISSING at hset
  simp only [isSet_bit, isSet_bits, Bool.and_eq_true] at hset
  rcases hset with h' | h' | ⟨_, h'⟩
  · rw [h 11 (by omega)] at h'; cases h'
  · rw [h 12 (by omega)] at h'; cases h'
  · rw [h 10 (by omega)] at h'; cases h'

example : checkConsistency (IS_CONTINUOUS ||| INCREASING) = .ok () ∧
    (toNames (IS_CONTINUOUS ||| INCREASING)).isOk = false := by decide +kernel

example : flagsToString (IS_MONOTONIC ||| HAS_MISSING) = .ok "IS_CONTINUOUS | IS_MONOTONIC | HAS_MISSING" := by
  decide +kernel

end CB.Flags
