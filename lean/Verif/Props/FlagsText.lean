import Verif.Props.Flags

set_option autoImplicit false

/-!
C15, the text itself: the names are joined with " | ", and the joined text still identifies the feature property.
-/
namespace CB

open Flags

/-- Words without a bar, joined with a separator that starts with a character that is not a bar and contains one, can be
recovered from the joined text. -/
theorem joined_injective (c d : Char) (hc : c ≠ '|') (l m : List (List Char)) (hl : ∀ x ∈ l, '|' ∉ x) (hm : ∀ x ∈ m, '|' ∉ x)
    (hl0 : l ≠ []) (hm0 : m ≠ [])
    (h : List.intercalate [c, '|', d] l = List.intercalate [c, '|', d] m) : l = m := by
  have split : ∀ (a b s t : List Char), '|' ∉ a → '|' ∉ b → a ++ '|' :: s = b ++ '|' :: t → a = b ∧ s = t := by
    intro a
    induction a with
    | nil =>
      intro b s t _ hb hab
      cases b with
      | nil => simpa using hab
      | cons x b => simp at hab hb; exact absurd hab.1 hb.1
    | cons x a ih =>
      intro b s t ha hb hab
      cases b with
      | nil => simp at hab ha; exact absurd hab.1.symm ha.1
      | cons y b =>
        simp only [List.cons_append, List.cons.injEq, List.mem_cons, not_or] at hab ha hb
        obtain ⟨h1, h2⟩ := ih b s t ha.2 hb.2 hab.2
        exact ⟨by rw [hab.1, h1], h2⟩
  induction l generalizing m with
  | nil => exact absurd rfl hl0
  | cons x l ih =>
    cases m with
    | nil => exact absurd rfl hm0
    | cons y m =>
      have hx := hl x (by simp)
      have hy := hm y (by simp)
      cases l with
      | nil =>
        cases m with
        | nil => simpa [List.intercalate] using h
        | cons z m =>
          exfalso
          simp only [List.intercalate, List.intersperse_singleton, List.intersperse_cons_cons, List.flatten_cons,
            List.flatten_nil, List.append_nil] at h
          rw [h] at hx
          simp at hx
      | cons w l =>
        cases m with
        | nil =>
          exfalso
          simp only [List.intercalate, List.intersperse_singleton, List.intersperse_cons_cons, List.flatten_cons,
            List.flatten_nil, List.append_nil] at h
          rw [← h] at hy
          simp at hy
        | cons z m =>
          have h' : (x ++ [c]) ++ '|' :: (d :: List.intercalate [c, '|', d] (w :: l)) =
              (y ++ [c]) ++ '|' :: (d :: List.intercalate [c, '|', d] (z :: m)) := by
            simpa [List.intercalate] using h
          obtain ⟨h1, h2⟩ := split _ _ _ _ (by simp [hx, hc.symm]) (by simp [hy, hc.symm]) h'
          have h3 := ih (z :: m) (fun u hu => hl u (by simp [hu])) (fun u hu => hm u (by simp [hu])) (by simp) (by simp)
            (by simpa using h2)
          rw [List.append_cancel_right h1, h3]

/-- **C15**, the text identifies the feature property: two different feature properties are never printed alike. (The
feature property 0, which sets no flag, is the only one with an empty text.) -/
theorem C15_text_identifies (a b : ℕ) (s : String) (ha : flagsToString a = .ok s) (hb : flagsToString b = .ok s) :
    a = b := by
  have key : ∀ v : ℕ, flagsToString v = .ok s → ∃ names, toNames v = .ok names ∧ String.intercalate " | " names = s := by
    intro v h
    unfold flagsToString at h
    cases hn : toNames v with
    | error e => rw [hn] at h; cases h
    | ok names => rw [hn] at h; injection h with h; exact ⟨names, rfl, h⟩
  have word : ∀ p ∈ flagList, '|' ∉ p.1.toList ∧ p.1.toList ≠ [] := by
    intro p hp
    simp only [flagList, List.mem_cons, List.not_mem_nil, or_false] at hp
    rcases hp with rfl | rfl | rfl | rfl | rfl | rfl | rfl | rfl | rfl | rfl <;> decide
  obtain ⟨na, hna, hsa⟩ := key a ha
  obtain ⟨nb, hnb, hsb⟩ := key b hb
  obtain ⟨ea, va⟩ := C15_faithful a na hna
  obtain ⟨eb, vb⟩ := C15_faithful b nb hnb
  have words : ∀ v : ℕ, ∀ x ∈ ((flagList.filter (fun p => isSet v p.2)).map Prod.fst).map String.toList,
      '|' ∉ x ∧ x ≠ [] := by
    intro v x hx
    simp only [List.mem_map, List.mem_filter] at hx
    obtain ⟨t, ⟨p, ⟨hp, _⟩, rfl⟩, rfl⟩ := hx
    exact word p hp
  have wa : ∀ x ∈ na.map String.toList, '|' ∉ x ∧ x ≠ [] := by rw [ea]; exact words a
  have wb : ∀ x ∈ nb.map String.toList, '|' ∉ x ∧ x ≠ [] := by rw [eb]; exact words b
  have hj : List.intercalate [' ', '|', ' '] (na.map String.toList) =
      List.intercalate [' ', '|', ' '] (nb.map String.toList) := by
    have h := congrArg String.toList (hsa.trans hsb.symm)
    rw [String.toList_intercalate, String.toList_intercalate] at h
    exact h
  have empty : ∀ l : List (List Char), (∀ x ∈ l, '|' ∉ x ∧ x ≠ []) → List.intercalate [' ', '|', ' '] l = [] → l = [] := by
    intro l hl h
    cases l with
    | nil => rfl
    | cons x l =>
      have := (hl x (by simp)).2
      cases l with
      | nil => simp [List.intercalate] at h; exact absurd h this
      | cons y l => simp [List.intercalate] at h
  have same : na.map String.toList = nb.map String.toList := by
    by_cases h1 : na.map String.toList = []
    · rw [h1] at hj ⊢
      exact (empty _ wb (by rw [← hj]; rfl)).symm
    · by_cases h2 : nb.map String.toList = []
      · rw [h2] at hj
        exact absurd (empty _ wa (by rw [hj]; rfl)) h1
      · exact joined_injective ' ' ' ' (by decide) _ _ (fun x hx => (wa x hx).1) (fun x hx => (wb x hx).1) h1 h2 hj
  have hnames : na = nb := (List.map_inj_right fun _ _ h => String.toList_injective h).mp same
  -- the names determine the flags
  have inj : ∀ p ∈ flagList, ∀ q ∈ flagList, p.1 = q.1 → p = q := by decide
  have flags : flagList.filter (fun p => isSet a p.2) = flagList.filter (fun p => isSet b p.2) := by
    refine List.filter_congr ?_
    intro p hp
    rw [Bool.eq_iff_iff]
    have mem : ∀ v : ℕ, p.1 ∈ (flagList.filter (fun p => isSet v p.2)).map Prod.fst ↔ isSet v p.2 = true := by
      intro v
      simp only [List.mem_map, List.mem_filter]
      constructor
      · rintro ⟨q, ⟨hq, hv⟩, e⟩
        rw [← inj q hq p hp e]; exact hv
      · intro hv; exact ⟨p, ⟨hp, hv⟩, rfl⟩
    rw [← mem a, ← mem b, ← ea, ← eb, hnames]
  rw [← va, ← vb, flags]

/-- The text of a feature property. -/
example : flagsToString (IS_LINEAR ||| IS_MONOTONIC ||| HAS_MISSING) =
    .ok "IS_CONTINUOUS | IS_MONOTONIC | HAS_MISSING | IS_LINEAR" := by
  decide +kernel

end CB
