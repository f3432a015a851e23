import Verif.Props.Predict
import Mathlib.Algebra.BigOperators.Group.Finset.Basic
import Mathlib.Algebra.BigOperators.Group.Finset.Piecewise

set_option autoImplicit false
set_option linter.unusedSectionVars false

/-!
C26 (influence categories) and C27 (removing a contribution undoes adding it).
-/
namespace CB

/-- Specification of the category of a feature: the entry of its group, else, for a single column, the entry of the column. -/
def Spec.assigned (c : Categories) (group : List String) : Option String :=
  match c.byGroup group with
  | some k => some k
  | none =>
    match group with
    | [name] => c.byName name
    | _ => none

section
variable {K : Type*} [Field K]

theorem getInfluenceCategory_eq (group : List String) (c : Categories) :
    getInfluenceCategory group (some c) =
      match Spec.assigned c group with
      | some k => .ok (some k)
      | none => .error .keyError := by
  unfold getInfluenceCategory Spec.assigned
  simp only
  cases c.byGroup group with
  | some k => rfl
  | none =>
    match group with
    | [] => rfl
    | [name] => simp only; cases c.byName name <;> rfl
    | _ :: _ :: _ => rfl

/-- Sum of the contributions of the features of category `k` to sample `s`. -/
def categorySum (c : Categories) (L : List (List String × Bool × (ℕ → K))) (k : String) (s : ℕ) : K :=
  ((L.filter (fun f => Spec.assigned c f.1 = some k)).map (fun f => f.2.2 s)).sum

/-- Sum of all contributions to sample `s`. -/
def totalSum (L : List (List String × Bool × (ℕ → K))) (s : ℕ) : K := (L.map (fun f => f.2.2 s)).sum

/-- One update of the frame with a category other than "factors". -/
theorem update_cat (df : Frame K) (p v : ℕ → K) (group : List String) (c : Categories) (k : String)
    (hf : df "factors" = some p) (hk : Spec.assigned c group = some k) (hne : k ≠ "factors") :
    df.update v group false (some c) = .ok (fun name =>
      if name = k then some (fun s => (match df k with | some old => old s | none => 0) + v s)
      else if name = "factors" then some (fun s => p s + v s) else df name) := by
  unfold Frame.update
  rw [getInfluenceCategory_eq, hk]
  simp only [Bool.false_eq_true, if_false]
  unfold Frame.includeFactor Frame.addTo
  rw [hf]
  simp only
  have hk' : (df.set "factors" fun s => p s + v s) k = df k := by
    unfold Frame.set; rw [if_neg hne]
  rw [hk']
  cases hd : df k with
  | some old =>
    simp only
    congr 1
  | none =>
    simp only
    congr 1
    funext name
    unfold Frame.set
    by_cases hn : name = k
    · simp [hn]
    · simp [hn]

theorem extendFrame_cats (c : Categories) :
    ∀ (L : List (List String × Bool × (ℕ → K))) (df : Frame K) (p : ℕ → K), df "factors" = some p →
      (∀ f ∈ L, f.2.1 = false) →
      (∀ f ∈ L, ∃ k, Spec.assigned c f.1 = some k ∧ k ≠ "factors") →
      ∃ df', extendFrame (some c) L df = .ok df' ∧ df' "factors" = some (fun s => p s + totalSum L s) ∧
        ∀ k, k ≠ "factors" → df' k =
          if ∃ f ∈ L, Spec.assigned c f.1 = some k
          then some (fun s => (match df k with | some old => old s | none => 0) + categorySum c L k s)
          else df k := by
  intro L
  induction L with
  | nil =>
    intro df p hf _ _
    refine ⟨df, rfl, by simp [totalSum, hf], ?_⟩
    intro k _
    simp
  | cons f L ih =>
    intro df p hf hstd hcat
    obtain ⟨k0, hk0, hne0⟩ := hcat f (by simp)
    obtain ⟨group, ext, v⟩ := f
    have hext : ext = false := hstd _ (List.mem_cons_self)
    subst hext
    have hu := update_cat df p v group c k0 hf hk0 hne0
    set df1 : Frame K := (fun name =>
      if name = k0 then some (fun s => (match df k0 with | some old => old s | none => 0) + v s)
      else if name = "factors" then some (fun s => p s + v s) else df name) with hdf1
    have hf1 : df1 "factors" = some (fun s => p s + v s) := by
      rw [hdf1]
      simp only
      rw [if_neg (fun h => hne0 h.symm)]
      simp
    obtain ⟨df', he, h1, h2⟩ := ih df1 _ hf1 (fun f hf' => hstd f (by simp [hf'])) (fun f hf' => hcat f (by simp [hf']))
    refine ⟨df', ?_, ?_, ?_⟩
    · unfold extendFrame
      rw [hu]
      exact he
    · rw [h1]
      congr 1
      funext s
      simp only [totalSum, List.map_cons, List.sum_cons]
      ring
    · intro k hk
      rw [h2 k hk]
      by_cases hkk : k = k0
      · subst hkk
        have hd1 : df1 k = some (fun s => (match df k with | some old => old s | none => 0) + v s) := by
          rw [hdf1]; simp
        have hex : ∃ f ∈ (group, false, v) :: L, Spec.assigned c f.1 = some k := ⟨_, List.mem_cons_self, hk0⟩
        rw [if_pos hex]
        have hcs : ∀ s, categorySum c ((group, false, v) :: L) k s = v s + categorySum c L k s := by
          intro s
          have hk0' : Spec.assigned c group = some k := hk0
          simp [categorySum, hk0']
        by_cases hexL : ∃ f ∈ L, Spec.assigned c f.1 = some k
        · rw [if_pos hexL, hd1]
          congr 1
          funext s
          simp only [hcs]
          ring
        · rw [if_neg hexL, hd1]
          congr 1
          funext s
          rw [hcs]
          have : categorySum c L k s = 0 := by
            unfold categorySum
            have : L.filter (fun f => Spec.assigned c f.1 = some k) = [] := by
              rw [List.filter_eq_nil_iff]
              intro f hf' hc
              exact hexL ⟨f, hf', by simpa using hc⟩
            rw [this]; rfl
          rw [this, add_zero]
      · have hd1 : df1 k = df k := by
          rw [hdf1]
          simp only
          rw [if_neg hkk, if_neg hk]
        have hne : Spec.assigned c group ≠ some k := by
          rw [show Spec.assigned c group = some k0 from hk0]
          intro h
          exact hkk (Option.some.inj h).symm
        have hiff : (∃ f ∈ (group, false, v) :: L, Spec.assigned c f.1 = some k) ↔ ∃ f ∈ L, Spec.assigned c f.1 = some k := by
          constructor
          · rintro ⟨f, hf', hfk⟩
            rcases List.mem_cons.mp hf' with rfl | hf'
            · exact absurd hfk hne
            · exact ⟨f, hf', hfk⟩
          · rintro ⟨f, hf', hfk⟩
            exact ⟨f, by simp [hf'], hfk⟩
        have hcs : ∀ s, categorySum c ((group, false, v) :: L) k s = categorySum c L k s := by
          intro s
          simp [categorySum, hne]
        rw [hd1]
        simp only [hiff, hcs]

theorem sum_categories (c : Categories) (ks : Finset String) (s : ℕ) :
    ∀ (L : List (List String × Bool × (ℕ → K))), (∀ f ∈ L, ∃ k ∈ ks, Spec.assigned c f.1 = some k) →
      ∑ k ∈ ks, categorySum c L k s = totalSum L s := by
  intro L
  induction L with
  | nil => intro _; simp [categorySum, totalSum]
  | cons f L ih =>
    intro h
    obtain ⟨k0, hk0, hk1⟩ := h f (by simp)
    have h1 : ∀ k, categorySum c (f :: L) k s = (if k = k0 then f.2.2 s else 0) + categorySum c L k s := by
      intro k
      unfold categorySum
      by_cases hk : k = k0
      · subst hk
        simp [hk1]
      · have : ¬ (k0 = k) := fun h => hk h.symm
        simp [hk1, hk, this]
    simp only [h1]
    rw [Finset.sum_add_distrib, ih (fun f hf => h f (by simp [hf])), Finset.sum_ite_eq' ks k0, if_pos hk0]
    simp [totalSum]

/-- **C26.** If every feature is assigned a category and none is called "factors", then `predict_extended` succeeds, the
column of each category (absent means 0) is the sum of the contributions of its features, and the category columns sum,
together with the prior prediction, to the full prediction in link space. -/
theorem C26_partition (c : Categories) (L : List (List String × Bool × (ℕ → K))) (prior : ℕ → K)
    (hstd : ∀ f ∈ L, f.2.1 = false) (ks : Finset String) (hks : "factors" ∉ ks)
    (hcat : ∀ f ∈ L, ∃ k ∈ ks, Spec.assigned c f.1 = some k) :
    ∃ df, extendFrame (some c) L (factorsFrame prior) = .ok df ∧
      (∀ k ∈ ks, ∀ s, ((df k).getD (fun _ => 0)) s = categorySum c L k s) ∧
      ∃ full, df "factors" = some full ∧
        ∀ s, full s = prior s + totalSum L s ∧ full s = prior s + ∑ k ∈ ks, ((df k).getD (fun _ => 0)) s := by
  obtain ⟨df, he, h1, h2⟩ := extendFrame_cats c L (factorsFrame prior) prior (by simp [factorsFrame]) hstd
    (fun f hf => by
      obtain ⟨k, hk, hk'⟩ := hcat f hf
      exact ⟨k, hk', fun h => hks (h ▸ hk)⟩)
  have hcol : ∀ k ∈ ks, ∀ s, ((df k).getD (fun _ => 0)) s = categorySum c L k s := by
    intro k hk s
    have hne : k ≠ "factors" := fun h => hks (h ▸ hk)
    have hnone : factorsFrame prior k = none := by simp [factorsFrame, hne]
    rw [h2 k hne, hnone]
    by_cases hex : ∃ f ∈ L, Spec.assigned c f.1 = some k
    · rw [if_pos hex]
      simp
    · rw [if_neg hex]
      unfold categorySum
      have : L.filter (fun f => Spec.assigned c f.1 = some k) = [] := by
        rw [List.filter_eq_nil_iff]
        intro f hf' hc
        exact hex ⟨f, hf', by simpa using hc⟩
      rw [this]; rfl
  refine ⟨df, he, hcol, _, h1, ?_⟩
  intro s
  refine ⟨rfl, ?_⟩
  congr 1
  rw [← sum_categories c ks s L hcat]
  exact (Finset.sum_congr rfl (fun k hk => hcol k hk s)).symm

/-- **C26**, missing assignment: `predict_extended` raises `KeyError` exactly when a feature has no category. -/
theorem C26_missing_assignment (c : Categories) (L : List (List String × Bool × (ℕ → K))) (prior : ℕ → K)
    (hstd : ∀ f ∈ L, f.2.1 = false) :
    extendFrame (some c) L (factorsFrame prior) = .error .keyError ↔ ∃ f ∈ L, Spec.assigned c f.1 = none := by
  have gen : ∀ (L : List (List String × Bool × (ℕ → K))) (df : Frame K), (df "factors").isSome → (∀ f ∈ L, f.2.1 = false) →
      (extendFrame (some c) L df = .error .keyError ↔ ∃ f ∈ L, Spec.assigned c f.1 = none) := by
    intro L
    induction L with
    | nil => intro df _ _; simp [extendFrame]
    | cons f L ih =>
      intro df hdf hstd
      obtain ⟨group, ext, v⟩ := f
      have hext : ext = false := hstd _ (List.mem_cons_self)
      subst hext
      have hstd' : ∀ f ∈ L, f.2.1 = false := fun f hf => hstd f (by simp [hf])
      unfold extendFrame Frame.update
      rw [getInfluenceCategory_eq]
      cases ha : Spec.assigned c group with
      | none => simp [ha]
      | some k =>
        obtain ⟨p, hp⟩ := Option.isSome_iff_exists.mp hdf
        simp only [Bool.false_eq_true, if_false]
        unfold Frame.includeFactor Frame.addTo
        rw [hp]
        simp only
        have hiff : (∃ f ∈ (group, false, v) :: L, Spec.assigned c f.1 = none) ↔ ∃ f ∈ L, Spec.assigned c f.1 = none := by
          simp [ha]
        rw [hiff]
        split
        · rename_i e he
          split at he <;> cases he
        · rename_i df' he
          apply ih _ _ hstd'
          split at he
          · injection he with he
            rw [← he]
            unfold Frame.set
            simp only
            split
            · simp
            · simp
          · injection he with he
            rw [← he]
            unfold Frame.set
            simp only
            split
            · simp
            · simp
  exact gen L (factorsFrame prior) (by simp [factorsFrame]) hstd

/-- **C26** needs the category names to differ from "factors": with that name the contribution is counted twice. -/
theorem C26_reserved_name :
    ∃ (c : Categories) (v : ℕ → ℚ) (df : Frame ℚ), extendFrame (some c) [(["a"], false, v)] (factorsFrame (fun _ => 0)) = .ok df ∧
      (df "factors").map (fun f => f 0) = some 2 ∧ v 0 = 1 :=
  ⟨⟨fun _ => some "factors", fun _ => none⟩, fun _ => 1, _, rfl, by decide +kernel, rfl⟩

/-! ### C27 -/

/-- **C27**, add then remove: removing a contribution that was added succeeds and restores every column; a category column
that did not exist before is left behind with zeros. -/
theorem C27_remove_after_add (df df1 : Frame K) (v : ℕ → K) (group : List String) (external : Bool) (cats : Option Categories)
    (h : df.update v group external cats = .ok df1) :
    ∃ df2, df1.remove v group external cats = .ok df2 ∧
      ∀ k, df2 k = df k ∨ (df k = none ∧ df2 k = some (fun _ => 0) ∧
        ∃ c, cats = some c ∧ Spec.assigned c group = some k) := by
  unfold Frame.update at h
  cases external with
  | true =>
    simp only [if_true] at h
    unfold Frame.addTo at h
    cases he : df "exponents" with
    | none => rw [he] at h; cases h
    | some old =>
      rw [he] at h
      injection h with h
      subst h
      refine ⟨(df.set "exponents" fun s => old s + v s).set "exponents" (fun s => old s + v s - v s), ?_, ?_⟩
      · unfold Frame.remove Frame.subFrom
        simp [Frame.set]
      · intro k
        left
        unfold Frame.set
        by_cases hk : k = "exponents"
        · simp [hk, he]
        · simp [hk]
  | false =>
    simp only [Bool.false_eq_true, if_false] at h
    cases hg : getInfluenceCategory group cats with
    | error e => rw [hg] at h; cases h
    | ok cat =>
      rw [hg] at h
      simp only at h
      have hcat : ∀ k, cat = some k → ∃ c, cats = some c ∧ Spec.assigned c group = some k := by
        intro k hk
        cases cats with
        | none => rw [hk] at hg; cases hg
        | some c =>
          refine ⟨c, rfl, ?_⟩
          rw [getInfluenceCategory_eq] at hg
          cases ha : Spec.assigned c group with
          | none => rw [ha] at hg; cases hg
          | some k' => rw [ha] at hg; injection hg with hg; rw [hg, hk]
      unfold Frame.includeFactor Frame.addTo at h
      cases hf : df "factors" with
      | none => rw [hf] at h; cases h
      | some p =>
        rw [hf] at h
        simp only at h
        cases cat with
        | none =>
          injection h with h
          subst h
          refine ⟨(df.set "factors" fun s => p s + v s).set "factors" (fun s => p s + v s - v s), ?_, ?_⟩
          · unfold Frame.remove Frame.removeFactor Frame.subFrom
            simp [hg, Frame.set]
          · intro k
            left
            unfold Frame.set
            by_cases hk : k = "factors"
            · simp [hk, hf]
            · simp [hk]
        | some k0 =>
          simp only at h
          by_cases hk0 : k0 = "factors"
          · subst hk0
            have : (df.set "factors" fun s => p s + v s) "factors" = some (fun s => p s + v s) := by simp [Frame.set]
            rw [this] at h
            injection h with h
            subst h
            refine ⟨df, ?_, fun k => Or.inl rfl⟩
            unfold Frame.remove Frame.removeFactor Frame.subFrom
            simp only [hg, Frame.set, Bool.false_eq_true, if_false, if_true, add_sub_cancel_right]
            congr 1
            funext k
            by_cases hk : k = "factors"
            · simp [hk, hf, Frame.set]
            · simp [hk, Frame.set]
          · have hk' : (df.set "factors" fun s => p s + v s) k0 = df k0 := by unfold Frame.set; rw [if_neg hk0]
            have hk0' : ¬ "factors" = k0 := fun h => hk0 h.symm
            rw [hk'] at h
            cases hd : df k0 with
            | some old =>
              rw [hd] at h
              injection h with h
              subst h
              refine ⟨df, ?_, fun k => Or.inl rfl⟩
              unfold Frame.remove Frame.removeFactor Frame.subFrom
              simp only [hg, Frame.set, Bool.false_eq_true, if_false, if_true, hk0, hk0', add_sub_cancel_right]
              congr 1
              funext k
              by_cases hk : k = "factors"
              · simp [hk, hf, hk0', Frame.set]
              · by_cases hkk : k = k0
                · simp [hkk, hd, Frame.set]
                · simp [hk, hkk, Frame.set]
            | none =>
              rw [hd] at h
              injection h with h
              subst h
              refine ⟨df.set k0 (fun _ => 0), ?_, ?_⟩
              · unfold Frame.remove Frame.removeFactor Frame.subFrom
                simp only [hg, Frame.set, Bool.false_eq_true, if_false, if_true, hk0, hk0', add_sub_cancel_right, sub_self]
                congr 1
                funext k
                by_cases hk : k = "factors"
                · simp [hk, hf, hk0', Frame.set]
                · by_cases hkk : k = k0
                  · simp [hkk, Frame.set]
                  · simp [hk, hkk, Frame.set]
              · intro k
                by_cases hkk : k = k0
                · right
                  subst hkk
                  exact ⟨hd, by simp [Frame.set], hcat _ rfl⟩
                · left
                  simp [hkk, Frame.set]

end

/-- **C27** is false in the other order when the category has no column yet: removing stores plus the contribution instead of
minus, so adding it afterwards leaves twice the contribution in the category column (it should be 0). -/
theorem C27_add_after_remove_counterexample :
    ∃ (c : Categories) (v : ℕ → ℚ) (df1 df2 : Frame ℚ),
      (factorsFrame (fun _ => 0)).remove v ["a"] false (some c) = .ok df1 ∧ df1.update v ["a"] false (some c) = .ok df2 ∧
        (df2 "price").map (fun f => f 0) = some 2 ∧ v 0 = 1 :=
  ⟨⟨fun _ => some "price", fun _ => none⟩, fun _ => 1, _, _, rfl, rfl, by decide +kernel, rfl⟩

section
variable {K : Type*} [Field K]

/-- **C27**, remove then add, for features without category or whose category column exists: all columns are restored. -/
theorem C27_add_after_remove_partial (df df1 : Frame K) (v : ℕ → K) (group : List String) (external : Bool)
    (cats : Option Categories) (hex : ∀ c k, cats = some c → Spec.assigned c group = some k → (df k).isSome)
    (h : df.remove v group external cats = .ok df1) :
    df1.update v group external cats = .ok df := by
  unfold Frame.remove at h
  cases external with
  | true =>
    simp only [if_true] at h
    unfold Frame.subFrom at h
    cases he : df "exponents" with
    | none => rw [he] at h; cases h
    | some old =>
      rw [he] at h
      injection h with h
      subst h
      unfold Frame.update Frame.addTo
      simp only [Frame.set, if_true, sub_add_cancel]
      congr 1
      funext k
      by_cases hk : k = "exponents"
      · simp [hk, he, Frame.set]
      · simp [hk, Frame.set]
  | false =>
    simp only [Bool.false_eq_true, if_false] at h
    cases hg : getInfluenceCategory group cats with
    | error e => rw [hg] at h; cases h
    | ok cat =>
      rw [hg] at h
      simp only at h
      have hcat : ∀ k, cat = some k → (df k).isSome := by
        intro k hk
        cases cats with
        | none => rw [hk] at hg; cases hg
        | some c =>
          apply hex c k rfl
          rw [getInfluenceCategory_eq] at hg
          cases ha : Spec.assigned c group with
          | none => rw [ha] at hg; cases hg
          | some k' => rw [ha] at hg; injection hg with hg; rw [hg, hk]
      unfold Frame.removeFactor Frame.subFrom at h
      cases hf : df "factors" with
      | none => rw [hf] at h; cases h
      | some p =>
        rw [hf] at h
        simp only at h
        unfold Frame.update Frame.includeFactor Frame.addTo
        simp only [hg, Bool.false_eq_true, if_false]
        cases cat with
        | none =>
          injection h with h
          subst h
          simp only [Frame.set, if_true, sub_add_cancel]
          congr 1
          funext k
          by_cases hk : k = "factors"
          · simp [hk, hf, Frame.set]
          · simp [hk, Frame.set]
        | some k0 =>
          simp only at h
          obtain ⟨old, hold⟩ := Option.isSome_iff_exists.mp (hcat k0 rfl)
          by_cases hk0 : k0 = "factors"
          · subst hk0
            simp only [Frame.set, if_true] at h
            injection h with h
            subst h
            simp only [Frame.set, if_true]
            congr 1
            funext k
            by_cases hk : k = "factors"
            · simp [hk, hf, Frame.set]
            · simp [hk, Frame.set]
          · have hk0' : ¬ "factors" = k0 := fun h => hk0 h.symm
            simp only [Frame.set, hk0, if_false, hold] at h
            injection h with h
            subst h
            simp only [Frame.set, hk0, hk0', if_true, if_false, sub_add_cancel]
            congr 1
            funext k
            by_cases hk : k = "factors"
            · simp [hk, hf, hk0', Frame.set]
            · by_cases hkk : k = k0
              · simp [hkk, hold, Frame.set]
              · simp [hk, hkk, Frame.set]

end

/-- Witness for C26 and C27: two features with two categories, one of them found under its bare column name. -/
example :
    let c : Categories := ⟨fun g => if g = ["a", "b"] then some "store" else none, fun n => if n = "p" then some "price" else none⟩
    Spec.assigned c ["a", "b"] = some "store" ∧ Spec.assigned c ["p"] = some "price" ∧
    ((extendFrame (some c) [(["a", "b"], false, fun _ => (3 : ℚ)), (["p"], false, fun s => s)] (factorsFrame (fun _ => 1/2))).toOption.map
      (fun df => ((df "store").map (· 5), (df "price").map (· 5), (df "factors").map (· 5))))
      = some (some 3, some 5, some (17/2)) := by decide +kernel

end CB
