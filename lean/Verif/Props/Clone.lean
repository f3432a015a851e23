import Verif.Spec.Clone
import Mathlib.Tactic.Common

/-!
# Reconstructed estimators (C113)
-/

set_option autoImplicit false

namespace CB
open Spec

mutual
theorem deepcopy_content : ∀ (x : PyObj) (a : ℕ), content (deepcopy x a).1 = content x
  | .atom v, a => by simp [deepcopy, content]
  | .coll b k items, a => by simp [deepcopy, content, deepcopyAll_content items]
  | .other b c ks fs, a => by simp [deepcopy, content, deepcopyAll_content fs]
  | .est b c nd ns ps as st, a => by simp [deepcopy, content, deepcopyAll_content ps, deepcopyAll_content st]
theorem deepcopyAll_content : ∀ (xs : List PyObj) (a : ℕ), contentAll (deepcopyAll xs a).1 = contentAll xs
  | [], a => by simp [deepcopyAll, contentAll]
  | x :: xs, a => by simp [deepcopyAll, contentAll, deepcopy_content x, deepcopyAll_content xs]
end

mutual
theorem deepcopy_fresh : ∀ (x : PyObj) (a : ℕ), a ≤ (deepcopy x a).2 ∧ ∀ b ∈ addresses (deepcopy x a).1, a ≤ b ∧ b < (deepcopy x a).2
  | .atom v, a => by simp [deepcopy, addresses]
  | .coll b k items, a => by
    have h := deepcopyAll_fresh items (a + 1)
    simp only [deepcopy, addresses, List.mem_cons]
    refine ⟨by omega, fun c hc => ?_⟩
    rcases hc with rfl | hc
    · omega
    · have := h.2 c hc; omega
  | .other b cl ks fs, a => by
    have h := deepcopyAll_fresh fs (a + 1)
    simp only [deepcopy, addresses, List.mem_cons]
    refine ⟨by omega, fun c hc => ?_⟩
    rcases hc with rfl | hc
    · omega
    · have := h.2 c hc; omega
  | .est b cl nd ns ps as st, a => by
    have h := deepcopyAll_fresh ps (a + 1)
    have h' := deepcopyAll_fresh st (deepcopyAll ps (a + 1)).2
    simp only [deepcopy, addresses, List.mem_cons, List.mem_append]
    refine ⟨by omega, fun c hc => ?_⟩
    rcases hc with rfl | hc | hc
    · omega
    · have := h.2 c hc; omega
    · have := h'.2 c hc; omega
theorem deepcopyAll_fresh : ∀ (xs : List PyObj) (a : ℕ),
    a ≤ (deepcopyAll xs a).2 ∧ ∀ b ∈ addressesAll (deepcopyAll xs a).1, a ≤ b ∧ b < (deepcopyAll xs a).2
  | [], a => by simp [deepcopyAll, addressesAll]
  | x :: xs, a => by
    have h := deepcopy_fresh x a
    have h' := deepcopyAll_fresh xs (deepcopy x a).2
    simp only [deepcopyAll, addressesAll, List.mem_append]
    refine ⟨by omega, fun c hc => ?_⟩
    rcases hc with hc | hc
    · have := h.2 c hc; omega
    · have := h'.2 c hc; omega
end

mutual
/-- **C113**, settings: the clone has the content of the original before anything was fitted. -/
theorem C113_settings (safe : Bool) : ∀ (x : PyObj) (a : ℕ) (y : PyObj) (a' : ℕ), clone safe x a = .ok (y, a') →
    content y = unfitted x
  | .atom v, a, y, a', h => by
    cases safe <;> simp [clone] at h
    rw [← h.1]; simp [content, unfitted]
  | .coll b k items, a, y, a', h => by
    simp only [clone] at h
    split at h
    · cases h
    · rename_i r hr
      simp only [Except.ok.injEq, Prod.mk.injEq] at h
      rw [← h.1]
      simp [content, unfitted, clone_all_settings safe items _ _ _ hr]
  | .other b c ks fs, a, y, a', h => by
    cases safe <;> simp only [clone, Bool.false_eq_true, if_false, if_true, Except.ok.injEq, reduceCtorEq] at h
    have := deepcopy_content (.other b c ks fs) a
    rw [h] at this
    simpa [unfitted] using this
  | .est b c nd ns ps as st, a, y, a', h => by
    simp only [clone] at h
    split at h
    · cases h
    · rename_i r hr
      simp only [Except.ok.injEq, Prod.mk.injEq] at h
      rw [← h.1]
      simp [content, contentAll, unfitted, clone_params_settings nd ns ps _ _ _ hr]
theorem clone_all_settings (safe : Bool) : ∀ (xs : List PyObj) (a : ℕ) (ys : List PyObj) (a' : ℕ), cloneAll safe xs a = .ok (ys, a') →
    contentAll ys = unfittedAll xs
  | [], a, ys, a', h => by
    simp only [cloneAll, Except.ok.injEq, Prod.mk.injEq] at h
    rw [← h.1]; simp [contentAll, unfittedAll]
  | x :: xs, a, ys, a', h => by
    simp only [cloneAll] at h
    split at h
    · cases h
    · rename_i r hr
      split at h
      · cases h
      · rename_i rs hrs
        simp only [Except.ok.injEq, Prod.mk.injEq] at h
        rw [← h.1]
        simp [contentAll, unfittedAll, C113_settings safe x _ _ _ hr, clone_all_settings safe xs _ _ _ hrs]
theorem clone_params_settings (nd : Option (List String)) : ∀ (ns : List String) (xs : List PyObj) (a : ℕ) (ys : List PyObj) (a' : ℕ),
    cloneParams nd ns xs a = .ok (ys, a') → contentAll ys = unfittedParams nd ns xs
  | ns, [], a, ys, a', h => by
    simp only [cloneParams, Except.ok.injEq, Prod.mk.injEq] at h
    rw [← h.1]; simp [contentAll, unfittedParams]
  | ns, x :: xs, a, ys, a', h => by
    simp only [cloneParams] at h
    split at h
    · cases h
    · rename_i r hr
      split at h
      · cases h
      · rename_i rs hrs
        simp only [Except.ok.injEq, Prod.mk.injEq] at h
        rw [← h.1]
        simp only [contentAll, unfittedParams, clone_params_settings nd ns.tail xs _ _ _ hrs, List.cons.injEq, and_true]
        split_ifs at hr ⊢ with hn
        · simp only [Except.ok.injEq] at hr
          rw [← hr]
        · exact C113_settings false x _ _ _ hr
end

theorem cloneAll_mem (safe : Bool) : ∀ (xs : List PyObj) (a : ℕ) (ys : List PyObj) (a' : ℕ), cloneAll safe xs a = .ok (ys, a') →
    ∀ y ∈ ys, ∃ x b b', clone safe x b = .ok (y, b')
  | [], a, ys, a', h, y, hy => by
    simp only [cloneAll, Except.ok.injEq, Prod.mk.injEq] at h
    rw [← h.1] at hy; simp at hy
  | x :: xs, a, ys, a', h, y, hy => by
    simp only [cloneAll] at h
    split at h
    · cases h
    · rename_i r hr
      split at h
      · cases h
      · rename_i rs hrs
        simp only [Except.ok.injEq, Prod.mk.injEq] at h
        rw [← h.1, List.mem_cons] at hy
        rcases hy with rfl | hy
        · exact ⟨x, a, r.2, hr⟩
        · exact cloneAll_mem safe xs _ _ _ hrs y hy

theorem cloneParams_get (nd : Option (List String)) : ∀ (ns : List String) (xs : List PyObj) (a : ℕ) (ys : List PyObj) (a' : ℕ),
    cloneParams nd ns xs a = .ok (ys, a') → ∀ (i : ℕ) (n : String) (y : PyObj), ns[i]? = some n → n ∉ nd.getD [] → ys[i]? = some y →
      ∃ x b b', clone false x b = .ok (y, b')
  | ns, [], a, ys, a', h, i, n, y, _, _, hy => by
    simp only [cloneParams, Except.ok.injEq, Prod.mk.injEq] at h
    rw [← h.1] at hy; simp at hy
  | ns, x :: xs, a, ys, a', h, i, n, y, hn, hd, hy => by
    simp only [cloneParams] at h
    split at h
    · cases h
    · rename_i r hr
      split at h
      · cases h
      · rename_i rs hrs
        simp only [Except.ok.injEq, Prod.mk.injEq] at h
        rw [← h.1] at hy
        cases i with
        | zero =>
          simp only [List.getElem?_cons_zero, Option.some.injEq] at hy
          have hh : ns.headD "" = n := by cases ns <;> simp_all
          rw [hh, if_neg (by simpa using hd)] at hr
          rw [← hy]
          exact ⟨x, a, r.2, hr⟩
        | succ i =>
          simp only [List.getElem?_cons_succ] at hy
          refine cloneParams_get nd ns.tail xs _ _ _ hrs i n y ?_ hd hy
          cases ns with
          | nil => simp at hn
          | cons => simpa using hn

/-- **C113**, not fitted: no estimator in the clone, at any depth of parameters and collections, has anything that `fit` has set. -/
theorem C113_unfitted (y z : PyObj) (hz : InsideOf y z) (safe : Bool) (x : PyObj) (a a' : ℕ) (h : clone safe x a = .ok (y, a'))
    (b : ℕ) (cls : String) (nd : Option (List String)) (names : List String) (params : List PyObj) (attributes : List String)
    (state : List PyObj) (he : z = .est b cls nd names params attributes state) : attributes = [] ∧ state = [] := by
  induction hz generalizing safe x a a' with
  | self y =>
    subst he
    cases x with
    | atom v => cases safe <;> simp [clone] at h
    | coll b k items =>
      simp only [clone] at h
      split at h
      · cases h
      · simp at h
    | other b c ks fs => cases safe <;> simp [clone, deepcopy] at h
    | est b c nd ns ps as st =>
      simp only [clone] at h
      split at h
      · cases h
      · simp only [Except.ok.injEq, Prod.mk.injEq, PyObj.est.injEq] at h
        exact ⟨h.1.2.2.2.2.2.1.symm, h.1.2.2.2.2.2.2.symm⟩
  | entry b k items w z hw hz ih =>
    cases x with
    | atom v => cases safe <;> simp [clone] at h
    | coll b k items =>
      simp only [clone] at h
      split at h
      · cases h
      · rename_i r hr
        simp only [Except.ok.injEq, Prod.mk.injEq, PyObj.coll.injEq] at h
        rw [← h.1.2.2] at hw
        obtain ⟨x', c, c', h'⟩ := cloneAll_mem safe _ _ _ _ hr w hw
        exact ih safe x' c c' h' he
    | other b c ks fs => cases safe <;> simp [clone, deepcopy] at h
    | est b c nd ns ps as st =>
      simp only [clone] at h
      split at h
      · cases h
      · simp at h
  | param b c nd ns ps as st i n w z hn hd hw hz ih =>
    cases x with
    | atom v => cases safe <;> simp [clone] at h
    | coll b k items =>
      simp only [clone] at h
      split at h
      · cases h
      · simp at h
    | other b c ks fs => cases safe <;> simp [clone, deepcopy] at h
    | est b c nd ns ps as st =>
      simp only [clone] at h
      split at h
      · cases h
      · rename_i r hr
        simp only [Except.ok.injEq, Prod.mk.injEq, PyObj.est.injEq] at h
        obtain ⟨⟨-, -, e1, e2, e3, -⟩, -⟩ := h
        subst e1 e2
        rw [← e3] at hw
        obtain ⟨x', c, c', h'⟩ := cloneParams_get _ _ _ _ _ _ hr i n w hn hd hw
        exact ih false x' c c' h' he

mutual
/-- **C113**, independence: every object in the clone is new, except those in parameters that are not to be copied. -/
theorem C113_independent (safe : Bool) : ∀ (x : PyObj) (a : ℕ) (y : PyObj) (a' : ℕ), clone safe x a = .ok (y, a') →
    a ≤ a' ∧ ∀ b ∈ addresses y, (a ≤ b ∧ b < a') ∨ b ∈ keptAddresses x
  | .atom v, a, y, a', h => by
    cases safe <;> simp [clone] at h
    rw [← h.1, ← h.2]; simp [addresses]
  | .coll b k items, a, y, a', h => by
    simp only [clone] at h
    split at h
    · cases h
    · rename_i r hr
      simp only [Except.ok.injEq, Prod.mk.injEq] at h
      have ih := clone_all_independent safe items _ _ _ hr
      rw [← h.1, ← h.2]
      refine ⟨by omega, fun c hc => ?_⟩
      simp only [addresses, List.mem_cons] at hc
      simp only [keptAddresses]
      rcases hc with rfl | hc
      · left; omega
      · rcases ih.2 c hc with h1 | h1
        · left; omega
        · exact Or.inr h1
  | .other b c ks fs, a, y, a', h => by
    cases safe <;> simp only [clone, Bool.false_eq_true, if_false, if_true, Except.ok.injEq, reduceCtorEq] at h
    have := deepcopy_fresh (.other b c ks fs) a
    rw [h] at this
    exact ⟨this.1, fun d hd => Or.inl (this.2 d hd)⟩
  | .est b c nd ns ps as st, a, y, a', h => by
    simp only [clone] at h
    split at h
    · cases h
    · rename_i r hr
      simp only [Except.ok.injEq, Prod.mk.injEq] at h
      have ih := clone_params_independent nd ns ps _ _ _ hr
      rw [← h.1, ← h.2]
      refine ⟨by omega, fun d hd => ?_⟩
      simp only [addresses, addressesAll, List.append_nil, List.mem_cons] at hd
      simp only [keptAddresses]
      rcases hd with rfl | hd
      · left; omega
      · rcases ih.2 d hd with h1 | h1
        · left; omega
        · exact Or.inr h1
theorem clone_all_independent (safe : Bool) : ∀ (xs : List PyObj) (a : ℕ) (ys : List PyObj) (a' : ℕ), cloneAll safe xs a = .ok (ys, a') →
    a ≤ a' ∧ ∀ b ∈ addressesAll ys, (a ≤ b ∧ b < a') ∨ b ∈ keptAll xs
  | [], a, ys, a', h => by
    simp only [cloneAll, Except.ok.injEq, Prod.mk.injEq] at h
    rw [← h.1, ← h.2]; simp [addressesAll]
  | x :: xs, a, ys, a', h => by
    simp only [cloneAll] at h
    split at h
    · cases h
    · rename_i r hr
      split at h
      · cases h
      · rename_i rs hrs
        simp only [Except.ok.injEq, Prod.mk.injEq] at h
        have h1 := C113_independent safe x _ _ _ hr
        have h2 := clone_all_independent safe xs _ _ _ hrs
        rw [← h.1, ← h.2]
        refine ⟨by omega, fun d hd => ?_⟩
        simp only [addressesAll, List.mem_append] at hd
        simp only [keptAll, List.mem_append]
        rcases hd with hd | hd
        · rcases h1.2 d hd with h3 | h3
          · left; omega
          · exact Or.inr (Or.inl h3)
        · rcases h2.2 d hd with h3 | h3
          · left; omega
          · exact Or.inr (Or.inr h3)
theorem clone_params_independent (nd : Option (List String)) : ∀ (ns : List String) (xs : List PyObj) (a : ℕ) (ys : List PyObj) (a' : ℕ),
    cloneParams nd ns xs a = .ok (ys, a') → a ≤ a' ∧ ∀ b ∈ addressesAll ys, (a ≤ b ∧ b < a') ∨ b ∈ keptParams nd ns xs
  | ns, [], a, ys, a', h => by
    simp only [cloneParams, Except.ok.injEq, Prod.mk.injEq] at h
    rw [← h.1, ← h.2]; simp [addressesAll]
  | ns, x :: xs, a, ys, a', h => by
    simp only [cloneParams] at h
    split at h
    · cases h
    · rename_i r hr
      split at h
      · cases h
      · rename_i rs hrs
        simp only [Except.ok.injEq, Prod.mk.injEq] at h
        have h2 := clone_params_independent nd ns.tail xs _ _ _ hrs
        have h1 : a ≤ r.2 ∧ ∀ b ∈ addresses r.1, (a ≤ b ∧ b < r.2) ∨
            b ∈ (if (nd.getD []).contains (ns.headD "") then addresses x else keptAddresses x) := by
          split_ifs at hr ⊢ with hn
          · simp only [Except.ok.injEq] at hr
            rw [← hr]
            exact ⟨Nat.le_refl _, fun b hb => Or.inr hb⟩
          · exact C113_independent false x _ _ _ hr
        rw [← h.1, ← h.2]
        refine ⟨by omega, fun d hd => ?_⟩
        simp only [addressesAll, List.mem_append] at hd
        simp only [keptParams, List.mem_append]
        rcases hd with hd | hd
        · rcases h1.2 d hd with h3 | h3
          · left; omega
          · exact Or.inr (Or.inl h3)
        · rcases h2.2 d hd with h3 | h3
          · left; omega
          · exact Or.inr (Or.inr h3)
end

mutual
theorem changeAt_other (a : ℕ) (change : PyObj → PyObj) : ∀ x : PyObj, a ∉ addresses x → changeAt a change x = x
  | .atom v, _ => by simp [changeAt]
  | .coll b k items, h => by
    simp only [addresses, List.mem_cons, not_or] at h
    simp only [changeAt]
    rw [if_neg (fun e => h.1 e.symm), changeAll_other a change items h.2]
  | .other b c ks fs, h => by
    simp only [addresses, List.mem_cons, not_or] at h
    simp only [changeAt]
    rw [if_neg (fun e => h.1 e.symm), changeAll_other a change fs h.2]
  | .est b c nd ns ps as st, h => by
    simp only [addresses, List.mem_cons, List.mem_append, not_or] at h
    simp only [changeAt]
    rw [if_neg (fun e => h.1 e.symm), changeAll_other a change ps h.2.1, changeAll_other a change st h.2.2]
theorem changeAll_other (a : ℕ) (change : PyObj → PyObj) : ∀ xs : List PyObj, a ∉ addressesAll xs → changeAll a change xs = xs
  | [], _ => by simp [changeAll]
  | x :: xs, h => by
    simp only [addressesAll, List.mem_append, not_or] at h
    simp only [changeAll]
    rw [changeAt_other a change x h.1, changeAll_other a change xs h.2]
end

/-- **C113**, fitting the clone: whatever is done to any object of the clone (apart from parameters that are not to be copied), every
object that existed before, in particular the original, stays as it was. -/
theorem C113_original_unchanged (safe : Bool) (x y : PyObj) (a a' : ℕ) (h : clone safe x a = .ok (y, a')) (b : ℕ) (hb : b ∈ addresses y)
    (hk : b ∉ keptAddresses x) (change : PyObj → PyObj) (old : PyObj) (hold : ∀ c ∈ addresses old, c < a) : changeAt b change old = old := by
  refine changeAt_other b change old fun hmem => ?_
  have h1 := hold b hmem
  rcases (C113_independent safe x a y a' h).2 b hb with h2 | h2
  · omega
  · exact hk h2

mutual
theorem clone_total : ∀ (x : PyObj) (a : ℕ), ∃ r, clone false x a = .ok r
  | .atom v, a => by simp [clone]
  | .coll b k items, a => by
    obtain ⟨r, hr⟩ := cloneAll_total items (a + 1)
    simp [clone, hr]
  | .other b c ks fs, a => by simp [clone]
  | .est b c nd ns ps as st, a => by
    obtain ⟨r, hr⟩ := cloneParams_total nd ns ps (a + 1)
    simp [clone, hr]
theorem cloneAll_total : ∀ (xs : List PyObj) (a : ℕ), ∃ r, cloneAll false xs a = .ok r
  | [], a => by simp [cloneAll]
  | x :: xs, a => by
    obtain ⟨r, hr⟩ := clone_total x a
    obtain ⟨rs, hrs⟩ := cloneAll_total xs r.2
    simp [cloneAll, hr, hrs]
theorem cloneParams_total (nd : Option (List String)) : ∀ (ns : List String) (xs : List PyObj) (a : ℕ), ∃ r, cloneParams nd ns xs a = .ok r
  | ns, [], a => by simp [cloneParams]
  | ns, x :: xs, a => by
    have h1 : ∃ r, (if (nd.getD []).contains (ns.headD "") then Except.ok (x, a) else clone false x a) = .ok r := by
      split_ifs
      · exact ⟨_, rfl⟩
      · exact clone_total x a
    obtain ⟨r, hr⟩ := h1
    obtain ⟨rs, hrs⟩ := cloneParams_total nd ns.tail xs r.2
    simp only [cloneParams]; rw [hr]; simp [hrs]
end

mutual
theorem clone_safe : ∀ (x : PyObj) (a : ℕ), (∃ r, clone true x a = .ok r) ↔ Cloneable x
  | .atom v, a => by simp [clone, Cloneable]
  | .coll b k items, a => by
    have ih := cloneAll_safe items (a + 1)
    simp only [clone, Cloneable]
    rw [← ih]
    constructor
    · rintro ⟨r, hr⟩
      split at hr
      · cases hr
      · rename_i q hq; exact ⟨q, hq⟩
    · rintro ⟨r, hr⟩
      simp [hr]
  | .other b c ks fs, a => by simp [clone, Cloneable]
  | .est b c nd ns ps as st, a => by
    obtain ⟨r, hr⟩ := cloneParams_total nd ns ps (a + 1)
    simp only [Cloneable, iff_true]
    simp [clone, hr]
theorem cloneAll_safe : ∀ (xs : List PyObj) (a : ℕ), (∃ r, cloneAll true xs a = .ok r) ↔ CloneableAll xs
  | [], a => by simp [cloneAll, CloneableAll]
  | x :: xs, a => by
    have h1 := clone_safe x a
    simp only [CloneableAll]
    constructor
    · rintro ⟨r, hr⟩
      simp only [cloneAll] at hr
      split at hr
      · cases hr
      · rename_i q hq
        split at hr
        · cases hr
        · rename_i qs hqs
          exact ⟨h1.mp ⟨q, hq⟩, (cloneAll_safe xs q.2).mp ⟨qs, hqs⟩⟩
    · rintro ⟨hx, hxs⟩
      obtain ⟨r, hr⟩ := h1.mpr hx
      obtain ⟨rs, hrs⟩ := (cloneAll_safe xs r.2).mpr hxs
      simp [cloneAll, hr, hrs]
end

/-- **C113**, what can be cloned: estimators and collections of such; parameters of estimators can be anything. -/
theorem C113_succeeds (x : PyObj) (a : ℕ) : ((∃ r, clone true x a = .ok r) ↔ Cloneable x) ∧ ∃ r, clone false x a = .ok r :=
  ⟨clone_safe x a, clone_total x a⟩

theorem cloneEach_fresh : ∀ (xs : List PyObj) (a : ℕ) (ys : List PyObj) (a' : ℕ), cloneEach xs a = .ok (ys, a') →
    a ≤ a' ∧ ∀ (i : ℕ) (x y : PyObj), xs[i]? = some x → ys[i]? = some y → ∀ b ∈ addresses y, (a ≤ b ∧ b < a') ∨ b ∈ keptAddresses x
  | [], a, ys, a', h => by
    simp only [cloneEach, Except.ok.injEq, Prod.mk.injEq] at h
    exact ⟨Nat.le_of_eq h.2, by simp⟩
  | x :: xs, a, ys, a', h => by
    simp only [cloneEach] at h
    split at h
    · cases h
    · rename_i r hr
      split at h
      · cases h
      · rename_i rs hrs
        simp only [Except.ok.injEq, Prod.mk.injEq] at h
        have h1 := C113_independent true x _ _ _ hr
        have h2 := cloneEach_fresh xs _ _ _ hrs
        rw [← h.1, ← h.2]
        refine ⟨by omega, fun i x' y' hx hy b hb => ?_⟩
        cases i with
        | zero =>
          simp only [List.getElem?_cons_zero, Option.some.injEq] at hx hy
          subst hx hy
          rcases h1.2 b hb with h3 | h3
          · left; omega
          · exact Or.inr h3
        | succ i =>
          simp only [List.getElem?_cons_succ] at hx hy
          rcases h2.2 i x' y' hx hy b hb with h3 | h3
          · left; omega
          · exact Or.inr h3

/-- **C113**, features: the smoothers of two features share nothing, even if they are made from the same object, apart from
parameters that are not to be copied. -/
theorem C113_features_apart : ∀ (xs : List PyObj) (a : ℕ) (ys : List PyObj) (a' : ℕ), cloneEach xs a = .ok (ys, a') →
    (∀ x ∈ xs, ∀ c ∈ addresses x, c < a) →
    ∀ (i j : ℕ), i < j → ∀ (x x' y y' : PyObj), xs[i]? = some x → xs[j]? = some x' → ys[i]? = some y → ys[j]? = some y' →
      ∀ b ∈ addresses y, b ∉ keptAddresses x → b ∉ keptAddresses x' → b ∉ addresses y'
  | [], a, ys, a', _, _, i, j, _, x, x', y, y', hx, _, _, _, _, _, _, _ => by simp at hx
  | z :: zs, a, ys, a', h, hold, i, j, hij, x, x', y, y', hx, hx', hy, hy', b, hb, hk, hk' => by
    simp only [cloneEach] at h
    split at h
    · cases h
    · rename_i r hr
      split at h
      · cases h
      · rename_i rs hrs
        simp only [Except.ok.injEq, Prod.mk.injEq] at h
        have h1 := C113_independent true z _ _ _ hr
        rw [← h.1] at hy hy'
        cases j with
        | zero => omega
        | succ j =>
          simp only [List.getElem?_cons_succ] at hx' hy'
          cases i with
          | zero =>
            simp only [List.getElem?_cons_zero, Option.some.injEq] at hx hy
            subst hx hy
            intro hb'
            have h2 := (cloneEach_fresh zs _ _ _ hrs).2 j x' y' hx' hy' b hb'
            rcases h1.2 b hb with h3 | h3
            · rcases h2 with h4 | h4
              · omega
              · exact hk' h4
            · exact hk h3
          | succ i =>
            simp only [List.getElem?_cons_succ] at hx hy
            exact C113_features_apart zs _ _ _ hrs (fun x hx c hc => Nat.lt_of_lt_of_le (hold x (List.mem_cons_of_mem _ hx) c hc) h1.1) i j
              (by omega) x x' y y' hx hx' hy hy' b hb hk hk'

/-- A fitted group-by smoother around a fitted smoother, with an object that is not to be copied, like a plotter. -/
def cloneExample : PyObj :=
  .est 0 "GroupBySmoother" (some ["callback"]) ["est", "n_dim", "callback"]
    [.est 1 "WeightedMeanSmoother" none ["prior_prediction"] [.atom "0"] ["smoothed_y_"] [.other 2 "ndarray" ["0"] [.atom "3"]],
      .atom "2", .other 3 "Logger" ["lines"] [.coll 4 .list [.atom "started"]]]
    ["estimators_"] [.other 5 "dict" ["(1, 2)"] [.est 6 "WeightedMeanSmoother" none ["prior_prediction"] [.atom "0"] ["smoothed_y_"] [.atom "7"]]]

/-- The clone of the example made when `a` is the next address. -/
def cloneOfExample (a : ℕ) : PyObj :=
  .est a "GroupBySmoother" (some ["callback"]) ["est", "n_dim", "callback"]
    [.est (a + 1) "WeightedMeanSmoother" none ["prior_prediction"] [.atom "0"] [] [], .atom "2",
      .other 3 "Logger" ["lines"] [.coll 4 .list [.atom "started"]]] [] []

/-- The clone of the example has new objects, except the logger, and nothing fitted. -/
theorem clone_example (a : ℕ) : clone true cloneExample a = .ok (cloneOfExample a, a + 2) := by
  simp [cloneExample, cloneOfExample, clone, cloneParams]

example : keptAddresses cloneExample = [3, 4] := by simp [cloneExample, keptAddresses, keptParams, addresses, addressesAll]
example : ∀ c ∈ addresses cloneExample, c < 10 := by simp [cloneExample, addresses, addressesAll]
example : Cloneable cloneExample := by simp [cloneExample, Cloneable]
example : changeAt 11 (fun _ => .atom "fitted") cloneExample = cloneExample := by
  refine C113_original_unchanged true cloneExample _ 10 12 (clone_example 10) 11 ?_ ?_ _ _ ?_ <;>
    simp [cloneExample, cloneOfExample, addresses, addressesAll, keptAddresses, keptParams]

/-- The same smoother chosen for two features is cloned twice. -/
example : cloneEach [cloneExample, cloneExample] 10 = .ok ([cloneOfExample 10, cloneOfExample 12], 14) ∧
    addresses (cloneOfExample 10) = [10, 11, 3, 4] ∧ addresses (cloneOfExample 12) = [12, 13, 3, 4] := by
  refine ⟨?_, ?_, ?_⟩
  · simp [cloneEach, clone_example]
  all_goals simp [cloneOfExample, addresses, addressesAll]

/-- A fitted estimator in a dictionary stays fitted in the clone: `clone` copies everything that has no `get_params`. -/
theorem C113_not_unfitted_in_dictionaries :
    clone true (.est 0 "Choice" none ["explicit_smoothers"]
        [.other 1 "dict" ["price"] [.est 2 "IsotonicRegressor" none ["increasing"] [.atom "True"] ["y_min"] [.atom "3"]]] [] []) 10 =
      .ok (.est 10 "Choice" none ["explicit_smoothers"]
        [.other 11 "dict" ["price"] [.est 12 "IsotonicRegressor" none ["increasing"] [.atom "True"] ["y_min"] [.atom "3"]]] [] [], 13) := by
  simp [clone, cloneParams, deepcopy, deepcopyAll]

end CB
