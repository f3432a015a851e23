import Verif.Lemmas.Binning
import Mathlib.Tactic.Linarith
import Mathlib.Tactic.Ring
import Mathlib.Data.List.GetD
import Mathlib.Algebra.Order.Floor.Ring

set_option autoImplicit false
set_option linter.unusedSectionVars false

namespace CB

variable {K : Type*} [Field K] [LinearOrder K] [IsStrictOrderedRing K] [FloorRing K]

theorem pyMod_nonneg {a b : K} (hb : 0 < b) : 0 ≤ pyMod a b := by
  unfold pyMod
  have h := Int.floor_le (a / b)
  rw [le_div_iff₀ hb] at h
  linarith

theorem pyMod_lt {a b : K} (hb : 0 < b) : pyMod a b < b := by
  unfold pyMod
  have h := Int.lt_floor_add_one (a / b)
  rw [div_lt_iff₀ hb] at h
  linarith

/-- The entries selected by the loop, as indices into the sorted distinct values. -/
structure Selected (cx : List K) (m : K) (js : List ℕ) : Prop where
  lt : ∀ j ∈ js, j < cx.length
  strict : js.Pairwise (· < ·)
  gaps : (0 :: js.map (fun j => cx.getD j 0)).Pairwise (fun a b => a + m ≤ b)

/-- The running value `previous_cdf` belonging to a selection. -/
def prevOf (cx : List K) (js : List ℕ) : K :=
  match js.getLast? with
  | none => 0
  | some j => cx.getD j 0

/-- The running `index` belonging to a selection. -/
def lastIdx (js : List ℕ) : ℕ := js.getLast?.getD 0

theorem prevOf_snoc (cx : List K) (js : List ℕ) (j : ℕ) : prevOf cx (js ++ [j]) = cx.getD j 0 := by
  simp [prevOf]

theorem lastIdx_snoc (js : List ℕ) (j : ℕ) : lastIdx (js ++ [j]) = j := by
  simp [lastIdx]

theorem Selected.le_prev {cx : List K} {m : K} (hm : 0 ≤ m) {js : List ℕ} (h : Selected cx m js) :
    ∀ a ∈ (0 :: js.map (fun j => cx.getD j 0)), a ≤ prevOf cx js := by
  rcases List.eq_nil_or_concat js with rfl | ⟨l, j, rfl⟩
  · intro a ha; simp at ha; simp [prevOf, ha]
  · rw [List.concat_eq_append] at h ⊢
    intro a ha
    rw [prevOf_snoc]
    have hg := h.gaps
    simp only [List.map_append, List.map_cons, List.map_nil] at hg ha
    rw [← List.cons_append, List.pairwise_append] at hg
    rw [← List.cons_append, List.mem_append] at ha
    rcases ha with ha | ha
    · have := hg.2.2 a ha _ (List.mem_singleton.mpr rfl)
      linarith
    · rw [List.mem_singleton] at ha; exact le_of_eq ha

theorem Selected.snoc {cx : List K} {m : K} (hm : 0 ≤ m) {js : List ℕ} (h : Selected cx m js) {r : ℕ}
    (hr : r < cx.length) (hgap : prevOf cx js + m ≤ cx.getD r 0) (hlt : ∀ j ∈ js, j < r) :
    Selected cx m (js ++ [r]) := by
  refine ⟨?_, ?_, ?_⟩
  · intro j hj
    rcases List.mem_append.mp hj with hj | hj
    · exact h.lt j hj
    · rw [List.mem_singleton] at hj; omega
  · rw [List.pairwise_append]
    refine ⟨h.strict, by simp, ?_⟩
    intro a ha b hb
    rw [List.mem_singleton] at hb
    subst hb; exact hlt a ha
  · simp only [List.map_append, List.map_cons, List.map_nil]
    rw [← List.cons_append, List.pairwise_append]
    refine ⟨h.gaps, by simp, ?_⟩
    intro a ha b hb
    rw [List.mem_singleton] at hb
    subst hb
    have := h.le_prev hm a ha
    linarith

theorem getD_strict {cx : List K} (h : cx.Pairwise (· < ·)) {i j : ℕ} (hij : i < j) (hj : j < cx.length) :
    cx.getD i 0 < cx.getD j 0 := by
  rw [List.getD_eq_getElem _ _ (by omega : i < cx.length), List.getD_eq_getElem _ _ hj]
  exact List.pairwise_iff_getElem.mp h i j (by omega) hj hij

theorem getD_mono {cx : List K} (h : cx.Pairwise (· < ·)) {i j : ℕ} (hij : i ≤ j) (hj : j < cx.length) :
    cx.getD i 0 ≤ cx.getD j 0 := by
  rcases Nat.lt_or_eq_of_le hij with h' | h'
  · exact le_of_lt (getD_strict h h' hj)
  · rw [h']

theorem lastIdx_lt {cx : List K} {m : K} {js : List ℕ} (h : Selected cx m js) (hn : 0 < cx.length) :
    lastIdx js < cx.length := by
  rcases List.eq_nil_or_concat js with rfl | ⟨l, j, rfl⟩
  · simpa [lastIdx] using hn
  · rw [List.concat_eq_append] at h ⊢
    rw [lastIdx_snoc]
    exact h.lt j (by simp)

theorem le_lastIdx {cx : List K} {m : K} {js : List ℕ} (h : Selected cx m js) :
    ∀ j ∈ js, j ≤ lastIdx js := by
  rcases List.eq_nil_or_concat js with rfl | ⟨l, j, rfl⟩
  · simp
  · rw [List.concat_eq_append] at h ⊢
    rw [lastIdx_snoc]
    intro a ha
    rcases List.mem_append.mp ha with ha | ha
    · have := h.strict
      rw [List.pairwise_append] at this
      exact le_of_lt (this.2.2 a ha j (by simp))
    · rw [List.mem_singleton] at ha; omega

/-- Everything the result of the loop guarantees. -/
theorem reduceLoop_spec (bx cx : List K) (nBins : ℕ) (eps tol : K) (hN : 2 ≤ nBins)
    (hlen : bx.length = cx.length) (hn : 0 < cx.length) (hcx : cx.Pairwise (· < ·))
    (hlast : cx.getD (cx.length - 1) 0 = 1)
    (heps : 0 ≤ eps) (htol : 0 ≤ tol) (htol1 : tol < 1) (hsmall : eps < (1 - tol) * (1 / nBins)) (b0 : K) :
    ∀ (rem : ℕ) (js : List ℕ), Selected cx ((1 - tol) * (1 / nBins) - eps) js → js.length + rem = nBins →
      ((nBins : K) * eps < (1 - tol) * (1 / nBins) → (js.length : K) * (1 / nBins - eps) ≤ prevOf cx js) →
      ∃ js' : List ℕ,
        reduceLoop bx cx (1 / nBins) eps tol rem (lastIdx js) (prevOf cx js)
            (b0 :: js.map (fun j => bx.getD j 0)) (0 :: js.map (fun j => cx.getD j 0))
          = .ok (b0 :: js'.map (fun j => bx.getD j 0), 0 :: js'.map (fun j => cx.getD j 0)) ∧
        Selected cx ((1 - tol) * (1 / nBins) - eps) js' ∧ js' ≠ [] ∧ js'.length ≤ nBins ∧
        ((nBins : K) * eps < (1 - tol) * (1 / nBins) → 1 - nBins * eps ≤ prevOf cx js') := by
  have hNpos : (0 : K) < nBins := by
    have : 0 < nBins := by omega
    exact_mod_cast this
  set share : K := 1 / nBins with hshare
  have hs0 : 0 < share := by rw [hshare]; positivity
  have hs1 : (nBins : K) * share = 1 := by rw [hshare]; field_simp
  have hN2 : (2 : K) ≤ nBins := by exact_mod_cast hN
  have hm : 0 < (1 - tol) * share - eps := by linarith
  have hts : 0 ≤ tol * share := mul_nonneg htol hs0.le
  have hle1 : ∀ j, j < cx.length → cx.getD j 0 ≤ 1 := by
    intro j hj
    rw [← hlast]
    exact getD_mono hcx (by omega) (by omega)
  intro rem
  induction rem with
  | zero =>
    intro js hsel hl hlow
    refine ⟨js, rfl, hsel, ?_, by omega, ?_⟩
    · intro h; subst h; simp at hl; omega
    · intro hne
      have := hlow hne
      have hj : js.length = nBins := by omega
      rw [hj] at this
      have : (nBins : K) * share - nBins * eps ≤ prevOf cx js := by linarith
      linarith
  | succ rem ih =>
    intro js hsel hl hlow
    have hprev0 : 0 ≤ prevOf cx js := hsel.le_prev hm.le 0 (by simp)
    unfold reduceLoop
    simp only
    have hr0 := pyMod_nonneg (a := prevOf cx js) hs0
    have hrs := pyMod_lt (a := prevOf cx js) hs0
    have hq : prevOf cx js = share * (⌊prevOf cx js / share⌋ : ℤ) + pyMod (prevOf cx js) share := by
      unfold pyMod; ring
    set q : ℤ := ⌊prevOf cx js / share⌋ with hqdef
    set rest := pyMod (prevOf cx js) share with hrest
    set S := if rest ≤ tol * share then prevOf cx js + share - rest else prevOf cx js + share with hS
    have hSlow : prevOf cx js + (1 - tol) * share ≤ S := by
      rw [hS]; split_ifs with h
      · linarith
      · linarith
    by_cases hbr : S ≤ 1 + tol * share
    · rw [if_pos hbr]
      obtain ⟨r, e, hir, hr, hbelow, habove⟩ :=
        geLim_true_spec (strict_sorted hcx) (S - eps) (lastIdx js) (lastIdx_lt hsel hn)
      have hrb : r < bx.length := by omega
      have hgc : pyGet cx (r : Int) = some (cx.getD r 0) := by
        rw [pyGet_natCast _ _ hr, List.getD_eq_getElem _ _ hr]
      have hgb : pyGet bx (r : Int) = some (bx.getD r 0) := by
        rw [pyGet_natCast _ _ hrb, List.getD_eq_getElem _ _ hrb]
      rw [e]
      simp only [hgc, hgb]
      have hcase : S - eps ≤ cx.getD r 0 ∨ cx.getD r 0 = 1 := by
        rcases habove with h | h
        · left; rwa [List.getD_eq_getElem _ _ hr]
        · right; rw [h, hlast]
      have hgap : prevOf cx js + ((1 - tol) * share - eps) ≤ cx.getD r 0 := by
        rcases hcase with h | h
        · linarith
        · rw [h]
          by_cases hc : rest ≤ tol * share
          · rw [hS, if_pos hc] at hbr hSlow
            have h1 : share * ((q : K) + 1) < share * ((nBins : K) + 1) := by
              have : tol * share < share := by
                have := mul_lt_mul_of_pos_right htol1 hs0; linarith
              linarith
            have h2 : (q : K) + 1 < (nBins : K) + 1 := lt_of_mul_lt_mul_left h1 hs0.le
            have h3 : q + 1 ≤ (nBins : ℤ) := by
              have : ((q + 1 : ℤ) : K) < ((nBins + 1 : ℤ) : K) := by push_cast; exact h2
              have := Int.cast_lt.mp this
              omega
            have h4 : ((q + 1 : ℤ) : K) ≤ ((nBins : ℤ) : K) := Int.cast_le.mpr h3
            push_cast at h4
            have h5 : share * ((q : K) + 1) ≤ share * nBins := mul_le_mul_of_nonneg_left h4 hs0.le
            linarith
          · rw [hS, if_neg hc] at hbr
            linarith
      have hlt : ∀ j ∈ js, j < r := by
        intro j hj
        have h1 : j ≤ r := le_trans (le_lastIdx hsel j hj) hir
        rcases Nat.lt_or_eq_of_le h1 with h | h
        · exact h
        · exfalso
          subst h
          have h2 := hsel.le_prev hm.le (cx.getD j 0) (by
            refine List.mem_cons_of_mem _ ?_
            exact List.mem_map.mpr ⟨j, hj, rfl⟩)
          linarith
      have hsel' := hsel.snoc hm.le hr hgap hlt
      have hlen' : (js ++ [r]).length + rem = nBins := by simp; omega
      have hlow' : (nBins : K) * eps < (1 - tol) * share →
          ((js ++ [r]).length : K) * (share - eps) ≤ prevOf cx (js ++ [r]) := by
        intro hne
        have hlow := hlow hne
        rw [prevOf_snoc]
        have hjl : (((js ++ [r]).length : ℕ) : K) = (js.length : K) + 1 := by simp
        rw [hjl]
        have hi1 : (js.length : K) + 1 ≤ nBins := by
          have : js.length + 1 ≤ nBins := by omega
          exact_mod_cast this
        have hi0 : (0 : K) ≤ js.length := by positivity
        rcases hcase with h | h
        · by_cases hc : rest ≤ tol * share
          · rw [hS, if_pos hc] at h
            have h1 : share * (js.length : K) < share * ((q : K) + 1) := by
              have : (js.length : K) * eps ≤ nBins * eps := mul_le_mul_of_nonneg_right (by linarith) heps
              linarith
            have h2 : (js.length : K) < (q : K) + 1 := lt_of_mul_lt_mul_left h1 hs0.le
            have h3 : (js.length : ℤ) ≤ q := by
              have : (((js.length : ℕ) : ℤ) : K) < ((q + 1 : ℤ) : K) := by push_cast; exact h2
              have := Int.cast_lt.mp this
              omega
            have h4 : (((js.length : ℕ) : ℤ) : K) ≤ ((q : ℤ) : K) := Int.cast_le.mpr h3
            push_cast at h4
            have h5 : share * ((js.length : K)) ≤ share * q := mul_le_mul_of_nonneg_left h4 hs0.le
            have h6 : 0 ≤ (js.length : K) * eps := mul_nonneg hi0 heps
            linarith
          · rw [hS, if_neg hc] at h
            linarith
        · rw [h]
          have : ((js.length : K) + 1) * share ≤ nBins * share := mul_le_mul_of_nonneg_right hi1 hs0.le
          have : 0 ≤ ((js.length : K) + 1) * eps := mul_nonneg (by linarith) heps
          linarith
      obtain ⟨js', e', h1, h2, h3, h4⟩ := ih (js ++ [r]) hsel' hlen' hlow'
      refine ⟨js', ?_, h1, h2, h3, h4⟩
      rw [lastIdx_snoc, prevOf_snoc] at e'
      simpa using e'
    · rw [if_neg hbr]
      have hgb : pyGet bx ((cx.length : Int) - 1) = some (bx.getD (cx.length - 1) 0) := by
        have : ((cx.length : Int) - 1) = ((cx.length - 1 : ℕ) : Int) := by omega
        rw [this, pyGet_natCast _ _ (by omega), List.getD_eq_getElem _ _ (by omega)]
      rw [hgb]
      simp only
      rcases List.eq_nil_or_concat js with hjs | ⟨l, j, hjs⟩
      · exfalso
        subst hjs
        apply hbr
        have hp0 : prevOf cx [] = 0 := rfl
        have h1 : share ≤ 1 := by
          have := mul_le_mul_of_nonneg_right hN2 hs0.le; linarith
        rw [hS]
        split_ifs <;> rw [hp0] <;> linarith
      · rw [List.concat_eq_append] at hjs
        subst hjs
        have hgaps := hsel.gaps
        simp only [List.map_append, List.map_cons, List.map_nil] at hgaps
        rw [← List.cons_append, List.pairwise_append] at hgaps
        have hjlt := hsel.lt j (by simp)
        have hstr := hsel.strict
        rw [List.pairwise_append] at hstr
        refine ⟨l ++ [cx.length - 1], ?_, ⟨?_, ?_, ?_⟩, by simp, by simp at hl ⊢; omega, ?_⟩
        · simp [← hlast]
        · intro a ha
          rcases List.mem_append.mp ha with ha | ha
          · exact hsel.lt a (by simp [ha])
          · rw [List.mem_singleton] at ha; omega
        · rw [List.pairwise_append]
          refine ⟨hstr.1, by simp, ?_⟩
          intro a ha b hb
          rw [List.mem_singleton] at hb
          have := hstr.2.2 a ha j (by simp)
          omega
        · simp only [List.map_append, List.map_cons, List.map_nil]
          rw [← List.cons_append, List.pairwise_append]
          refine ⟨hgaps.1, by simp, ?_⟩
          intro a ha b hb
          rw [List.mem_singleton] at hb
          have h1 := hgaps.2.2 a ha _ (List.mem_singleton.mpr rfl)
          have h2 := hle1 j hjlt
          rw [hb, hlast]; linarith
        · intro _
          rw [prevOf_snoc, hlast]
          have := mul_nonneg hNpos.le heps
          linarith

/-- What holds for every epsilon and every non-negative tolerance: the indices never decrease. -/
theorem reduceLoop_weak (bx cx : List K) (nBins : ℕ) (eps tol : K) (hN : 2 ≤ nBins)
    (hlen : bx.length = cx.length) (hn : 0 < cx.length) (hcx : cx.Pairwise (· < ·))
    (hlast : cx.getD (cx.length - 1) 0 = 1) (htol : 0 ≤ tol) (b0 : K) :
    ∀ (rem : ℕ) (js : List ℕ), (∀ j ∈ js, j < cx.length) → js.Pairwise (· ≤ ·) → js.length + rem = nBins →
      ∃ js' : List ℕ,
        reduceLoop bx cx (1 / nBins) eps tol rem (lastIdx js) (prevOf cx js)
            (b0 :: js.map (fun j => bx.getD j 0)) (0 :: js.map (fun j => cx.getD j 0))
          = .ok (b0 :: js'.map (fun j => bx.getD j 0), 0 :: js'.map (fun j => cx.getD j 0)) ∧
        (∀ j ∈ js', j < cx.length) ∧ js'.Pairwise (· ≤ ·) ∧ js' ≠ [] ∧ js'.length ≤ nBins := by
  have hN2 : (2 : K) ≤ nBins := by exact_mod_cast hN
  have hs1 : (1 : K) / nBins ≤ 1 := by rw [div_le_one (by linarith)]; linarith
  have hs0 : (0 : K) < 1 / nBins := by positivity
  intro rem
  induction rem with
  | zero =>
    intro js hlt hm hl
    exact ⟨js, rfl, hlt, hm, by intro h; subst h; simp at hl; omega, by omega⟩
  | succ rem ih =>
    intro js hlt hm hl
    have hlastlt : lastIdx js < cx.length := by
      rcases List.eq_nil_or_concat js with rfl | ⟨l, j, rfl⟩
      · simpa [lastIdx] using hn
      · rw [List.concat_eq_append] at hlt ⊢
        rw [lastIdx_snoc]
        exact hlt j (by simp)
    have hlelast : ∀ j ∈ js, j ≤ lastIdx js := by
      rcases List.eq_nil_or_concat js with rfl | ⟨l, j, rfl⟩
      · simp
      · rw [List.concat_eq_append] at hm ⊢
        rw [lastIdx_snoc]
        intro a ha
        rcases List.mem_append.mp ha with ha | ha
        · rw [List.pairwise_append] at hm
          exact hm.2.2 a ha j (by simp)
        · rw [List.mem_singleton] at ha; omega
    unfold reduceLoop
    simp only
    set S := if pyMod (prevOf cx js) (1 / (nBins : K)) ≤ tol * (1 / nBins) then
      prevOf cx js + 1 / nBins - pyMod (prevOf cx js) (1 / (nBins : K)) else prevOf cx js + 1 / nBins with hS
    by_cases hbr : S ≤ 1 + tol * (1 / nBins)
    · rw [if_pos hbr]
      obtain ⟨r, e, hir, hr, _, _⟩ := geLim_true_spec (strict_sorted hcx) (S - eps) (lastIdx js) hlastlt
      have hrb : r < bx.length := by omega
      have hgc : pyGet cx (r : Int) = some (cx.getD r 0) := by
        rw [pyGet_natCast _ _ hr, List.getD_eq_getElem _ _ hr]
      have hgb : pyGet bx (r : Int) = some (bx.getD r 0) := by
        rw [pyGet_natCast _ _ hrb, List.getD_eq_getElem _ _ hrb]
      rw [e]
      simp only [hgc, hgb]
      obtain ⟨js', e', h1, h2, h3, h4⟩ := ih (js ++ [r]) (by
        intro j hj
        rcases List.mem_append.mp hj with hj | hj
        · exact hlt j hj
        · rw [List.mem_singleton] at hj; omega) (by
        rw [List.pairwise_append]
        refine ⟨hm, by simp, ?_⟩
        intro a ha b hb
        rw [List.mem_singleton] at hb
        have := hlelast a ha
        omega) (by simp; omega)
      refine ⟨js', ?_, h1, h2, h3, h4⟩
      rw [lastIdx_snoc, prevOf_snoc] at e'
      simpa using e'
    · rw [if_neg hbr]
      have hgb : pyGet bx ((cx.length : Int) - 1) = some (bx.getD (cx.length - 1) 0) := by
        have : ((cx.length : Int) - 1) = ((cx.length - 1 : ℕ) : Int) := by omega
        rw [this, pyGet_natCast _ _ (by omega), List.getD_eq_getElem _ _ (by omega)]
      rw [hgb]
      simp only
      rcases List.eq_nil_or_concat js with hjs | ⟨l, j, hjs⟩
      · exfalso
        subst hjs
        apply hbr
        have hp0 : prevOf cx [] = 0 := rfl
        have := pyMod_nonneg (a := prevOf cx []) hs0
        have h2 := mul_nonneg htol hs0.le
        rw [hS]
        split_ifs <;> rw [hp0] at * <;> linarith
      · rw [List.concat_eq_append] at hjs
        subst hjs
        rw [List.pairwise_append] at hm
        refine ⟨l ++ [cx.length - 1], ?_, ?_, ?_, by simp, by simp at hl ⊢; omega⟩
        · simp [← hlast]
        · intro a ha
          rcases List.mem_append.mp ha with ha | ha
          · exact hlt a (by simp [ha])
          · rw [List.mem_singleton] at ha; omega
        · rw [List.pairwise_append]
          refine ⟨hm.1, by simp, ?_⟩
          intro a ha b hb
          rw [List.mem_singleton] at hb
          have := hlt a (by simp [ha])
          omega

end CB
