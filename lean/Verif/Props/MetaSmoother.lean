import Verif.Model.MetaSmoother
import Verif.Lemmas.Predict
import Mathlib.Algebra.BigOperators.Ring.List
import Mathlib.Tactic.Linarith
import Mathlib.Tactic.Ring
import Mathlib.Tactic.NormNum
import Mathlib.Algebra.Order.Field.Rat

/-!
# C49, C50, C63: the meta smoothers
-/

set_option autoImplicit false
set_option linter.unusedSectionVars false

namespace CB

section
variable {K : Type*} [Field K] [LinearOrder K] [IsStrictOrderedRing K] [FloorRing K]
variable {σ τ : Type*}

/-! ## C49: regression types -/

/-- **C49.**  An extrapolating feature gets the prediction of the sub-smoother. -/
theorem C49_extrapolating (sub : Smoother K σ) (X : List (FitRow K)) (y : List K)
    (rows : List (List (Flt K))) :
    regTypePredict sub .extrapolating (regTypeFit sub X y) rows
      = some (sub.predict (sub.fit X y) rows) := rfl

/-- The table of bin centres with which features call smoothers. -/
def Spec.IsCentreTable (ns : List ℕ) (X : List (FitRow K)) : Prop :=
  X.map (·.x) = arangeMulti ns

theorem setBinInfo_centres (ns : List ℕ) (hp : ns.prod ≠ 0) (X : List (FitRow K))
    (hX : Spec.IsCentreTable ns X) :
    setBinInfo X = { ndim := ns.length, binWeights := X.map (·.w), nBins := ns } := by
  have hnd : (X.map (·.x.length)).headD 0 = ns.length := by
    have e : X.map (·.x.length) = (X.map (·.x)).map List.length := by rw [List.map_map]; rfl
    rw [e, hX]
    have h0 := arangeMulti_getElem? ns 0 (Nat.pos_of_ne_zero hp)
    cases h : arangeMulti ns with
    | nil => rw [h] at h0; simp at h0
    | cons a l =>
      rw [h] at h0
      simp only [List.getElem?_cons_zero, Option.some.injEq] at h0
      simp only [List.map_cons, List.headD_cons, h0, digits_length]
  unfold setBinInfo
  dsimp only
  rw [hnd, show X.map (·.x) = arangeMulti ns from hX, setNBins_arangeMulti ns hp]

theorem centres_length (ns : List ℕ) (X : List (FitRow K)) (hX : Spec.IsCentreTable ns X) :
    X.length = ns.prod := by
  rw [← (C12_inverse (K := ℚ) ns).1, ← show X.map (·.x) = arangeMulti ns from hX, List.length_map]

/-- The position of a bin centre in the table. -/
theorem centres_index (ns : List ℕ) (X : List (FitRow K)) (hX : Spec.IsCentreTable ns X) (k : ℕ)
    (t : List ℕ) (he : encode ns t = k)
    (r : FitRow K) (hr : r ∈ X) (hrt : r.x = t) : X[k]? = some r := by
  obtain ⟨j, hj, rfl⟩ := List.getElem_of_mem hr
  have hjp : j < ns.prod := by rw [← centres_length ns X hX]; exact hj
  have h1 : (X.map (·.x))[j]? = some t := by
    rw [List.getElem?_map, List.getElem?_eq_getElem hj, Option.map_some, hrt]
  rw [show X.map (·.x) = arangeMulti ns from hX, arangeMulti_getElem? ns j hjp,
    Option.some.injEq] at h1
  have h2 : encode ns t = j := by rw [← h1, encode_digits, Nat.mod_eq_of_lt hjp]
  rw [← he, h2]
  exact List.getElem?_eq_getElem hj

theorem mapM_some {α β : Type*} (f : α → Option β) (g : α → β) : ∀ l : List α,
    (∀ a ∈ l, f a = some (g a)) → l.mapM f = some (l.map g)
  | [], _ => rfl
  | a :: l, h => by
    rw [List.mapM_cons, h a (by simp), mapM_some f g l (fun b hb => h b (by simp [hb]))]
    rfl

/-- `not_seen_events` on a table of all bin centres. -/
theorem notSeenEvents_eq (dims : ℕ) (rows : List (List (Flt K))) (wx : List K) (ns : List ℕ)
    (hlen : wx.length = ns.prod) (hidx : ∀ i ∈ notSeenIndex dims ns rows, i ≤ ns.prod) :
    notSeenEvents dims rows wx ns
      = some ((notSeenIndex dims ns rows).map fun i =>
          if h : i < wx.length then decide (wx[i] = 0) else true) := by
  unfold notSeenEvents
  dsimp only
  rw [List.length_map, if_pos hlen]
  apply mapM_some
  intro i hi
  have := hidx i hi
  split_ifs with h
  · rw [List.getElem?_append_left (by simpa using h)]
    simp [List.getElem?_eq_getElem h]
  · have e : i = wx.length := by omega
    subst e
    simp

theorem notSeenIndex_length (dims : ℕ) (ns : List ℕ) (rows : List (List (Flt K))) :
    (notSeenIndex dims ns rows).length = rows.length := by
  unfold notSeenIndex
  dsimp only
  rw [List.length_zipWith]
  split_ifs
  · simp [lexBinnos]
  · simp

theorem notSeenIndex_le (dims : ℕ) (ns : List ℕ) (rows : List (List (Flt K))) :
    ∀ i ∈ notSeenIndex dims ns rows, i ≤ ns.prod := by
  intro i hi
  unfold notSeenIndex at hi
  dsimp only at hi
  obtain ⟨j, hj, rfl⟩ := List.getElem_of_mem hi
  rw [List.getElem_zipWith]
  generalize (if 1 < dims then _ else _ : List ℤ)[j]'_ = c
  by_cases h : ¬ finiteSemiPositive (rows[j]'(by
      rw [List.length_zipWith] at hj; omega)) = true ∨ ((ns.prod : ℕ) : ℤ) < c
  · rw [if_pos h]
  · rw [if_neg h]
    push Not at h
    omega

/-- The result of the discontinuous type, in terms of the looked-up number of the row. -/
theorem discontinuous_getElem (sub : Smoother K σ) (ns : List ℕ) (hp : ns.prod ≠ 0)
    (X : List (FitRow K)) (hX : Spec.IsCentreTable ns X) (y : List K)
    (rows : List (List (Flt K)))
    (hsub : (sub.predict (sub.fit X y) rows).length = rows.length) :
    ∃ out, regTypePredict sub .discontinuous (regTypeFit sub X y) rows = some out ∧
      out.length = rows.length ∧
      ∀ (i : ℕ) (v : Flt K) (c : ℕ), (sub.predict (sub.fit X y) rows)[i]? = some v →
        (notSeenIndex ns.length ns rows)[i]? = some c →
        out[i]? = some (if h : c < X.length then (if (X[c]).w = 0 then .nan else v) else .nan) := by
  have hlen := centres_length ns X hX
  have hwl : (X.map (·.w)).length = ns.prod := by rw [List.length_map, hlen]
  refine ⟨List.zipWith (fun (s : Bool) v => if s then Flt.nan else v)
      ((notSeenIndex ns.length ns rows).map fun i =>
          if h : i < (X.map (·.w)).length then decide ((X.map (·.w))[i] = 0) else true)
      (sub.predict (sub.fit X y) rows), ?_, ?_, ?_⟩
  · unfold regTypePredict regTypeFit applyCut
    dsimp only
    rw [setBinInfo_centres ns hp X hX]
    dsimp only
    rw [notSeenEvents_eq _ _ _ _ hwl (notSeenIndex_le _ _ _)]
    rfl
  · rw [List.length_zipWith, List.length_map, notSeenIndex_length, hsub, min_self]
  · intro i v c hv hc
    rw [List.getElem?_zipWith, List.getElem?_map, hc, hv]
    simp only [Option.map_some, Option.some.injEq, List.length_map, List.getElem_map]
    by_cases h : c < X.length
    · simp [h]
    · simp [h]

/-- `np.rint` of a number close to an integer. -/
theorem rint_of_close (x : K) (t : ℤ) (h : |x - t| < 1 / 2) : rint x = t := by
  obtain ⟨h1, h2⟩ := abs_lt.mp h
  have hf := Int.floor_le x
  have hf2 := Int.lt_floor_add_one x
  unfold rint
  dsimp only
  rcases le_or_gt (t : K) x with hx | hx
  · have e : ⌊x⌋ = t := by
      rw [Int.floor_eq_iff]
      exact ⟨hx, by linarith⟩
    rw [e, if_pos (by linarith)]
  · have e : ⌊x⌋ = t - 1 := by
      rw [Int.floor_eq_iff]
      push_cast
      exact ⟨by linarith, by linarith⟩
    rw [e]
    push_cast
    rw [if_neg (by linarith), if_pos (by linarith)]
    ring

/-- **C49, one column, not interpolating.**  For the table of the `n` bin centres that
features pass, and every sub-smoother:

* a number that rounds to a bin with training weight keeps the prediction of the
  sub-smoother,
* a number that rounds to a bin without training weight, or to no bin, becomes NaN,
* a missing, infinite or negative entry becomes NaN. -/
theorem C49_discontinuous_1d (sub : Smoother K σ) (n : ℕ) (hn : n ≠ 0) (X : List (FitRow K))
    (hX : Spec.IsCentreTable [n] X) (y : List K) (rows : List (List (Flt K)))
    (hsub : (sub.predict (sub.fit X y) rows).length = rows.length) :
    ∃ out, regTypePredict sub .discontinuous (regTypeFit sub X y) rows = some out ∧
      out.length = rows.length ∧
      ∀ (i : ℕ) (v : Flt K), (sub.predict (sub.fit X y) rows)[i]? = some v →
        (∀ (x : K) (r : FitRow K) (k : ℕ), rows[i]? = some [.fin x] → 0 ≤ x → rint x = (k : ℤ) →
          r ∈ X → r.x = [k] → out[i]? = some (if r.w = 0 then .nan else v)) ∧
        (∀ (x : K), rows[i]? = some [.fin x] → 0 ≤ x → (n : ℤ) ≤ rint x → out[i]? = some .nan) ∧
        (∀ (b : Flt K), rows[i]? = some [b] → (∀ x : K, b = .fin x → x < 0) →
          out[i]? = some .nan) := by
  have hp : [n].prod ≠ 0 := by simpa using hn
  obtain ⟨out, h1, h2, h3⟩ := discontinuous_getElem sub [n] hp X hX y rows hsub
  refine ⟨out, h1, h2, fun i v hv => ?_⟩
  have hidx : ∀ r, rows[i]? = some r → (notSeenIndex 1 [n] rows)[i]?
      = some (if ¬ finiteSemiPositive r = true ∨ ((n : ℕ) : ℤ) < rintCode (r.headD .nan) then n
        else (rintCode (r.headD .nan)).toNat) := by
    intro r hr
    unfold notSeenIndex
    rw [if_neg (by omega)]
    dsimp only
    rw [List.getElem?_zipWith, List.getElem?_map, hr]
    simp
  have hXl : X.length = n := by rw [centres_length [n] X hX]; simp
  refine ⟨?_, ?_, ?_⟩
  · intro x r k hr hx hk hrX hrx
    have hfin : finiteSemiPositive [Flt.fin x] = true := by simp [finiteSemiPositive, hx]
    -- the centre `k` is one of the bins
    obtain ⟨j, hj, hjr⟩ := List.getElem_of_mem hrX
    have hjn : j < n := by rw [← hXl]; exact hj
    have hkj : k = j := by
      have e : (X.map (·.x))[j]? = some [k] := by
        rw [List.getElem?_map, List.getElem?_eq_getElem hj, Option.map_some, hjr, hrx]
      rw [show X.map (·.x) = arangeMulti [n] from hX,
        arangeMulti_getElem? [n] j (by simpa using hjn), Option.some.injEq] at e
      have := encode_digits [n] j
      rw [e] at this
      simpa [encode, Nat.mod_eq_of_lt hjn] using this
    have hc := hidx _ hr
    simp only [List.headD_cons, rintCode, hk, hfin, not_true_eq_false, false_or] at hc
    rw [if_neg (by omega)] at hc
    have := h3 i v _ hv hc
    rw [this]
    subst hkj
    simp [hj, hjr]
  · intro x hr hx hk
    have hfin : finiteSemiPositive [Flt.fin x] = true := by simp [finiteSemiPositive, hx]
    have hc := hidx _ hr
    simp only [List.headD_cons, rintCode, hfin, not_true_eq_false, false_or] at hc
    have := h3 i v _ hv hc
    rw [this]
    congr 1
    rw [dif_neg]
    split_ifs <;> omega
  · intro b hr hb
    have hfin : ¬ finiteSemiPositive [b] = true := by
      rw [finiteSemiPositive_iff]
      intro h
      obtain ⟨x, rfl, hx⟩ := h b (by simp)
      exact absurd (hb x rfl) (not_lt.mpr hx)
    have hc := hidx _ hr
    rw [if_pos (Or.inl hfin)] at hc
    rw [h3 i v _ hv hc, dif_neg (by omega)]

/-- **C49 (partial), several columns, not interpolating.**  If at least one row of the
table is inside the trained range, then

* a row in the cells of a bin tuple with training weight keeps the prediction of the
  sub-smoother,
* a row in the cells of a bin tuple without training weight becomes NaN,
* a row with a missing, infinite, negative or too large entry becomes NaN.

Missing: tables without any row in range, for which the claim is false of the code, see
`C49_no_row_in_range`. -/
theorem C49_discontinuous_multi_partial (sub : Smoother K σ) (ns : List ℕ) (hdim : 2 ≤ ns.length)
    (hp : ns.prod ≠ 0) (X : List (FitRow K)) (hX : Spec.IsCentreTable ns X) (y : List K)
    (rows : List (List (Flt K))) (hcols : ∀ row ∈ rows, row.length = ns.length)
    (hsome : ∃ row ∈ rows, ¬ HasBadComponent ns row)
    (hsub : (sub.predict (sub.fit X y) rows).length = rows.length) :
    ∃ out, regTypePredict sub .discontinuous (regTypeFit sub X y) rows = some out ∧
      out.length = rows.length ∧
      ∀ (i : ℕ) (v : Flt K), (sub.predict (sub.fit X y) rows)[i]? = some v →
        (∀ (x : List K) (t : List ℕ) (r : FitRow K), rows[i]? = some (x.map .fin) →
          Spec.IsBinTuple ns t → Spec.InCell x t → r ∈ X → r.x = t →
          out[i]? = some (if r.w = 0 then .nan else v)) ∧
        (∀ row, rows[i]? = some row → HasBadComponent ns row → out[i]? = some .nan) := by
  obtain ⟨out, h1, h2, h3⟩ := discontinuous_getElem sub ns hp X hX y rows hsub
  refine ⟨out, h1, h2, fun i v hv => ?_⟩
  have hXl := centres_length ns X hX
  have hidx : ∀ row, rows[i]? = some row → ∀ c, (lexBinnos ns.length rows (some ns)).1[i]? = some c →
      (notSeenIndex ns.length ns rows)[i]?
      = some (if ¬ finiteSemiPositive row = true ∨ ((ns.prod : ℕ) : ℤ) < ((c : ℕ) : ℤ) then ns.prod
          else ((c : ℕ) : ℤ).toNat) := by
    intro row hr c hc
    unfold notSeenIndex
    rw [if_pos (by omega)]
    dsimp only
    rw [List.getElem?_zipWith, List.getElem?_map, hr, hc]
    simp
  refine ⟨?_, ?_⟩
  · intro x t r hr ht hc hrX hrt
    have hcode := lexBinnos_cell ns.length rows (some ns) i x hr ns rfl t ht hc
    have hlt := encode_lt ns t ht
    have hfin : finiteSemiPositive (x.map Flt.fin) = true := by
      rw [finiteSemiPositive_iff]
      intro b hb
      rw [List.mem_map] at hb
      obtain ⟨z, hz, rfl⟩ := hb
      obtain ⟨j, hj, rfl⟩ := List.getElem_of_mem hz
      have := (hc.2 j hj (by rw [← hc.1]; exact hj)).1
      exact ⟨_, rfl, le_trans (Nat.cast_nonneg _) this⟩
    have hi := hidx _ hr _ hcode
    rw [if_neg (by push Not; exact ⟨hfin, by omega⟩)] at hi
    rw [h3 i v _ hv hi]
    have hg := centres_index ns X hX _ t rfl r hrX hrt
    have hl : encode ns t < X.length := by omega
    rw [List.getElem?_eq_getElem hl, Option.some.injEq] at hg
    simp [hl, hg]
  · intro row hr hbad
    obtain ⟨c, hc, hc2, -⟩ := C13_given_partial ns.length rows ns hcols hsome i row hr
    have hi := hidx _ hr _ hc
    have e := hc2.mp hbad
    have hi' : (notSeenIndex ns.length ns rows)[i]? = some ns.prod := by
      rw [hi]
      split_ifs
      · rfl
      · rw [e, Int.toNat_natCast]
    rw [h3 i v _ hv hi', dif_neg (by omega)]

/-- **C49, counterexample.**  If no row of the table is inside the trained range, a row with
a too large entry is treated like the first bin: if that bin has training weight, the
row keeps the prediction of the sub-smoother although its values were never seen.  The
prediction for a row thus depends on the other rows of the table. -/
theorem C49_no_row_in_range (sub : Smoother K σ) (ns : List ℕ) (hdim : 2 ≤ ns.length)
    (hp : ns.prod ≠ 0) (X : List (FitRow K)) (hX : Spec.IsCentreTable ns X) (y : List K)
    (rows : List (List (Flt K))) (hcols : ∀ row ∈ rows, row.length = ns.length)
    (hnone : ∀ row ∈ rows, HasBadComponent ns row)
    (hsub : (sub.predict (sub.fit X y) rows).length = rows.length)
    (r0 : FitRow K) (hr0 : r0 ∈ X) (hx0 : r0.x = List.replicate ns.length 0) (hw0 : r0.w ≠ 0) :
    ∃ out, regTypePredict sub .discontinuous (regTypeFit sub X y) rows = some out ∧
      ∀ (i : ℕ) (v : Flt K) (row : List (Flt K)), (sub.predict (sub.fit X y) rows)[i]? = some v →
        rows[i]? = some row → (∀ b ∈ row, ∃ x : K, b = .fin x ∧ 0 ≤ x) → out[i]? = some v := by
  obtain ⟨out, h1, -, h3⟩ := discontinuous_getElem sub ns hp X hX y rows hsub
  refine ⟨out, h1, fun i v row hv hr hfin => ?_⟩
  have hz := C13_no_valid_row ns.length rows ns hcols hnone
  have hil : i < rows.length := by
    by_contra hc
    rw [List.getElem?_eq_none (not_lt.mp hc)] at hr
    cases hr
  have hi : (notSeenIndex ns.length ns rows)[i]? = some 0 := by
    unfold notSeenIndex
    rw [if_pos (by omega)]
    dsimp only
    rw [List.getElem?_zipWith, List.getElem?_map, hr, hz]
    simp only [List.getElem?_replicate, hil, if_true, Option.map_some, Nat.cast_zero,
      (finiteSemiPositive_iff row).mpr hfin, not_true_eq_false, false_or, Option.some.injEq]
    rw [if_neg (by omega)]
    rfl
  have hpos : ∀ m (hm : m < ns.length), 0 < ns[m] := by
    intro m hm
    rcases Nat.eq_zero_or_pos ns[m] with h0 | h0
    · exact absurd (List.prod_eq_zero (h0 ▸ List.getElem_mem hm)) hp
    · exact h0
  have ht : Spec.IsBinTuple ns (List.replicate ns.length 0) := by
    refine ⟨by simp, fun j hj hj' => ?_⟩
    rw [List.getElem_replicate]
    exact hpos j hj'
  have he : encode ns (List.replicate ns.length 0) = 0 := by
    clear hpos ht hx0 hi hz h3 h1 hsub hnone hcols hX hp hdim
    induction ns with
    | nil => rfl
    | cons n ns ih => simp [List.replicate_succ, encode, ih]
  have hg := centres_index ns X hX 0 _ he r0 hr0 hx0
  have hl : 0 < X.length := by rw [centres_length ns X hX]; exact Nat.pos_of_ne_zero hp
  rw [List.getElem?_eq_getElem hl, Option.some.injEq] at hg
  rw [h3 i v 0 hv hi]
  simp [hl, hg, hw0]

/-- **C49.** A row with a missing component is only replaced by the interpolating meta smoother if another component is above its range; a component below its
range does not matter then. -/
theorem C49_interpolating_missing (sub : Smoother K σ) (ns : List ℕ) (hp : ns.prod ≠ 0)
    (X : List (FitRow K)) (hX : Spec.IsCentreTable ns X) (y : List K) (rows : List (List (Flt K))) :
    ∃ out, regTypePredict sub .interpolating (regTypeFit sub X y) rows = some out ∧
      ∀ (i : ℕ) (v : Flt K) (row : List (Flt K)), (sub.predict (sub.fit X y) rows)[i]? = some v → rows[i]? = some row → Flt.nan ∈ row →
        (∀ b ∈ row, b = .nan ∨ b = .ninf ∨ ∃ z : K, b = .fin z ∧ z < 0) → out[i]? = some v := by
  refine ⟨List.zipWith (fun (s : Bool) v => if s then Flt.nan else v)
      (rows.map (selectedInterpolating ns)) (sub.predict (sub.fit X y) rows), ?_, ?_⟩
  · unfold regTypePredict regTypeFit applyCut
    rw [setBinInfo_centres ns hp X hX]
  · intro i v row hv hr hnan hlow
    have hsel : selectedInterpolating ns row = false := by
      unfold selectedInterpolating minNeg
      rw [Bool.or_eq_false_iff]
      constructor
      · have : row.any fltIsNan = true := List.any_eq_true.mpr ⟨.nan, hnan, rfl⟩
        rw [this]
        rfl
      · rw [List.any_eq_false]
        intro b hb
        obtain ⟨j, hj, rfl⟩ := List.getElem_of_mem hb
        rw [List.getElem_zipWith]
        rw [List.length_zipWith] at hj
        have hn : ns[j]'(by omega) ≠ 0 := fun h0 => hp (List.prod_eq_zero (h0 ▸ List.getElem_mem _))
        have hn1 : (1 : K) ≤ (ns[j]'(by omega) : ℕ) := by exact_mod_cast Nat.one_le_iff_ne_zero.mpr hn
        rcases hlow _ (List.getElem_mem (by omega : j < row.length)) with h | h | ⟨z, h, hz⟩
        · rw [h]; simp [fltGt]
        · rw [h]; simp [fltGt]
        · rw [h]
          simp only [fltGt, id, decide_eq_true_eq, not_lt]
          linarith
    rw [List.getElem?_zipWith, List.getElem?_map, hr, hv, Option.map_some, hsel]
    rfl

/-- Witness: two columns with one bin each. A row with a component below the range is replaced, unless the other component is missing. -/
example : regTypePredict (K := ℚ) ⟨fun _ _ => (), fun _ rows => rows.map fun _ => .fin 5⟩ .interpolating
    (regTypeFit ⟨fun _ _ => (), fun _ rows => rows.map fun _ => .fin 5⟩ [⟨[0, 0], 1, 1⟩] [3]) [[.nan, .fin (-1)], [.fin 0, .fin (-1)]] =
      some [.fin 5, .nan] := by decide +kernel

/-- **C49, interpolating.**  For rows without missing values, a row with a negative entry or
an entry beyond the upper edge of the last bin becomes NaN; every other row keeps the
prediction of the sub-smoother. -/
theorem C49_interpolating (sub : Smoother K σ) (ns : List ℕ) (hp : ns.prod ≠ 0)
    (X : List (FitRow K)) (hX : Spec.IsCentreTable ns X) (y : List K) (rows : List (List (Flt K)))
    (hsub : (sub.predict (sub.fit X y) rows).length = rows.length) :
    ∃ out, regTypePredict sub .interpolating (regTypeFit sub X y) rows = some out ∧
      out.length = rows.length ∧
      ∀ (i : ℕ) (v : Flt K) (x : List K), (sub.predict (sub.fit X y) rows)[i]? = some v →
        rows[i]? = some (x.map .fin) → x.length = ns.length →
        ((∃ j, ∃ (h : j < x.length) (h' : j < ns.length), x[j] < 0 ∨ (ns[j] : K) - 1 / 2 < x[j]) →
          out[i]? = some .nan) ∧
        ((∀ j (h : j < x.length) (h' : j < ns.length), 0 ≤ x[j] ∧ x[j] ≤ (ns[j] : K) - 1 / 2) →
          out[i]? = some v) := by
  refine ⟨List.zipWith (fun (s : Bool) v => if s then Flt.nan else v)
      (rows.map (selectedInterpolating ns)) (sub.predict (sub.fit X y) rows), ?_, ?_, ?_⟩
  · unfold regTypePredict regTypeFit applyCut
    rw [setBinInfo_centres ns hp X hX]
  · rw [List.length_zipWith, List.length_map, hsub, min_self]
  · intro i v x hv hr hxl
    have hnn : (!(x.map (Flt.fin (K := K))).any fltIsNan) = true := by
      rw [Bool.not_eq_true', List.any_eq_false]
      intro b hb
      rw [List.mem_map] at hb
      obtain ⟨z, -, rfl⟩ := hb
      simp [fltIsNan]
    have hsel : selectedInterpolating ns (x.map Flt.fin) = true ↔
        ∃ j, ∃ (h : j < x.length) (h' : j < ns.length), x[j] < 0 ∨ (ns[j] : K) - 1 / 2 < x[j] := by
      unfold selectedInterpolating minNeg
      rw [Bool.or_eq_true, hnn, Bool.true_and, List.any_eq_true, List.any_eq_true]
      constructor
      · rintro (⟨b, hb, hneg⟩ | ⟨b, hb, hgt⟩)
        · rw [List.mem_map] at hb
          obtain ⟨z, hz, rfl⟩ := hb
          obtain ⟨j, hj, rfl⟩ := List.getElem_of_mem hz
          exact ⟨j, hj, by omega, Or.inl (by simpa [fltNeg] using hneg)⟩
        · obtain ⟨j, hj, rfl⟩ := List.getElem_of_mem hb
          rw [List.getElem_zipWith] at hgt
          rw [List.length_zipWith, List.length_map] at hj
          refine ⟨j, by omega, by omega, Or.inr ?_⟩
          simpa [fltGt] using hgt
      · rintro ⟨j, h, h', hneg | hgt⟩
        · exact Or.inl ⟨.fin x[j], List.mem_map_of_mem (List.getElem_mem h),
            by simpa [fltNeg] using hneg⟩
        · right
          refine ⟨_, List.getElem_mem (n := j) (by simp; omega), ?_⟩
          rw [List.getElem_zipWith]
          simpa [fltGt] using hgt
    have hout : (List.zipWith (fun (s : Bool) v => if s then Flt.nan else v)
        (rows.map (selectedInterpolating ns)) (sub.predict (sub.fit X y) rows))[i]?
        = some (if selectedInterpolating ns (x.map Flt.fin) then .nan else v) := by
      rw [List.getElem?_zipWith, List.getElem?_map, hr, hv]
      simp
    refine ⟨fun h => ?_, fun h => ?_⟩
    · rw [hout, if_pos (hsel.mpr h)]
    · rw [hout, if_neg]
      rw [hsel]
      rintro ⟨j, h1, h2, hc⟩
      have := h j h1 h2
      rcases hc with hc | hc <;> linarith

/-! ## C50: normalisation -/

theorem sum_zipWith_add_const (c : K) : ∀ (y w : List K), y.length = w.length →
    (List.zipWith (fun a b => a * b) (y.map fun v => v + c) w).sum
      = (List.zipWith (fun a b => a * b) y w).sum + c * w.sum
  | [], [], _ => by simp
  | a :: y, b :: w, h => by
    simp only [List.map_cons, List.zipWith_cons_cons, List.sum_cons]
    rw [sum_zipWith_add_const c y w (by simpa using h)]
    ring
  | [], _ :: _, h => by simp at h
  | _ :: _, [], h => by simp at h

/-- The norm moves with the values, if there is positive weight. -/
theorem calcNorm_shift (X : List (FitRow K)) (y : List K) (c : K) (hlen : y.length = X.length)
    (hw : 0 < (X.map (·.w)).sum) : calcNorm X (y.map fun v => v + c) = calcNorm X y + c := by
  unfold calcNorm
  dsimp only
  rw [if_pos hw, if_pos hw, sum_zipWith_add_const c y _ (by simp [hlen]), add_div,
    mul_div_cancel_right₀ _ hw.ne']

theorem map_sub_shift (y : List K) (c m : K) :
    ((y.map fun v => v + c).map fun v => v - (m + c)) = y.map fun v => v - m := by
  rw [List.map_map]
  apply List.map_congr_left
  intro v _
  simp

theorem addFin_add (v : Flt K) (a c : K) : v.addFin (a + c) = (v.addFin a).addFin c := by
  cases v <;> simp [Flt.addFin, add_assoc]

/-- **C50.**  Adding a constant to all bin values adds the same constant to every prediction,
for every sub-smoother. -/
theorem C50_shift_equivariant (sub : Smoother K σ) (X : List (FitRow K)) (y : List K) (c : K)
    (hlen : y.length = X.length) (hw : 0 < (X.map (·.w)).sum) (rows : List (List (Flt K))) :
    let s := normalizationSmoother sub
    s.predict (s.fit X (y.map fun v => v + c)) rows
      = (s.predict (s.fit X y) rows).map fun v => v.addFin c := by
  intro s
  simp only [s, normalizationSmoother]
  rw [calcNorm_shift X y c hlen hw, map_sub_shift, List.map_map]
  apply List.map_congr_left
  intro v _
  exact addFin_add v _ c

/-- The same for the smoother that also handles the regression type. -/
theorem C50_shift_equivariant_reg (sub : Smoother K σ) (regType : RegType) (X : List (FitRow K))
    (y : List K) (c : K) (hlen : y.length = X.length) (hw : 0 < (X.map (·.w)).sum)
    (rows : List (List (Flt K))) :
    normRegTypePredict sub regType (normRegTypeFit sub X (y.map fun v => v + c)) rows
      = (normRegTypePredict sub regType (normRegTypeFit sub X y) rows).map
          fun out => out.map fun v => v.addFin c := by
  simp only [normRegTypePredict, normRegTypeFit]
  rw [calcNorm_shift X y c hlen hw, map_sub_shift]
  set p := sub.predict (sub.fit X (y.map fun v => v - calcNorm X y)) rows
  have e : (p.map fun v => v.addFin (calcNorm X y + c))
      = (p.map fun v => v.addFin (calcNorm X y)).map fun v => v.addFin c := by
    rw [List.map_map]
    apply List.map_congr_left
    intro v _
    exact addFin_add v _ c
  rw [e]
  generalize (p.map fun v => v.addFin (calcNorm X y)) = q
  have hcut : ∀ sel : List Bool,
      List.zipWith (fun (s : Bool) v => if s then Flt.nan else v) sel
        (q.map fun v : Flt K => v.addFin c)
      = (List.zipWith (fun (s : Bool) v => if s then Flt.nan else v) sel q).map
          fun v => v.addFin c := by
    intro sel
    rw [List.zipWith_map_right, List.map_zipWith]
    congr 1
    funext s v
    cases s <;> simp [Flt.addFin]
  unfold applyCut
  cases regType with
  | discontinuous =>
    dsimp only
    rw [Option.map_map]
    congr 1
    funext sel
    exact hcut sel
  | interpolating =>
    dsimp only
    rw [hcut]
    rfl
  | extrapolating => rfl

/-- **C50.**  The values the sub-smoother sees have weighted mean 0. -/
theorem C50_normalised (X : List (FitRow K)) (y : List K) (hlen : y.length = X.length)
    (hw : 0 < (X.map (·.w)).sum) :
    (List.zipWith (fun a b => a * b) (y.map fun v => v - calcNorm X y) (X.map (·.w))).sum = 0 := by
  have h := sum_zipWith_add_const (-calcNorm X y) y (X.map (·.w)) (by simp [hlen])
  simp only [← sub_eq_add_neg] at h
  rw [h]
  unfold calcNorm
  dsimp only
  rw [if_pos hw, neg_mul, div_mul_cancel₀ _ hw.ne', add_neg_cancel]

/-- **C50.**  A sub-smoother that reproduces all bin values still does so inside the
normalisation, also without any weight. -/
theorem C50_interpolates (sub : Smoother K σ) (X : List (FitRow K)) (rows : List (List (Flt K)))
    (hsub : ∀ z : List K, z.length = X.length → sub.predict (sub.fit X z) rows = z.map .fin)
    (y : List K) (hlen : y.length = X.length) :
    let s := normalizationSmoother sub
    s.predict (s.fit X y) rows = y.map .fin := by
  intro s
  simp only [s, normalizationSmoother]
  rw [hsub _ (by simpa using hlen), List.map_map, List.map_map]
  apply List.map_congr_left
  intro v _
  simp [Flt.addFin]

/-- The normalisation lies between the smallest and the largest bin value, for weights that
are not negative. -/
theorem C50_norm_between (X : List (FitRow K)) (y : List K) (hlen : y.length = X.length)
    (hw0 : ∀ r ∈ X, 0 ≤ r.w) (hw : 0 < (X.map (·.w)).sum) (lo hi : K)
    (h : ∀ v ∈ y, lo ≤ v ∧ v ≤ hi) : lo ≤ calcNorm X y ∧ calcNorm X y ≤ hi := by
  have key : ∀ (X : List (FitRow K)) (y : List K), y.length = X.length → (∀ r ∈ X, 0 ≤ r.w) →
      (∀ v ∈ y, lo ≤ v ∧ v ≤ hi) →
      lo * (X.map (·.w)).sum ≤ (List.zipWith (fun a b => a * b) y (X.map (·.w))).sum ∧
      (List.zipWith (fun a b => a * b) y (X.map (·.w))).sum ≤ hi * (X.map (·.w)).sum := by
    intro X
    induction X with
    | nil => intro y hl _ _; simp
    | cons r X ih =>
      intro y hl hw hy
      cases y with
      | nil => simp at hl
      | cons v y =>
        obtain ⟨i1, i2⟩ := ih y (by simpa using hl) (fun r hr => hw r (by simp [hr]))
          (fun v hv => hy v (by simp [hv]))
        obtain ⟨v1, v2⟩ := hy v (by simp)
        have hr := hw r (by simp)
        simp only [List.map_cons, List.zipWith_cons_cons, List.sum_cons, mul_add]
        exact ⟨add_le_add (mul_le_mul_of_nonneg_right v1 hr) i1,
          add_le_add (mul_le_mul_of_nonneg_right v2 hr) i2⟩
  obtain ⟨k1, k2⟩ := key X y hlen hw0 h
  unfold calcNorm
  dsimp only
  rw [if_pos hw, le_div_iff₀ hw, div_le_iff₀ hw]
  exact ⟨k1, k2⟩

/-! ## C63: two sections -/

theorem scatter_spec {α β : Type*} (p : α → Bool) (f g : List α → List β) : ∀ (rows : List α)
    (a b : List β), a.length = (rows.filter p).length →
    b.length = (rows.filter fun r => !p r).length →
    (scatter (rows.map p) a b).length = rows.length ∧
    (((rows.zip (scatter (rows.map p) a b)).filter fun q => p q.1).map (·.2) = a) ∧
    (((rows.zip (scatter (rows.map p) a b)).filter fun q => !p q.1).map (·.2) = b)
  | [], a, b, ha, hb => by
    simp only [List.filter_nil, List.length_nil, List.length_eq_zero_iff] at ha hb
    subst ha hb
    simp [scatter]
  | r :: rows, a, b, ha, hb => by
    cases hpr : p r with
    | true =>
      rw [List.filter_cons_of_pos hpr] at ha
      rw [List.filter_cons_of_neg (by simp [hpr])] at hb
      cases a with
      | nil => simp at ha
      | cons x a =>
        obtain ⟨h1, h2, h3⟩ := scatter_spec p f g rows a b (by simpa using ha) hb
        simp only [List.map_cons, hpr, scatter]
        refine ⟨by simp [h1], ?_, ?_⟩
        · rw [List.zip_cons_cons, List.filter_cons_of_pos (by simpa using hpr), List.map_cons, h2]
        · rw [List.zip_cons_cons, List.filter_cons_of_neg (by simp [hpr]), h3]
    | false =>
      rw [List.filter_cons_of_neg (by simp [hpr])] at ha
      rw [List.filter_cons_of_pos (by simp [hpr])] at hb
      cases b with
      | nil => simp at hb
      | cons x b =>
        obtain ⟨h1, h2, h3⟩ := scatter_spec p f g rows a b ha (by simpa using hb)
        simp only [List.map_cons, hpr, scatter]
        refine ⟨by simp [h1], ?_, ?_⟩
        · rw [List.zip_cons_cons, List.filter_cons_of_neg (by simp [hpr]), h2]
        · rw [List.zip_cons_cons, List.filter_cons_of_pos (by simp [hpr]), List.map_cons, h3]

/-- Fitting and predicting with a split, in terms of the split conditions: the predictions for the rows at or below
the split point are exactly what the lower smoother, fitted with only the training rows at
or below the split point, predicts for them; likewise above.  A side without training
rows predicts NaN.  Fitting fails only for an empty table. -/
theorem sections_spec (lower : Smoother K σ) (upper : Smoother K τ) (split epsilon : K)
    (X : List (FitRow K)) (y : List K) (hlen : y.length = X.length) (hne : X ≠ [])
    (rows : List (List (Flt K)))
    (hl : ∀ s r, (lower.predict s r).length = r.length)
    (hu : ∀ s r, (upper.predict s r).length = r.length) :
    ∃ st, sectionFit lower upper split epsilon X y = some st ∧
      let out := sectionPredict lower upper split epsilon st rows
      let trainLow := (X.zip y).filter fun p => splitLowerFit split epsilon p.1
      let trainUp := (X.zip y).filter fun p => !splitLowerFit split epsilon p.1
      let isLow := splitLower split epsilon
      out.length = rows.length ∧
      ((rows.zip out).filter (fun q => isLow q.1)).map (·.2)
        = (if trainLow = [] then (rows.filter isLow).map fun _ => Flt.nan
           else lower.predict (lower.fit (trainLow.map (·.1)) (trainLow.map (·.2)))
             (rows.filter isLow)) ∧
      ((rows.zip out).filter (fun q => !isLow q.1)).map (·.2)
        = (if trainUp = [] then (rows.filter fun r => !isLow r).map fun _ => Flt.nan
           else upper.predict (upper.fit (trainUp.map (·.1)) (trainUp.map (·.2)))
             (rows.filter fun r => !isLow r)) := by
  set low := (X.zip y).filter fun p => splitLowerFit split epsilon p.1 with hlow
  set up := (X.zip y).filter fun p => !splitLowerFit split epsilon p.1 with hup
  have hboth : ¬ (low = [] ∧ up = []) := by
    rintro ⟨h1, h2⟩
    cases X with
    | nil => exact hne rfl
    | cons r X =>
      cases y with
      | nil => simp at hlen
      | cons v y =>
        rw [hlow, List.filter_eq_nil_iff] at h1
        rw [hup, List.filter_eq_nil_iff] at h2
        have a1 := h1 (r, v) (by simp)
        have a2 := h2 (r, v) (by simp)
        simp only [Bool.not_eq_true', Bool.not_eq_false] at a1 a2
        exact a1 a2
  refine ⟨(if low = [] then none else some (lower.fit (low.map (·.1)) (low.map (·.2))),
    if up = [] then none else some (upper.fit (up.map (·.1)) (up.map (·.2)))), ?_, ?_⟩
  · unfold sectionFit
    dsimp only
    rw [← hlow, ← hup]
    simp only [List.isEmpty_iff]
    rw [if_neg]
    by_cases h1 : low = []
    · by_cases h2 : up = []
      · exact absurd ⟨h1, h2⟩ hboth
      · simp [h2]
    · simp [h1]
  · dsimp only
    unfold sectionPredict
    dsimp only
    have key := scatter_spec (splitLower split epsilon) (fun _ => ([] : List (Flt K)))
      (fun _ => []) rows
    by_cases h1 : low = [] <;> by_cases h2 : up = []
    · exact absurd ⟨h1, h2⟩ hboth
    · simp only [h1, h2, if_true, if_false]
      exact key _ _ (by simp) (hu _ _)
    · simp only [h1, h2, if_true, if_false]
      exact key _ _ (hl _ _) (by simp)
    · simp only [h1, h2, if_false]
      exact key _ _ (hl _ _) (hu _ _)

/-- **C63.**  Fitting and predicting with a split: call a query row low if its first entry is minus infinity or a number at most
`split + epsilon`, and a training row low if its (first) bin number is at most `split + epsilon`.  The predictions for the low
rows are exactly what the lower smoother, fitted with only the low training rows, predicts for them; likewise for the other
rows and the upper smoother.  A side without training rows predicts NaN.  Fitting fails only for an empty table. -/
theorem C63_sections (lower : Smoother K σ) (upper : Smoother K τ) (split epsilon : K)
    (X : List (FitRow K)) (y : List K) (hlen : y.length = X.length) (hne : X ≠ [])
    (rows : List (List (Flt K)))
    (hl : ∀ s r, (lower.predict s r).length = r.length)
    (hu : ∀ s r, (upper.predict s r).length = r.length)
    (isLow : List (Flt K) → Bool)
    (hisLow : ∀ r, isLow r = true ↔
      r.head? = some .ninf ∨ ∃ x, r.head? = some (.fin x) ∧ x ≤ split + epsilon)
    (isLowFit : FitRow K → Bool)
    (hisLowFit : ∀ r, isLowFit r = true ↔ ((r.x.headD 0 : ℕ) : K) ≤ split + epsilon) :
    ∃ st, sectionFit lower upper split epsilon X y = some st ∧
      let out := sectionPredict lower upper split epsilon st rows
      let trainLow := (X.zip y).filter fun p => isLowFit p.1
      let trainUp := (X.zip y).filter fun p => !isLowFit p.1
      out.length = rows.length ∧
      ((rows.zip out).filter (fun q => isLow q.1)).map (·.2)
        = (if trainLow = [] then (rows.filter isLow).map fun _ => Flt.nan
           else lower.predict (lower.fit (trainLow.map (·.1)) (trainLow.map (·.2)))
             (rows.filter isLow)) ∧
      ((rows.zip out).filter (fun q => !isLow q.1)).map (·.2)
        = (if trainUp = [] then (rows.filter fun r => !isLow r).map fun _ => Flt.nan
           else upper.predict (upper.fit (trainUp.map (·.1)) (trainUp.map (·.2)))
             (rows.filter fun r => !isLow r)) := by
  have e1 : isLow = splitLower split epsilon := by
    funext r
    rw [Bool.eq_iff_iff, hisLow]
    unfold splitLower
    cases r with
    | nil => simp
    | cons b r => cases b <;> simp
  have e2 : isLowFit = splitLowerFit split epsilon := by
    funext r
    rw [Bool.eq_iff_iff, hisLowFit]
    unfold splitLowerFit
    rw [decide_eq_true_iff]
  subst e1 e2
  exact sections_spec lower upper split epsilon X y hlen hne rows hl hu

/-- **C63**, the empty table. -/
theorem C63_empty (lower : Smoother K σ) (upper : Smoother K τ) (split epsilon : K) (y : List K) :
    sectionFit lower upper split epsilon [] y = none := by
  simp [sectionFit]

/-! ## C51: bin-value smoothers -/

/-- **C51, one column.**  A number that rounds to bin `k` gets the value of bin `k`; every other
entry gets NaN. -/
theorem C51_one_dim (X : List (FitRow K)) (y : List K) (rows : List (List (Flt K))) (i : ℕ)
    (b : Flt K) (hr : rows[i]? = some [b]) :
    let out := binValues1.predict (binValues1.fit X y) rows
    (∀ (x : K) (k : ℕ) (v : K), b = .fin x → 0 ≤ x → rint x = (k : ℤ) → y[k]? = some v →
      out[i]? = some (.fin v)) ∧
    ((∀ x : K, b = .fin x → x < 0 ∨ (y.length : ℤ) ≤ rint x) → out[i]? = some .nan) := by
  intro out
  have ho : out[i]? = some (ofLookup (predictOneDim y.length (fun k => y.getD k 0) [b])) := by
    simp only [out, binValues1, List.getElem?_map, hr, Option.map_some]
  refine ⟨?_, ?_⟩
  · rintro x k v rfl hx hk hv
    have hkl : k < y.length := by
      by_contra hc
      rw [List.getElem?_eq_none (not_lt.mp hc)] at hv
      cases hv
    rw [ho]
    simp only [predictOneDim, List.headD_cons, hk, hx, true_and]
    rw [if_pos (by omega), Int.toNat_natCast, List.getD_eq_getElem?_getD, hv]
    rfl
  · intro h
    rw [ho]
    cases b with
    | fin x =>
      simp only [predictOneDim, List.headD_cons]
      rw [if_neg]
      · rfl
      · rintro ⟨h1, h2⟩
        rcases h x rfl with h | h
        · exact absurd h (not_lt.mpr h1)
        · omega
    | nan => rfl
    | pinf => rfl
    | ninf => rfl

/-- A row in the cells of a bin tuple is valid, and its components round down to the tuple. -/
theorem validRow_cell (ns : List ℕ) (r : List K) (t : List ℕ) (ht : Spec.IsBinTuple ns t)
    (hc : Spec.InCell r t) :
    validRow ns (r.map Flt.fin) = true ∧ (r.map Flt.fin).map floorComp = t := by
  have hlen : (r.map Flt.fin).length = ns.length := by rw [List.length_map, hc.1, ht.1]
  refine ⟨?_, ?_⟩
  · rw [validRow_iff ns _ hlen]
    intro j h1 h2
    rw [List.length_map] at h1
    have h3 : j < t.length := by rw [ht.1]; exact h2
    obtain ⟨a, b⟩ := hc.2 j h1 h3
    refine ⟨r[j], by simp, le_trans (Nat.cast_nonneg _) a, lt_of_lt_of_le b ?_⟩
    have := ht.2 j h3 h2
    exact_mod_cast this
  · apply List.ext_getElem
    · simp [hc.1]
    · intro j h1 h2
      simp only [List.length_map] at h1
      simp only [List.getElem_map]
      obtain ⟨a, b⟩ := hc.2 j h1 h2
      exact floorComp_cell _ _ a b

/-- **C51, several columns.**  A row in the cells of a bin tuple gets the value that was passed
to `fit` at the position of this bin tuple; a row with a missing, infinite, negative or
too large entry gets NaN.  The other rows do not matter. -/
theorem C51_multi_dim (ns : List ℕ) (hp : ns.prod ≠ 0) (X : List (FitRow K))
    (hX : Spec.IsCentreTable ns X) (y : List K) (rows : List (List (Flt K))) (i : ℕ) :
    let out := binValuesMulti.predict (binValuesMulti.fit X y) rows
    (∀ (x : List K) (k : ℕ) (r : FitRow K) (v : K), rows[i]? = some (x.map .fin) →
      Spec.IsBinTuple ns r.x → Spec.InCell x r.x → X[k]? = some r → y[k]? = some v →
      out[i]? = some (.fin v)) ∧
    (∀ row, rows[i]? = some row → row.length = ns.length → HasBadComponent ns row →
      out[i]? = some .nan) := by
  intro out
  have ho : ∀ row, rows[i]? = some row → row.length = ns.length → out[i]? = some (ofLookup
      (if validRow ns row then some (y.getD (encode ns (row.map floorComp)) 0) else none)) := by
    intro row hr hl
    simp only [out, binValuesMulti, List.getElem?_map, hr, Option.map_some]
    rw [setBinInfo_centres ns hp X hX]
    unfold predictMultiDim
    rw [validFloor_all, dotRow_eq _ _ (by omega)]
  refine ⟨?_, ?_⟩
  · intro x k r v hr ht hc hk hv
    have hxl : (x.map (Flt.fin (K := K))).length = ns.length := by
      rw [List.length_map, hc.1, ht.1]
    have hkl : k < X.length := by
      by_contra h
      rw [List.getElem?_eq_none (not_lt.mp h)] at hk
      cases hk
    have hkp : k < ns.prod := by rw [← centres_length ns X hX]; exact hkl
    have hek : encode ns r.x = k := by
      have e : (X.map (·.x))[k]? = some r.x := by rw [List.getElem?_map, hk]; rfl
      rw [show X.map (·.x) = arangeMulti ns from hX, arangeMulti_getElem? ns k hkp,
        Option.some.injEq] at e
      rw [← e, encode_digits, Nat.mod_eq_of_lt hkp]
    have hval : validRow ns (x.map Flt.fin) = true ∧ (x.map Flt.fin).map floorComp = r.x :=
      validRow_cell ns x r.x ht hc
    rw [ho _ hr hxl, hval.1, hval.2, hek, if_pos rfl, List.getD_eq_getElem?_getD, hv]
    rfl
  · intro row hr hl hbad
    rw [ho _ hr hl, (validRow_false_iff ns row hl).mpr hbad]
    rfl

end

section
variable {K : Type*} [Zero K] [DecidableEq K]

theorem csr_find (v : List (Flt K)) (n i : ℕ) (h : i < v.length) :
    ((((v.zipIdx n).filter fun p => p.1 ≠ .fin 0).map fun p => (p.2, p.1)).find?
      fun p => p.1 = n + i) = if v[i] = .fin 0 then none else some (n + i, v[i]) := by
  induction v generalizing n i with
  | nil => simp at h
  | cons a v ih =>
    have hrest : ∀ m, m ≤ n → ((((v.zipIdx (n + 1)).filter fun p => p.1 ≠ .fin 0).map
        fun p => (p.2, p.1)).find? fun p => p.1 = m) = none := by
      intro m hm
      rw [List.find?_eq_none]
      intro p hp
      rw [List.mem_map] at hp
      obtain ⟨q, hq, rfl⟩ := hp
      have := List.le_snd_of_mem_zipIdx (List.mem_filter.mp hq).1
      simp only [decide_eq_true_eq]
      omega
    rw [List.zipIdx_cons]
    cases i with
    | zero =>
      by_cases ha : a = .fin 0
      · rw [List.filter_cons_of_neg (by simp [ha])]
        simp only [List.getElem_cons_zero, ha, if_true, Nat.add_zero]
        exact hrest n (le_refl _)
      · rw [List.filter_cons_of_pos (by simp [ha])]
        simp [ha]
    | succ i =>
      have hi : i < v.length := by simpa using h
      have e := ih (n + 1) i hi
      rw [show n + 1 + i = n + (i + 1) by omega] at e
      by_cases ha : a = .fin 0
      · rw [List.filter_cons_of_neg (by simp [ha]), e]
        simp
      · rw [List.filter_cons_of_pos (by simp [ha]), List.map_cons, List.find?_cons_of_neg (by simp),
          e]
        simp

/-- **C51.**  Storing a smoother (non-zero values only) and loading it again gives back
every bin value, including NaN and infinite ones. -/
theorem C51_store_load (v : List (Flt K)) : csrToArray (csrOf v) = v := by
  unfold csrToArray csrOf
  apply List.ext_getElem
  · simp
  · intro i h1 h2
    rw [List.getElem_map, List.getElem_range]
    have e := csr_find v 0 i h2
    rw [Nat.zero_add] at e
    simp only at e ⊢
    rw [e]
    by_cases h : v[i] = .fin 0
    · simp [h]
    · simp [h]

end

/-! ## Witnesses -/

example : (binValues1 (K := ℚ)).predict (binValues1.fit [] [90, 80, 50, 40])
    [[.fin (31 / 10)], [.fin (2 / 5)], [.fin 1], [.fin (29 / 10)], [.fin (17 / 5)], [.fin (9 / 2)], [.nan]]
    = [.fin 40, .fin 90, .fin 80, .fin 40, .fin 40, .nan, .nan] := by decide +kernel

example : (binValuesMulti (K := ℚ)).predict (binValuesMulti.fit
      [⟨[0, 0], 1, 1⟩, ⟨[0, 1], 1, 1⟩, ⟨[1, 0], 1, 1⟩, ⟨[1, 1], 1, 1⟩] [90, 80, 50, 40])
    [[.fin (11 / 10), .fin (6 / 5)], [.fin (2 / 5), .fin (11 / 10)], [.fin 0, .fin (2 / 5)],
      [.fin 2, .fin 0]]
    = [.fin 40, .fin 80, .fin 90, .nan] := by decide +kernel

example : csrOf ([.fin 0, .nan, .fin 3, .fin 0] : List (Flt ℚ)) = (4, [(1, .nan), (2, .fin 3)]) := by
  decide +kernel

/-- A table of two bins, the second without weight; the sub-smoother predicts 7. -/
example : regTypePredict (K := ℚ) ⟨fun _ _ => (), fun _ rows => rows.map fun _ => .fin 7⟩
    .discontinuous (regTypeFit ⟨fun _ _ => (), fun _ rows => rows.map fun _ => .fin 7⟩
      [⟨[0], 2, 1⟩, ⟨[1], 0, 1⟩] [1, 2]) [[.fin 0], [.fin 1], [.fin 5], [.nan], [.fin (2 / 5)]]
    = some [.fin 7, .nan, .nan, .nan, .fin 7] := by decide +kernel

example : Spec.IsCentreTable [2] [(⟨[0], 2, 1⟩ : FitRow ℚ), ⟨[1], 0, 1⟩] := by
  unfold Spec.IsCentreTable; decide +kernel

/-- Two columns: the row (5, 5) is out of range.  Alone in the table it keeps the prediction
of the sub-smoother, next to a row in range it becomes NaN. -/
example :
    let sub : Smoother ℚ Unit := ⟨fun _ _ => (), fun _ rows => rows.map fun _ => .fin 7⟩
    let st := regTypeFit sub [⟨[0, 0], 2, 1⟩, ⟨[0, 1], 1, 1⟩] [1, 2]
    regTypePredict sub .discontinuous st [[.fin 5, .fin 5]] = some [.fin 7] ∧
    regTypePredict sub .discontinuous st [[.fin 5, .fin 5], [.fin 0, .fin 1]]
      = some [.nan, .fin 7] := by decide +kernel

example : regTypePredict (K := ℚ) ⟨fun _ _ => (), fun _ rows => rows.map fun _ => .fin 7⟩
    .interpolating (regTypeFit ⟨fun _ _ => (), fun _ rows => rows.map fun _ => .fin 7⟩
      [⟨[0], 2, 1⟩, ⟨[1], 0, 1⟩] [1, 2]) [[.fin 0], [.fin 1], [.fin 5], [.fin (-1)]]
    = some [.fin 7, .fin 7, .nan, .nan] := by decide +kernel

/-- Normalisation with a sub-smoother that halves: values 1 and 3 with weights 1 and 1. -/
example :
    let sub : Smoother ℚ (List ℚ) := ⟨fun _ y => y, fun y _ => y.map fun v => .fin (v / 2)⟩
    let s := normalizationSmoother sub
    s.predict (s.fit [⟨[0], 1, 1⟩, ⟨[1], 1, 1⟩] [1, 3]) [[.fin 0], [.fin 1]]
      = [.fin (3 / 2), .fin (5 / 2)] := by decide +kernel

example :
    let sub : Smoother ℚ (List ℚ) := ⟨fun _ y => y, fun y rows => rows.map fun _ => .fin y.sum⟩
    (sectionFit sub sub 1 (1 / 1000) [⟨[0], 1, 1⟩, ⟨[1], 1, 1⟩, ⟨[2], 1, 1⟩] [1, 3, 10]).map
      (fun st => sectionPredict sub sub 1 (1 / 1000) st [[.fin 2], [.fin 0], [.fin 1]])
      = some [.fin 10, .fin 4, .fin 4] := by decide +kernel

end CB
