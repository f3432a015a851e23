import Verif.Props.WeightedMean
import Verif.Spec.GroupBy

/-!
# C82: the group-by smoother smooths each group as a feature of its own
-/

set_option autoImplicit false
set_option linter.unusedSectionVars false

namespace CB
open Finset Spec

/-! ### Numbering -/

theorem digits_append (ms : List ℕ) (n i : ℕ) : digits (ms ++ [n]) i = digits ms (i / n) ++ [i % n] := by
  induction ms with
  | nil => simp [digits]
  | cons m ms ih =>
    rw [List.cons_append]
    unfold digits
    rw [ih, List.prod_append, List.prod_singleton, List.cons_append, Nat.div_div_eq_div_mul, mul_comm n]

theorem filter_range_div (n g : ℕ) (hn : 0 < n) : ∀ M, g < M →
    (List.range (M * n)).filter (fun i => decide (i / n = g)) = (List.range n).map fun j => g * n + j := by
  intro M
  induction M with
  | zero => intro h; omega
  | succ M ih =>
    intro h
    rw [Nat.succ_mul, List.range_add, List.filter_append]
    have hcell : ∀ j < n, (M * n + j) / n = M := by
      intro j hj
      rw [mul_comm, Nat.mul_add_div hn, Nat.div_eq_of_lt hj, add_zero]
    by_cases hg : g = M
    · subst hg
      have h1 : (List.range (g * n)).filter (fun i => decide (i / n = g)) = [] := by
        rw [List.filter_eq_nil_iff]
        intro i hi
        rw [List.mem_range] at hi
        have := Nat.div_lt_of_lt_mul (by rw [mul_comm] at hi; exact hi)
        simp; omega
      have h2 : ((List.range n).map fun j => g * n + j).filter (fun i => decide (i / n = g)) = (List.range n).map fun j => g * n + j := by
        rw [List.filter_eq_self]
        intro i hi
        obtain ⟨j, hj, rfl⟩ := List.mem_map.mp hi
        simp [hcell j (List.mem_range.mp hj)]
      rw [h1, h2, List.nil_append]
    · have h2 : ((List.range n).map fun j => M * n + j).filter (fun i => decide (i / n = g)) = [] := by
        rw [List.filter_eq_nil_iff]
        intro i hi
        obtain ⟨j, hj, rfl⟩ := List.mem_map.mp hi
        simp [hcell j (List.mem_range.mp hj)]
        omega
      rw [ih (by omega), h2, List.append_nil]

theorem digits_inj (ms : List ℕ) (a b : ℕ) (ha : a < ms.prod) (hb : b < ms.prod) (h : digits ms a = digits ms b) : a = b := by
  have := congrArg (encode ms) h
  rwa [encode_digits, encode_digits, Nat.mod_eq_of_lt ha, Nat.mod_eq_of_lt hb] at this

/-! ### The table of a group -/

section
variable {K : Type*} [Field K] [LinearOrder K] [IsStrictOrderedRing K] [FloorRing K]

theorem smootherTable_eq (ns : List ℕ) (w u : ℕ → K) :
    smootherTable ns w u = (List.range ns.prod).map fun i => ⟨digits ns i, w i, u i⟩ := by
  apply List.ext_getElem?
  intro i
  rw [List.getElem?_map]
  by_cases hi : i < ns.prod
  · rw [smootherTable_getElem? ns w u i hi, List.getElem?_range hi]; rfl
  · rw [List.getElem?_eq_none (by rw [centres_length ns _ (smootherTable_centres ns w u)]; omega),
      List.getElem?_eq_none (by rw [List.length_range]; omega)]
    rfl

/-- The rows of the table of an interaction, with their values. -/
theorem tableRows_eq (ns : List ℕ) (w u v : ℕ → K) :
    (smootherTable ns w u).zip ((List.range ns.prod).map v)
      = (List.range ns.prod).map fun i => ((⟨digits ns i, w i, u i⟩ : FitRow K), v i) := by
  rw [smootherTable_eq, List.zip_map, List.zip_eq_zipWith, ← List.zip_eq_zipWith]
  apply List.ext_getElem
  · simp
  · intro i h1 h2
    simp

theorem groupKey_row (ms : List ℕ) (n i : ℕ) (a b : K) :
    groupKey (ms.length + 1) (⟨digits (ms ++ [n]) i, a, b⟩ : FitRow K) = digits ms (i / n) := by
  unfold groupKey
  rw [digits_append, Nat.add_sub_cancel]
  exact List.take_left' (digits_length ms _)

/-- The total weight of a group. -/
def groupWeight (n : ℕ) (w : ℕ → K) (g : ℕ) : K := ∑ j ∈ range n, w (g * n + j)

theorem div_lt_prod (ms : List ℕ) (n i : ℕ) (hi : i < ms.prod * n) : i / n < ms.prod :=
  Nat.div_lt_of_lt_mul (by rw [mul_comm] at hi; exact hi)

/-- Filtering the rows by group. -/
theorem rows_filter (ms : List ℕ) (n : ℕ) (hn : 0 < n) (w u v : ℕ → K) (g : ℕ) (hg : g < ms.prod) :
    ((List.range (ms.prod * n)).map fun i => ((⟨digits (ms ++ [n]) i, w i, u i⟩ : FitRow K), v i)).filter
        (fun s => decide (groupKey (ms.length + 1) s.1 = digits ms g))
      = (List.range n).map fun j => ((⟨digits (ms ++ [n]) (g * n + j), w (g * n + j), u (g * n + j)⟩ : FitRow K), v (g * n + j)) := by
  have hr : ((List.range n).map fun j => ((⟨digits (ms ++ [n]) (g * n + j), w (g * n + j), u (g * n + j)⟩ : FitRow K), v (g * n + j)))
      = ((List.range n).map fun j => g * n + j).map fun i => ((⟨digits (ms ++ [n]) i, w i, u i⟩ : FitRow K), v i) := by
    rw [List.map_map]; rfl
  rw [hr, List.filter_map, ← filter_range_div n g hn ms.prod hg]
  congr 1
  apply List.filter_congr
  intro i hi
  have hi := div_lt_prod ms n i (List.mem_range.mp hi)
  simp only [Function.comp_apply, groupKey_row, decide_eq_decide]
  exact ⟨fun h => digits_inj ms _ _ hi hg h, fun h => by rw [h]⟩

/-- The rows that are kept: those of groups with weight. -/
theorem groupByRows_eq (ms : List ℕ) (n : ℕ) (hn : 0 < n) (w u v : ℕ → K) :
    groupByRows (ms.length + 1) true ((smootherTable (ms ++ [n]) w u).zip ((List.range (ms ++ [n]).prod).map v))
      = ((List.range (ms.prod * n)).filter fun i => decide (0 < groupWeight n w (i / n))).map
          fun i => ((⟨digits (ms ++ [n]) i, w i, u i⟩ : FitRow K), v i) := by
  rw [tableRows_eq, List.prod_append, List.prod_singleton]
  unfold groupByRows
  rw [if_pos rfl, List.filter_map]
  congr 1
  apply List.filter_congr
  intro i hi
  have hi := div_lt_prod ms n i (List.mem_range.mp hi)
  simp only [Function.comp_apply, groupKey_row]
  rw [rows_filter ms n hn w u v (i / n) hi, List.map_map]
  unfold groupWeight
  rw [← sum_map_range]
  rfl

/-- The table with which the smoother of a group is fitted. -/
theorem groupTable_eq (ms : List ℕ) (n : ℕ) (hn : 0 < n) (w u v : ℕ → K) (g : ℕ) (hg : g < ms.prod) (hW : 0 < groupWeight n w g) :
    groupTable (ms.length + 1)
        (groupByRows (ms.length + 1) true ((smootherTable (ms ++ [n]) w u).zip ((List.range (ms ++ [n]).prod).map v))) (digits ms g)
      = (List.range n).map fun j => ((⟨[j], w (g * n + j), u (g * n + j)⟩ : FitRow K), v (g * n + j)) := by
  unfold groupTable
  rw [groupByRows_eq ms n hn, List.filter_map, List.filter_filter]
  have e : (List.range (ms.prod * n)).filter (fun i =>
      (((fun r : FitRow K × K => decide (groupKey (ms.length + 1) r.1 = digits ms g)) ∘
        fun i => ((⟨digits (ms ++ [n]) i, w i, u i⟩ : FitRow K), v i)) i) && decide (0 < groupWeight n w (i / n)))
      = (List.range n).map fun j => g * n + j := by
    rw [← filter_range_div n g hn ms.prod hg]
    apply List.filter_congr
    intro i hi
    have hi := div_lt_prod ms n i (List.mem_range.mp hi)
    simp only [Function.comp_apply, groupKey_row]
    by_cases h : i / n = g
    · simp [h, hW]
    · have : ¬ digits ms (i / n) = digits ms g := fun h' => h (digits_inj ms _ _ hi hg h')
      simp [h, this]
  rw [e, List.map_map, List.map_map]
  apply List.map_congr_left
  intro j hj
  have hj := List.mem_range.mp hj
  have hm : (g * n + j) % n = j := by rw [mul_comm, Nat.mul_add_mod, Nat.mod_eq_of_lt hj]
  simp only [Function.comp_apply, digits_append, hm, Nat.add_sub_cancel, List.getD_eq_getElem?_getD]
  rw [List.getElem?_append_right (by rw [digits_length]), digits_length, Nat.sub_self]
  rfl

theorem groupKeys_mem (ms : List ℕ) (n : ℕ) (hn : 0 < n) (w u v : ℕ → K) (g : ℕ) (hg : g < ms.prod) :
    digits ms g ∈ ((groupByRows (ms.length + 1) true ((smootherTable (ms ++ [n]) w u).zip ((List.range (ms ++ [n]).prod).map v))).map
      fun r => groupKey (ms.length + 1) r.1).dedup ↔ 0 < groupWeight n w g := by
  rw [List.mem_dedup, groupByRows_eq ms n hn, List.map_map, List.mem_map]
  constructor
  · rintro ⟨i, hi, he⟩
    rw [List.mem_filter, List.mem_range, decide_eq_true_eq] at hi
    simp only [Function.comp_apply, groupKey_row] at he
    rw [← digits_inj ms _ _ (div_lt_prod ms n i hi.1) hg he]
    exact hi.2
  · intro hW
    have hd : g * n / n = g := Nat.mul_div_cancel g hn
    refine ⟨g * n, ?_, ?_⟩
    · rw [List.mem_filter, List.mem_range, decide_eq_true_eq, hd]
      exact ⟨Nat.mul_lt_mul_of_pos_right hg hn, hW⟩
    · simp only [Function.comp_apply, groupKey_row, hd]

/-- Looking up a group. -/
theorem find_key {β : Type*} (keys : List (List ℕ)) (F : List ℕ → β) (key : List ℕ) :
    (keys.map fun k => (k, F k)).find? (fun p => decide (p.1.map (fun (c : ℕ) => Flt.fin (c : K)) = key.map fun (c : ℕ) => Flt.fin (c : K)))
      = if key ∈ keys then some (key, F key) else none := by
  have hinj : ∀ a b : List ℕ, a.map (fun (c : ℕ) => Flt.fin (c : K)) = b.map (fun (c : ℕ) => Flt.fin (c : K)) ↔ a = b := by
    intro a b
    constructor
    · intro h
      exact List.map_injective_iff.mpr (fun x y hxy => Nat.cast_injective (Flt.fin.inj hxy)) h
    · intro h; rw [h]
  induction keys with
  | nil => simp
  | cons k keys ih =>
    rw [List.map_cons, List.find?_cons]
    by_cases h : k = key
    · subst h
      simp
    · have : ¬ k.map (fun (c : ℕ) => Flt.fin (c : K)) = key.map (fun (c : ℕ) => Flt.fin (c : K)) := fun h' => h ((hinj _ _).mp h')
      simp only [this, decide_false, ih]
      have h' : ¬ key = k := fun e => h e.symm
      simp [h']

/-- What the group-by smoother predicts at the centre of a bin. -/
theorem groupBy_centre {σ : Type*} (inner : Smoother K σ) (ms : List ℕ) (n : ℕ) (hn : 0 < n) (w u v : ℕ → K) (g j : ℕ)
    (hg : g < ms.prod) (hj : j < n) :
    ((groupBySmoother inner (ms.length + 1) true).predict ((groupBySmoother inner (ms.length + 1) true).fit
        (smootherTable (ms ++ [n]) w u) ((List.range (ms ++ [n]).prod).map v))
        ((arangeMulti (ms ++ [n])).map fun c => c.map fun (i : ℕ) => Flt.fin (i : K)))[g * n + j]?
      = some (if 0 < groupWeight n w g then
          (inner.predict (inner.fit (smootherTable [n] (fun k => w (g * n + k)) fun k => u (g * n + k))
            ((List.range n).map fun k => v (g * n + k))) [[Flt.fin (j : K)]]).headD .nan
        else .nan) := by
  have hb : g * n + j < (ms ++ [n]).prod := by
    rw [List.prod_append, List.prod_singleton]
    calc g * n + j < g * n + n := by omega
      _ = (g + 1) * n := by ring
      _ ≤ ms.prod * n := Nat.mul_le_mul_right n hg
  have hd : (g * n + j) / n = g := by rw [mul_comm, Nat.mul_add_div hn, Nat.div_eq_of_lt hj, add_zero]
  have hm : (g * n + j) % n = j := by rw [mul_comm, Nat.mul_add_mod, Nat.mod_eq_of_lt hj]
  simp only [groupBySmoother]
  rw [List.getElem?_map, centreRows_getElem? _ _ hb, digits_append, hd, hm, Option.map_some, Option.some.injEq]
  rw [List.map_append, List.map_singleton, Nat.add_sub_cancel,
    List.take_left' (by rw [List.length_map, digits_length]), find_key]
  have hlast : ((digits ms g).map (fun (i : ℕ) => Flt.fin (i : K)) ++ [Flt.fin (j : K)]).getD ms.length .nan = Flt.fin (j : K) := by
    rw [List.getD_eq_getElem?_getD, List.getElem?_append_right (by rw [List.length_map, digits_length]), List.length_map,
      digits_length, Nat.sub_self]
    rfl
  by_cases hW : 0 < groupWeight n w g
  · rw [if_pos ((groupKeys_mem ms n hn w u v g hg).mpr hW), if_pos hW]
    simp only [hlast]
    rw [groupTable_eq ms n hn w u v g hg hW]
    congr 3
    · rw [List.map_map, smootherTable_eq, List.prod_singleton]
      apply List.map_congr_left
      intro k hk
      simp only [Function.comp_apply, digits_one n k (List.mem_range.mp hk)]
    · rw [List.map_map]; rfl
  · rw [if_neg (fun h => hW ((groupKeys_mem ms n hn w u v g hg).mp h)), if_neg hW]

end

/-! ### Rows are predicted one by one -/

/-- A prediction gives one value per row, and at a bin centre this value does not depend on the other rows. -/
def CentreWise (n : ℕ) (f : List (List (Flt ℝ)) → List (Flt ℝ)) : Prop :=
  (∀ rows, (f rows).length = rows.length) ∧
  ∀ (rows : List (List (Flt ℝ))) (i b : ℕ), b < n → rows[i]? = some [Flt.fin (b : ℝ)] → (f rows)[i]? = (f [[Flt.fin (b : ℝ)]])[0]?

theorem centreWise_map (n : ℕ) (p : List (Flt ℝ) → Flt ℝ) : CentreWise n fun rows => rows.map p :=
  ⟨fun rows => by rw [List.length_map], fun rows i b _ hr => by rw [List.getElem?_map, hr]; rfl⟩

/-- The cut keeps this. -/
theorem centreWise_cut {σ : Type*} (sub : Smoother ℝ σ) (t : RegType) (n : ℕ) (hn : n ≠ 0) (X : List (FitRow ℝ))
    (hX : IsCentreTable [n] X) (y : List ℝ) (h : CentreWise n fun rows => sub.predict (sub.fit X y) rows) :
    CentreWise n fun rows => (regTypePredict sub t (regTypeFit sub X y) rows).getD [] := by
  cases t with
  | discontinuous =>
    have hall : ∀ rows, ((regTypePredict sub .discontinuous (regTypeFit sub X y) rows).getD []).length = rows.length ∧
        ∀ (i b : ℕ), b < n → rows[i]? = some [Flt.fin (b : ℝ)] → ∀ v, (sub.predict (sub.fit X y) rows)[i]? = some v →
          ∀ r, r ∈ X → r.x = [b] →
          ((regTypePredict sub .discontinuous (regTypeFit sub X y) rows).getD [])[i]? = some (if r.w = 0 then Flt.nan else v) := by
      intro rows
      obtain ⟨out, e1, e2, e3⟩ := C49_discontinuous_1d sub n hn X hX y rows (h.1 rows)
      rw [e1]
      refine ⟨e2, fun i b hb hr v hv r hrX hrx => ?_⟩
      exact (e3 i v hv).1 (b : ℝ) r b hr (Nat.cast_nonneg b) (by exact_mod_cast rint_intCast (K := ℝ) (b : ℤ)) hrX hrx
    refine ⟨fun rows => (hall rows).1, fun rows i b hb hr => ?_⟩
    have hi : i < (sub.predict (sub.fit X y) rows).length := by
      rw [h.1 rows]; exact (List.getElem?_eq_some_iff.mp hr).1
    have hv := List.getElem?_eq_getElem hi
    have hv' := hv
    rw [h.2 rows i b hb hr] at hv'
    have hmem : [b] ∈ X.map (·.x) := by
      rw [hX]
      exact List.mem_of_getElem? (by rw [arangeMulti_getElem? [n] b (by simpa using hb), digits_one n b hb])
    obtain ⟨r, hrX, hrx⟩ := List.mem_map.mp hmem
    rw [(hall rows).2 i b hb hr _ hv r hrX hrx, (hall _).2 0 b hb rfl _ hv' r hrX hrx]
  | interpolating =>
    have hall : ∀ rows, ((regTypePredict sub .interpolating (regTypeFit sub X y) rows).getD []).length = rows.length ∧
        ∀ (i b : ℕ), b < n → rows[i]? = some [Flt.fin (b : ℝ)] → ∀ v, (sub.predict (sub.fit X y) rows)[i]? = some v →
          ((regTypePredict sub .interpolating (regTypeFit sub X y) rows).getD [])[i]? = some v := by
      intro rows
      obtain ⟨out, e1, e2, e3⟩ := C49_interpolating sub [n] (by simpa using hn) X hX y rows (h.1 rows)
      rw [e1]
      refine ⟨e2, fun i b hb hr v hv => ?_⟩
      refine (e3 i v [(b : ℝ)] hv hr rfl).2 fun j hj hj' => ?_
      have : j = 0 := by simpa using hj
      subst this
      have : (b : ℝ) + 1 ≤ n := by exact_mod_cast hb
      exact ⟨Nat.cast_nonneg b, by show (b : ℝ) ≤ (n : ℝ) - 1 / 2; linarith⟩
    refine ⟨fun rows => (hall rows).1, fun rows i b hb hr => ?_⟩
    have hi : i < (sub.predict (sub.fit X y) rows).length := by
      rw [h.1 rows]; exact (List.getElem?_eq_some_iff.mp hr).1
    have hv := List.getElem?_eq_getElem hi
    have hv' := hv
    rw [h.2 rows i b hb hr] at hv'
    rw [(hall rows).2 i b hb hr _ hv, (hall _).2 0 b hb rfl _ hv']
  | extrapolating => exact h

theorem centreWise_norm {σ : Type*} (sub : Smoother ℝ σ) (n : ℕ) (X : List (FitRow ℝ))
    (h : ∀ y, CentreWise n fun rows => sub.predict (sub.fit X y) rows) (y : List ℝ) :
    CentreWise n fun rows => (normalizationSmoother sub).predict ((normalizationSmoother sub).fit X y) rows := by
  refine ⟨fun rows => ?_, fun rows i b hb hr => ?_⟩
  · simp only [normalizationSmoother, List.length_map]
    exact (h _).1 rows
  · simp only [normalizationSmoother, List.getElem?_map]
    rw [(h _).2 rows i b hb hr]

theorem centreWise_kind (O : OpenSmoothers) (hO : RowWise O) (n : ℕ) (hn : n ≠ 0) (X : List (FitRow ℝ)) (hX : IsCentreTable [n] X) :
    ∀ (s : SmootherKind) (y : List ℝ), CentreWise n (kindAfter O s X y) := by
  intro s
  induction s with
  | explicit name g =>
    intro y
    obtain ⟨p, hp⟩ := hO.1 name g X y
    have : kindAfter O (.explicit name g) X y = fun rows => rows.map p := funext hp
    rw [this]; exact centreWise_map n p
  | seasonal z =>
    intro y
    obtain ⟨p, hp⟩ := hO.2 z X y
    have : kindAfter O (.seasonal z) X y = fun rows => rows.map p := funext hp
    rw [this]; exact centreWise_map n p
  | weightedMean => intro y; exact centreWise_map n _
  | weightedMeanNeighbors => intro y; exact centreWise_map n _
  | orthogonalPolynomial => intro y; exact centreWise_map n _
  | linearExtrapolator => intro y; exact centreWise_map n _
  | isotonic inc => intro y; exact centreWise_map n _
  | binValuesOne => intro y; exact centreWise_map n _
  | binValuesMany => intro y; exact centreWise_map n _
  | weightedMeanMulti => intro y; exact centreWise_map n _
  | groupByCB inner d ih => intro y; exact centreWise_map n _
  | normalization s ih => intro y; exact centreWise_norm (smootherOf (kindAfter O s)) n X ih y
  | regressionType s t ih => intro y; exact centreWise_cut (smootherOf (kindAfter O s)) t n hn X hX y (ih y)
  | normalizationRegressionType s t ih =>
    intro y
    exact centreWise_cut (normalizationSmoother (smootherOf (kindAfter O s))) t n hn X hX y
      (centreWise_norm (smootherOf (kindAfter O s)) n X ih y)

/-! ### The theorems -/

theorem kindPredict_package (O : OpenSmoothers) (s : SmootherKind) (X : List (FitRow ℝ)) (y : List ℝ) (rows : List (List (Flt ℝ))) :
    (kindPredict (packageSmoothers O) s X y rows).getD [] = kindAfter O s X y rows := by
  cases s <;> rfl

theorem smoothAtCentres_package (O : OpenSmoothers) (s : SmootherKind) (ns : List ℕ) (w u v : ℕ → ℝ) (b : ℕ) :
    smoothAtCentres (packageSmoothers O) s ns w u v b
      = ((kindAfter O s (smootherTable ns w u) ((List.range ns.prod).map v)
          ((arangeMulti ns).map fun c => c.map fun (i : ℕ) => Flt.fin (i : ℝ)))[b]?).bind Flt.toOption := by
  rw [← kindPredict_package]
  unfold smoothAtCentres
  cases kindPredict (packageSmoothers O) s (smootherTable ns w u) ((List.range ns.prod).map v)
      ((arangeMulti ns).map fun c => c.map fun (i : ℕ) => Flt.fin (i : ℝ)) with
  | none => rfl
  | some l =>
    show _ = (l[b]?).bind Flt.toOption
    cases h : l[b]? with
    | none => simp [h]
    | some x => cases x <;> simp [h, Flt.toOption]

theorem smootherTable_congr (ns : List ℕ) (w w' u u' : ℕ → ℝ) (hw : ∀ i < ns.prod, w i = w' i) (hu : ∀ i < ns.prod, u i = u' i) :
    smootherTable ns w u = smootherTable ns w' u' := by
  rw [smootherTable_eq, smootherTable_eq]
  apply List.map_congr_left
  intro i hi
  have hi := List.mem_range.mp hi
  rw [hw i hi, hu i hi]

/-- **C82.** The group-by smoother smooths the bins of each group as the inner smoother smooths a feature that consists of the last
column and of this group only; groups without weight get no value. -/
theorem C82_groups (O : OpenSmoothers) (hO : RowWise O) (inner : SmootherKind) (ms : List ℕ) (n : ℕ) (w u v w' u' v' : ℕ → ℝ)
    (t : List ℕ) (j b : ℕ) (hb : (arangeMulti (ms ++ [n]))[b]? = some (t ++ [j]))
    (hw : IsSlice (ms ++ [n]) t w w') (hu : IsSlice (ms ++ [n]) t u u') (hv : IsSlice (ms ++ [n]) t v v') :
    smoothAtCentres (packageSmoothers O) (.groupByCB inner (ms.length + 1)) (ms ++ [n]) w u v b
      = if 0 < ∑ k ∈ range n, w' k then smoothAtCentres (packageSmoothers O) inner [n] w' u' v' j else none := by
  have hprod : (ms ++ [n]).prod = ms.prod * n := by rw [List.prod_append, List.prod_singleton]
  have hlt : b < (ms ++ [n]).prod := by
    by_contra h
    rw [List.getElem?_eq_none (by rw [(C12_inverse (K := ℚ) (ms ++ [n])).1]; omega)] at hb
    exact absurd hb (by simp)
  have hn : 0 < n := by
    rcases Nat.eq_zero_or_pos n with h | h
    · subst h; rw [hprod, mul_zero] at hlt; omega
    · exact h
  have hg : b / n < ms.prod := div_lt_prod ms n b (by rw [← hprod]; exact hlt)
  rw [arangeMulti_getElem? _ _ hlt, digits_append, Option.some.injEq] at hb
  obtain ⟨ht, hj⟩ := List.append_inj' hb rfl
  have hj : b % n = j := by simpa using hj
  have hjn : j < n := by rw [← hj]; exact Nat.mod_lt b hn
  set g := b / n with hgdef
  have hbe : b = g * n + j := by rw [← hj, hgdef, mul_comm]; exact (Nat.div_add_mod b n).symm
  have hslice : ∀ f f' : ℕ → ℝ, IsSlice (ms ++ [n]) t f f' → ∀ k < n, f (g * n + k) = f' k := by
    intro f f' hf k hk
    refine (hf k (g * n + k) ?_).symm
    have hk' : g * n + k < (ms ++ [n]).prod := by
      rw [hprod]
      calc g * n + k < g * n + n := by omega
        _ = (g + 1) * n := by ring
        _ ≤ ms.prod * n := Nat.mul_le_mul_right n hg
    rw [arangeMulti_getElem? _ _ hk', digits_append, ← ht]
    have h1 : (g * n + k) / n = g := by rw [mul_comm, Nat.mul_add_div hn, Nat.div_eq_of_lt hk, add_zero]
    have h2 : (g * n + k) % n = k := by rw [mul_comm, Nat.mul_add_mod, Nat.mod_eq_of_lt hk]
    rw [h1, h2]
  rw [smoothAtCentres_package, hbe]
  have := groupBy_centre (smootherOf (kindAfter O inner)) ms n hn w u v g j hg hjn
  rw [show kindAfter O (.groupByCB inner (ms.length + 1)) = (groupBySmoother (smootherOf (kindAfter O inner)) (ms.length + 1) true).after
    from rfl]
  unfold Smoother.after
  rw [this, Option.bind_some]
  have hW : groupWeight n w g = ∑ k ∈ range n, w' k :=
    Finset.sum_congr rfl fun k hk => hslice w w' hw k (Finset.mem_range.mp hk)
  rw [hW]
  by_cases hpos : 0 < ∑ k ∈ range n, w' k
  · rw [if_pos hpos, if_pos hpos, smoothAtCentres_package]
    have hX := smootherTable_centres (K := ℝ) [n] w' u'
    have htab : smootherTable [n] (fun k => w (g * n + k)) (fun k => u (g * n + k)) = smootherTable [n] w' u' :=
      smootherTable_congr _ _ _ _ _ (fun i hi => hslice w w' hw i (by simpa using hi))
        (fun i hi => hslice u u' hu i (by simpa using hi))
    have hval : ((List.range n).map fun k => v (g * n + k)) = (List.range [n].prod).map v' := by
      rw [List.prod_singleton]
      exact List.map_congr_left fun k hk => hslice v v' hv k (List.mem_range.mp hk)
    rw [htab, hval]
    obtain ⟨c1, c2⟩ := centreWise_kind O hO n (by omega) _ hX inner ((List.range [n].prod).map v')
    rw [c2 _ j j hjn (by rw [centreRows_getElem? [n] j (by simpa using hjn), digits_one n j hjn]; rfl)]
    show Flt.toOption ((kindAfter O inner (smootherTable [n] w' u') ((List.range [n].prod).map v') [[Flt.fin (j : ℝ)]]).headD .nan) = _
    have hlen := c1 [[Flt.fin (j : ℝ)]]
    cases hout : kindAfter O inner (smootherTable [n] w' u') ((List.range [n].prod).map v') [[Flt.fin (j : ℝ)]] with
    | nil => rw [hout] at hlen; simp at hlen
    | cons a l => rfl
  · rw [if_neg hpos, if_neg hpos]
    rfl

/-- What the group-by choice makes of an interaction: the group-by smoother with the smoother that the same choice makes for the
last column alone. -/
theorem groupBy_choice (c : Choice) (hc : c.kind = .groupBy) (props : Option (List (String × ℕ))) (pre : List String) (hpre : pre ≠ [])
    (name : String) (hexp : Spec.NoExplicit c (pre ++ [name])) (k : SmootherKind)
    (hk : smootherForGroup c props (pre ++ [name]) = .ok k) :
    ∃ k₁, smootherForGroup c props [name] = .ok k₁ ∧ k = .groupByCB k₁ (pre.length + 1) := by
  unfold smootherForGroup Choice.choose at hk
  rw [hc, noExplicit_iff.mpr hexp] at hk
  simp only at hk
  unfold Choice.raw at hk
  rw [hc] at hk
  have hlast : ∀ d, (readFeatureProperty props (pre ++ [name]) d).getLast? = (readFeatureProperty props [name] d).getLast? := by
    intro d
    unfold readFeatureProperty
    rw [List.map_append, List.getLast?_append]
    simp
  obtain ⟨fp, hfp⟩ : ∃ fp, readFeatureProperty props [name] Flags.HAS_MISSING = [fp] := ⟨_, rfl⟩
  rw [hlast, hfp] at hk
  have hlen : 1 < (pre ++ [name]).length := by
    have := List.length_pos_iff.mpr hpre
    simp; omega
  simp only [List.getLast?_singleton, List.getLast?_append, Option.some_or] at hk
  cases hone : c.onedim fp name with
  | error e => rw [hone] at hk; simp at hk
  | ok s =>
    rw [hone] at hk
    simp only [if_pos hlen] at hk
    have hwrap : c.wrap s (readFeatureProperty props (pre ++ [name]) Flags.HAS_MISSING) = c.wrap s [fp] := by
      unfold Choice.wrap
      rw [hc]
      simp only [hlast, hfp]
    rw [hwrap] at hk
    cases hw : c.wrap s [fp] with
    | error e => rw [hw] at hk; simp at hk
    | ok k₁ =>
      rw [hw] at hk
      simp only at hk
      have hw2 : c.wrap (.groupByCB k₁ (pre ++ [name]).length) (readFeatureProperty props (pre ++ [name]) Flags.HAS_MISSING)
          = .ok (.groupByCB k₁ (pre ++ [name]).length) := by
        unfold Choice.wrap; rw [hc]; rfl
      rw [hw2] at hk
      refine ⟨k₁, ?_, ?_⟩
      · unfold smootherForGroup Choice.choose
        rw [hc, hfp]
        simp only
        unfold Choice.onedim at hone
        cases he : c.explicitFor [name] with
        | some s' => rw [he] at hone; simp only [Except.ok.injEq] at hone; subst hone; simp only [hw]
        | none =>
          simp only
          unfold Choice.raw
          rw [hc]
          simp only [List.getLast?_singleton, List.length_singleton, lt_irrefl, if_false]
          have : c.onedim fp name = .ok s := by unfold Choice.onedim; exact hone
          rw [this]
          simp only [hw]
      · rw [Except.ok.injEq] at hk
        rw [← hk, List.length_append, List.length_singleton]

/-- **C82.** With the group-by choice, an interaction is smoothed group by group, where a group is given by the bins of all columns
but the last: each group as the last column alone would be smoothed if it were a feature with the weights, uncertainties and values
of that group. -/
theorem C82_interaction (O : OpenSmoothers) (hO : RowWise O) (c : Choice) (hc : c.kind = .groupBy)
    (props : Option (List (String × ℕ))) (pre : List String) (hpre : pre ≠ []) (name : String)
    (hexp : Spec.NoExplicit c (pre ++ [name])) (k : SmootherKind) (hk : smootherForGroup c props (pre ++ [name]) = .ok k) :
    ∃ k₁, smootherForGroup c props [name] = .ok k₁ ∧
      ∀ (ms : List ℕ), ms.length = pre.length → ∀ (n : ℕ) (w u v w' u' v' : ℕ → ℝ) (t : List ℕ) (j b : ℕ),
        (arangeMulti (ms ++ [n]))[b]? = some (t ++ [j]) → IsSlice (ms ++ [n]) t w w' → IsSlice (ms ++ [n]) t u u' →
        IsSlice (ms ++ [n]) t v v' →
        smoothAtCentres (packageSmoothers O) k (ms ++ [n]) w u v b
          = if 0 < ∑ i ∈ range n, w' i then smoothAtCentres (packageSmoothers O) k₁ [n] w' u' v' j else none := by
  obtain ⟨k₁, h1, rfl⟩ := groupBy_choice c hc props pre hpre name hexp k hk
  refine ⟨k₁, h1, fun ms hms n w u v w' u' v' t j b hb hw hu hv => ?_⟩
  rw [← hms]
  exact C82_groups O hO k₁ ms n w u v w' u' v' t j b hb hw hu hv

end CB
