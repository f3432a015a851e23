import Verif.Lemmas.Predict
import Verif.Lemmas.Relabel
import Verif.Spec.Relabel

/-!
# Combined bin numbers of tables whose categories are numbered differently
-/

set_option autoImplicit false
set_option linter.unusedSectionVars false

namespace CB
open Finset Spec

/-- The numberings keep the ranges of the columns. -/
def KeepsRanges (π : String → Equiv.Perm ℕ) (group : List String) (ns : List ℕ) : Prop :=
  group.length = ns.length ∧ ∀ (i : ℕ) (h : i < group.length) (h' : i < ns.length) (k : ℕ), π group[i] k < ns[i] ↔ k < ns[i]

/-- The numbers of a tuple of categories. -/
def recodeTuple (π : String → Equiv.Perm ℕ) (group : List String) (t : List ℕ) : List ℕ :=
  List.zipWith (fun c k => π c k) group t

theorem recodeTuple_valid {π : String → Equiv.Perm ℕ} {group : List String} {ns : List ℕ} (h : KeepsRanges π group ns)
    (t : List ℕ) (ht : IsBinTuple ns t) : IsBinTuple ns (recodeTuple π group t) := by
  have hl : (recodeTuple π group t).length = ns.length := by
    unfold recodeTuple
    rw [List.length_zipWith, ht.1, h.1, Nat.min_self]
  refine ⟨hl, fun i h1 h2 => ?_⟩
  unfold recodeTuple at h1 ⊢
  rw [List.getElem_zipWith]
  rw [List.length_zipWith] at h1
  exact (h.2 i (by omega) h2 _).mpr (ht.2 i (by omega) h2)

theorem digits_encode (ns t : List ℕ) (ht : IsBinTuple ns t) : digits ns (encode ns t) = t := by
  have hlt := encode_lt ns t ht
  apply encode_inj ns _ _ (digits_valid ns _ (by omega)) ht
  rw [encode_digits, Nat.mod_eq_of_lt hlt]

/-- The bin numbers of the new numbering. -/
def recodeBin (π : String → Equiv.Perm ℕ) (group : List String) (ns : List ℕ) (b : ℕ) : ℕ :=
  if b < ns.prod then encode ns (recodeTuple π group (digits ns b)) else b

theorem recodeBin_encode {π : String → Equiv.Perm ℕ} {group : List String} {ns : List ℕ}
    (t : List ℕ) (ht : IsBinTuple ns t) : recodeBin π group ns (encode ns t) = encode ns (recodeTuple π group t) := by
  unfold recodeBin
  rw [if_pos (encode_lt ns t ht), digits_encode ns t ht]

theorem recodeBin_lt {π : String → Equiv.Perm ℕ} {group : List String} {ns : List ℕ} (h : KeepsRanges π group ns) (b : ℕ)
    (hb : b < ns.prod) : recodeBin π group ns b < ns.prod := by
  unfold recodeBin
  rw [if_pos hb]
  exact encode_lt ns _ (recodeTuple_valid h _ (digits_valid ns b (by omega)))

theorem KeepsRanges.symm {π : String → Equiv.Perm ℕ} {group : List String} {ns : List ℕ} (h : KeepsRanges π group ns) :
    KeepsRanges (fun c => (π c).symm) group ns :=
  ⟨h.1, fun i h1 h2 k => by rw [← h.2 i h1 h2, Equiv.apply_symm_apply]⟩

theorem recodeTuple_inverse (π π' : String → Equiv.Perm ℕ) (hπ : ∀ c k, π' c (π c k) = k) (group : List String) (t : List ℕ)
    (hl : t.length = group.length) : recodeTuple π' group (recodeTuple π group t) = t := by
  unfold recodeTuple
  apply List.ext_getElem
  · simp [hl]
  · intro i h1 h2
    simp [hπ]

theorem recodeBin_inverse {π π' : String → Equiv.Perm ℕ} (hπ : ∀ c k, π' c (π c k) = k) {group : List String} {ns : List ℕ}
    (h : KeepsRanges π group ns) (b : ℕ) : recodeBin π' group ns (recodeBin π group ns b) = b := by
  by_cases hb : b < ns.prod
  · have hv := digits_valid ns b (by omega)
    have e : recodeBin π group ns b = encode ns (recodeTuple π group (digits ns b)) := by unfold recodeBin; rw [if_pos hb]
    rw [e, recodeBin_encode _ (recodeTuple_valid h _ hv), recodeTuple_inverse π π' hπ group _ (by rw [hv.1, h.1]), encode_digits,
      Nat.mod_eq_of_lt hb]
  · unfold recodeBin
    rw [if_neg hb, if_neg hb]

/-- The permutation of the bins. -/
def binPerm (π : String → Equiv.Perm ℕ) (group : List String) (ns : List ℕ) (h : KeepsRanges π group ns) : Equiv.Perm ℕ where
  toFun := recodeBin π group ns
  invFun := recodeBin (fun c => (π c).symm) group ns
  left_inv := recodeBin_inverse (fun c k => (π c).symm_apply_apply k) h
  right_inv := recodeBin_inverse (fun c k => (π c).apply_symm_apply k) h.symm

theorem binPerm_numbering (π : String → Equiv.Perm ℕ) (group : List String) (ns : List ℕ) (h : KeepsRanges π group ns) :
    IsNumbering (binPerm π group ns h) ns.prod where
  missing := by
    show recodeBin π group ns ns.prod = ns.prod
    unfold recodeBin
    rw [if_neg (lt_irrefl _)]
  finite b := by
    show recodeBin π group ns b < ns.prod ↔ _
    constructor
    · intro hb
      by_contra hc
      unfold recodeBin at hb
      rw [if_neg hc] at hb
      exact hc hb
    · exact recodeBin_lt h b

theorem binPerm_one (π : String → Equiv.Perm ℕ) (group : List String) (ns : List ℕ) (h : KeepsRanges π group ns)
    (h1 : ∀ c ∈ group, π c = 1) : binPerm π group ns h = 1 := by
  ext b
  show recodeBin π group ns b = b
  unfold recodeBin
  split
  · next hb =>
    have hv := digits_valid ns b (by omega)
    have : recodeTuple π group (digits ns b) = digits ns b := by
      unfold recodeTuple
      apply List.ext_getElem
      · simp [hv.1, h.1]
      · intro i h2 h3
        rw [List.getElem_zipWith, h1 _ (List.getElem_mem ..)]
        rfl
    rw [this, encode_digits, Nat.mod_eq_of_lt hb]
  · rfl

/-! ### Rows -/

theorem recoded_usable {π : String → Equiv.Perm ℕ} {X X' : Table ℝ} (hX : Recoded π X X') (group : List String) (s : ℕ) :
    finiteSemiPositive (X'.row group s) = finiteSemiPositive (X.row group s) := by
  rw [Bool.eq_iff_iff, finiteSemiPositive_iff, finiteSemiPositive_iff]
  unfold Table.row
  simp only [List.mem_map, forall_exists_index, and_imp, forall_apply_eq_imp_iff₂]
  refine forall₂_congr fun c _ => ?_
  rcases hX s c with ⟨k, h1, h2⟩ | ⟨h1, -⟩
  · rw [h1, h2]
    exact ⟨fun _ => ⟨_, rfl, Nat.cast_nonneg _⟩, fun _ => ⟨_, rfl, Nat.cast_nonneg _⟩⟩
  · rw [h1]

/-- The component of a usable entry. -/
theorem recoded_floor {π : String → Equiv.Perm ℕ} {X X' : Table ℝ} (hX : Recoded π X X') (s : ℕ) (c : String) (x : ℝ)
    (hx : X s c = .fin x) (h0 : 0 ≤ x) : floorComp (X' s c) = π c (floorComp (X s c)) := by
  rcases hX s c with ⟨k, h1, h2⟩ | ⟨h1, h2 | h2⟩
  · rw [h1, h2]
    unfold floorComp
    simp
  · rw [h1, h2]; rfl
  · exact absurd (h2 x hx) (not_lt.mpr h0)

theorem recoded_row {π : String → Equiv.Perm ℕ} {X X' : Table ℝ} (hX : Recoded π X X') (group : List String) (s : ℕ)
    (hf : finiteSemiPositive (X.row group s) = true) :
    (X'.row group s).map floorComp = recodeTuple π group ((X.row group s).map floorComp) := by
  rw [finiteSemiPositive_iff] at hf
  unfold recodeTuple Table.row at *
  apply List.ext_getElem
  · simp
  · intro i h1 h2
    simp only [List.length_map] at h1
    simp only [List.getElem_map, List.getElem_zipWith]
    obtain ⟨x, hx, h0⟩ := hf (X s group[i]) (List.mem_map.mpr ⟨_, List.getElem_mem h1, rfl⟩)
    exact recoded_floor hX s _ x hx h0

theorem recoded_valid {π : String → Equiv.Perm ℕ} {X X' : Table ℝ} (hX : Recoded π X X') (group : List String) (s : ℕ) (ns : List ℕ)
    (h : KeepsRanges π group ns) : validRow ns (X'.row group s) = validRow ns (X.row group s) := by
  have hl : (X.row group s).length = ns.length := by unfold Table.row; rw [List.length_map, h.1]
  have hl' : (X'.row group s).length = ns.length := by unfold Table.row; rw [List.length_map, h.1]
  rw [Bool.eq_iff_iff, validRow_iff ns _ hl, validRow_iff ns _ hl']
  unfold Table.row at *
  simp only [List.length_map, List.getElem_map]
  refine forall₃_congr fun i h1 h2 => ?_
  have hk := h.2 i h1 h2
  generalize group[i] = c at hk ⊢
  generalize ns[i] = n at hk ⊢
  rcases hX s c with ⟨k, e1, e2⟩ | ⟨e1, -⟩
  · rw [e1, e2]
    simp only [Flt.fin.injEq]
    constructor
    · rintro ⟨x, rfl, -, hx⟩
      exact ⟨k, rfl, Nat.cast_nonneg _, by exact_mod_cast (hk k).mp (by exact_mod_cast hx)⟩
    · rintro ⟨x, rfl, -, hx⟩
      exact ⟨_, rfl, Nat.cast_nonneg _, by exact_mod_cast (hk k).mpr (by exact_mod_cast hx)⟩
  · rw [e1]

/-! ### Numbers of bins -/

/-- The usable samples. -/
noncomputable def usableSamples (X : Table ℝ) (n : ℕ) (group : List String) : List ℕ :=
  (List.range n).filter fun s => finiteSemiPositive (X.row group s)

theorem bindData_bins (X : Table ℝ) (n : ℕ) (group : List String) :
    (bindData X n group none).2 =
      if usableSamples X n group = [] then List.replicate group.length 0
      else (List.range group.length).map fun i =>
        ((usableSamples X n group).map fun s => floorComp ((X.row group s).getD i .nan)).foldl max 0 + 1 := by
  show inferBins _ _ = _
  unfold inferBins
  have e : ((List.range n).map (X.row group)).filter finiteSemiPositive = (usableSamples X n group).map (X.row group) := by
    rw [List.filter_map]; rfl
  rw [e]
  cases hu : usableSamples X n group with
  | nil => simp
  | cons a l =>
    rw [if_neg (by simp)]
    rw [List.map_cons]
    dsimp only
    unfold maxPlusOne
    simp only [List.map_cons, List.map_map]
    rfl

theorem foldlMax_range (l : List ℕ) (m : ℕ) (h1 : ∀ x ∈ l, x < m) (h2 : 0 < m) (h3 : m - 1 ∈ l) : l.foldl max 0 + 1 = m := by
  have a := natFoldlMax_le l 0 (m - 1) (Nat.zero_le _) fun x hx => by have := h1 x hx; omega
  have b := (natFoldlMax_ge l 0).2 _ h3
  omega

theorem row_getD (X : Table ℝ) (group : List String) (s i : ℕ) (hi : i < group.length) :
    (X.row group s).getD i .nan = X s group[i] := by
  unfold Table.row
  rw [List.getD_eq_getElem?_getD, List.getElem?_map, List.getElem?_eq_getElem hi]
  rfl

/-- A column that holds the categories `0, …, m - 1` has `m` bins. -/
theorem categories_max (X : Table ℝ) (n : ℕ) (group : List String) (i : ℕ) (hi : i < group.length) (m : ℕ)
    (hc : HoldsCategories X n group group[i] m) (hu : usableSamples X n group ≠ []) :
    ((usableSamples X n group).map fun s => floorComp ((X.row group s).getD i .nan)).foldl max 0 + 1 = m := by
  have hlt : ∀ x ∈ (usableSamples X n group).map (fun s => floorComp ((X.row group s).getD i .nan)), x < m := by
    intro x hx
    obtain ⟨s, hs, rfl⟩ := List.mem_map.mp hx
    obtain ⟨hs, hf⟩ := List.mem_filter.mp hs
    rw [row_getD X group s i hi]
    obtain ⟨x, hx, h0⟩ := (finiteSemiPositive_iff _).mp hf (X s group[i])
      (List.mem_map.mpr ⟨_, List.getElem_mem hi, rfl⟩)
    have := hc.below s (List.mem_range.mp hs) x hx
    rw [hx]
    show ⌊x⌋.toNat < m
    have h2 : ⌊x⌋ < (m : ℤ) := Int.floor_lt.mpr (by exact_mod_cast this)
    have h3 := Int.floor_nonneg.mpr h0
    omega
  have hpos : 0 < m := by
    obtain ⟨s, hs⟩ := List.exists_mem_of_ne_nil _ hu
    have := hlt _ (List.mem_map.mpr ⟨s, hs, rfl⟩)
    omega
  refine foldlMax_range _ m hlt hpos ?_
  obtain ⟨s, hs, h1, h2⟩ := hc.occur (m - 1) (by omega)
  refine List.mem_map.mpr ⟨s, List.mem_filter.mpr ⟨List.mem_range.mpr hs, ?_⟩, ?_⟩
  · rw [finiteSemiPositive_iff]
    intro b hb
    obtain ⟨d, hd, rfl⟩ := List.mem_map.mp hb
    obtain ⟨x, h0, hx⟩ := h2 d hd
    exact ⟨x, hx, h0⟩
  · rw [row_getD X group s i hi, h1]
    simp [floorComp]

/-- The renumbered column holds the same categories. -/
theorem recoded_categories {π : String → Equiv.Perm ℕ} {X X' : Table ℝ} (hX : Recoded π X X') (n : ℕ) (group : List String)
    (c : String) (m : ℕ) (hπ : ∀ k, π c k < m ↔ k < m) (hc : HoldsCategories X n group c m) :
    HoldsCategories X' n group c m where
  below s hs x hx := by
    rcases hX s c with ⟨k, h1, h2⟩ | ⟨h1, -⟩
    · rw [h2] at hx
      injection hx with hx
      rw [← hx]
      have := hc.below s hs _ h1
      exact_mod_cast (hπ k).mpr (by exact_mod_cast this)
    · rw [h1] at hx
      exact hc.below s hs x hx
  occur k hk := by
    obtain ⟨s, hs, h1, h2⟩ := hc.occur ((π c).symm k) ((hπ _).mp (by rwa [Equiv.apply_symm_apply]))
    refine ⟨s, hs, ?_, fun d hd => ?_⟩
    · rcases hX s c with ⟨j, e1, e2⟩ | ⟨e1, e2 | e2⟩
      · rw [h1] at e1
        injection e1 with e1
        have : (π c).symm k = j := by exact_mod_cast e1
        rw [e2, ← this, Equiv.apply_symm_apply]
      · rw [e1, h1, e2]; rfl
      · exact absurd (e2 _ h1) (not_lt.mpr (Nat.cast_nonneg _))
    · obtain ⟨x, h0, hx⟩ := h2 d hd
      rcases hX s d with ⟨j, e1, e2⟩ | ⟨e1, -⟩
      · exact ⟨_, Nat.cast_nonneg _, e2⟩
      · exact ⟨x, h0, by rw [e1, hx]⟩

section
variable {π : String → Equiv.Perm ℕ} {X X' : Table ℝ} (hX : Recoded π X X') (n : ℕ) (group : List String) (m : String → ℕ)
  (hπ : ∀ c k, π c k < m c ↔ k < m c)
  (hcat : ∀ c ∈ group, π c ≠ 1 → HoldsCategories X n group c (m c))

include hX hπ hcat in
theorem recoded_bins : (bindData X' n group none).2 = (bindData X n group none).2 := by
  have hu : usableSamples X' n group = usableSamples X n group := by
    unfold usableSamples
    exact List.filter_congr fun s _ => recoded_usable hX group s
  rw [bindData_bins, bindData_bins, hu]
  split
  · rfl
  · next hne =>
    refine List.map_congr_left fun i hi => ?_
    have hi := List.mem_range.mp hi
    by_cases h1 : π group[i] = 1
    · congr 2
      refine List.map_congr_left fun s _ => ?_
      rw [row_getD X group s i hi, row_getD X' group s i hi]
      rcases hX s group[i] with ⟨k, e1, e2⟩ | ⟨e1, -⟩
      · rw [e1, e2, h1]; rfl
      · rw [e1]
    · have hc := hcat _ (List.getElem_mem hi) h1
      rw [categories_max X n group i hi _ hc hne, ← hu,
        categories_max X' n group i hi _ (recoded_categories hX n group _ _ (hπ _) hc) (by rw [hu]; exact hne)]

include hπ hcat in
theorem recoded_keeps : KeepsRanges π group (bindData X n group none).2 := by
  refine ⟨(bindData_length X n group).symm, fun i h1 h2 k => ?_⟩
  by_cases hone : π group[i] = 1
  · rw [hone]; rfl
  · have : (bindData X n group none).2[i] = 0 ∨ (bindData X n group none).2[i] = m group[i] := by
      have e := bindData_bins X n group
      have h3 : (bindData X n group none).2[i]? = some (bindData X n group none).2[i] := List.getElem?_eq_getElem h2
      generalize (bindData X n group none).2[i] = v at h3 ⊢
      rw [e] at h3
      split at h3
      · left
        rw [List.getElem?_replicate, if_pos h1] at h3
        injection h3 with h3
        exact h3.symm
      · next hne =>
        right
        rw [List.getElem?_map, List.getElem?_range h1] at h3
        simp only [Option.map_some, Option.some.injEq] at h3
        rw [← h3]
        exact categories_max X n group i h1 _ (hcat _ (List.getElem_mem h1) hone) hne
    rcases this with e | e
    · rw [e]; omega
    · rw [e]; exact hπ _ k

include hX in
/-- The combined bin number of a renumbered sample. -/
theorem recoded_code (hg : group ≠ []) (hb : (bindData X' n group none).2 = (bindData X n group none).2)
    (hk : KeepsRanges π group (bindData X n group none).2) (s : ℕ) (hs : s < n) :
    (bindData X' n group none).1.getD s 0 = binPerm π group _ hk ((bindData X n group none).1.getD s 0) := by
  rw [bindData_code X' n group hg s hs, bindData_code X n group hg s hs, recoded_usable hX, hb]
  split
  · next hf =>
    have ht : IsBinTuple (bindData X n group none).2 ((X.row group s).map floorComp) :=
      validRow_tuple _ _ (by unfold Table.row; rw [List.length_map, bindData_length]) (bindData_valid X n group hg s hs hf)
    rw [recoded_row hX group s hf]
    exact (recodeBin_encode _ ht).symm
  · exact (binPerm_numbering π group _ hk).missing.symm

end

/-- What a feature contributes to a renumbered sample. -/
theorem recoded_predict {π : String → Equiv.Perm ℕ} {X X' : Table ℝ} (hX : Recoded π X X') (group : List String) (hg : group ≠ [])
    (e : Bool) (ns : List ℕ) (hk : KeepsRanges π group ns) (fac : ℕ → ℝ) (s : ℕ) :
    (⟨group, e, ns, fun b => fac ((binPerm π group ns hk).symm b)⟩ : FittedFeature ℝ).predict (X'.row group s)
      = (⟨group, e, ns, fac⟩ : FittedFeature ℝ).predict (X.row group s) := by
  have hnum := (binPerm_numbering π group ns hk).symm
  by_cases hf : finiteSemiPositive (X.row group s) = true
  · have hf' : finiteSemiPositive (X'.row group s) = true := by rw [recoded_usable hX, hf]
    have hlen : group.length = ns.length := hk.1
    by_cases h2 : 2 ≤ group.length
    · rw [predict_multi ⟨group, e, ns, _⟩ hlen.symm h2 _ (by simp [Table.row]) hf',
        predict_multi ⟨group, e, ns, _⟩ hlen.symm h2 _ (by simp [Table.row]) hf]
      dsimp only
      rw [recoded_valid hX group s ns hk]
      split
      · next hv =>
        rw [recoded_row hX group s hf]
        congr 1
        rw [Equiv.symm_apply_eq]
        exact (recodeBin_encode _ (validRow_tuple ns _ (by simp [Table.row, hlen]) hv)).symm
      · rfl
    · have hone : group.length = 1 := by
        have := List.length_pos_iff.mpr hg; omega
      obtain ⟨c, rfl⟩ := List.length_eq_one_iff.mp hone
      obtain ⟨n, rfl⟩ := List.length_eq_one_iff.mp (hlen ▸ hone)
      have h0 := hk.2 0 (by simp) (by simp)
      simp only [List.getElem_cons_zero] at h0
      obtain ⟨x, hx, hx0⟩ := (finiteSemiPositive_iff _).mp hf (X s c) (by simp [Table.row])
      have e1 : X.row [c] s = [.fin x] := by simp [Table.row, hx]
      rw [e1, predict_one ⟨[c], e, [n], _⟩ n rfl rfl x hx0]
      dsimp only
      rcases hX s c with ⟨k, g1, g2⟩ | ⟨g1, g2⟩
      · have hxk : x = k := by rw [hx] at g1; injection g1
        have e2 : X'.row [c] s = [.fin ((π c k : ℕ) : ℝ)] := by simp [Table.row, g2]
        rw [e2, predict_one ⟨[c], e, [n], _⟩ n rfl rfl _ (Nat.cast_nonneg _)]
        dsimp only
        have hr : ∀ j : ℕ, rint (j : ℝ) = j := fun j => rint_intCast (K := ℝ) (j : ℤ)
        rw [hxk, hr, hr]
        have hiff : ((π c k : ℕ) : ℤ) < (n : ℤ) ↔ ((k : ℕ) : ℤ) < n := by
          rw [Int.ofNat_lt, Int.ofNat_lt]; exact h0 k
        by_cases hkn : ((k : ℕ) : ℤ) < n
        · rw [if_pos (hiff.mpr hkn), if_pos hkn, Int.toNat_natCast, Int.toNat_natCast]
          congr 1
          rw [Equiv.symm_apply_eq]
          show _ = recodeBin π [c] [n] k
          have := recodeBin_encode (π := π) (group := [c]) (ns := [n]) [k] ⟨rfl, by
            intro i h1 h2
            simp only [List.length_cons, List.length_nil] at h1
            have hi : i = 0 := by omega
            subst hi
            simpa using hkn⟩
          simpa [encode, recodeTuple] using this.symm
        · rw [if_neg (fun h => hkn (hiff.mp h)), if_neg hkn]
      · have hone' : π c = 1 := by
          rcases g2 with g2 | g2
          · exact g2
          · exact absurd (g2 x hx) (not_lt.mpr hx0)
        have e2 : X'.row [c] s = [.fin x] := by simp [Table.row, g1, hx]
        rw [e2, predict_one ⟨[c], e, [n], _⟩ n rfl rfl x hx0]
        rw [binPerm_one π [c] [n] hk (by simpa using hone')]
        rfl
  · have hf' : ¬ finiteSemiPositive (X'.row group s) = true := by rw [recoded_usable hX]; exact hf
    unfold FittedFeature.predict
    rw [if_neg hf, if_neg hf']
    show fac ((binPerm π group ns hk).symm ns.prod) = fac ns.prod
    rw [hnum.missing]

end CB
