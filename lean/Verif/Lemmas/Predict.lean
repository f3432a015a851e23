import Verif.Model.Predict
import Verif.Props.Multidim
import Verif.Props.Bounds

set_option autoImplicit false
set_option linter.unusedSectionVars false

namespace CB

theorem natFoldlMax_le (l : List ℕ) (a m : ℕ) (ha : a ≤ m) (h : ∀ x ∈ l, x ≤ m) : l.foldl max a ≤ m := by
  induction l generalizing a with
  | nil => simpa using ha
  | cons y l ih =>
    rw [List.foldl_cons]
    exact ih (max a y) (max_le ha (h y (by simp))) (fun x hx => h x (by simp [hx]))

/-- The numbers of bins that the smoother derives from the bin centers are those of the feature. -/
theorem setNBins_arangeMulti (ns : List ℕ) (h : ns.prod ≠ 0) : setNBins ns.length (arangeMulti ns) = ns := by
  unfold setNBins
  have hpos : 0 < ns.prod := Nat.pos_of_ne_zero h
  have hlen := (C12_inverse (K := ℚ) ns).1
  have hnpos : ∀ (m : ℕ) (hm : m < ns.length), 0 < ns[m] := by
    intro m hm
    rcases Nat.eq_zero_or_pos ns[m] with h0 | h0
    · exact absurd (List.prod_eq_zero (by rw [← h0]; exact List.getElem_mem hm)) h
    · exact h0
  apply List.ext_getElem
  · simp
  · intro m h1 h2
    rw [List.getElem_map, List.getElem_range]
    -- the tuple of largest bin numbers
    have htop : Spec.IsBinTuple ns (ns.map (· - 1)) := by
      refine ⟨by simp, ?_⟩
      intro i hi hi'
      rw [List.getElem_map]
      have := hnpos i hi'
      omega
    have hk := encode_lt ns _ htop
    have hrow : (arangeMulti ns)[encode ns (ns.map (· - 1))]? = some (ns.map (· - 1)) := by
      rw [arangeMulti_getElem? ns _ hk]
      congr 1
      exact encode_inj ns _ _ (digits_valid ns _ hpos) htop (by rw [encode_digits, Nat.mod_eq_of_lt hk])
    have hge := (natFoldlMax_ge ((arangeMulti ns).map (fun r => r.getD m 0)) 0).2 (ns[m] - 1) (by
      rw [List.mem_map]
      refine ⟨ns.map (· - 1), List.mem_of_getElem? hrow, ?_⟩
      rw [List.getD_eq_getElem _ _ (by simpa using h2)]
      simp)
    have hle : ((arangeMulti ns).map (fun r => r.getD m 0)).foldl max 0 ≤ ns[m] - 1 := by
      apply natFoldlMax_le _ _ _ (Nat.zero_le _)
      intro x hx
      rw [List.mem_map] at hx
      obtain ⟨t, ht, rfl⟩ := hx
      obtain ⟨k, hk⟩ := List.getElem?_of_mem ht
      obtain ⟨htv, _⟩ := (C12_inverse (K := ℚ) ns).2 k t hk
      have hmt : m < t.length := by rw [htv.1]; exact h2
      rw [List.getD_eq_getElem _ _ hmt]
      have := htv.2 m hmt h2
      omega
    have := hnpos m h2
    omega

section
variable {K : Type*} [Field K] [LinearOrder K] [IsStrictOrderedRing K] [FloorRing K]

theorem inferBins_length (dims : ℕ) (rows : List (List (Flt K))) : (inferBins dims rows).length = dims := by
  unfold inferBins
  split
  · simp
  · simp [maxPlusOne]

/-- Number of bins inferred from the table: a row is usable exactly when it is finite and not negative. -/
theorem inferBins_valid (dims : ℕ) (hpos : 0 < dims) (rows : List (List (Flt K)))
    (hdims : ∀ row ∈ rows, row.length = dims) (row : List (Flt K)) (hmem : row ∈ rows) :
    validRow (inferBins dims rows) row = finiteSemiPositive row := by
  obtain ⟨i, hi⟩ := List.getElem?_of_mem hmem
  obtain ⟨c, hc, h1, h2⟩ := C13_inferred dims hpos rows hdims i row hi
  have hl := hdims row hmem
  have hns : (lexBinnos dims rows none).2 = inferBins dims rows := rfl
  have hsl := inferBins_length dims rows
  rw [Bool.eq_iff_iff]
  constructor
  · intro hv
    rw [validRow_iff _ _ (by omega)] at hv
    rw [finiteSemiPositive_iff]
    intro b hb
    obtain ⟨j, hj, rfl⟩ := List.getElem_of_mem hb
    obtain ⟨x, hx, h0, _⟩ := hv j hj (by omega)
    exact ⟨x, hx, h0⟩
  · intro hf
    rw [finiteSemiPositive_iff] at hf
    have hlt := h2.mp hf
    by_contra hv
    rw [Bool.not_eq_true] at hv
    rw [lexBinnos_getElem? dims rows none i row hi _ rfl, hns, hv] at hc
    simp only [Bool.false_eq_true, if_false, Option.some.injEq] at hc
    rw [hns] at hlt
    by_cases hany : rows.any (validRow (inferBins dims rows)) = true
    · rw [if_pos hany] at hc; omega
    · have : ∀ r ∈ rows, validRow (inferBins dims rows) r = false := by
        intro r hr
        rw [← Bool.not_eq_true]
        intro hc'
        exact hany (List.any_eq_true.mpr ⟨r, hr, hc'⟩)
      -- then no row would be finite and not negative, but this one is
      have hmemf : row ∈ rows.filter finiteSemiPositive :=
        List.mem_filter.mpr ⟨hmem, (finiteSemiPositive_iff row).mpr hf⟩
      have hbad := (validRow_false_iff (inferBins dims rows) row (by omega)).mp hv
      obtain ⟨j, hj1, hj2, hx⟩ := hbad
      obtain ⟨x, hx1, hx2⟩ := hf _ (List.getElem_mem hj1)
      rcases hx x hx1 with h' | h'
      · exact absurd hx2 (not_le.mpr h')
      · have hval' : inferBins dims rows = maxPlusOne dims (rows.filter finiteSemiPositive) := by
          unfold inferBins
          split
          · rename_i he; rw [he] at hmemf; cases hmemf
          · rfl
        have hnj : (inferBins dims rows)[j]
            = ((rows.filter finiteSemiPositive).map (fun r => floorComp (r.getD j .nan))).foldl max 0 + 1 := by
          simp only [hval', maxPlusOne, List.getElem_map, List.getElem_range]
        have hge := (natFoldlMax_ge ((rows.filter finiteSemiPositive).map (fun r => floorComp (r.getD j .nan))) 0).2
          (floorComp row[j]) (by
            rw [List.mem_map]
            exact ⟨row, hmemf, by rw [List.getD_eq_getElem _ _ hj1]⟩)
        rw [hx1] at hge
        have he : floorComp (Flt.fin x) = ⌊x⌋.toNat := rfl
        rw [he] at hge
        have h0' : 0 ≤ ⌊x⌋ := Int.floor_nonneg.mpr hx2
        have hfl : ⌊x⌋ < ((inferBins dims rows)[j] : ℤ) := by omega
        have := Int.floor_lt.mp hfl
        have h'' : x < ((inferBins dims rows)[j] : K) := by exact_mod_cast this
        exact absurd h' (not_le.mpr h'')

/-- The bin of a sample in the training table. -/
theorem bindData_code (X : Table K) (n : ℕ) (group : List String) (hg : group ≠ []) (s : ℕ) (hs : s < n) :
    (bindData X n group none).1.getD s 0 =
      if finiteSemiPositive (X.row group s) then encode (bindData X n group none).2 ((X.row group s).map floorComp)
      else (bindData X n group none).2.prod := by
  have hpos : 0 < group.length := List.length_pos_iff.mpr hg
  set rows := (List.range n).map (X.row group) with hrows
  have hdims : ∀ row ∈ rows, row.length = group.length := by
    intro row hr
    rw [hrows, List.mem_map] at hr
    obtain ⟨k, _, rfl⟩ := hr
    simp [Table.row]
  have hrow : rows[s]? = some (X.row group s) := by
    rw [hrows, List.getElem?_map, List.getElem?_range hs]; rfl
  have hmem : X.row group s ∈ rows := List.mem_of_getElem? hrow
  have hv := inferBins_valid group.length hpos rows hdims _ hmem
  have hl : (X.row group s).length = (inferBins group.length rows).length := by
    rw [inferBins_length, hdims _ hmem]
  obtain ⟨c, hc, h1, _⟩ := C13_inferred group.length hpos rows hdims s _ hrow
  have hns : (lexBinnos group.length rows none).2 = inferBins group.length rows := rfl
  unfold bindData
  rw [← hrows, hns, List.getD_eq_getElem?_getD, hc]
  simp only [Option.getD_some]
  by_cases hf : finiteSemiPositive (X.row group s) = true
  · rw [if_pos hf]
    rw [lexBinnos_getElem? group.length rows none s _ hrow _ rfl, hns, hv, if_pos hf, dotRow_eq _ _ hl] at hc
    exact (Option.some.inj hc).symm
  · rw [if_neg hf]
    rw [hns] at h1
    apply h1.mp
    rw [finiteSemiPositive_iff] at hf
    push Not at hf
    exact hf

theorem bindData_length (X : Table K) (n : ℕ) (group : List String) :
    (bindData X n group none).2.length = group.length := inferBins_length _ _

/-- A row of the training table that is finite and not negative is usable. -/
theorem bindData_valid (X : Table K) (n : ℕ) (group : List String) (hg : group ≠ []) (s : ℕ) (hs : s < n)
    (hf : finiteSemiPositive (X.row group s) = true) : validRow (bindData X n group none).2 (X.row group s) = true := by
  have hrow : ((List.range n).map (X.row group))[s]? = some (X.row group s) := by
    rw [List.getElem?_map, List.getElem?_range hs]; rfl
  have := inferBins_valid group.length (List.length_pos_iff.mpr hg) ((List.range n).map (X.row group)) (by
    intro row hr
    rw [List.mem_map] at hr
    obtain ⟨k, _, rfl⟩ := hr
    simp [Table.row]) _ (List.mem_of_getElem? hrow)
  rw [hf] at this
  exact this

theorem validFloor_eq (b : Flt K) (n : ℕ) : validFloor b n = validComp b n := by
  unfold validFloor validComp
  cases b with
  | fin x =>
    simp only
    congr 1
    rw [decide_eq_decide, Int.floor_lt]
    simp
  | nan => rfl
  | pinf => rfl
  | ninf => rfl

theorem validFloor_all (ns : List ℕ) (row : List (Flt K)) :
    (List.zipWith validFloor row ns).all id = validRow ns row := by
  unfold validRow
  congr 1
  congr 1
  funext b n
  exact validFloor_eq b n

theorem rint_intCast (k : ℤ) : rint (k : K) = k := by
  unfold rint
  simp

theorem floor_le_rint (x : K) : ⌊x⌋ ≤ rint x := by
  unfold rint
  simp only
  split
  · exact le_refl _
  · split
    · omega
    · split <;> omega

theorem validRow_prod_pos (ns : List ℕ) (row : List (Flt K)) (h : row.length = ns.length)
    (hv : validRow ns row = true) : ns.prod ≠ 0 := by
  have := encode_lt ns _ (validRow_tuple ns row h hv)
  omega

/-- What a fitted feature of several columns predicts. -/
theorem predict_multi (f : FittedFeature K) (hlen : f.nBins.length = f.group.length) (h2 : 2 ≤ f.group.length)
    (row : List (Flt K)) (hr : row.length = f.group.length) (hf : finiteSemiPositive row = true) :
    f.predict row = if validRow f.nBins row then f.factors (encode f.nBins (row.map floorComp)) else 0 := by
  unfold FittedFeature.predict FittedFeature.smoother FittedFeature.nFinite
  rw [if_pos hf]
  by_cases hp : f.nBins.prod = 0
  · rw [if_pos hp]
    simp only
    have : validRow f.nBins row ≠ true := fun hv => validRow_prod_pos f.nBins row (by omega) hv hp
    rw [if_neg this]
  · rw [if_neg hp, if_neg (by omega)]
    simp only
    rw [← hlen, setNBins_arangeMulti _ hp]
    unfold predictMultiDim
    rw [validFloor_all, dotRow_eq _ _ (by omega)]
    by_cases hv : validRow f.nBins row = true
    · simp [hv]
    · simp [hv]

/-- What a fitted feature of one column predicts. -/
theorem predict_one (f : FittedFeature K) (n : ℕ) (hn : f.nBins = [n]) (h1 : f.group.length = 1) (x : K) (hx : 0 ≤ x) :
    f.predict [.fin x] = if rint x < (n : ℤ) then f.factors (rint x).toNat else 0 := by
  unfold FittedFeature.predict FittedFeature.smoother FittedFeature.nFinite
  have hf : finiteSemiPositive [Flt.fin x] = true := by simp [finiteSemiPositive, hx]
  rw [if_pos hf, hn]
  simp only [List.prod_cons, List.prod_nil, mul_one]
  by_cases hp : n = 0
  · rw [if_pos hp]
    have : ¬ rint x < (n : ℤ) := by
      have h3 := floor_le_rint x
      have h4 : 0 ≤ ⌊x⌋ := Int.floor_nonneg.mpr hx
      omega
    rw [if_neg this]
  · rw [if_neg hp, if_pos (by omega)]
    simp only [predictOneDim, List.headD_cons, hx, true_and]
    by_cases hlt : rint x < (n : ℤ)
    · simp [hlt]
    · simp [hlt]

end

end CB
