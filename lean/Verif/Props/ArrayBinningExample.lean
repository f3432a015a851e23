import Verif.Props.ArrayBinning

/-!
# Witnesses and counterexamples for C141
-/

set_option autoImplicit false

namespace CB

/-- A binner for arrays with one column of categories. -/
noncomputable def arrayBinner : BinnerObject := BinnerObject.new ⟨fun _ => 100, [("0", Flags.IS_UNORDERED)], 1 / 1000, 1 / 100⟩ none false

/-- The table of an array with one column. -/
def oneColumn (v : ℕ → ℝ) (n : ℕ) : DataFrame := ⟨["0"], fun s _ => .fin (v s), n⟩

theorem oneColumn_column (v : ℕ → ℝ) (n : ℕ) : (oneColumn v n).X.column (oneColumn v n).n "0" = (List.range n).map fun s => some (v s) := rfl

theorem arrayBinner_fit (v : ℕ → ℝ) (n : ℕ) (hn : n ≠ 0) : (arrayBinner.fit (oneColumn v n)).2 = none := by
  obtain ⟨b0, values, cdf, h, -⟩ := fitColumn_discrete ((oneColumn v n).X.column (oneColumn v n).n "0") (List.replicate n 1)
    (PosWeights.of_pos _ _ (by rw [column_length]; simp [oneColumn]) (fun w hw => by rw [List.eq_of_mem_replicate hw]; exact one_pos))
    100 (1 / 1000) (1 / 100)
    ⟨v 0, by rw [oneColumn_column]; exact List.mem_map.mpr ⟨0, by simp; omega, rfl⟩⟩
  have hone : arrayBinner.fitOne (oneColumn v n) (List.replicate n 1) "0" =
      some (.ok ⟨1 / 1000 * minimalDifference (b0 :: values), some (b0 :: values, 0 :: cdf)⟩) := by
    unfold BinnerObject.fitOne
    have hl : arrayBinner.cfg.props.lookup "0" = some Flags.IS_UNORDERED := rfl
    have hc : Flags.checkConsistency Flags.IS_UNORDERED = .ok () := by decide
    have hd : (Flags.isSet Flags.IS_UNORDERED Flags.IS_ORDERED || Flags.isSet Flags.IS_UNORDERED Flags.IS_UNORDERED) = true := by decide
    rw [hl]
    dsimp only
    rw [hc]
    dsimp only
    rw [hd]
    exact congrArg some h
  unfold BinnerObject.fit
  rw [if_neg (by simp [oneColumn, hn])]
  have hw : arrayBinner.weights (oneColumn v n) = .ok (List.replicate n 1) := rfl
  have hf : arrayBinner.featureColumns (oneColumn v n) = ["0"] := rfl
  rw [hw, hf]
  dsimp only
  rw [BinnerObject.fitLoop, hone]
  dsimp only
  rw [BinnerObject.fitLoop]

theorem arrayBinner_columns (v : ℕ → ℝ) (n : ℕ) : Spec.binColumns arrayBinner.cfg.props arrayBinner.weightColumn (oneColumn v n).columns = ["0"] := by
  classical
  have : Spec.ToBin arrayBinner.cfg.props arrayBinner.weightColumn "0" := ⟨by simp [arrayBinner, BinnerObject.new], _, rfl⟩
  simp [Spec.binColumns, oneColumn, this]

/-- What the array binner makes of the entries of an array. -/
theorem arrayBinner_entries (v u : ℕ → ℝ) (n k : ℕ) (hn : n ≠ 0) (t : ElementType) (overflow : ℤ → ℤ) :
    ∃ G, (arrayBinner.fit (oneColumn v n)).1.transformArray overflow ⟨t, oneColumn u k⟩ = .ok G ∧ G.n = k ∧
      ∀ s < k,
        (∀ r < n, v r = u s → G.X s "0" = .fin ((t.store overflow (Spec.rankIn ((List.range n).map fun s => some (v s)) (u s)) : ℤ) : ℝ)) ∧
        ((∃ r < n, ∃ r' < n, v r ≠ v r' ∧ ∀ q < n, 1 / 1000 * |v r - v r'| < |v q - u s|) →
          G.X s "0" = .fin ((t.store overflow (-1) : ℤ) : ℝ)) := by
  obtain ⟨-, -, h3⟩ := C141_array arrayBinner (by norm_num [arrayBinner, BinnerObject.new]) (oneColumn v n) (by simp [oneColumn])
    (fun c hc => by cases hc) (arrayBinner_fit v n hn) overflow ⟨t, oneColumn u k⟩ (by simp [oneColumn])
  dsimp only at h3
  obtain ⟨G, g1, g2, g3, g4⟩ := h3 (by rw [arrayBinner_columns, arrayBinner_columns]) (by rw [arrayBinner_columns]; simp [oneColumn])
  refine ⟨G, g1, g3, fun s hs => ?_⟩
  obtain ⟨fp, w, f, i, e1, e2, e3, e4, e5, e6⟩ := (g4 s (by rw [g3]; exact hs) "0" (by rw [g2]; simp [oneColumn])).2
    ⟨by simp [arrayBinner, BinnerObject.new], _, rfl⟩
  have hfp : fp = Flags.IS_UNORDERED := by
    have : some Flags.IS_UNORDERED = some fp := e1
    simpa using this.symm
  subst hfp
  have hwl : List.replicate n 1 = w := by
    rw [isWeights_iff arrayBinner _ (fun c hc => by cases hc)] at e2
    have : Except.ok (List.replicate n (1 : ℝ)) = Except.ok (ε := BinErr) w := e2
    simpa using this
  subst hwl
  have hd : (Flags.isSet Flags.IS_UNORDERED Flags.IS_ORDERED || Flags.isSet Flags.IS_UNORDERED Flags.IS_UNORDERED) = true := by decide
  have hcont : Flags.isSet Flags.IS_UNORDERED Flags.IS_CONTINUOUS = false := by decide
  have hmagic : Flags.isSet Flags.IS_UNORDERED Flags.HAS_MAGIC_INT_MISSING = false := by decide
  rw [hd] at e3
  rw [hcont, hmagic] at e4
  obtain ⟨e, table, r1, r2, r3⟩ := C03_rank ((oneColumn v n).X.column (oneColumn v n).n "0") (List.replicate n 1)
    (PosWeights.of_pos _ _ (by rw [column_length]; simp [oneColumn]) (fun w hw => by rw [List.eq_of_mem_replicate hw]; exact one_pos))
    100 (1 / 1000) (1 / 100) (by norm_num) (by norm_num)
    ⟨v 0, by rw [oneColumn_column]; exact List.mem_map.mpr ⟨0, by simp; omega, rfl⟩⟩
  have e3' : fitColumn true ((oneColumn v n).X.column (oneColumn v n).n "0") (List.replicate n 1) 100 (1 / 1000) (1 / 100) = .ok f := e3
  rw [e3', Except.ok.injEq] at r1
  subst r1
  have hstore : G.X s "0" = .fin (t.store overflow i : ℝ) := by
    classical
    unfold ElementType.store
    split_ifs with hh
    · exact e5 hh
    · exact e6 hh
  have hmem : ∀ r < n, some (v r) ∈ (oneColumn v n).X.column (oneColumn v n).n "0" := by
    intro r hr
    rw [oneColumn_column]; exact List.mem_map.mpr ⟨r, by simpa using hr, rfl⟩
  have e4' : binNumber false false e (some table.1) (.fin (u s)) = .ok i := e4
  constructor
  · intro r hr hru
    have := (r3 false (u s) (by simp)).1 (by rw [← hru]; exact hmem r hr)
    rw [e4', Except.ok.injEq] at this
    rw [hstore, this, oneColumn_column]
  · rintro ⟨r, hr, r', hr', hne, hfar⟩
    have := (r3 false (u s) (by simp)).2 (by
      intro x hx
      rw [oneColumn_column] at hx
      obtain ⟨q, hq, hqx⟩ := List.mem_map.mp hx
      simp only [Option.some.injEq] at hqx
      rw [← hqx]
      exact lt_of_le_of_lt (r2 _ _ (hmem r hr) (hmem r' hr') hne) (hfar q (by simpa using hq)))
    rw [e4', Except.ok.injEq] at this
    rw [hstore, this]

/-- **C141, counterexample.** Fitted with the categories 10 and 30, the unknown category 20 of an array of bytes without sign does not become -1: its
bin number is not negative, whatever the overflow makes of it. -/
theorem C141_unsigned_counterexample (overflow : ℤ → ℤ) (ho : ∀ z, 0 ≤ overflow z ∧ overflow z ≤ 255) :
    ∃ G, (arrayBinner.fit (oneColumn (fun s => if s = 0 then 10 else 30) 2)).1.transformArray overflow
        ⟨.int 0 255, oneColumn (fun _ => 20) 1⟩ = .ok G ∧ (∃ i : ℤ, G.X 0 "0" = .fin (i : ℝ) ∧ 0 ≤ i) ∧ G.X 0 "0" ≠ .fin (-1) := by
  obtain ⟨G, h1, -, h3⟩ := arrayBinner_entries (fun s => if s = 0 then 10 else 30) (fun _ => 20) 2 1 (by norm_num) (.int 0 255) overflow
  have h := (h3 0 one_pos).2 ⟨0, by norm_num, 1, by norm_num, by norm_num, by
    intro q hq
    have hq : q = 0 ∨ q = 1 := by omega
    rcases hq with rfl | rfl <;> norm_num [abs_of_pos, abs_of_neg]⟩
  have hs : ElementType.store (.int 0 255) overflow (-1) = overflow (-1) := by
    unfold ElementType.store
    rw [if_neg (by simp [ElementType.Holds])]
  rw [hs] at h
  refine ⟨G, h1, ⟨overflow (-1), h, (ho _).1⟩, ?_⟩
  rw [h]
  intro hh
  have h1 : ((overflow (-1) : ℤ) : ℝ) = ((-1 : ℤ) : ℝ) := by simpa using hh
  have h2 : overflow (-1) = -1 := by exact_mod_cast h1
  have := (ho (-1)).1
  omega

theorem rank_bytes : Spec.rankIn ((List.range 256).map fun s : ℕ => some ((s : ℝ) - 128)) ((255 : ℕ) - 128 : ℝ) = 255 := by
  unfold Spec.rankIn
  have : (((((List.range 256).map fun s : ℕ => some ((s : ℝ) - 128)).filterMap id).toFinset).filter (· < (((255 : ℕ) : ℝ) - 128))) =
      (Finset.range 255).image fun s : ℕ => (s : ℝ) - 128 := by
    ext x
    simp only [Finset.mem_filter, List.mem_toFinset, List.mem_filterMap, List.mem_map, List.mem_range, id, Finset.mem_image,
      Finset.mem_range]
    constructor
    · rintro ⟨⟨o, ⟨s, hs, rfl⟩, ho⟩, hx⟩
      simp only [Option.some.injEq] at ho
      subst ho
      refine ⟨s, ?_, rfl⟩
      have : (s : ℝ) < (255 : ℕ) := by linarith
      exact_mod_cast this
    · rintro ⟨s, hs, rfl⟩
      refine ⟨⟨_, ⟨s, by omega, rfl⟩, rfl⟩, ?_⟩
      have : (s : ℝ) < (255 : ℕ) := by exact_mod_cast hs
      linarith
  rw [this, Finset.card_image_of_injective _ (fun a b h => by
    have : (a : ℝ) = b := by linarith
    exact_mod_cast this)]
  simp

/-- **C141, counterexample.** A column with the 256 values of a signed byte, fitted and transformed as such an array: the value 127 becomes the bin
number -1 of missing values, as overflow wraps around. -/
theorem C141_int8_counterexample :
    ∃ G, (arrayBinner.fit (oneColumn (fun s => (s : ℝ) - 128) 256)).1.transformArray (fun z => (z + 128) % 256 - 128)
        ⟨.int (-128) 127, oneColumn (fun s => (s : ℝ) - 128) 256⟩ = .ok G ∧ G.X 255 "0" = .fin (-1) := by
  obtain ⟨G, h1, -, h3⟩ := arrayBinner_entries (fun s => (s : ℝ) - 128) (fun s => (s : ℝ) - 128) 256 256 (by norm_num) (.int (-128) 127)
    (fun z => (z + 128) % 256 - 128)
  have h := (h3 255 (by norm_num)).1 255 (by norm_num) rfl
  refine ⟨G, h1, ?_⟩
  rw [h]
  have e := rank_bytes
  rw [e]
  have hs : ElementType.store (.int (-128) 127) (fun z => (z + 128) % 256 - 128) ((255 : ℕ) : ℤ) = -1 := by
    unfold ElementType.store
    rw [if_neg (by simp [ElementType.Holds])]
    norm_num
  rw [hs]
  simp

/-- The hypotheses of `C141_like_table_partial` are met: signed bytes have room for two categories. -/
example : Spec.LargeEnough (.int (-128) 127) arrayBinner.cfg arrayBinner.weightColumn (oneColumn (fun s => if s = 0 then 10 else 30) 2) := by
  refine .inr ⟨-128, 127, rfl, by norm_num, fun c fp hc _ hp => ?_⟩
  have hc : c = "0" := by simpa [oneColumn] using hc
  subst hc
  have hfp : fp = Flags.IS_UNORDERED := by
    have : some Flags.IS_UNORDERED = some fp := hp
    simpa using this.symm
  subst hfp
  refine ⟨fun _ => ?_, fun h => by revert h; decide⟩
  have : Spec.distinctValues ((oneColumn (fun s => if s = 0 then 10 else 30) 2).X.column 2 "0") ≤ 2 := by
    classical
    unfold Spec.distinctValues
    refine (List.toFinset_card_le _).trans ?_
    refine (List.length_filterMap_le _ _).trans ?_
    rw [column_length]
  have h2 : ((oneColumn (fun s => if s = 0 then 10 else 30) 2).n) = 2 := rfl
  rw [h2]
  omega

/-- Such an array is binned like the table, with -1 for the unknown category. -/
example (overflow : ℤ → ℤ) : ∃ G, (arrayBinner.fit (oneColumn (fun s => if s = 0 then 10 else 30) 2)).1.transformArray overflow
    ⟨.int (-128) 127, oneColumn (fun _ => 20) 1⟩ = .ok G ∧ G.X 0 "0" = .fin (-1) := by
  obtain ⟨G, h1, -, h3⟩ := arrayBinner_entries (fun s => if s = 0 then 10 else 30) (fun _ => 20) 2 1 (by norm_num) (.int (-128) 127) overflow
  have h := (h3 0 one_pos).2 ⟨0, by norm_num, 1, by norm_num, by norm_num, by
    intro q hq
    have hq : q = 0 ∨ q = 1 := by omega
    rcases hq with rfl | rfl <;> norm_num [abs_of_pos, abs_of_neg]⟩
  have hs : ElementType.store (.int (-128) 127) overflow (-1) = -1 := by
    unfold ElementType.store
    rw [if_pos (by simp [ElementType.Holds])]
  rw [hs] at h
  exact ⟨G, h1, by rw [h]; simp⟩

end CB
