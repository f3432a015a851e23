import Verif.Model.BinnedFit
import Verif.Props.BinNumbers
import Verif.Props.Fit
import Verif.Props.Flags
import Verif.Props.Predict

/-!
# Lemmas about fitted binners
-/

set_option autoImplicit false

namespace CB

theorem column_length (X : Table ℝ) (n : ℕ) (c : String) : (X.column n c).length = n := by simp [Table.column]

theorem mem_column (X : Table ℝ) (n : ℕ) (c : String) (v : ℝ) : some v ∈ X.column n c ↔ ∃ s < n, X s c = .fin v := by
  unfold Table.column
  simp only [List.mem_map, List.mem_range]
  constructor
  · rintro ⟨s, hs, h⟩
    refine ⟨s, hs, ?_⟩
    cases hx : X s c with
    | fin x => rw [hx] at h; simp only [Option.some.injEq] at h; rw [h]
    | nan => rw [hx] at h; simp at h
    | pinf => rw [hx] at h; simp at h
    | ninf => rw [hx] at h; simp at h
  · rintro ⟨s, hs, h⟩
    exact ⟨s, hs, by rw [h]⟩

theorem column_weights (X : Table ℝ) (n : ℕ) (c : String) : PosWeights (X.column n c) (List.replicate n (1 : ℝ)) :=
  PosWeights.of_pos _ _ (by simp [column_length]) (by
    intro v hv
    rw [List.eq_of_mem_replicate hv]
    exact one_pos)

section
variable {K : Type*} [Field K] [LinearOrder K] [IsStrictOrderedRing K] [FloorRing K]

/-- The stored epsilon is scaled with the smallest width of the bins. -/
theorem fitColumn_eps (d : Bool) (z : List (Option K)) (w : List K) (N : ℕ) (eps tol e : K) (bs cs : List K)
    (h : fitColumn d z w N eps tol = .ok ⟨e, some (bs, cs)⟩) : e = eps * minimalDifference bs := by
  unfold fitColumn at h
  cases hc : calcCdf z w with
  | error e' => rw [hc] at h; cases h
  | ok p =>
    obtain ⟨bx, cx⟩ := p
    rw [hc] at h
    dsimp only at h
    by_cases h0 : bx.length = 0 ∨ cx.length = 0
    · rw [if_pos h0] at h; simp at h
    · rw [if_neg h0] at h
      split at h
      · cases h
      · rename_i bs' cs' hres
        by_cases hl : bs'.length ≠ cs'.length
        · rw [if_pos hl] at h; cases h
        · rw [if_neg hl] at h
          simp only [Except.ok.injEq, ColFit.mk.injEq, Option.some.injEq, Prod.mk.injEq] at h
          obtain ⟨h1, h2, -⟩ := h
          rw [← h1, h2]

/-- No boundaries without a valid sample. -/
theorem fitColumn_empty (d : Bool) (z : List (Option K)) (w : List K) (hl : z.length = w.length) (N : ℕ) (eps tol : K)
    (h : ∀ v, some v ∉ z) : fitColumn d z w N eps tol = .ok ⟨eps, none⟩ := by
  have hs : Spec.samples z w = [] := by
    have h1 := samples_fst z w hl
    have h2 : z.filterMap id = [] := by
      rw [List.filterMap_eq_nil_iff]
      intro a ha
      cases a with
      | none => rfl
      | some v => exact absurd ha (h v)
    rw [h2] at h1
    exact List.map_eq_nil_iff.mp h1
  unfold fitColumn calcCdf
  rw [if_neg (by simpa using hl), validSamples_eq, hs]
  simp [npUnique]

/-- What a successful fit of a column looks like. -/
theorem fitColumn_shape (d : Bool) (z : List (Option K)) (w : List K) (hw : PosWeights z w) (N : ℕ) (eps tol : K) (htol : 0 ≤ tol)
    (f : ColFit K) (h : fitColumn d z w N eps tol = .ok f) :
    (f.table = none ∧ ∀ v, some v ∉ z) ∨
      ∃ b0 upper cdf, f.table = some (b0 :: upper, cdf) ∧ Spec.Sorted upper ∧ upper ≠ [] ∧ (∃ v, some v ∈ z) := by
  by_cases hne : ∃ v, some v ∈ z
  · right
    cases d with
    | true =>
      obtain ⟨b0, values, cdf, h1, h2, h3, h4, -⟩ := fitColumn_discrete z w hw N eps tol hne
      rw [h1, Except.ok.injEq] at h
      refine ⟨b0, values, 0 :: cdf, by rw [← h], strict_sorted h2, ?_, hne⟩
      rintro rfl
      simp at h4
    | false =>
      by_cases hN : 2 ≤ N
      · obtain ⟨e, b0, upper, cdf, h1, h2, -, -, h5, -⟩ := C05_reduced_bins z w hw hne N hN eps tol htol
        rw [h1, Except.ok.injEq] at h
        refine ⟨b0, upper, 0 :: cdf, by rw [← h], (List.pairwise_cons.mp h5).2, ?_, hne⟩
        rintro rfl
        simp at h2
      · rw [C05_too_few_bins z w hw hne N (by omega) eps tol] at h
        cases h
  · left
    push Not at hne
    rw [fitColumn_empty d z w hw.1 N eps tol hne, Except.ok.injEq] at h
    exact ⟨by rw [← h], hne⟩

end

/-! ### The loop over the columns -/

theorem fitColumns_lookup (B : Binner) (X : Table ℝ) (n : ℕ) (columns : List String) (L : List (String × ColFit ℝ))
    (h : B.fitColumns X n columns = .ok L) (c : String) :
    (c ∈ columns ∧ ∃ f, L.lookup c = some f ∧ B.fitOne X n c = some (.ok f)) ∨
      (L.lookup c = none ∧ (c ∈ columns → B.fitOne X n c = none)) := by
  induction columns generalizing L with
  | nil =>
    simp only [Binner.fitColumns, Except.ok.injEq] at h
    subst h
    simp
  | cons a cs ih =>
    unfold Binner.fitColumns at h
    cases ha : B.fitOne X n a with
    | none =>
      rw [ha] at h
      rcases ih L h with ⟨h1, h2⟩ | ⟨h1, h2⟩
      · exact Or.inl ⟨List.mem_cons_of_mem _ h1, h2⟩
      · refine Or.inr ⟨h1, fun hc => ?_⟩
        rcases List.mem_cons.mp hc with rfl | hc
        · exact ha
        · exact h2 hc
    | some r =>
      rw [ha] at h
      cases r with
      | error e => cases h
      | ok f =>
        dsimp only at h
        cases hr : B.fitColumns X n cs with
        | error e => rw [hr] at h; cases h
        | ok rest =>
          rw [hr] at h
          simp only [Except.ok.injEq] at h
          subst h
          by_cases hca : c = a
          · subst hca
            exact Or.inl ⟨List.mem_cons_self, f, by simp, ha⟩
          · have hl : ((a, f) :: rest).lookup c = rest.lookup c := by
              have hb : (c == a) = false := by simpa using hca
              rw [List.lookup_cons, hb]
            rw [hl]
            rcases ih rest hr with ⟨h1, h2⟩ | ⟨h1, h2⟩
            · exact Or.inl ⟨List.mem_cons_of_mem _ h1, h2⟩
            · refine Or.inr ⟨h1, fun hc => ?_⟩
              rcases List.mem_cons.mp hc with rfl | hc
              · exact absurd rfl hca
              · exact h2 hc

/-- The fit of one column of a fitted binner. -/
theorem binner_fit_column (B : Binner) (columns : List String) (X : Table ℝ) (n : ℕ) (L : List (String × ColFit ℝ))
    (h : B.fit columns X n = .ok L) (c : String) (f : ColFit ℝ) (hf : L.lookup c = some f) :
    ∃ fp, B.props.lookup c = some fp ∧ Flags.checkConsistency fp = .ok () ∧
      fitColumn (Flags.isSet fp Flags.IS_ORDERED || Flags.isSet fp Flags.IS_UNORDERED) (X.column n c)
        (List.replicate n 1) (B.nBins c) B.epsilon B.tolerance = .ok f := by
  unfold Binner.fit at h
  by_cases hn : n = 0 ∨ columns = []
  · rw [if_pos hn] at h; cases h
  · rw [if_neg hn] at h
    rcases fitColumns_lookup B X n columns L h c with ⟨-, f', h1, h2⟩ | ⟨h1, -⟩
    · rw [hf, Option.some.injEq] at h1
      subst h1
      unfold Binner.fitOne at h2
      cases hp : B.props.lookup c with
      | none => rw [hp] at h2; cases h2
      | some fp =>
        rw [hp] at h2
        dsimp only at h2
        cases hk : Flags.checkConsistency fp with
        | error e => rw [hk] at h2; simp at h2
        | ok u =>
          rw [hk] at h2
          simp only [Option.some.injEq] at h2
          exact ⟨fp, rfl, hk, h2⟩
    · rw [hf] at h1; cases h1

/-- Every column of the table with a feature property is fitted. -/
theorem binner_fit_mem (B : Binner) (columns : List String) (X : Table ℝ) (n : ℕ) (L : List (String × ColFit ℝ))
    (h : B.fit columns X n = .ok L) (c : String) (hc : c ∈ columns) (fp : ℕ) (hfp : B.props.lookup c = some fp) :
    ∃ f, L.lookup c = some f := by
  unfold Binner.fit at h
  by_cases hn : n = 0 ∨ columns = []
  · rw [if_pos hn] at h; cases h
  · rw [if_neg hn] at h
    rcases fitColumns_lookup B X n columns L h c with ⟨-, f', h1, -⟩ | ⟨-, h1⟩
    · exact ⟨f', h1⟩
    · have := h1 hc
      unfold Binner.fitOne at this
      rw [hfp] at this
      dsimp only at this
      cases hk : Flags.checkConsistency fp with
      | error e => rw [hk] at this; simp at this
      | ok u => rw [hk] at this; simp at this

/-- The entry of one column after binning. -/
theorem cell_fitted (B : Binner) (L : List (String × ColFit ℝ)) (c : String) (f : ColFit ℝ) (hf : L.lookup c = some f) (fp : ℕ)
    (hfp : B.props.lookup c = some fp) (x : Flt ℝ) (i : ℤ)
    (h : binNumber (Flags.isSet fp Flags.IS_CONTINUOUS) (Flags.isSet fp Flags.HAS_MAGIC_INT_MISSING) f.eps
        (f.table.map Prod.fst) x = .ok i) : B.cell L c x = .ok (.fin (i : ℝ)) := by
  unfold Binner.cell
  rw [hf, hfp]
  dsimp only
  rw [h]

theorem transform_cell (B : Binner) (L : List (String × ColFit ℝ)) (X Xt : Table ℝ) (n : ℕ) (h : B.transform L X n = .ok Xt)
    (s : ℕ) (hs : s < n) (c : String) : B.cell L c (X s c) = .ok (Xt s c) := by
  unfold Binner.transform at h
  split_ifs at h with hall
  rw [Except.ok.injEq] at h
  obtain ⟨v, hv⟩ := hall s hs c
  rw [← h]
  dsimp only
  rw [hv]

/-- Nothing can go wrong when a table is binned with fitted bins. -/
theorem cell_ok (B : Binner) (htol : 0 ≤ B.tolerance) (columns : List String) (X : Table ℝ) (n : ℕ) (L : List (String × ColFit ℝ))
    (h : B.fit columns X n = .ok L) (c : String) (x : Flt ℝ) : ∃ v, B.cell L c x = .ok v := by
  cases hf : L.lookup c with
  | none =>
    refine ⟨x, ?_⟩
    unfold Binner.cell
    rw [hf]
  | some f =>
    obtain ⟨fp, hfp, -, hfit⟩ := binner_fit_column B columns X n L h c f hf
    rcases fitColumn_shape _ _ _ (column_weights X n c) _ _ _ htol f hfit with ⟨ht, -⟩ | ⟨b0, upper, cdf, ht, hs, hne, -⟩
    · exact ⟨_, cell_fitted B L c f hf fp hfp x (-1) (by rw [ht]; rfl)⟩
    · obtain ⟨i, hi, -⟩ := C04_range (Flags.isSet fp Flags.IS_CONTINUOUS) (Flags.isSet fp Flags.HAS_MAGIC_INT_MISSING) f.eps b0 upper
        hs hne x
      exact ⟨_, cell_fitted B L c f hf fp hfp x i (by rw [ht]; exact hi)⟩

theorem transform_ok (B : Binner) (htol : 0 ≤ B.tolerance) (columns : List String) (X : Table ℝ) (n : ℕ)
    (L : List (String × ColFit ℝ)) (h : B.fit columns X n = .ok L) (X' : Table ℝ) (n' : ℕ) :
    ∃ Xt, B.transform L X' n' = .ok Xt := by
  unfold Binner.transform
  rw [if_pos fun s _ c => cell_ok B htol columns X n L h c (X' s c)]
  exact ⟨_, rfl⟩

/-! ### The pipeline -/

theorem pipelineFit_ok {σ : Type*} (B : Binner) (columns : List String) (S : Setup σ) (E : Estimator) (D : TrainSet) (fuel : ℕ)
    (P : FittedPipeline) (h : pipelineFit B columns S E D fuel = some (.ok P)) :
    ∃ Xt, B.fit columns D.X D.n = .ok P.bins ∧ B.transform P.bins D.X D.n = .ok Xt ∧
      S.fit E { D with X := Xt } fuel = some (.ok P.model) := by
  unfold pipelineFit at h
  cases hb : B.fit columns D.X D.n with
  | error e => rw [hb] at h; simp at h
  | ok L =>
    rw [hb] at h
    dsimp only at h
    cases ht : B.transform L D.X D.n with
    | error e => rw [ht] at h; simp at h
    | ok Xt =>
      rw [ht] at h
      dsimp only at h
      cases hm : S.fit E { D with X := Xt } fuel with
      | none => rw [hm] at h; simp at h
      | some r =>
        rw [hm] at h
        cases r with
        | error e => simp at h
        | ok m =>
          simp only [Option.some.injEq, Except.ok.injEq] at h
          subst h
          exact ⟨Xt, rfl, ht, hm⟩

theorem predict_ok (P : FittedPipeline) (B : Binner) (prior : Option (ℕ → Flt ℝ)) (X : Table ℝ) (n : ℕ) (p : ℕ → ℝ)
    (h : P.predict B prior X n = .ok p) : ∃ Xt, B.transform P.bins X n = .ok Xt ∧ p = P.model.predict prior Xt := by
  unfold FittedPipeline.predict at h
  cases ht : B.transform P.bins X n with
  | error e => rw [ht] at h; cases h
  | ok Xt =>
    rw [ht, Except.ok.injEq] at h
    exact ⟨Xt, rfl, h.symm⟩

/-- The prediction for a sample depends only on its own row. -/
theorem predict_row (m : FittedModel) (prior : Option (ℕ → Flt ℝ)) (X1 X2 : Table ℝ) (s : ℕ) (h : ∀ c, X1 s c = X2 s c) :
    m.predict prior X1 s = m.predict prior X2 s := by
  unfold FittedModel.predict
  rw [(C24_link_space _ _ X1 s).1, (C24_link_space _ _ X2 s).1]
  congr 2
  unfold contributionSum
  congr 1
  refine List.map_congr_left fun f _ => ?_
  congr 1
  unfold Table.row
  exact List.map_congr_left fun c _ => h c

end CB
