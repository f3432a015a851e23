import Verif.Props.BinnedFit
import Verif.Props.WholeFit
import Verif.Props.PipelineExample
import Verif.Spec.Unusable

/-!
# C89: raw values that a pipeline cannot use
-/

set_option autoImplicit false
set_option linter.unusedSectionVars false

namespace CB
open Finset Spec

theorem createFeatures_missing (c : Choice) (props : List (String × ℕ)) :
    ∀ (groups : List (List String)) (fs : List (FeatureSpec × SmootherKind)), createFeatures c (some props) groups = .ok fs →
      ∀ (j : ℕ) (g : List String), groups[j]? = some g → ∃ q, fs[j]? = some q ∧ q.1.group = g ∧
        q.1.missingNotLearned = (readFeatureProperty (some props) g Flags.HAS_MISSING).any fun fp =>
          Flags.isSet fp Flags.MISSING_NOT_LEARNED := by
  intro groups
  induction groups with
  | nil =>
    intro fs _ j g hj
    simp at hj
  | cons g' groups ih =>
    intro fs h j g hj
    unfold createFeatures at h
    cases hk : smootherForGroup c (some props) g' with
    | error e => rw [hk] at h; cases h
    | ok kind =>
      rw [hk] at h
      dsimp only at h
      cases hr : createFeatures c (some props) groups with
      | error e => rw [hr] at h; cases h
      | ok rest =>
        rw [hr] at h
        simp only [Except.ok.injEq] at h
        subst h
        cases j with
        | zero =>
          simp only [List.getElem?_cons_zero, Option.some.injEq] at hj
          subst hj
          exact ⟨_, rfl, rfl, rfl⟩
        | succ j =>
          rw [List.getElem?_cons_succ] at hj ⊢
          exact ih rest hr j g hj

/-- **C25**, whole fits: a feature one of whose columns is flagged MISSING_NOT_LEARNED contributes nothing for rows with a missing
bin number, if training did not diverge. -/
theorem C25_fit {σ : Type*} (S : Setup σ) (c : Choice) (props : List (String × ℕ)) (groups : List (List String))
    (hS : createFeatures c (some props) groups = .ok S.features) (hok : S.params.consts.Ok) (E : Estimator) (hE : NoCalibration E)
    (j : ℕ) (group : List String) (hj : groups[j]? = some group) (col : String) (hcol : col ∈ group)
    (fp : ℕ) (hprop : props.lookup col = some fp) (hml : Flags.isSet fp Flags.MISSING_NOT_LEARNED = true)
    (D : TrainSet) (fuel : ℕ) (m : FittedModel) (h : S.fit E D fuel = some (.ok m)) (hnd : NeverDiverges S E D)
    (row : List (Flt ℝ)) (hrow : ∃ b ∈ row, ∀ x : ℝ, b = .fin x → x < 0) :
    ∃ g, m.features[j]? = some g ∧ g.group = group ∧ g.predict row = 0 := by
  obtain ⟨a, r, -, hs, hfit, rfl⟩ := fit_ok S E D fuel m h
  obtain ⟨q, hq, hqg, hqm⟩ := createFeatures_missing c props groups S.features hS j group hj
  obtain ⟨past, st, htr, -, hfac, -⟩ := fitMain_ok _ _ _ _ fuel r hfit
  have hcfg : (S.cfgs D)[j]? = some (q.1.cfg D.X D.n) := by
    unfold Setup.cfgs
    rw [List.getElem?_map, hq]
    rfl
  have hmiss : q.1.missingNotLearned = true := by
    rw [hqm, List.any_eq_true]
    refine ⟨fp, ?_, hml⟩
    unfold readFeatureProperty
    rw [List.mem_map]
    exact ⟨col, hcol, by simp [hprop]⟩
  obtain ⟨fs, hfs, hz⟩ := C25_missing_not_learned (S.paramsFor E) hok (S.oracle E D) (S.cfgs D) _ past st htr
    (fun _ _ => hnd a hs past st htr) j _ hcfg hmiss (by
      intro it i fs h0
      unfold Setup.oracle
      dsimp only
      cases S.features[i]? with
      | none => exact h0
      | some f =>
        dsimp only
        rw [hE]
        exact h0)
  have h1 : (st.feats.map (fun fs => fs.agg))[j]? = (r.factors.map some)[j]? := by rw [hfac]
  rw [List.getElem?_map, List.getElem?_map, hfs] at h1
  cases hrj : r.factors[j]? with
  | none => rw [hrj] at h1; simp at h1
  | some fac =>
    rw [hrj] at h1
    simp only [Option.map_some, Option.some.injEq] at h1
    refine ⟨⟨q.1.group, q.1.external, (bindData D.X D.n q.1.group none).2, fac⟩, ?_, hqg, ?_⟩
    · unfold fittedFeatures
      rw [List.getElem?_zipWith, List.getElem?_map, hq, hrj]
      rfl
    · rw [C25_missing _ row hrow]
      unfold stored at hz
      rw [h1] at hz
      exact hz

section
variable {σ : Type*} (B : Binner) (htol : 0 ≤ B.tolerance) (columns : List String) (S : Setup σ) (E : Estimator) (D : TrainSet)
  (fuel : ℕ) (P : FittedPipeline) (h : pipelineFit B columns S E D fuel = some (.ok P))
  (col : String) (hcol : col ∈ columns) (fp : ℕ) (hfp : B.props.lookup col = some fp)

include htol h hcol hfp in
/-- An unusable value gets the bin number -1. -/
theorem unusable_cell (heps : 0 ≤ B.epsilon) (heps1 : B.epsilon < 1) (x : Flt ℝ)
    (hx : Unusable B.epsilon fp (fun v => ∃ s < D.n, D.X s col = .fin v) x) :
    B.cell P.bins col x = .ok (.fin (-1)) := by
  obtain ⟨Xt, hb, -, -⟩ := pipelineFit_ok B columns S E D fuel P h
  obtain ⟨f, hf⟩ := binner_fit_mem B columns D.X D.n P.bins hb col hcol fp hfp
  obtain ⟨fp', hfp', hcons, hfc⟩ := binner_fit_column B columns D.X D.n P.bins hb col f hf
  rw [hfp, Option.some.injEq] at hfp'
  subst hfp'
  suffices hbin : binNumber (Flags.isSet fp Flags.IS_CONTINUOUS) (Flags.isSet fp Flags.HAS_MAGIC_INT_MISSING) f.eps
      (f.table.map Prod.fst) x = .ok (-1) by
    have := cell_fitted B P.bins col f hf fp hfp x (-1) hbin
    simpa using this
  rcases hx with hx | hx | hx | hx | hx | ⟨hcont, y, rfl, d, hd, hfar⟩
  · exact C04_missing _ _ _ _ _ (Or.inl hx)
  · exact C04_missing _ _ _ _ _ (Or.inr (Or.inl hx))
  · exact C04_missing _ _ _ _ _ (Or.inr (Or.inr (Or.inl hx)))
  · exact C04_missing _ _ _ _ _ (Or.inr (Or.inr (Or.inr (Or.inl hx))))
  · have hnone : f.table = none := by
      rcases fitColumn_shape _ _ _ (column_weights D.X D.n col) _ _ _ htol f hfc with ⟨hn, -⟩ | ⟨-, -, -, -, -, -, v, hv⟩
      · exact hn
      · exact absurd ((mem_column D.X D.n col v).mp hv) (hx v)
    rw [hnone]
    exact C04_missing _ _ _ _ _ (Or.inr (Or.inr (Or.inr (Or.inr rfl))))
  · by_cases hmag : Flags.isSet fp Flags.HAS_MAGIC_INT_MISSING = true ∧ (y = -9 ∨ y = -999)
    · refine C04_missing _ _ _ _ _ (Or.inr (Or.inr (Or.inr (Or.inl ⟨hmag.1, ?_⟩))))
      rcases hmag.2 with h9 | h9
      · left; rw [h9]
      · right; rw [h9]
    have hmag' : Flags.isSet fp Flags.HAS_MAGIC_INT_MISSING = true → y ≠ -9 ∧ y ≠ -999 := by
      intro hm
      constructor
      · intro h9; exact hmag ⟨hm, Or.inl h9⟩
      · intro h9; exact hmag ⟨hm, Or.inr h9⟩
    have hdisc : (Flags.isSet fp Flags.IS_ORDERED || Flags.isSet fp Flags.IS_UNORDERED) = true := by
      have h1 := ((Flags.C14_accepts_iff fp).mp hcons).1
      have h2 := hcont
      rw [show Flags.IS_CONTINUOUS = 1 <<< 0 from rfl, Flags.isSet_bit] at h2
      rw [show Flags.IS_ORDERED = 1 <<< 1 from rfl, show Flags.IS_UNORDERED = 1 <<< 2 from rfl, Flags.isSet_bit,
        Flags.isSet_bit]
      rcases h1 with ⟨h0, -⟩ | ⟨-, h0, -⟩ | ⟨-, -, h0⟩
      · rw [h2] at h0; cases h0
      · rw [h0]; rfl
      · rw [h0]; simp
    rw [hdisc] at hfc
    rw [hcont]
    by_cases hne : ∃ v, some v ∈ D.X.column D.n col
    · obtain ⟨b0, values, cdf, h1, h2, h3, h4, -⟩ := fitColumn_discrete _ _ (column_weights D.X D.n col) (B.nBins col) B.epsilon
        B.tolerance hne
      rw [hfc, Except.ok.injEq] at h1
      subst h1
      have hvne : values ≠ [] := by
        intro h0
        rw [h0] at h4
        cases h4
      have hsort : Spec.Sorted values := h2.imp fun h => h.le
      have hseen : ∀ v, v ∈ values ↔ ∃ s < D.n, D.X s col = .fin v := fun v => (h3 v).trans (mem_column D.X D.n col v)
      have hmd : B.epsilon * minimalDifference (b0 :: values) ≤ B.epsilon * d := by
        rcases hd with ⟨a, b, ha, hb', hab, rfl⟩ | ⟨rfl, hone⟩
        · obtain ⟨e, table, h5, h6, -⟩ := C03_rank _ _ (column_weights D.X D.n col) (B.nBins col) B.epsilon B.tolerance heps heps1 hne
          rw [hfc, Except.ok.injEq, ColFit.mk.injEq] at h5
          rw [h5.1]
          exact h6 a b ((mem_column D.X D.n col a).mpr ha) ((mem_column D.X D.n col b).mpr hb') hab
        · cases values with
          | nil => exact absurd rfl hvne
          | cons v vs =>
            simp only [List.head?_cons, Option.some.injEq] at h4
            subst h4
            cases vs with
            | nil => simp [minimalDifference]
            | cons u us =>
              exfalso
              have h5 : v < u := (List.pairwise_cons.mp h2).1 u List.mem_cons_self
              have h6 := hone v u ((hseen v).mp (by simp)) ((hseen u).mp (by simp))
              rw [h6] at h5
              exact lt_irrefl _ h5
      rcases C03_discrete_bin b0 values hsort hvne (Flags.isSet fp Flags.HAS_MAGIC_INT_MISSING)
        (B.epsilon * minimalDifference (b0 :: values)) y hmag' with ⟨k, hk, -, hle, -⟩ | ⟨hbin, -⟩
      · exfalso
        have := hfar values[k] ((hseen _).mp (List.getElem_mem hk))
        linarith
      · exact hbin
    · push Not at hne
      rw [fitColumn_empty true _ _ (column_weights D.X D.n col).1 _ _ _ hne, Except.ok.injEq] at hfc
      rw [← hfc]
      exact C04_missing _ _ _ _ _ (Or.inr (Or.inr (Or.inr (Or.inr rfl))))

include htol h hcol hfp in
/-- **C89.** All raw values of a column that a pipeline cannot use (see `Unusable`) are treated alike. -/
theorem C89_alike (heps : 0 ≤ B.epsilon) (heps1 : B.epsilon < 1) (X1 X2 : Table ℝ) (n s : ℕ) (hs : s < n)
    (hsame : ∀ c', c' ≠ col → X1 s c' = X2 s c')
    (h1 : Unusable B.epsilon fp (fun v => ∃ s < D.n, D.X s col = .fin v) (X1 s col))
    (h2 : Unusable B.epsilon fp (fun v => ∃ s < D.n, D.X s col = .fin v) (X2 s col))
    (prior : Option (ℕ → Flt ℝ)) (p1 p2 : ℕ → ℝ) (hp1 : P.predict B prior X1 n = .ok p1) (hp2 : P.predict B prior X2 n = .ok p2) :
    p1 s = p2 s := by
  obtain ⟨Y1, ht1, rfl⟩ := predict_ok P B prior X1 n p1 hp1
  obtain ⟨Y2, ht2, rfl⟩ := predict_ok P B prior X2 n p2 hp2
  refine predict_row _ _ _ _ _ fun c' => ?_
  have e1 := transform_cell B _ X1 Y1 n ht1 s hs c'
  have e2 := transform_cell B _ X2 Y2 n ht2 s hs c'
  by_cases hc' : c' = col
  · subst hc'
    rw [unusable_cell B htol columns S E D fuel P h c' hcol fp hfp heps heps1 _ h1, Except.ok.injEq] at e1
    rw [unusable_cell B htol columns S E D fuel P h c' hcol fp hfp heps heps1 _ h2, Except.ok.injEq] at e2
    rw [← e1, ← e2]
  · rw [hsame c' hc', e2, Except.ok.injEq] at e1
    exact e1.symm

include htol h hcol hfp in
/-- **C89**, neutral: if the column is flagged MISSING_NOT_LEARNED and training did not diverge, the features with this column
contribute nothing to the predictions for rows with an unusable value in it. -/
theorem C89_neutral (heps : 0 ≤ B.epsilon) (heps1 : B.epsilon < 1) (c : Choice) (groups : List (List String))
    (hS : createFeatures c (some B.props) groups = .ok S.features) (hok : S.params.consts.Ok) (hE : NoCalibration E)
    (hml : Flags.isSet fp Flags.MISSING_NOT_LEARNED = true)
    (hnd : ∀ Xt, B.transform P.bins D.X D.n = .ok Xt → NeverDiverges S E { D with X := Xt })
    (j : ℕ) (group : List String) (hj : groups[j]? = some group) (hg : col ∈ group)
    (X Xt : Table ℝ) (n s : ℕ) (hs : s < n) (hX : B.transform P.bins X n = .ok Xt)
    (hx : Unusable B.epsilon fp (fun v => ∃ s < D.n, D.X s col = .fin v) (X s col)) :
    ∃ g, P.model.features[j]? = some g ∧ g.group = group ∧ g.predict (Xt.row group s) = 0 := by
  obtain ⟨Yt, -, htr, hfit⟩ := pipelineFit_ok B columns S E D fuel P h
  refine C25_fit S c B.props groups hS hok E hE j group hj col hg fp hfp hml { D with X := Yt } fuel P.model hfit (hnd Yt htr)
    _ ⟨.fin (-1), ?_, fun x hx => ?_⟩
  · unfold Table.row
    rw [List.mem_map]
    refine ⟨col, hg, ?_⟩
    have e1 := transform_cell B _ X Xt n hX s hs col
    rw [unusable_cell B htol columns S E D fuel P h col hcol fp hfp heps heps1 _ hx, Except.ok.injEq] at e1
    exact e1.symm
  · rw [Flt.fin.injEq] at hx
    rw [← hx]
    norm_num

end

/-! ### C19 for pipelines -/

/-- **C19**, pipelines: if the binner bins all columns of features, no proviso is needed. The predictions of the pipeline for its
own training data are the in-sample predictions of the last iteration, whatever raw values the data holds. -/
theorem C19_pipeline {σ : Type*} (B : Binner) (columns : List String) (S : Setup σ) (hagg : S.params.aggregate = true)
    (hg : ∀ f ∈ S.features, f.1.group ≠ [])
    (hbin : ∀ f ∈ S.features, ∀ c ∈ f.1.group, c ∈ columns ∧ ∃ fp, B.props.lookup c = some fp)
    (E : Estimator) (D : TrainSet) (fuel : ℕ) (P : FittedPipeline) (h : pipelineFit B columns S E D fuel = some (.ok P))
    (p : ℕ → ℝ) (hp : P.predict B D.prior D.X D.n = .ok p) :
    ∃ Xt a r, B.transform P.bins D.X D.n = .ok Xt ∧ E.scale D.n D.y D.w = .fin a ∧
      fitMain (S.paramsFor E) (S.oracle E { D with X := Xt }) (S.cfgs { D with X := Xt }) (baseline E { D with X := Xt } a) fuel =
        some (.ok r) ∧
      ∀ s < D.n, p s = E.link.toLink.unlink (r.prediction.factors s) := by
  obtain ⟨Xt, hb, htr, hfit⟩ := pipelineFit_ok B columns S E D fuel P h
  obtain ⟨Yt, htr', rfl⟩ := predict_ok P B D.prior D.X D.n p hp
  rw [htr, Except.ok.injEq] at htr'
  subst htr'
  obtain ⟨a, r, -, hs, hmain, hm⟩ := fit_ok S E { D with X := Xt } fuel P.model hfit
  refine ⟨Xt, a, r, htr, hs, hmain, fun s hsn => ?_⟩
  rw [hm]
  unfold FittedModel.predict
  dsimp only
  congr 1
  have hcfgs : S.cfgs { D with X := Xt } = (S.features.map (·.1)).map fun f => f.cfg Xt D.n := by
    unfold Setup.cfgs
    rw [List.map_map]; rfl
  rw [hcfgs] at hmain
  refine (C19_predict_train (S.paramsFor E) hagg _ Xt D.n (S.features.map (·.1)) _ fuel r hmain s hsn ?_ ?_).1
  · intro f hf
    rw [List.mem_map] at hf
    obtain ⟨q, hq, rfl⟩ := hf
    exact hg q hq
  · intro f hf c hc x hx
    rw [List.mem_map] at hf
    obtain ⟨q, hq, rfl⟩ := hf
    obtain ⟨hcol, fp, hfp⟩ := hbin q hq c (by rw [hc]; simp)
    obtain ⟨f, hf⟩ := binner_fit_mem B columns D.X D.n P.bins hb c hcol fp hfp
    have e1 := transform_cell B _ D.X Xt D.n htr s hsn c
    unfold Binner.cell at e1
    rw [hf, hfp] at e1
    dsimp only at e1
    split at e1
    · cases e1
    · rename_i i _
      rw [Except.ok.injEq, hx, Flt.fin.injEq] at e1
      exact ⟨i, e1.symm⟩

end CB
