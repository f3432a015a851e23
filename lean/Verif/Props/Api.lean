import Verif.Spec.Api
import Verif.Spec.Rows
import Verif.Props.Rows
import Verif.Props.RowsGeneric
import Verif.Props.WholeFit
import Verif.Props.Predict
import Verif.Props.Link
import Verif.Props.Importance
import Mathlib.Tactic.Linarith

/-!
# C91-C94: estimator objects - refits, columns that matter, transform, use before fit
-/

set_option autoImplicit false
set_option linter.unusedSectionVars false

namespace CB
open Finset Spec

section
variable {σ : Type*}

/-! ### What `fit` does to the attributes -/

theorem construct_ok (C : Config σ) (o : EstimatorObject) (h : C.construct = .ok o) :
    o.groups = C.groups ∧ (∃ fs, o.features = some fs ∧ createFeatures C.choice C.props (C.groups.getD []) = .ok fs) ∧
      o.status = .unfitted ∧ o.importances = [] := by
  unfold Config.construct at h
  split at h
  · cases h
  · split at h
    · cases h
    · rename_i fs hfs
      rw [Except.ok.injEq] at h
      subst h
      exact ⟨rfl, ⟨fs, rfl, hfs⟩, rfl, rfl⟩

theorem initFit_ok (C : Config σ) (E : Estimator) (o o' : EstimatorObject) (F : DataFrame) (y : ℕ → ℝ)
    (fs : List (FeatureSpec × SmootherKind)) (h : o.initFit C E F y = (o', .ok fs)) :
    createFeatures C.choice C.props (o.groupsFor C F) = .ok fs ∧
      o' = ⟨some (o.groupsFor C F), some fs, .broken, o.importances⟩ ∧ 0 < F.n ∧ (∀ i < F.n, E.valid (y i)) ∧
      F.has C.weightColumn.toList = true ∧ F.has (C.priorColumn.toList ++ featureColumns fs) = true := by
  unfold EstimatorObject.initFit at h
  split at h
  · cases h
  · rename_i hlen
    by_cases hv : ∀ i < F.n, E.valid (y i)
    swap
    · rw [if_pos hv] at h
      cases h
    rw [if_neg (not_not.mpr hv)] at h
    by_cases hw : F.has C.weightColumn.toList = false
    · rw [if_pos hw] at h
      cases h
    rw [if_neg hw] at h
    split at h
    · cases h
    · rename_i fs' hfs
      rw [Prod.mk.injEq] at h
      obtain ⟨h1, h⟩ := h
      split_ifs at h with hc
      rw [Except.ok.injEq] at h
      subst h
      refine ⟨hfs, h1.symm, ?_, hv, ?_, hc⟩
      · rcases Nat.eq_zero_or_pos F.n with h0 | h0
        · rw [h0] at hlen
          cases hlen
        · exact h0
      · cases hh : F.has C.weightColumn.toList with
        | true => rfl
        | false => exact absurd hh hw

theorem fit_object_ok (C : Config σ) (E : Estimator) (o o' : EstimatorObject) (F : DataFrame) (y : ℕ → ℝ) (fuel : ℕ)
    (h : o.fit C E F y fuel = some (o', .ok ())) :
    ∃ fs m, o.initFit C E F y = (⟨some (o.groupsFor C F), some fs, .broken, o.importances⟩, .ok fs) ∧
      createFeatures C.choice C.props (o.groupsFor C F) = .ok fs ∧
      (C.setup fs).fit E (C.trainSet F y) fuel = some (.ok m) ∧
      o' = ⟨some (o.groupsFor C F), some fs, .fitted m, setFeatureImportances o.importances (modelImportances F m)⟩ := by
  unfold EstimatorObject.fit at h
  split at h
  · simp at h
  · rename_i o1 fs hi
    obtain ⟨h1, h2, -⟩ := initFit_ok C E o o1 F y fs hi
    split at h
    · cases h
    · simp at h
    · rename_i m hm
      simp only [Option.some.injEq, Prod.mk.injEq, and_true] at h
      subst h2
      exact ⟨fs, m, hi, h1, hm, h.symm⟩

/-- The groups of an object are never changed once they are there. -/
theorem initFit_groups (C : Config σ) (E : Estimator) (o : EstimatorObject) (F : DataFrame) (y : ℕ → ℝ) :
    (o.initFit C E F y).1.groups = o.groups ∨ (o.initFit C E F y).1.groups = some (o.groupsFor C F) := by
  unfold EstimatorObject.initFit
  split
  · exact Or.inl rfl
  · split_ifs
    · exact Or.inl rfl
    · split
      · exact Or.inr rfl
      · exact Or.inr rfl
    · exact Or.inl rfl

theorem fit_groups (C : Config σ) (E : Estimator) (o o' : EstimatorObject) (F : DataFrame) (y : ℕ → ℝ) (fuel : ℕ)
    (r : Except ApiErr Unit) (h : o.fit C E F y fuel = some (o', r)) :
    o'.groups = o.groups ∨ o'.groups = some (o.groupsFor C F) := by
  have hg := initFit_groups C E o F y
  unfold EstimatorObject.fit at h
  split at h
  · rename_i o1 e hi
    rw [hi] at hg
    simp only [Option.some.injEq, Prod.mk.injEq] at h
    rw [← h.1]
    exact hg
  · rename_i o1 fs hi
    rw [hi] at hg
    split at h
    · cases h
    · simp only [Option.some.injEq, Prod.mk.injEq] at h
      rw [← h.1]
      exact hg
    · simp only [Option.some.injEq, Prod.mk.injEq] at h
      rw [← h.1]
      exact hg

/-- A call of `fit_transform` is a call of `fit`, if it gets that far. -/
theorem fitTransform_fit (C : Config σ) (E : Estimator) (o o' : EstimatorObject) (F : DataFrame) (y : ℕ → ℝ) (fuel : ℕ)
    (r : Except ApiErr DataFrame) (h : o.fitTransform C E F y fuel = some (o', r)) :
    o' = o ∨ ∃ r', o.fit C E F y fuel = some (o', r') := by
  unfold EstimatorObject.fitTransform at h
  split at h
  · simp only [Option.some.injEq, Prod.mk.injEq] at h
    exact Or.inl h.1.symm
  · split at h
    · cases h
    · rename_i o1 e hf
      simp only [Option.some.injEq, Prod.mk.injEq] at h
      rw [← h.1]
      exact Or.inr ⟨_, hf⟩
    · rename_i o1 u hf
      split at h
      · cases h
      · simp only [Option.some.injEq, Prod.mk.injEq] at h
        rw [← h.1]
        exact Or.inr ⟨_, hf⟩

theorem defaultGroups_eq (C : Config σ) (F : DataFrame) :
    C.defaultGroups F =
      (F.columns.filter fun c => decide (C.weightColumn ≠ some c ∧ C.priorColumn ≠ some c)).map fun c => [c] := by
  unfold Config.defaultGroups
  dsimp only
  congr 1
  refine List.filter_congr fun c _ => ?_
  rw [Bool.eq_iff_iff]
  simp only [Bool.not_eq_true', List.contains_eq_mem, List.mem_append, Option.mem_toList, decide_eq_false_iff_not, not_or,
    decide_eq_true_eq]
  tauto

/-- Feature groups that were given stay as they are; otherwise they are those of a table of the history. -/
theorem history_groups (C : Config σ) (E : Estimator) (P : DataFrame → Prop) (o : EstimatorObject) (h : History C E P o) :
    (∀ gs, C.groups = some gs → o.groups = some gs) ∧
      (C.groups = none → o.groups = none ∨ ∃ F, P F ∧ o.groups = some (C.defaultGroups F)) := by
  have step : ∀ (o o' : EstimatorObject) (F : DataFrame), P F →
      ((∀ gs, C.groups = some gs → o.groups = some gs) ∧
        (C.groups = none → o.groups = none ∨ ∃ F, P F ∧ o.groups = some (C.defaultGroups F))) →
      (o'.groups = o.groups ∨ o'.groups = some (o.groupsFor C F)) →
      (∀ gs, C.groups = some gs → o'.groups = some gs) ∧
        (C.groups = none → o'.groups = none ∨ ∃ F, P F ∧ o'.groups = some (C.defaultGroups F)) := by
    intro o o' F hF ih hg
    rcases hg with hg | hg
    · rw [hg]; exact ih
    · constructor
      · intro gs hgs
        rw [hg]
        unfold EstimatorObject.groupsFor
        rw [ih.1 gs hgs]
      · intro hn
        right
        rcases ih.2 hn with h0 | ⟨G, hG, h0⟩
        · exact ⟨F, hF, by rw [hg]; unfold EstimatorObject.groupsFor; rw [h0]⟩
        · exact ⟨G, hG, by rw [hg]; unfold EstimatorObject.groupsFor; rw [h0]⟩
  induction h with
  | constructed o h =>
    rw [(construct_ok C o h).1]
    exact ⟨fun _ h => h, fun h => Or.inl h⟩
  | fit o o' h F hF y fuel r hr ih => exact step o o' F hF ih (fit_groups C E o o' F y fuel r hr)
  | fitTransform o o' h F hF y fuel r hr ih =>
    rcases fitTransform_fit C E o o' F y fuel r hr with rfl | ⟨r', hr'⟩
    · exact ih
    · exact step o o' F hF ih (fit_groups C E o o' F y fuel r' hr')

/-! ### C91 -/

/-- Two objects that use the same groups for a table are fitted alike. -/
theorem fit_alike (C : Config σ) (E : Estimator) (o p : EstimatorObject) (F : DataFrame) (y : ℕ → ℝ) (fuel : ℕ)
    (hg : o.groupsFor C F = p.groupsFor C F) :
    (o.fit C E F y fuel).map Prod.snd = (p.fit C E F y fuel).map Prod.snd ∧
      ∀ o', o.fit C E F y fuel = some (o', .ok ()) → ∃ p', p.fit C E F y fuel = some (p', .ok ()) ∧
        p'.groups = o'.groups ∧ p'.features = o'.features ∧ p'.status = o'.status := by
  have hi : (o.initFit C E F y).2 = (p.initFit C E F y).2 := by
    unfold EstimatorObject.initFit
    rw [hg]
    split
    · rfl
    · split_ifs
      · rfl
      · split <;> rfl
      · rfl
  constructor
  · unfold EstimatorObject.fit
    cases h1 : o.initFit C E F y with
    | mk o1 r1 =>
      cases h2 : p.initFit C E F y with
      | mk p1 r2 =>
        rw [h1, h2] at hi
        dsimp only at hi
        subst hi
        cases r1 with
        | error e => rfl
        | ok fs =>
          dsimp only
          cases (C.setup fs).fit E (C.trainSet F y) fuel with
          | none => rfl
          | some r => cases r <;> rfl
  · intro o' h
    obtain ⟨fs, m, h1, h2, h3, rfl⟩ := fit_object_ok C E o o' F y fuel h
    rw [h1] at hi
    cases h4 : p.initFit C E F y with
    | mk p1 r =>
      rw [h4] at hi
      dsimp only at hi
      subst hi
      obtain ⟨-, h5, -⟩ := initFit_ok C E p p1 F y fs h4
      refine ⟨⟨some (p.groupsFor C F), some fs, .fitted m, setFeatureImportances p1.importances (modelImportances F m)⟩, ?_, ?_, rfl, rfl⟩
      · unfold EstimatorObject.fit
        rw [h4]
        dsimp only
        rw [h3]
        dsimp only
        rw [h5]
      · rw [hg]

/-- Objects with the same features and status predict the same. -/
theorem predict_alike (C : Config σ) (o p : EstimatorObject) (hf : p.features = o.features) (hs : p.status = o.status)
    (G : DataFrame) : p.predict C G = o.predict C G := by
  unfold EstimatorObject.predict EstimatorObject.checkFitted
  rw [hf, hs]

/-- **C91.** Whatever an estimator with given feature groups has been fitted to before, and whether that raised or not: the next
`fit` raises exactly if the first fit of a new estimator on the same data raises, with the same exception, and otherwise the
predictions afterwards are those of the new estimator. -/
theorem C91_refit (C : Config σ) (E : Estimator) (gs : List (List String)) (hgs : C.groups = some gs)
    (o new : EstimatorObject) (h : History C E (fun _ => True) o) (hnew : C.construct = .ok new) (F : DataFrame) (y : ℕ → ℝ) (fuel : ℕ) :
    (o.fit C E F y fuel).map Prod.snd = (new.fit C E F y fuel).map Prod.snd ∧
      ∀ o', o.fit C E F y fuel = some (o', .ok ()) → ∃ new', new.fit C E F y fuel = some (new', .ok ()) ∧
        ∀ G, new'.predict C G = o'.predict C G := by
  have h1 := (history_groups C E _ o h).1 gs hgs
  have h2 := (history_groups C E _ new (.constructed (P := fun _ => True) new hnew)).1 gs hgs
  obtain ⟨h3, h4⟩ := fit_alike C E o new F y fuel (by unfold EstimatorObject.groupsFor; rw [h1, h2])
  refine ⟨h3, fun o' ho => ?_⟩
  obtain ⟨p', h5, -, h6, h7⟩ := h4 o' ho
  exact ⟨p', h5, predict_alike C o' p' h6 h7⟩

/-- **C91, default feature groups.** Without feature groups the same holds if all tables so far had the same columns. -/
theorem C91_refit_default (C : Config σ) (E : Estimator) (hgs : C.groups = none) (F : DataFrame)
    (o new : EstimatorObject) (h : History C E (fun G => G.columns = F.columns) o) (hnew : C.construct = .ok new) (y : ℕ → ℝ)
    (fuel : ℕ) :
    (o.fit C E F y fuel).map Prod.snd = (new.fit C E F y fuel).map Prod.snd ∧
      ∀ o', o.fit C E F y fuel = some (o', .ok ()) → ∃ new', new.fit C E F y fuel = some (new', .ok ()) ∧
        ∀ G, new'.predict C G = o'.predict C G := by
  have h2 : new.groups = none := by rw [(construct_ok C new hnew).1, hgs]
  have hg : o.groupsFor C F = new.groupsFor C F := by
    unfold EstimatorObject.groupsFor
    rw [h2]
    rcases (history_groups C E _ o h).2 hgs with h1 | ⟨G, hG, h1⟩
    · rw [h1]
    · rw [h1]
      dsimp only
      unfold Config.defaultGroups
      rw [hG]
  obtain ⟨h3, h4⟩ := fit_alike C E o new F y fuel hg
  refine ⟨h3, fun o' ho => ?_⟩
  obtain ⟨p', h5, -, h6, h7⟩ := h4 o' ho
  exact ⟨p', h5, predict_alike C o' p' h6 h7⟩

/-- **C91, what goes wrong otherwise.** Without feature groups, all later fits use the columns of the first table: a column that
was not in it never becomes a feature. -/
theorem C91_stale_columns (C : Config σ) (E : Estimator) (hgs : C.groups = none) (new o o' : EstimatorObject)
    (hnew : C.construct = .ok new) (F G : DataFrame) (y z : ℕ → ℝ) (fuel fuel' : ℕ)
    (h1 : new.fit C E F y fuel = some (o, .ok ())) (h2 : o.fit C E G z fuel' = some (o', .ok ())) :
    o'.groups = some ((F.columns.filter fun c => decide (C.weightColumn ≠ some c ∧ C.priorColumn ≠ some c)).map fun c => [c]) := by
  have h0 : new.groups = none := by rw [(construct_ok C new hnew).1, hgs]
  obtain ⟨fs, m, -, -, -, rfl⟩ := fit_object_ok C E new o F y fuel h1
  obtain ⟨fs', m', -, -, -, rfl⟩ := fit_object_ok C E _ o' G z fuel' h2
  unfold EstimatorObject.groupsFor
  dsimp only
  rw [h0]
  dsimp only
  rw [defaultGroups_eq]

/-! ### C92 -/

/-- Training sets that agree on the samples and on the columns of the features give the same outcome. -/
theorem fit_train_congr (S : Setup σ) (hgroups : ∀ f ∈ S.features, f.1.group ≠ []) (E : Estimator) (D D' : TrainSet)
    (hE : Modelled E ∨ Optimising E ∧ ∀ s < D.n, 0 ≤ D.w s) (hn : D'.n = D.n)
    (hX : ∀ f ∈ S.features, ∀ c ∈ f.1.group, ∀ s < D.n, D'.X s c = D.X s c) (hy : ∀ s < D.n, D'.y s = D.y s)
    (hw : ∀ s < D.n, D'.w s = D.w s) (hp : D.prior.isSome = D'.prior.isSome)
    (hq : ∀ s < D.n, D'.prior.map (fun q => q s) = D.prior.map fun q => q s) (fuel : ℕ) :
    S.fit E D' fuel = S.fit E D fuel := by
  classical
  have hrow : ∀ f ∈ S.features, ∀ s < D.n, D'.X.row f.1.group s = D.X.row f.1.group s := by
    intro f hf s hs
    unfold Table.row
    exact List.map_congr_left fun c hc => hX f hf c hc s hs
  have hrows : SameRows S D D' (fun s => s) (fun s => s) := by
    refine ⟨⟨D.y, fun _ _ => rfl, fun s hs => hy s (hn ▸ hs)⟩, ?_, ?_, ?_, ?_, hgroups⟩
    · intro r
      rw [hn]
      refine sum_congr rfl fun s hs => ?_
      rw [hw s (mem_range.mp hs)]
    · intro f hf
      exact ⟨D.X.row f.1.group, fun _ _ => rfl, fun s hs => hrow f hf s (hn ▸ hs)⟩
    · intro f hf
      apply bindData_congr
      intro r
      rw [hn]
      constructor
      · rintro ⟨s, hs, rfl⟩
        exact ⟨s, hs, hrow f hf s hs⟩
      · rintro ⟨s, hs, rfl⟩
        exact ⟨s, hs, (hrow f hf s hs).symm⟩
    · exact optionPrior _ _ _ _ _ _ hp (fun s => D.prior.map fun q => q s) (fun s hs => rfl) (fun s hs => hq s (hn ▸ hs))
  have hv : (∀ i < D.n, E.valid (D.y i)) ↔ ∀ i < D'.n, E.valid (D'.y i) := by
    rw [hn]
    constructor
    · intro h s hs
      rw [hy s hs]; exact h s hs
    · intro h s hs
      rw [← hy s hs]; exact h s hs
  rcases hE with hE | ⟨hE, h0⟩
  · exact hrows.fit E .each (modelled_invariant E hE) ⟨D.w, fun _ _ => rfl, fun s hs => hw s (hn ▸ hs)⟩ hv fuel
  · exact hrows.fit E .order (optimising_invariant E hE)
      ⟨hn, h0, Equiv.refl ℕ, fun _ => Iff.rfl, fun _ _ => rfl, fun s hs => hw s hs⟩ hv fuel

theorem bindData_rows (X X' : Table ℝ) (n : ℕ) (group : List String) (h : ∀ c ∈ group, ∀ s < n, X' s c = X s c) (nb : Option (List ℕ)) :
    bindData X' n group nb = bindData X n group nb := by
  unfold bindData
  congr 1
  refine List.map_congr_left fun s hs => ?_
  unfold Table.row
  exact List.map_congr_left fun c hc => h c hc s (List.mem_range.mp hs)

theorem has_congr (cols : String → Prop) (F G : DataFrame) (h : SameColumns cols F G) (l : List String) (hl : ∀ c ∈ l, cols c) :
    G.has l = F.has l := by
  unfold DataFrame.has
  rw [Bool.eq_iff_iff]
  simp only [List.all_eq_true, List.contains_iff_mem]
  exact forall₂_congr fun c hc => h.present c (hl c hc)

/-- The columns of created features are those of the groups. -/
theorem createFeatures_columns (c : Choice) (props : Option (List (String × ℕ))) (groups : List (List String))
    (fs : List (FeatureSpec × SmootherKind)) (h : createFeatures c props groups = .ok fs) :
    fs.map (fun f => f.1.group) = groups := by
  induction groups generalizing fs with
  | nil =>
    simp only [createFeatures, Except.ok.injEq] at h
    subst h; rfl
  | cons g groups ih =>
    unfold createFeatures at h
    split at h
    · cases h
    · split at h
      · cases h
      · rename_i rest hr
        dsimp only at h
        rw [Except.ok.injEq] at h
        subst h
        rw [List.map_cons, ih rest hr]

theorem fit_columns (C : Config σ) (E : Estimator) (o : EstimatorObject) (F G : DataFrame)
    (gs : List (List String)) (hF : o.groupsFor C F = gs) (hG : o.groupsFor C G = gs) (hne : ∀ g ∈ gs, g ≠ [])
    (h : SameColumns (fun c => C.weightColumn = some c ∨ C.priorColumn = some c ∨ ∃ g ∈ gs, c ∈ g) F G) (y z : ℕ → ℝ)
    (hy : ∀ s < F.n, z s = y s)
    (hE : Modelled E ∨ Optimising E ∧ ∀ c, C.weightColumn = some c → ∀ s < F.n, 0 ≤ (F.X s c).getFin) (fuel : ℕ) :
    o.fit C E G z fuel = o.fit C E F y fuel := by
  have hcols : ∀ fs, createFeatures C.choice C.props gs = .ok fs → ∀ f ∈ fs, f.1.group ∈ gs := by
    intro fs hfs f hf
    have := createFeatures_columns C.choice C.props gs fs hfs
    rw [← this]
    exact List.mem_map.mpr ⟨f, hf, rfl⟩
  have hinit : o.initFit C E G z = o.initFit C E F y := by
    unfold EstimatorObject.initFit
    rw [hG, hF, h.rows]
    have hv : (∀ i < F.n, E.valid (z i)) ↔ ∀ i < F.n, E.valid (y i) :=
      forall₂_congr fun i hi => by rw [hy i hi]
    rw [has_congr _ F G h C.weightColumn.toList (fun c hc => Or.inl (by simpa using hc))]
    split
    · rfl
    · by_cases hval : ∀ i < F.n, E.valid (y i)
      · rw [if_neg (not_not.mpr hval), if_neg (not_not.mpr (hv.mpr hval))]
        split_ifs
        · rfl
        · split
          · rfl
          · rename_i fs hfs
            rw [has_congr _ F G h (C.priorColumn.toList ++ featureColumns fs)]
            intro c hc
            rw [List.mem_append] at hc
            rcases hc with hc | hc
            · exact Or.inr (Or.inl (by simpa using hc))
            · obtain ⟨f, hf, hcf⟩ := List.mem_flatMap.mp hc
              exact Or.inr (Or.inr ⟨f.1.group, hcols fs hfs f hf, hcf⟩)
      · rw [if_pos hval, if_pos (fun hz => hval (hv.mp hz))]
  unfold EstimatorObject.fit
  rw [hinit]
  cases hi : o.initFit C E F y with
  | mk o1 r =>
    cases r with
    | error e => rfl
    | ok fs =>
      dsimp only
      obtain ⟨hfs, -⟩ := initFit_ok C E o o1 F y fs hi
      rw [hF] at hfs
      have hX : ∀ f ∈ fs, ∀ c ∈ f.1.group, ∀ s < F.n, G.X s c = F.X s c := fun f hf c hc s hs =>
        h.entries c (Or.inr (Or.inr ⟨f.1.group, hcols fs hfs f hf, hc⟩)) s hs
      have hfit : (C.setup fs).fit E (C.trainSet G z) fuel = (C.setup fs).fit E (C.trainSet F y) fuel := by
        refine fit_train_congr (C.setup fs) (fun f hf => hne _ (hcols fs hfs f hf)) E (C.trainSet F y) (C.trainSet G z) ?_ h.rows
          hX hy ?_ ?_ ?_ fuel
        · rcases hE with hE | ⟨hE, hw⟩
          · exact Or.inl hE
          · refine Or.inr ⟨hE, fun s hs => ?_⟩
            show 0 ≤ initWeights (C.weightColumn.map fun c s => (F.X s c).getFin) s
            cases hc : C.weightColumn with
            | none => exact zero_le_one
            | some c => exact hw c hc s hs
        · intro s hs
          show initWeights (C.weightColumn.map fun c s => (G.X s c).getFin) s = initWeights (C.weightColumn.map fun c s => (F.X s c).getFin) s
          cases hc : C.weightColumn with
          | none => rfl
          | some c =>
            show (G.X s c).getFin = (F.X s c).getFin
            rw [h.entries c (Or.inl hc) s hs]
        · show (C.priorColumn.map _).isSome = (C.priorColumn.map _).isSome
          simp
        · intro s hs
          show (C.priorColumn.map _).map _ = (C.priorColumn.map _).map _
          cases hc : C.priorColumn with
          | none => rfl
          | some c =>
            show some (G.X s c) = some (F.X s c)
            rw [h.entries c (Or.inr (Or.inl hc)) s hs]
      rw [hfit]
      cases hm : (C.setup fs).fit E (C.trainSet F y) fuel with
      | none => rfl
      | some r =>
        cases r with
        | error e => rfl
        | ok m =>
          dsimp only
          have himp : modelImportances G m = modelImportances F m := by
            unfold modelImportances
            refine List.map_congr_left fun f hf => ?_
            rw [h.rows, bindData_rows F.X G.X F.n f.group]
            intro c hc s hs
            obtain ⟨a, r, -, -, -, hmm⟩ := fit_ok (C.setup fs) E (C.trainSet F y) fuel m hm
            rw [hmm] at hf
            obtain ⟨q, hq, hfq⟩ : ∃ q ∈ fs, f.group = q.1.group := by
              obtain ⟨i, hi⟩ := List.getElem?_of_mem hf
              obtain ⟨sp, hsp, hsg⟩ : ∃ sp ∈ (C.setup fs).features.map (·.1), f.group = sp.group := by
                simp only [fittedFeatures] at hi
                rw [List.getElem?_zipWith] at hi
                split at hi
                · rename_i sp fac hsp hfac
                  rw [Option.some.injEq] at hi
                  exact ⟨sp, List.mem_of_getElem? hsp, by rw [← hi]⟩
                · cases hi
              obtain ⟨q, hq, rfl⟩ := List.mem_map.mp hsp
              exact ⟨q, hq, hsg⟩
            exact hX q hq c (hfq ▸ hc) s hs
          rw [himp]

/-- **C92.** Whatever happened to the estimator before, a fit depends on the table only through the weight column, the prior
prediction column and the columns of the feature groups that the estimator was given: two tables that agree there give the same
outcome, the same exception or the same state of the estimator, whatever other columns they have. -/
theorem C92_fit_columns_partial (C : Config σ) (E : Estimator) (o : EstimatorObject) (ho : History C E (fun _ => True) o)
    (gs : List (List String)) (hgs : C.groups = some gs) (hne : ∀ g ∈ gs, g ≠ []) (F G : DataFrame)
    (h : SameColumns (fun c => C.weightColumn = some c ∨ C.priorColumn = some c ∨ ∃ g ∈ gs, c ∈ g) F G) (y z : ℕ → ℝ)
    (hy : ∀ s < F.n, z s = y s)
    (hE : Modelled E ∨ Optimising E ∧ ∀ c, C.weightColumn = some c → ∀ s < F.n, 0 ≤ (F.X s c).getFin) (fuel : ℕ) :
    o.fit C E G z fuel = o.fit C E F y fuel := by
  have h1 := (history_groups C E _ o ho).1 gs hgs
  have hg : ∀ H, o.groupsFor C H = gs := fun H => by unfold EstimatorObject.groupsFor; rw [h1]
  exact fit_columns C E o F G gs (hg F) (hg G) hne h y z hy hE fuel

/-- **C92, predictions.** Predictions do not need the weight column, nor other columns than those of the features and of prior
predictions, and a row's prediction depends on this row only. -/
theorem C92_predict_columns (C : Config σ) (E : Estimator) (o o' : EstimatorObject) (ho : History C E (fun _ => True) o)
    (gs : List (List String)) (hgs : C.groups = some gs) (T : DataFrame) (y : ℕ → ℝ) (fuel : ℕ)
    (hfit : o.fit C E T y fuel = some (o', .ok ())) (F G : DataFrame)
    (h : SameColumns (fun c => C.priorColumn = some c ∨ ∃ g ∈ gs, c ∈ g) F G) (p : ℕ → ℝ)
    (hp : o'.predict C F = some (.ok p)) :
    ∃ p', o'.predict C G = some (.ok p') ∧ ∀ s < F.n, p' s = p s := by
  have h1 := (history_groups C E _ o ho).1 gs hgs
  have hg : o.groupsFor C T = gs := by unfold EstimatorObject.groupsFor; rw [h1]
  obtain ⟨fs, m, -, hfs, hm, rfl⟩ := fit_object_ok C E o o' T y fuel hfit
  rw [hg] at hfs
  have hmem : ∀ f ∈ m.features, f.group ∈ gs := by
    intro f hf
    obtain ⟨a, r, -, -, -, hmm⟩ := fit_ok (C.setup fs) E (C.trainSet T y) fuel m hm
    rw [hmm] at hf
    obtain ⟨i, hi⟩ := List.getElem?_of_mem hf
    simp only [fittedFeatures] at hi
    rw [List.getElem?_zipWith] at hi
    split at hi
    · rename_i sp fac hsp hfac
      rw [Option.some.injEq] at hi
      obtain ⟨q, hq, rfl⟩ := List.mem_map.mp (List.mem_of_getElem? hsp)
      rw [← createFeatures_columns C.choice C.props gs fs hfs, ← hi]
      exact List.mem_map.mpr ⟨q, hq, rfl⟩
    · cases hi
  have hhas : G.has (C.priorColumn.toList ++ m.features.flatMap fun f => f.group) =
      F.has (C.priorColumn.toList ++ m.features.flatMap fun f => f.group) := by
    refine has_congr _ F G h _ fun c hc => ?_
    rw [List.mem_append] at hc
    rcases hc with hc | hc
    · exact Or.inl (by simpa using hc)
    · obtain ⟨f, hf, hcf⟩ := List.mem_flatMap.mp hc
      exact Or.inr ⟨f.group, hmem f hf, hcf⟩
  unfold EstimatorObject.predict EstimatorObject.checkFitted at hp ⊢
  simp only [Option.isNone_some, Bool.false_eq_true, if_false] at hp ⊢
  rw [hhas]
  split_ifs at hp with hH
  · rw [if_pos hH]
    simp only [Option.some.injEq, Except.ok.injEq] at hp
    refine ⟨_, rfl, fun s hs => ?_⟩
    rw [← hp]
    unfold FittedModel.predict
    congr 1
    rw [(C24_link_space _ m.features G.X s).1, (C24_link_space _ m.features F.X s).1]
    congr 1
    · show (priorPrediction m.link m.scale m.offset (C.prior G) s).getFin = (priorPrediction m.link m.scale m.offset (C.prior F) s).getFin
      unfold Config.prior
      cases hc : C.priorColumn with
      | none => rfl
      | some c =>
        show (priorPrediction _ _ _ (some fun s => G.X s c) s).getFin = (priorPrediction _ _ _ (some fun s => F.X s c) s).getFin
        unfold priorPrediction
        have e := h.entries c (Or.inl hc) s hs
        dsimp only
        simp only [e]
    · unfold contributionSum
      congr 1
      refine List.map_congr_left fun f hf => ?_
      congr 1
      unfold Table.row
      exact List.map_congr_left fun c hc => h.entries c (Or.inr ⟨f.group, hmem f (List.mem_of_mem_filter hf), hc⟩) s hs
  · simp at hp

/-- **C92, missing columns.** A fit on a table without the weight column, the prior prediction column or a column of a feature group
raises. -/
theorem C92_missing (C : Config σ) (E : Estimator) (o : EstimatorObject) (ho : History C E (fun _ => True) o)
    (gs : List (List String)) (hgs : C.groups = some gs) (F : DataFrame) (y : ℕ → ℝ) (fuel : ℕ) (c : String)
    (hc : C.weightColumn = some c ∨ C.priorColumn = some c ∨ ∃ g ∈ gs, c ∈ g) (hF : c ∉ F.columns) (o' : EstimatorObject) :
    o.fit C E F y fuel ≠ some (o', .ok ()) := by
  intro hfit
  have h1 := (history_groups C E _ o ho).1 gs hgs
  have hg : o.groupsFor C F = gs := by unfold EstimatorObject.groupsFor; rw [h1]
  obtain ⟨fs, m, hi, hfs, hm, rfl⟩ := fit_object_ok C E o o' F y fuel hfit
  obtain ⟨-, -, -, -, h2, h3⟩ := initFit_ok C E o _ F y fs hi
  rw [hg] at hfs
  unfold DataFrame.has at h2 h3
  simp only [List.all_eq_true, List.contains_iff_mem, List.mem_append] at h2 h3
  rcases hc with hc | hc | ⟨g, hgm, hc⟩
  · exact hF (h2 c (by simp [hc]))
  · exact hF (h3 c (Or.inl (by simp [hc])))
  · rw [← createFeatures_columns C.choice C.props gs fs hfs] at hgm
    obtain ⟨f, hf, rfl⟩ := List.mem_map.mp hgm
    exact hF (h3 c (Or.inr (List.mem_flatMap.mpr ⟨f, hf, hc⟩)))

/-- **C92, `required_columns`.** These are the columns that `required_columns` lists, from construction on. -/
theorem C92_required_partial (C : Config σ) (new : EstimatorObject) (hnew : C.construct = .ok new)
    (gs : List (List String)) (hgs : C.groups = some gs) (c : String) :
    c ∈ C.requiredColumns new ↔ C.weightColumn = some c ∨ C.priorColumn = some c ∨ ∃ g ∈ gs, c ∈ g := by
  obtain ⟨-, ⟨fs, h1, h2⟩, -⟩ := construct_ok C new hnew
  rw [hgs] at h2
  unfold Config.requiredColumns
  rw [h1, ← createFeatures_columns C.choice C.props gs fs h2]
  simp only [List.mem_append, Option.mem_toList, Option.getD_some, featureColumns, List.mem_flatMap, List.mem_map, or_assoc]
  simp

/-- **C92, default features.** Without feature groups, the first fit makes each column a feature of its own, except for the weight
column and the prior prediction column. -/
theorem C92_default_features (C : Config σ) (E : Estimator) (hgs : C.groups = none) (new o : EstimatorObject)
    (hnew : C.construct = .ok new) (F : DataFrame) (y : ℕ → ℝ) (fuel : ℕ) (h : new.fit C E F y fuel = some (o, .ok ())) :
    ∃ fs, o.features = some fs ∧ fs.map (fun f => f.1.group) =
      (F.columns.filter fun c => decide (C.weightColumn ≠ some c ∧ C.priorColumn ≠ some c)).map fun c => [c] := by
  have h0 : new.groups = none := by rw [(construct_ok C new hnew).1, hgs]
  obtain ⟨fs, m, -, h1, -, rfl⟩ := fit_object_ok C E new o F y fuel h
  refine ⟨fs, rfl, ?_⟩
  rw [createFeatures_columns _ _ _ fs h1]
  unfold EstimatorObject.groupsFor
  rw [h0]
  exact defaultGroups_eq C F

/-! ### C76: no weight column -/

/-- **C76, no weights.** An estimator without weight column is fitted like one with a weight column of ones. -/
theorem C76_unweighted (C : Config σ) (E : Estimator) (hE : Modelled E ∨ Optimising E) (o : EstimatorObject) (gs : List (List String))
    (hgs : o.groups = some gs) (hne : ∀ g ∈ gs, g ≠ []) (F : DataFrame) (y : ℕ → ℝ) (fuel : ℕ) (c : String)
    (hc : C.weightColumn = some c) (hF : c ∈ F.columns) (hw : ∀ s < F.n, F.X s c = .fin 1) :
    o.fit { C with weightColumn := none } E F y fuel = o.fit C E F y fuel := by
  have hg : ∀ C : Config σ, o.groupsFor C F = gs := fun C => by unfold EstimatorObject.groupsFor; rw [hgs]
  have hinit : o.initFit { C with weightColumn := none } E F y = o.initFit C E F y := by
    unfold EstimatorObject.initFit
    rw [hg, hg]
    have h1 : F.has C.weightColumn.toList = true := by
      unfold DataFrame.has
      simp [hc, hF]
    have h2 : F.has (Option.toList (none : Option String)) = true := rfl
    dsimp only
    rw [h1, h2]
  unfold EstimatorObject.fit
  rw [hinit]
  cases hi : o.initFit C E F y with
  | mk o1 r =>
    cases r with
    | error e => rfl
    | ok fs =>
      dsimp only
      obtain ⟨hfs, -⟩ := initFit_ok C E o o1 F y fs hi
      rw [hg] at hfs
      have hfit : (Config.setup { C with weightColumn := none } fs).fit E (Config.trainSet { C with weightColumn := none } F y) fuel =
          (C.setup fs).fit E (C.trainSet F y) fuel := by
        have hone : ∀ s < F.n, (1 : ℝ) = (C.trainSet F y).w s := by
          intro s hs
          show 1 = initWeights (C.weightColumn.map fun c s => (F.X s c).getFin) s
          rw [hc]
          show 1 = (F.X s c).getFin
          rw [hw s hs]
          rfl
        refine fit_train_congr (C.setup fs) (fun f hf => ?_) E (C.trainSet F y)
          (Config.trainSet { C with weightColumn := none } F y) ?_ rfl (fun _ _ _ _ _ _ => rfl) (fun _ _ => rfl) hone rfl (fun _ _ => rfl) fuel
        · refine hne _ ?_
          rw [← createFeatures_columns C.choice C.props gs fs hfs]
          exact List.mem_map.mpr ⟨f, hf, rfl⟩
        · rcases hE with hE | hE
          · exact Or.inl hE
          · exact Or.inr ⟨hE, fun s hs => by rw [← hone s hs]; exact zero_le_one⟩
      rw [hfit]

/-! ### C93 -/

theorem checkOutput_ok (C : Config σ) (F : DataFrame) (out : String) (h : C.checkOutput F = .ok out) :
    C.outputColumn = some out ∧ out ∉ F.columns := by
  unfold Config.checkOutput at h
  split at h
  · cases h
  · rename_i column hc
    split_ifs at h with h1
    rw [Except.ok.injEq] at h
    subst h
    exact ⟨hc, fun h => h1 (Or.inr h)⟩

/-- **C93, `transform`.** A successful `transform` returns the table with exactly one more column, the output column, which was not
in it before and holds the predictions; rows and other columns are as before. -/
theorem C93_transform (C : Config σ) (o : EstimatorObject) (F G : DataFrame) (h : o.transform C F = some (.ok G)) :
    ∃ out p, C.outputColumn = some out ∧ out ∉ F.columns ∧ o.predict C F = some (.ok p) ∧ G.columns = F.columns ++ [out] ∧
      G.n = F.n ∧ (∀ c ∈ F.columns, ∀ s, G.X s c = F.X s c) ∧ ∀ s, G.X s out = .fin (p s) := by
  unfold EstimatorObject.transform at h
  split at h
  · simp at h
  · rename_i out hout
    obtain ⟨h1, h2⟩ := checkOutput_ok C F out hout
    split at h
    · cases h
    · simp at h
    · rename_i p hp
      simp only [Option.some.injEq, Except.ok.injEq] at h
      subst h
      refine ⟨out, p, h1, h2, hp, rfl, rfl, fun c hc s => ?_, fun s => ?_⟩
      · unfold DataFrame.addColumn
        dsimp only
        rw [if_neg]
        rintro rfl
        exact h2 hc
      · unfold DataFrame.addColumn
        dsimp only
        rw [if_pos rfl]

/-- **C93, nothing is overwritten.** If the output column is in the table or was not given, `transform` and `fit_transform` raise a
`KeyError`, and `fit_transform` leaves the estimator as it was. -/
theorem C93_no_overwrite (C : Config σ) (E : Estimator) (o : EstimatorObject) (F : DataFrame) (y : ℕ → ℝ) (fuel : ℕ)
    (h : ∀ out, C.outputColumn = some out → out ∈ F.columns) :
    o.transform C F = some (.error .keyError) ∧ o.fitTransform C E F y fuel = some (o, .error .keyError) := by
  have hc : C.checkOutput F = .error .keyError := by
    unfold Config.checkOutput
    cases ho : C.outputColumn with
    | none => rfl
    | some out =>
      dsimp only
      rw [if_pos (Or.inr (h out ho))]
  unfold EstimatorObject.transform EstimatorObject.fitTransform
  rw [hc]
  exact ⟨rfl, rfl⟩

/-- **C93, `fit_transform`.** In aggregate mode, if the bin numbers of one-dimensional features are integers, `fit_transform` is
`fit` followed by `transform` of the same table: the estimator afterwards is the fitted one, and the table is the one that its
`transform` returns, as far as its rows go. -/
theorem C93_fit_transform_partial (C : Config σ) (hagg : C.params.aggregate = true) (E : Estimator) (o o' : EstimatorObject)
    (F G : DataFrame) (y : ℕ → ℝ) (fuel : ℕ) (hne : ∀ g ∈ o.groupsFor C F, g ≠ [])
    (hint : ∀ c, [c] ∈ o.groupsFor C F → ∀ s < F.n, ∀ x : ℝ, F.X s c = .fin x → ∃ k : ℤ, x = k)
    (h : o.fitTransform C E F y fuel = some (o', .ok G)) :
    o.fit C E F y fuel = some (o', .ok ()) ∧ ∃ H, o'.transform C F = some (.ok H) ∧ H.columns = G.columns ∧ H.n = G.n ∧
      ∀ s < F.n, ∀ c, H.X s c = G.X s c := by
  unfold EstimatorObject.fitTransform at h
  split at h
  · simp at h
  · rename_i out hout
    split at h
    · cases h
    · simp at h
    · rename_i o1 u hf
      split at h
      · cases h
      · rename_i pr hpr
        simp only [Option.some.injEq, Prod.mk.injEq, Except.ok.injEq] at h
        obtain ⟨rfl, rfl⟩ := h
        refine ⟨hf, ?_⟩
        obtain ⟨fs, m, hi, hfs, hm, rfl⟩ := fit_object_ok C E o o1 F y fuel hf
        obtain ⟨-, -, -, -, -, hhas⟩ := initFit_ok C E o _ F y fs hi
        have hgr := createFeatures_columns C.choice C.props _ fs hfs
        have hin : ∀ f ∈ fs, f.1.group ∈ o.groupsFor C F := fun f hf => by
          rw [← hgr]; exact List.mem_map.mpr ⟨f, hf, rfl⟩
        obtain ⟨a, r, -, hs, hmain, hmm⟩ := fit_ok (C.setup fs) E (C.trainSet F y) fuel m hm
        have hhas' : F.has (C.priorColumn.toList ++ m.features.flatMap fun f => f.group) = true := by
          unfold DataFrame.has at hhas ⊢
          simp only [List.all_eq_true, List.mem_append] at hhas ⊢
          intro c hc
          refine hhas c (hc.imp id fun hc => ?_)
          obtain ⟨f, hf, hcf⟩ := List.mem_flatMap.mp hc
          rw [hmm] at hf
          obtain ⟨i, hi⟩ := List.getElem?_of_mem hf
          simp only [fittedFeatures] at hi
          rw [List.getElem?_zipWith] at hi
          split at hi
          · rename_i sp fac hsp hfac
            rw [Option.some.injEq] at hi
            obtain ⟨q, hq, rfl⟩ := List.mem_map.mp (List.mem_of_getElem? hsp)
            refine List.mem_flatMap.mpr ⟨q, hq, ?_⟩
            rw [← hi] at hcf
            exact hcf
          · cases hi
        have hpred : ∀ s < F.n, m.predict (C.prior F) F.X s = pr s := by
          intro s hsn
          unfold inSamplePrediction at hpr
          dsimp only [Option.getD_some] at hpr
          rw [hs] at hpr
          rw [show (fun s => (priorPrediction E.link (.fin a) (E.offset (C.trainSet F y)) (C.trainSet F y).prior s).getFin) =
            baseline E (C.trainSet F y) a from rfl, hmain] at hpr
          dsimp only at hpr
          rw [Option.some.injEq] at hpr
          rw [← hpr, hmm]
          unfold FittedModel.predict
          dsimp only
          congr 1
          have hcfgs : (C.setup fs).cfgs (C.trainSet F y) = (fs.map (·.1)).map fun f => f.cfg F.X F.n := by
            unfold Setup.cfgs
            rw [List.map_map]; rfl
          rw [hcfgs] at hmain
          refine (C19_predict_train ((C.setup fs).paramsFor E) hagg _ F.X F.n (fs.map (·.1)) _ fuel r hmain s hsn ?_ ?_).1
          · intro f hf
            obtain ⟨q, hq, rfl⟩ := List.mem_map.mp hf
            exact hne _ (hin q hq)
          · intro f hf c hc x hx
            obtain ⟨q, hq, rfl⟩ := List.mem_map.mp hf
            exact hint c (hc ▸ hin q hq) s hsn x hx
        refine ⟨F.addColumn out (m.predict (C.prior F) F.X), ?_, rfl, rfl, fun s hsn c => ?_⟩
        · unfold EstimatorObject.transform EstimatorObject.predict EstimatorObject.checkFitted
          rw [hout]
          simp only [Option.isNone_some, Bool.false_eq_true, if_false, hhas', if_true]
        · unfold DataFrame.addColumn
          dsimp only
          rw [hpred s hsn]

/-! ### C94 -/

theorem initFit_attributes (C : Config σ) (E : Estimator) (o : EstimatorObject) (F : DataFrame) (y : ℕ → ℝ) :
    (o.features.isSome = true → (o.initFit C E F y).1.features.isSome = true) ∧
      (o.initFit C E F y).1.importances = o.importances := by
  unfold EstimatorObject.initFit
  split
  · exact ⟨fun h => h, rfl⟩
  · split_ifs
    · exact ⟨fun h => h, rfl⟩
    · split
      · exact ⟨fun h => h, rfl⟩
      · exact ⟨fun _ => rfl, rfl⟩
    · exact ⟨fun h => h, rfl⟩

theorem fit_attributes (C : Config σ) (E : Estimator) (o o' : EstimatorObject) (F : DataFrame) (y : ℕ → ℝ) (fuel : ℕ)
    (r : Except ApiErr Unit) (h : o.fit C E F y fuel = some (o', r)) :
    (o.features.isSome = true → o'.features.isSome = true) ∧ (∀ e, r = .error e → o'.importances = o.importances) := by
  obtain ⟨h1, h2⟩ := initFit_attributes C E o F y
  unfold EstimatorObject.fit at h
  split at h
  · rename_i o1 e hi
    rw [hi] at h1 h2
    simp only [Option.some.injEq, Prod.mk.injEq] at h
    rw [← h.1]
    exact ⟨h1, fun _ _ => h2⟩
  · rename_i o1 fs hi
    rw [hi] at h1 h2
    split at h
    · cases h
    · simp only [Option.some.injEq, Prod.mk.injEq] at h
      rw [← h.1]
      exact ⟨h1, fun _ _ => h2⟩
    · simp only [Option.some.injEq, Prod.mk.injEq] at h
      rw [← h.1]
      refine ⟨h1, fun e he => ?_⟩
      rw [← h.2] at he
      cases he

/-- **C94, counterexample.** No estimator object ever reports that it has to be fitted first when it is asked for predictions:
the check looks for the list of features, which the constructor has already made. -/
theorem C94_counterexample (C : Config σ) (E : Estimator) (P : DataFrame → Prop) (o : EstimatorObject) (h : History C E P o)
    (F : DataFrame) : o.checkFitted = .ok () ∧ o.predict C F ≠ some (.error .notFitted) := by
  have hf : o.features.isSome = true := by
    induction h with
    | constructed o h =>
      obtain ⟨-, ⟨fs, h1, -⟩, -⟩ := construct_ok C o h
      rw [h1]; rfl
    | fit o o' h F hF y fuel r hr ih => exact (fit_attributes C E o o' F y fuel r hr).1 ih
    | fitTransform o o' h F hF y fuel r hr ih =>
      rcases fitTransform_fit C E o o' F y fuel r hr with rfl | ⟨r', hr'⟩
      · exact ih
      · exact (fit_attributes C E o o' F y fuel r' hr').1 ih
  have hc : o.checkFitted = .ok () := by
    unfold EstimatorObject.checkFitted
    rw [Option.isNone_eq_false_iff.mpr hf]
    rfl
  refine ⟨hc, ?_⟩
  unfold EstimatorObject.predict
  rw [hc]
  dsimp only
  split
  · split_ifs <;> simp
  · simp

/-- **C94, importances.** As long as no fit has succeeded, asking for the importances of the features raises a `ValueError`. Missing:
predictions, see `C94_counterexample`. -/
theorem C94_importances_partial (C : Config σ) (E : Estimator) (o : EstimatorObject) (h : NeverFitted C E o) :
    o.getImportances = .error .valueError := by
  have hi : o.importances = [] := by
    induction h with
    | constructed o h => exact (construct_ok C o h).2.2.2
    | fit o o' h F y fuel e hr ih => rw [(fit_attributes C E o o' F y fuel _ hr).2 e rfl, ih]
  unfold EstimatorObject.getImportances
  rw [hi]
  rfl

/-! ### C17 and C29 for estimator objects -/

/-- **C17, the rate in use.** With hierarchical features the rate is 1 in each iteration. Otherwise it is the one that was given, or
by default grows linearly to 1 during the first half of the maximal number of iterations. -/
theorem C17_used (C : Config σ) (fs : List (FeatureSpec × SmootherKind)) (it : ℕ) :
    (C.params.hierarchical.isSome = true → (C.setup fs).learnRate it = 1) ∧
      (C.params.hierarchical = none → ∀ rate, C.learnRate = some rate → (C.setup fs).learnRate it = rate it) ∧
      (C.params.hierarchical = none → C.learnRate = none → 1 ≤ C.params.maximalIterations →
        (C.setup fs).learnRate it = if C.params.maximalIterations ≤ 2 * it then 1 else 2 * (it : ℝ) / C.params.maximalIterations) := by
  unfold Config.setup
  dsimp only
  unfold Config.rate
  refine ⟨fun h => ?_, fun h rate hr => ?_, fun h hr hm => ?_⟩
  · rw [if_pos h]
    rfl
  · rw [h, hr]
    rfl
  · rw [h, hr]
    simp only [Option.isSome_none, Bool.false_eq_true, if_false]
    obtain ⟨-, -, h3, h4⟩ := C17_half_linear C.params.maximalIterations hm
    split_ifs with h5
    · exact h3 it h5
    · exact h4 it (le_of_lt (not_le.mp h5))

/-- **C29, whole fits.** A table without rows raises a `ValueError` and leaves the estimator as it was. -/
theorem C29_fit_empty (C : Config σ) (E : Estimator) (o : EstimatorObject) (F : DataFrame) (hF : F.n = 0) (y : ℕ → ℝ) (fuel : ℕ) :
    o.fit C E F y fuel = some (o, .error .valueError) := by
  unfold EstimatorObject.fit EstimatorObject.initFit
  rw [hF]
  rfl

end

end CB
