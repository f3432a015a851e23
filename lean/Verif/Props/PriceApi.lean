import Verif.Props.PriceRows
import Verif.Props.PriceBase
import Verif.Props.Api

/-!
# C91, C92, C93 for objects of the price model
-/

set_option autoImplicit false
set_option linter.unusedSectionVars false

namespace CB
open Finset Spec

section
variable {σ : Type*} (P : PriceConfig σ)

/-! ### What the methods do -/

/-- A successful construction: the ids are the combined feature lists, and the features have their groups and types. -/
theorem priceConstruct_ok (o : PriceObject) (h : P.construct = .ok o) :
    combineFeatureGroups P.standard P.external = .ok o.ids ∧ o.ids ≠ [] ∧
      createTypedFeatures P.config.choice P.config.props o.ids = .ok o.features ∧ o.status = .unfitted ∧ o.importances = [] := by
  unfold PriceConfig.construct at h
  split at h
  · cases h
  · rename_i ids hids
    split_ifs at h with h0
    split at h
    · cases h
    · rename_i features hf
      rw [Except.ok.injEq] at h
      subst h
      exact ⟨hids, h0, hf, rfl, rfl⟩

/-- Created features have the groups and the types of their ids. -/
theorem typedFeatures_ids (choice : Choice) (props : Option (List (String × ℕ))) (ids : List FeatureId)
    (fs : List (FeatureSpec × SmootherKind)) (h : createTypedFeatures choice props ids = .ok fs) :
    fs.map (fun f => (f.1.group, f.1.external)) = ids.map fun i => (i.group, decide (i.ftype ≠ .standard)) := by
  unfold createTypedFeatures at h
  split at h
  · cases h
  · rename_i features hf
    rw [Except.ok.injEq] at h
    subst h
    have := createFeatures_columns choice props _ features hf
    clear hf
    induction ids generalizing features with
    | nil => simp
    | cons i ids ih =>
      cases features with
      | nil => simp at this
      | cons f features =>
        simp only [List.map_cons, List.cons.injEq] at this
        rw [List.zipWith_cons_cons, List.map_cons, List.map_cons, ih features this.2, this.1]

theorem typedFeatures_columns (choice : Choice) (props : Option (List (String × ℕ))) (ids : List FeatureId)
    (fs : List (FeatureSpec × SmootherKind)) (h : createTypedFeatures choice props ids = .ok fs) (c : String) :
    c ∈ featureColumns fs ↔ ∃ i ∈ ids, c ∈ i.group := by
  have h1 := congrArg (List.map Prod.fst) (typedFeatures_ids choice props ids fs h)
  rw [List.map_map, List.map_map] at h1
  unfold featureColumns
  rw [show (fs.flatMap fun f => f.1.group) = (fs.map (Prod.fst ∘ fun f => (f.1.group, f.1.external))).flatMap id by
    rw [List.flatMap_map]; rfl, h1]
  simp [List.mem_flatMap, Function.comp]

theorem typedFeatures_mem (choice : Choice) (props : Option (List (String × ℕ))) (ids : List FeatureId)
    (fs : List (FeatureSpec × SmootherKind)) (h : createTypedFeatures choice props ids = .ok fs) (f : FeatureSpec × SmootherKind)
    (hf : f ∈ fs) : ∃ i ∈ ids, i.group = f.1.group ∧ f.1.external = decide (i.ftype ≠ .standard) := by
  have h1 := typedFeatures_ids choice props ids fs h
  have : (f.1.group, f.1.external) ∈ fs.map (fun f => (f.1.group, f.1.external)) := List.mem_map.mpr ⟨f, hf, rfl⟩
  rw [h1] at this
  obtain ⟨i, hi, h2⟩ := List.mem_map.mp this
  rw [Prod.mk.injEq] at h2
  exact ⟨i, hi, h2.1, h2.2.symm⟩

theorem priceInit_ids (o : PriceObject) (F : DataFrame) (y : ℕ → ℝ) : (o.initFit P F y).1.ids = o.ids := by
  unfold PriceObject.initFit
  split
  · rfl
  · split_ifs
    · rfl
    · split <;> rfl
    · rfl

theorem priceFit_ids (o o' : PriceObject) (F : DataFrame) (y : ℕ → ℝ) (fuel : ℕ) (r : Except ApiErr Unit)
    (h : o.fit P F y fuel = some (o', r)) : o'.ids = o.ids := by
  have h0 := priceInit_ids P o F y
  unfold PriceObject.fit at h
  split at h
  · rename_i o1 e h1
    rw [h1] at h0
    simp only [Option.some.injEq, Prod.mk.injEq] at h
    rw [← h.1]; exact h0
  · rename_i o1 fs h1
    rw [h1] at h0
    split at h
    · cases h
    · simp only [Option.some.injEq, Prod.mk.injEq] at h
      rw [← h.1]; exact h0
    · simp only [Option.some.injEq, Prod.mk.injEq] at h
      rw [← h.1]; exact h0

theorem priceFitTransform_ids (o o' : PriceObject) (F : DataFrame) (y : ℕ → ℝ) (r : Except PriceErr DataFrame)
    (h : o.fitTransform P F y = some (o', r)) : o'.ids = o.ids := by
  have h0 := priceInit_ids P o F y
  unfold PriceObject.fitTransform at h
  split at h
  · simp only [Option.some.injEq, Prod.mk.injEq] at h
    rw [← h.1]
  · split at h
    · rename_i o1 e h1
      rw [h1] at h0
      simp only [Option.some.injEq, Prod.mk.injEq] at h
      rw [← h.1]; exact h0
    · rename_i o1 fs h1
      rw [h1] at h0
      split_ifs at h
      simp only [Option.some.injEq, Prod.mk.injEq] at h
      rw [← h.1]; exact h0

/-- The feature ids of an object are always those of the constructor. -/
theorem priceHistory_ids (o : PriceObject) (h : PriceHistory P o) : combineFeatureGroups P.standard P.external = .ok o.ids := by
  induction h with
  | constructed o h => exact (priceConstruct_ok P o h).1
  | fit o o' h F y fuel r hr ih => rw [priceFit_ids P o o' F y fuel r hr]; exact ih
  | fitTransform o o' h F y r hr ih => rw [priceFitTransform_ids P o o' F y r hr]; exact ih

theorem priceInit_ok (o o1 : PriceObject) (F : DataFrame) (y : ℕ → ℝ) (fs : List (FeatureSpec × SmootherKind))
    (h : o.initFit P F y = (o1, .ok fs)) :
    createTypedFeatures P.config.choice P.config.props o.ids = .ok fs ∧
      o1 = { o with features := fs, status := .broken } ∧ (∀ i < F.n, 0 ≤ y i) ∧
      F.has (P.config.weightColumn.toList ++ [P.args.externalColumn]) = true ∧
      F.has (P.config.priorColumn.toList ++ P.args.exponentColumn.toList ++ featureColumns fs) = true := by
  unfold PriceObject.initFit at h
  split at h
  · simp at h
  · split_ifs at h with hv hw
    · simp at h
    · split at h
      · simp at h
      · rename_i features hf
        rw [Prod.mk.injEq] at h
        obtain ⟨h1, h2⟩ := h
        split_ifs at h2 with hc
        rw [Except.ok.injEq] at h2
        subst h2
        refine ⟨hf, h1.symm, hv, ?_, hc⟩
        cases hh : F.has (P.config.weightColumn.toList ++ [P.args.externalColumn]) with
        | true => rfl
        | false => exact absurd hh hw
    · simp at h

theorem priceFit_object_ok (o o' : PriceObject) (F : DataFrame) (y : ℕ → ℝ) (fuel : ℕ)
    (h : o.fit P F y fuel = some (o', .ok ())) :
    ∃ fs m, o.initFit P F y = ({ o with features := fs, status := .broken }, .ok fs) ∧
      createTypedFeatures P.config.choice P.config.props o.ids = .ok fs ∧
      (P.config.setup fs).priceFit P.args (P.config.trainSet F y) fuel = some (.ok m) ∧
      o' = ⟨o.ids, fs, .fitted m, setFeatureImportances o.importances (modelImportances F m)⟩ := by
  unfold PriceObject.fit at h
  split at h
  · simp at h
  · rename_i o1 fs hi
    obtain ⟨h1, h2, -⟩ := priceInit_ok P o o1 F y fs hi
    split at h
    · cases h
    · simp at h
    · rename_i m hm
      simp only [Option.some.injEq, Prod.mk.injEq, and_true] at h
      subst h2
      exact ⟨fs, m, hi, h1, hm, h.symm⟩

/-! ### C91 -/

/-- **C91, price model.** A price model that was fitted before, any number of times and successfully or not, is fitted like a new
one: the same error, or a model with the same predictions. -/
theorem C91_price (o new : PriceObject) (h : PriceHistory P o) (hnew : P.construct = .ok new) (F : DataFrame) (y : ℕ → ℝ)
    (fuel : ℕ) :
    (o.fit P F y fuel).map Prod.snd = (new.fit P F y fuel).map Prod.snd ∧
      ∀ o', o.fit P F y fuel = some (o', .ok ()) → ∃ new', new.fit P F y fuel = some (new', .ok ()) ∧
        ∀ G, new'.predict P G = o'.predict P G := by
  have hids : new.ids = o.ids := by
    have h1 := priceHistory_ids P o h
    rw [(priceConstruct_ok P new hnew).1, Except.ok.injEq] at h1
    exact h1
  have hi : (o.initFit P F y).2 = (new.initFit P F y).2 := by
    unfold PriceObject.initFit
    rw [hids]
    split
    · rfl
    · split_ifs
      · rfl
      · split <;> rfl
      · rfl
  constructor
  · unfold PriceObject.fit
    cases h1 : o.initFit P F y with
    | mk o1 r1 =>
      cases h2 : new.initFit P F y with
      | mk p1 r2 =>
        rw [h1, h2] at hi
        dsimp only at hi
        subst hi
        cases r1 with
        | error e => rfl
        | ok fs =>
          dsimp only
          cases (P.config.setup fs).priceFit P.args (P.config.trainSet F y) fuel with
          | none => rfl
          | some r => cases r <;> rfl
  · intro o' h
    obtain ⟨fs, m, h1, h2, h3, rfl⟩ := priceFit_object_ok P o o' F y fuel h
    rw [h1] at hi
    cases h4 : new.initFit P F y with
    | mk p1 r =>
      rw [h4] at hi
      dsimp only at hi
      subst hi
      obtain ⟨-, h5, -⟩ := priceInit_ok P new p1 F y fs h4
      refine ⟨⟨new.ids, fs, .fitted m, setFeatureImportances p1.importances (modelImportances F m)⟩, ?_, ?_⟩
      · unfold PriceObject.fit
        rw [h4]
        dsimp only
        rw [h3]
        dsimp only
        rw [h5]
      · intro G
        rfl

/-! ### C92 -/

theorem ids_eq (ids : List FeatureId) (hids : combineFeatureGroups P.standard P.external = .ok ids) (o : PriceObject)
    (ho : PriceHistory P o) : o.ids = ids := by
  have h := priceHistory_ids P o ho
  rw [hids, Except.ok.injEq] at h
  exact h.symm

/-- The features of an object are always those created from its ids. -/
theorem priceHistory_features (o : PriceObject) (h : PriceHistory P o) :
    createTypedFeatures P.config.choice P.config.props o.ids = .ok o.features := by
  have hinit : ∀ (o : PriceObject) F y, createTypedFeatures P.config.choice P.config.props o.ids = .ok o.features →
      createTypedFeatures P.config.choice P.config.props (o.initFit P F y).1.ids = .ok (o.initFit P F y).1.features := by
    intro o F y ho
    unfold PriceObject.initFit
    split
    · exact ho
    · split_ifs
      · exact ho
      · split
        · exact ho
        · rename_i fs hfs
          exact hfs
      · exact ho
  induction h with
  | constructed o h => exact (priceConstruct_ok P o h).2.2.1
  | fit o o' h F y fuel r hr ih =>
    have h0 := hinit o F y ih
    unfold PriceObject.fit at hr
    split at hr
    · rename_i o1 e h1
      rw [h1] at h0
      simp only [Option.some.injEq, Prod.mk.injEq] at hr
      rw [← hr.1]; exact h0
    · rename_i o1 fs h1
      rw [h1] at h0
      split at hr
      · cases hr
      · simp only [Option.some.injEq, Prod.mk.injEq] at hr
        rw [← hr.1]; exact h0
      · simp only [Option.some.injEq, Prod.mk.injEq] at hr
        rw [← hr.1]; exact h0
  | fitTransform o o' h F y r hr ih =>
    have h0 := hinit o F y ih
    unfold PriceObject.fitTransform at hr
    split at hr
    · simp only [Option.some.injEq, Prod.mk.injEq] at hr
      rw [← hr.1]; exact ih
    · split at hr
      · rename_i o1 e h1
        rw [h1] at h0
        simp only [Option.some.injEq, Prod.mk.injEq] at hr
        rw [← hr.1]; exact h0
      · rename_i o1 fs h1
        rw [h1] at h0
        split_ifs at hr
        simp only [Option.some.injEq, Prod.mk.injEq] at hr
        rw [← hr.1]; exact h0

/-- **C92, price model.** `required_columns` of a price model, at any time, gives the columns of weights, prior predictions, price
ratios and prior exponents and all columns of features. -/
theorem C92_price_required (ids : List FeatureId) (hids : combineFeatureGroups P.standard P.external = .ok ids) (o : PriceObject)
    (ho : PriceHistory P o) (c : String) : c ∈ P.requiredColumns o ↔ priceColumns P ids c := by
  obtain rfl := ids_eq P ids hids o ho
  have h2 := priceHistory_features P o ho
  unfold PriceConfig.requiredColumns priceColumns
  simp only [List.mem_append, Option.mem_toList, List.mem_singleton, typedFeatures_columns _ _ _ _ h2]
  have e : c = P.args.externalColumn ↔ P.args.externalColumn = c := eq_comm
  rw [e]
  generalize (∃ i ∈ o.ids, c ∈ i.group) = a
  generalize (P.args.externalColumn = c) = b
  tauto

theorem has_true (F : DataFrame) (l : List String) (h : F.has l = true) (c : String) (hc : c ∈ l) : c ∈ F.columns := by
  unfold DataFrame.has at h
  simp only [List.all_eq_true, List.contains_iff_mem] at h
  exact h c hc

/-- **C92, price model, missing columns.** A fit succeeds only if the table has all required columns. -/
theorem C92_price_missing (ids : List FeatureId) (hids : combineFeatureGroups P.standard P.external = .ok ids)
    (o o' : PriceObject) (ho : PriceHistory P o) (F : DataFrame) (y : ℕ → ℝ) (fuel : ℕ)
    (hfit : o.fit P F y fuel = some (o', .ok ())) (c : String) (hc : priceColumns P ids c) : c ∈ F.columns := by
  obtain rfl := ids_eq P ids hids o ho
  obtain ⟨fs, m, hi, hfs, -, -⟩ := priceFit_object_ok P o o' F y fuel hfit
  obtain ⟨-, -, -, h2, h3⟩ := priceInit_ok P o _ F y fs hi
  rcases hc with hc | hc | hc | hc | hc
  · exact has_true F _ h2 c (by simp [hc])
  · exact has_true F _ h3 c (by simp [hc])
  · exact has_true F _ h2 c (by simp [hc])
  · exact has_true F _ h3 c (by simp [hc])
  · exact has_true F _ h3 c (List.mem_append.mpr (Or.inr ((typedFeatures_columns _ _ _ _ hfs c).mpr hc)))

/-- Training sets that agree on the samples and on the relevant columns give the same price model. -/
theorem priceFit_congr (S : Setup σ) (hgroups : ∀ f ∈ S.features, f.1.group ≠ []) (A : PriceArgs) (D D' : TrainSet) (hn : D'.n = D.n)
    (hX : ∀ f ∈ S.features, ∀ c ∈ f.1.group, ∀ s < D.n, D'.X s c = D.X s c)
    (hext : ∀ s < D.n, D'.X s A.externalColumn = D.X s A.externalColumn)
    (hexp : ∀ c, A.exponentColumn = some c → ∀ s < D.n, D'.X s c = D.X s c) (hy : ∀ s < D.n, D'.y s = D.y s)
    (hw : ∀ s < D.n, D'.w s = D.w s) (hp : D.prior.isSome = D'.prior.isSome)
    (hq : ∀ s < D.n, D'.prior.map (fun q => q s) = D.prior.map fun q => q s) (fuel : ℕ) :
    S.priceFit A D' fuel = S.priceFit A D fuel := by
  classical
  have hrow : ∀ f ∈ S.features, ∀ s < D.n, D'.X.row f.1.group s = D.X.row f.1.group s := by
    intro f hf s hs
    unfold Table.row
    exact List.map_congr_left fun c hc => hX f hf c hc s hs
  have hrows : SameRows S D D' (fun s => s) (fun s => s) := by
    refine ⟨⟨D.y, fun _ _ => rfl, fun s hs => hy s (hn ▸ hs)⟩, ?_, ?_, ?_, ?_, hgroups⟩
    · intro r
      rw [hn]
      refine sum_congr rfl fun s hs => ?_
      rw [hw s (mem_range.mp hs)]
    · intro f hf
      exact ⟨D.X.row f.1.group, fun _ _ => rfl, fun s hs => hrow f hf s (hn ▸ hs)⟩
    · intro f hf
      apply bindData_congr
      intro r
      rw [hn]
      constructor
      · rintro ⟨s, hs, rfl⟩
        exact ⟨s, hs, hrow f hf s hs⟩
      · rintro ⟨s, hs, rfl⟩
        exact ⟨s, hs, (hrow f hf s hs).symm⟩
    · exact optionPrior _ _ _ _ _ _ hp (fun s => D.prior.map fun q => q s) (fun s hs => rfl) (fun s hs => hq s (hn ▸ hs))
  refine SamePrices.fit (D := D) (D' := D') (row := fun s => s) (row' := fun s => s)
    ⟨⟨D.w, fun _ _ => rfl, fun s hs => hw s (hn ▸ hs)⟩, ?_, ⟨fun s => D.X s A.externalColumn, fun _ _ => rfl, fun s hs => hext s (hn ▸ hs)⟩,
      ⟨A.exponent D.X, fun _ _ => rfl, fun s hs => ?_⟩⟩ hrows ?_ fuel
  · intro r
    rw [hn]
  · unfold PriceArgs.exponent
    cases hc : A.exponentColumn with
    | none => rfl
    | some c =>
      dsimp only
      rw [hexp c hc s (hn ▸ hs)]
  · rw [hn]
    exact forall₂_congr fun s hs => by rw [hy s hs]

/-- **C92, price model, fits.** Whatever happened to the object before, two tables that agree on the required columns give the same
fit: the same error or the same object. -/
theorem C92_price_fit (ids : List FeatureId) (hids : combineFeatureGroups P.standard P.external = .ok ids)
    (hne : ∀ i ∈ ids, i.group ≠ []) (o : PriceObject) (ho : PriceHistory P o) (F G : DataFrame)
    (h : SameColumns (priceColumns P ids) F G) (y z : ℕ → ℝ) (hy : ∀ s < F.n, z s = y s) (fuel : ℕ) :
    o.fit P G z fuel = o.fit P F y fuel := by
  obtain rfl := ids_eq P ids hids o ho
  have hinit : o.initFit P G z = o.initFit P F y := by
    unfold PriceObject.initFit
    rw [h.rows, has_congr _ F G h (P.config.weightColumn.toList ++ [P.args.externalColumn])
      (fun c hc => by
        rw [List.mem_append, List.mem_singleton] at hc
        rcases hc with hc | hc
        · exact Or.inl (by simpa using hc)
        · exact Or.inr (Or.inr (Or.inl hc.symm)))]
    have hv : (∀ i < F.n, P.args.estimator.valid (z i)) ↔ ∀ i < F.n, P.args.estimator.valid (y i) :=
      forall₂_congr fun i hi => by rw [hy i hi]
    split
    · rfl
    · by_cases hval : ∀ i < F.n, P.args.estimator.valid (y i)
      · rw [if_neg (not_not.mpr hval), if_neg (not_not.mpr (hv.mpr hval))]
        split_ifs
        · rfl
        · split
          · rfl
          · rename_i fs hfs
            rw [has_congr _ F G h (P.config.priorColumn.toList ++ P.args.exponentColumn.toList ++ featureColumns fs)]
            intro c hc
            rw [List.mem_append, List.mem_append, typedFeatures_columns _ _ _ _ hfs] at hc
            rcases hc with (hc | hc) | hc
            · exact Or.inr (Or.inl (by simpa using hc))
            · exact Or.inr (Or.inr (Or.inr (Or.inl (by simpa using hc))))
            · exact Or.inr (Or.inr (Or.inr (Or.inr hc)))
      · rw [if_pos hval, if_pos (fun hz => hval (hv.mp hz))]
  unfold PriceObject.fit
  rw [hinit]
  cases hi : o.initFit P F y with
  | mk o1 r =>
    cases r with
    | error e => rfl
    | ok fs =>
      dsimp only
      obtain ⟨hfs, -⟩ := priceInit_ok P o o1 F y fs hi
      have hmem : ∀ f ∈ fs, ∃ i ∈ o.ids, i.group = f.1.group := fun f hf => by
        obtain ⟨i, h1, h2, -⟩ := typedFeatures_mem _ _ _ _ hfs f hf
        exact ⟨i, h1, h2⟩
      have hX : ∀ f ∈ fs, ∀ c ∈ f.1.group, ∀ s < F.n, G.X s c = F.X s c := by
        intro f hf c hc s hs
        obtain ⟨i, h1, h2⟩ := hmem f hf
        exact h.entries c (Or.inr (Or.inr (Or.inr (Or.inr ⟨i, h1, h2 ▸ hc⟩)))) s hs
      have hfit : (P.config.setup fs).priceFit P.args (P.config.trainSet G z) fuel
          = (P.config.setup fs).priceFit P.args (P.config.trainSet F y) fuel := by
        refine priceFit_congr (P.config.setup fs) (fun f hf => ?_) P.args (P.config.trainSet F y) (P.config.trainSet G z) h.rows
          hX ?_ ?_ hy ?_ ?_ ?_ fuel
        · obtain ⟨i, h1, h2⟩ := hmem f hf
          rw [← h2]; exact hne i h1
        · exact fun s hs => h.entries _ (Or.inr (Or.inr (Or.inl rfl))) s hs
        · exact fun c hc s hs => h.entries c (Or.inr (Or.inr (Or.inr (Or.inl hc)))) s hs
        · intro s hs
          show initWeights (P.config.weightColumn.map fun c s => (G.X s c).getFin) s
            = initWeights (P.config.weightColumn.map fun c s => (F.X s c).getFin) s
          cases hc : P.config.weightColumn with
          | none => rfl
          | some c =>
            show (G.X s c).getFin = (F.X s c).getFin
            rw [h.entries c (Or.inl hc) s hs]
        · show (P.config.priorColumn.map _).isSome = (P.config.priorColumn.map _).isSome
          simp
        · intro s hs
          show (P.config.priorColumn.map _).map _ = (P.config.priorColumn.map _).map _
          cases hc : P.config.priorColumn with
          | none => rfl
          | some c =>
            show some (G.X s c) = some (F.X s c)
            rw [h.entries c (Or.inr (Or.inl hc)) s hs]
      rw [hfit]
      cases hm : (P.config.setup fs).priceFit P.args (P.config.trainSet F y) fuel with
      | none => rfl
      | some r =>
        cases r with
        | error e => rfl
        | ok m =>
          dsimp only
          have himp : modelImportances G m = modelImportances F m := by
            unfold modelImportances
            refine List.map_congr_left fun f hf => ?_
            rw [h.rows, bindData_rows F.X G.X F.n f.group]
            intro c hc s hs
            obtain ⟨a, r, -, -, -, -, hmm⟩ := priceFit_ok (P.config.setup fs) P.args (P.config.trainSet F y) fuel m hm
            rw [hmm] at hf
            obtain ⟨j, sp, fac, hj, -, rfl⟩ := fittedFeatures_get _ _ _ _ _ hf
            obtain ⟨q, hq, rfl⟩ := List.mem_map.mp (List.mem_of_getElem? hj)
            exact hX q hq c hc s hs
          rw [himp]

/-- **C92, price model, predictions.** Predictions of a fitted price model depend on the table only through the prior prediction
column, the price ratios, the prior exponents and the columns of the features, and on the row itself. -/
theorem C92_price_predict (ids : List FeatureId) (hids : combineFeatureGroups P.standard P.external = .ok ids)
    (o o' : PriceObject) (ho : PriceHistory P o) (T : DataFrame) (y : ℕ → ℝ) (fuel : ℕ)
    (hfit : o.fit P T y fuel = some (o', .ok ())) (F G : DataFrame)
    (h : SameColumns (fun c => P.config.priorColumn = some c ∨ P.args.externalColumn = c ∨ P.args.exponentColumn = some c ∨
      ∃ i ∈ ids, c ∈ i.group) F G) (p : ℕ → ℝ) (hp : o'.predict P F = some (.ok p)) :
    ∃ p', o'.predict P G = some (.ok p') ∧ ∀ s < F.n, p' s = p s := by
  obtain rfl := ids_eq P ids hids o ho
  obtain ⟨fs, m, hi, hfs, hm, rfl⟩ := priceFit_object_ok P o o' T y fuel hfit
  have hmem : ∀ f ∈ m.features, ∃ i ∈ o.ids, i.group = f.group := by
    intro f hf
    obtain ⟨a, r, -, -, -, -, hmm⟩ := priceFit_ok (P.config.setup fs) P.args (P.config.trainSet T y) fuel m hm
    rw [hmm] at hf
    obtain ⟨j, sp, fac, hj, -, rfl⟩ := fittedFeatures_get _ _ _ _ _ hf
    obtain ⟨q, hq, rfl⟩ := List.mem_map.mp (List.mem_of_getElem? hj)
    obtain ⟨i, h1, h2, -⟩ := typedFeatures_mem _ _ _ _ hfs q hq
    exact ⟨i, h1, h2⟩
  have hhas : ∀ o1 : PriceObject, o1.features = fs → G.has (P.predictColumns o1) = F.has (P.predictColumns o1) := by
    intro o1 ho1
    refine has_congr _ F G h _ fun c hc => ?_
    unfold PriceConfig.predictColumns at hc
    rw [ho1] at hc
    simp only [List.mem_append, List.mem_singleton] at hc
    rcases hc with ((hc | hc) | hc) | hc
    · exact Or.inl (by simpa using hc)
    · exact Or.inr (Or.inl hc.symm)
    · exact Or.inr (Or.inr (Or.inl (by simpa using hc)))
    · exact Or.inr (Or.inr (Or.inr ((typedFeatures_columns _ _ _ _ hfs c).mp hc)))
  unfold PriceObject.predict at hp ⊢
  dsimp only at hp ⊢
  rw [hhas _ rfl]
  split_ifs at hp with hH
  · rw [if_pos hH]
    simp only [Option.some.injEq, Except.ok.injEq] at hp
    refine ⟨_, rfl, fun s hs => ?_⟩
    rw [← hp]
    have hsum : ∀ e, contributionSum e m.features G.X s = contributionSum e m.features F.X s := by
      intro e
      unfold contributionSum
      congr 1
      refine List.map_congr_left fun f hf => ?_
      congr 1
      unfold Table.row
      obtain ⟨i, h1, h2⟩ := hmem f (List.mem_of_mem_filter hf)
      exact List.map_congr_left fun c hc => h.entries c (Or.inr (Or.inr (Or.inr ⟨i, h1, h2 ▸ hc⟩))) s hs
    have hk : P.args.exponent G.X s = P.args.exponent F.X s := by
      unfold PriceArgs.exponent
      cases hc : P.args.exponentColumn with
      | none => rfl
      | some c =>
        dsimp only
        rw [h.entries c (Or.inr (Or.inr (Or.inl hc))) s hs]
    have hprior : (priorPrediction m.link m.scale m.offset (P.config.prior G) s).getFin
        = (priorPrediction m.link m.scale m.offset (P.config.prior F) s).getFin := by
      unfold Config.prior
      cases hc : P.config.priorColumn with
      | none => rfl
      | some c =>
        show (priorPrediction _ _ _ (some fun s => G.X s c) s).getFin = (priorPrediction _ _ _ (some fun s => F.X s c) s).getFin
        unfold priorPrediction
        have e := h.entries c (Or.inl hc) s hs
        dsimp only
        simp only [e]
    unfold PriceArgs.predict priceModelPredict pricePredict
    dsimp only
    rw [(C24_link_space _ m.features G.X s).1, (C24_link_space _ m.features F.X s).1, (C24_link_space _ m.features G.X s).2,
      (C24_link_space _ m.features F.X s).2, hsum, hsum, hk, hprior, h.entries _ (Or.inr (Or.inl rfl)) s hs]
  · simp at hp

/-! ### C93 -/

/-- **C93, price model, counterexample.** With at least one external feature group and limits that allow an iteration,
`fit_transform` of a price model never succeeds: it raises an `AttributeError`, unless it raises something else before. -/
theorem C93_price_counterexample (e : GroupArg) (rest : List GroupArg) (he : P.external = some (e :: rest))
    (hit : 0 < P.config.params.maximalIterations) (hf : P.config.params.minimalFactorChange < 100)
    (hl : P.config.params.minimalLossChange < 100000000000000000000) (o : PriceObject) (h : PriceHistory P o) (F : DataFrame)
    (y : ℕ → ℝ) :
    ∃ o' err, o.fitTransform P F y = some (o', .error err) ∧
      ((∃ out, P.config.outputColumn = some out ∧ out ≠ "" ∧ out ∉ F.columns) → (∃ o1 fs, o.initFit P F y = (o1, .ok fs)) →
        err = .attributeError) := by
  have hstop : checkStop P.config.params 0 100 (.fin 100000000000000000000) = false := by
    unfold checkStop Flt.absLe
    dsimp only
    rw [decide_eq_false (by omega), decide_eq_false (not_le.mpr hf), decide_eq_false]
    · rfl
    · rw [abs_of_pos (by norm_num)]
      exact not_le.mpr hl
  have hids := priceHistory_ids P o h
  have hext : ∃ i ∈ o.ids, i.ftype ≠ .standard := by
    unfold combineFeatureGroups at hids
    split at hids
    · cases hids
    · rename_i sf hsf
      dsimp only at hids
      split_ifs at hids
      rw [he] at hids
      simp only [Option.map_some] at hids
      split_ifs at hids with hh
      rw [Except.ok.injEq] at hids
      refine ⟨createFeatureId .external e, ?_, ?_⟩
      · rw [← hids]
        simp
      · intro h0
        apply hh
        simp [h0]
  unfold PriceObject.fitTransform
  split
  · rename_i er hc
    refine ⟨_, _, rfl, ?_⟩
    rintro ⟨out, h1, h2, h3⟩ -
    unfold Config.checkOutput at hc
    rw [h1] at hc
    dsimp only at hc
    rw [if_neg (by tauto)] at hc
    cases hc
  · split
    · rename_i o1 er hi
      refine ⟨_, _, rfl, ?_⟩
      rintro - ⟨o2, fs, h2⟩
      rw [hi, Prod.mk.injEq] at h2
      cases h2.2
    · rename_i o1 fs hi
      obtain ⟨hfs, -⟩ := priceInit_ok P o o1 F y fs hi
      have hany : fs.any (fun f => f.1.external) = true := by
        obtain ⟨i, h1, h2⟩ := hext
        have : (i.group, decide (i.ftype ≠ .standard)) ∈ fs.map (fun f => (f.1.group, f.1.external)) := by
          rw [typedFeatures_ids _ _ _ _ hfs]
          exact List.mem_map.mpr ⟨i, h1, rfl⟩
        obtain ⟨f, hf, h3⟩ := List.mem_map.mp this
        rw [Prod.mk.injEq] at h3
        rw [List.any_eq_true]
        exact ⟨f, hf, by rw [h3.2]; simpa using h2⟩
      rw [hany, hstop, if_pos (by rfl)]
      exact ⟨_, _, rfl, fun _ _ => rfl⟩

end

end CB
