import Verif.Spec.FloatEstimates
import Verif.Lemmas.Rows
import Verif.Spec.Rows
import Mathlib.Tactic.Linarith
import Mathlib.Tactic.NormNum
import Mathlib.Tactic.IntervalCases
import Mathlib.Tactic.Convert
import Mathlib.Algebra.BigOperators.Intervals
import Mathlib.Logic.Equiv.Defs

/-!
# C76-C78: how a fit depends on order, repetition and weight of the rows
-/

set_option autoImplicit false

namespace CB
open Finset Spec

theorem frequency_invariant (E : Estimator) (h : Frequency E) : RowInvariant E .mass := by
  cases h with
  | poisson g => exact poisson_invariant g
  | nbinom g a c => exact nbinom_invariant g a c
  | classifier p c => exact classifier_invariant p c

theorem RowInvariant.weaken {E : Estimator} (h : RowInvariant E .mass) : RowInvariant E .each where
  scale hw hy _ := h.scale hw hy trivial
  parameters hw hy _ hc hp := h.parameters hw hy trivial hc hp
  loss hw hy _ hp := h.loss hw hy trivial hp
  calibrate := h.calibrate

theorem modelled_invariant (E : Estimator) (h : Modelled E) : RowInvariant E .each := by
  cases h with
  | poisson g => exact (poisson_invariant g).weaken
  | nbinom g a c => exact (nbinom_invariant g a c).weaken
  | classifier p c => exact (classifier_invariant p c).weaken
  | location => exact location_invariant
  | locPoisson => exact locPoisson_invariant
  | gbs a => exact gbs_invariant a

theorem foldlMax_congr (l l' : List ℕ) (h : ∀ x, x ∈ l ↔ x ∈ l') : l.foldl max 0 = l'.foldl max 0 := by
  apply le_antisymm
  · exact natFoldlMax_le l 0 _ (Nat.zero_le _) fun x hx => (natFoldlMax_ge l' 0).2 x ((h x).mp hx)
  · exact natFoldlMax_le l' 0 _ (Nat.zero_le _) fun x hx => (natFoldlMax_ge l 0).2 x ((h x).mpr hx)

/-- The numbers of bins only depend on which rows occur. -/
theorem inferBins_congr (dims : ℕ) (rows rows' : List (List (Flt ℝ))) (h : ∀ r, r ∈ rows ↔ r ∈ rows') :
    inferBins dims rows = inferBins dims rows' := by
  have hf : ∀ r, r ∈ rows.filter finiteSemiPositive ↔ r ∈ rows'.filter finiteSemiPositive := by
    intro r; rw [List.mem_filter, List.mem_filter, h]
  have key : ∀ l l' : List (List (Flt ℝ)), (∀ r, r ∈ l ↔ r ∈ l') → maxPlusOne dims l = maxPlusOne dims l' := by
    intro l l' hl
    unfold maxPlusOne
    refine List.map_congr_left fun m _ => ?_
    congr 1
    apply foldlMax_congr
    intro x
    simp only [List.mem_map, hl]
  unfold inferBins
  generalize rows.filter finiteSemiPositive = a at hf
  generalize rows'.filter finiteSemiPositive = a' at hf
  cases a with
  | nil =>
    cases a' with
    | nil => rfl
    | cons x a' => exact absurd ((hf x).mpr (List.mem_cons_self ..)) (by simp)
  | cons x a =>
    cases a' with
    | nil => exact absurd ((hf x).mp (List.mem_cons_self ..)) (by simp)
    | cons x' a' => exact key _ _ hf

theorem bindData_congr (X X' : Table ℝ) (n n' : ℕ) (group : List String)
    (h : ∀ r, (∃ s < n, X.row group s = r) ↔ ∃ s < n', X'.row group s = r) :
    (bindData X' n' group none).2 = (bindData X n group none).2 := by
  show inferBins _ _ = inferBins _ _
  apply inferBins_congr
  intro r
  simp only [List.mem_map, List.mem_range]
  exact (h r).symm

theorem optionPrior {α : Type} (n n' : ℕ) (row row' : ℕ → α) (q q' : Option (ℕ → Flt ℝ)) (h : q.isSome = q'.isSome)
    (P : α → Option (Flt ℝ)) (h1 : ∀ s < n, q.map (fun f => f s) = P (row s))
    (h2 : ∀ s < n', q'.map (fun f => f s) = P (row' s)) :
    q = none ∧ q' = none ∨ ∃ f f', q = some f ∧ q' = some f' ∧ Agree n n' row row' f f' := by
  cases q with
  | none =>
    cases q' with
    | none => exact Or.inl ⟨rfl, rfl⟩
    | some f' => simp at h
  | some f =>
    cases q' with
    | none => simp at h
    | some f' =>
      refine Or.inr ⟨f, f', rfl, rfl, fun r => (P r).getD .nan, fun s hs => ?_, fun s hs => ?_⟩
      · dsimp only; rw [← h1 s hs]; rfl
      · dsimp only; rw [← h2 s hs]; rfl

section
variable {σ : Type*} (S : Setup σ) (hgroups : ∀ f ∈ S.features, f.1.group ≠ [])

theorem rowOfGroup (D : TrainSet) (f : FeatureSpec × SmootherKind) (hf : f ∈ S.features) (s : ℕ) :
    D.X.row f.1.group s = f.1.group.map (sampleRow D (usedColumns S) s).1 := by
  unfold Table.row
  refine List.map_congr_left fun c hc => ?_
  unfold sampleRow
  dsimp only
  rw [if_pos]
  exact List.mem_flatMap.mpr ⟨f, hf, hc⟩

include hgroups in
/-- **C76.** Poisson, negative binomial and classification models only depend on which rows occur and on the total weight of
each row: two training sets with the same rows and the same total weights give exactly the same outcome - the same error, or
the same number of iterations, global scale, bins and factors. In particular the fitted models predict the same. -/
theorem C76_weighted_rows (E : Estimator) (hE : Frequency E) (D D' : TrainSet)
    (h : SameWeightedRows (usedColumns S) D D') (fuel : ℕ) : S.fit E D' fuel = S.fit E D fuel := by
  have hrows : SameRows S D D' (sampleRow D (usedColumns S)) (sampleRow D' (usedColumns S)) := by
    refine ⟨⟨fun r => r.2.1, fun _ _ => rfl, fun _ _ => rfl⟩, ?_, ?_, ?_, ?_, hgroups⟩
    · intro r
      have hr := h.weights r
      unfold rowWeight at hr
      convert hr
    · intro f hf
      exact ⟨fun r => f.1.group.map r.1, fun s _ => rowOfGroup S D f hf s, fun s _ => rowOfGroup S D' f hf s⟩
    · intro f hf
      apply bindData_congr
      intro r
      constructor
      · rintro ⟨s, hs, rfl⟩
        obtain ⟨s', hs', e⟩ := (h.rows _).mp ⟨s, hs, rfl⟩
        exact ⟨s', hs', by rw [rowOfGroup S D' f hf, e, rowOfGroup S D f hf]⟩
      · rintro ⟨s, hs, rfl⟩
        obtain ⟨s', hs', e⟩ := (h.rows _).mpr ⟨s, hs, rfl⟩
        exact ⟨s', hs', by rw [rowOfGroup S D f hf, e, rowOfGroup S D' f hf]⟩
    · exact optionPrior _ _ _ _ _ _ h.prior (fun r => r.2.2) (fun _ _ => rfl) (fun _ _ => rfl)
  refine hrows.fit E .mass (frequency_invariant E hE) trivial ⟨?_, ?_⟩ fuel
  · intro hv s hs
    obtain ⟨s', hs', e⟩ := (h.rows _).mpr ⟨s, hs, rfl⟩
    have : D.y s' = D'.y s := congrArg (fun r => r.2.1) e
    rw [← this]; exact hv s' hs'
  · intro hv s hs
    obtain ⟨s', hs', e⟩ := (h.rows _).mp ⟨s, hs, rfl⟩
    have : D'.y s' = D.y s := congrArg (fun r => r.2.1) e
    rw [← this]; exact hv s' hs'

include hgroups in
/-- **C76, repetition.** Repeating every sample of `D` as often as its weight says, with weight 1, gives the same model: sample
`s` of the repeated set is sample `φ s` of `D`, and each sample occurs as often as its weight, at least once. -/
theorem C76_repetition (E : Estimator) (hE : Frequency E) (D : TrainSet) (φ : ℕ → ℕ) (m : ℕ) (k : ℕ → ℕ)
    (hφ : ∀ s < m, φ s < D.n) (hk : ∀ t < D.n, 0 < k t ∧ #{s ∈ range m | φ s = t} = k t) (hw : ∀ t < D.n, D.w t = k t)
    (fuel : ℕ) : S.fit E (resample D φ m fun _ => 1) fuel = S.fit E D fuel := by
  classical
  apply C76_weighted_rows S hgroups E hE
  have hrow : ∀ s, sampleRow (resample D φ m fun _ => 1) (usedColumns S) s = sampleRow D (usedColumns S) (φ s) := by
    intro s
    unfold sampleRow resample
    cases D.prior <;> rfl
  refine ⟨?_, ?_, ?_⟩
  · unfold resample; cases D.prior <;> rfl
  · intro r
    constructor
    · rintro ⟨t, ht, rfl⟩
      have hpos := (hk t ht).1
      rw [← (hk t ht).2] at hpos
      obtain ⟨s, hs⟩ := card_pos.mp hpos
      rw [mem_filter, mem_range] at hs
      exact ⟨s, hs.1, by rw [hrow, hs.2]⟩
    · rintro ⟨s, hs, rfl⟩
      exact ⟨φ s, hφ s hs, (hrow s).symm⟩
  · intro r
    unfold rowWeight
    simp only [hrow]
    show _ = ∑ s ∈ range m, if sampleRow D (usedColumns S) (φ s) = r then (1 : ℝ) else 0
    rw [← sum_fiberwise_of_maps_to (s := range m) (t := range D.n) (g := φ)
      (fun s hs => mem_range.mpr (hφ s (mem_range.mp hs)))]
    refine sum_congr rfl fun t ht => ?_
    have ht' := mem_range.mp ht
    rw [sum_congr rfl (g := fun _ => if sampleRow D (usedColumns S) t = r then (1 : ℝ) else 0)
      (fun s hs => by rw [(mem_filter.mp hs).2]), sum_const, (hk t ht').2, hw t ht', nsmul_eq_mul]
    split <;> simp

include hgroups in
/-- A permuted training set has the same rows. -/
theorem order_rows (D : TrainSet) (π : Equiv.Perm ℕ) (hπ : ∀ s, π s < D.n ↔ s < D.n) :
    SameRows S D (resample D π D.n fun s => D.w (π s)) (fun s => s) π := by
  classical
  refine ⟨⟨D.y, fun _ _ => rfl, fun _ _ => rfl⟩, ?_, ?_, ?_, ?_, hgroups⟩
  · intro r
    refine (sum_bij (fun s _ => π s) (fun s hs => ?_) (fun a _ b _ hab => π.injective hab) (fun t ht => ?_)
      (fun s _ => ?_)).symm
    · exact mem_range.mpr ((hπ s).mpr (mem_range.mp hs))
    · refine ⟨π.symm t, mem_range.mpr ((hπ _).mp ?_), π.apply_symm_apply t⟩
      rw [π.apply_symm_apply]; exact mem_range.mp ht
    · rfl
  · intro f hf
    exact ⟨D.X.row f.1.group, fun _ _ => rfl, fun _ _ => rfl⟩
  · intro f hf
    apply bindData_congr
    intro r
    constructor
    · rintro ⟨s, hs, rfl⟩
      refine ⟨π.symm s, (hπ _).mp (by rw [π.apply_symm_apply]; exact hs), ?_⟩
      show D.X.row f.1.group (π (π.symm s)) = _
      rw [π.apply_symm_apply]
    · rintro ⟨s, hs, rfl⟩
      exact ⟨π s, (hπ s).mpr hs, rfl⟩
  · unfold resample
    cases hq : D.prior with
    | none => exact Or.inl ⟨rfl, rfl⟩
    | some q => exact Or.inr ⟨q, _, rfl, rfl, q, fun _ _ => rfl, fun _ _ => rfl⟩

include hgroups in
theorem fit_order (E : Estimator) (need : Need) (hE : RowInvariant E need) (D : TrainSet) (π : Equiv.Perm ℕ)
    (hπ : ∀ s, π s < D.n ↔ s < D.n) (he : need.holds D.n D.n (fun s => s) π D.w fun s => D.w (π s))
    (fuel : ℕ) : S.fit E (resample D π D.n fun s => D.w (π s)) fuel = S.fit E D fuel := by
  have hrows := order_rows S hgroups D π hπ
  refine hrows.fit E need hE he ⟨?_, ?_⟩ fuel
  · intro hv s hs
    exact hv (π s) ((hπ s).mpr hs)
  · intro hv s hs
    have := hv (π.symm s) ((hπ _).mp (by rw [π.apply_symm_apply]; exact hs))
    show E.valid (D.y s)
    have e : (resample D π D.n fun s => D.w (π s)).y (π.symm s) = D.y s := congrArg D.y (π.apply_symm_apply s)
    rw [← e]; exact this

include hgroups in
/-- **C77.** The order of the samples is irrelevant, for every modelled estimator: if `π` permutes the sample numbers, the
training set with permuted rows, targets, weights and prior predictions gives exactly the same outcome. -/
theorem C77_order (E : Estimator) (hE : Modelled E) (D : TrainSet) (π : Equiv.Perm ℕ) (hπ : ∀ s, π s < D.n ↔ s < D.n)
    (fuel : ℕ) : S.fit E (resample D π D.n fun s => D.w (π s)) fuel = S.fit E D fuel :=
  fit_order S hgroups E .each (modelled_invariant E hE) D π hπ ⟨D.w, fun _ _ => rfl, fun _ _ => rfl⟩ fuel

include hgroups in
/-- **C78.** Samples of weight 0 are irrelevant, for every modelled estimator, as long as their targets are valid, they do not
change the numbers of bins and do not make the code divide by zero (`EstimatesNumbers`; for `CBLocationRegressor` that happens if
they are the only samples of a bin, see `C157_location_nan`): if `D'` has more samples than `D` and the additional ones have weight
0, the outcome is the same. -/
theorem C78_zero_weight (E : Estimator) (D D' : TrainSet) (hE : EstimatesNumbers (S.features.map fun f => f.1.group) D' E)
    (_hw : ∀ s < D'.n, 0 ≤ D'.w s) (hn : D.n ≤ D'.n)
    (hX : ∀ s < D.n, D'.X s = D.X s) (hy : ∀ s < D.n, D'.y s = D.y s) (hw : ∀ s < D.n, D'.w s = D.w s)
    (hp : D.prior.isSome = D'.prior.isSome) (hq : ∀ s < D.n, D'.prior.map (fun q => q s) = D.prior.map fun q => q s)
    (h0 : ∀ s, D.n ≤ s → s < D'.n → D'.w s = 0 ∧ E.valid (D'.y s))
    (hbins : ∀ f ∈ S.features, (bindData D'.X D'.n f.1.group none).2 = (bindData D.X D.n f.1.group none).2)
    (fuel : ℕ) : S.fit E D' fuel = S.fit E D fuel := by
  classical
  have hrows : SameRows S D D' (fun s => s) (fun s => s) := by
    refine ⟨⟨D'.y, fun s hs => (hy s hs).symm, fun _ _ => rfl⟩, ?_, ?_, hbins, ?_, hgroups⟩
    · intro r
      rw [← sum_range_add_sum_Ico _ hn]
      rw [sum_eq_zero (s := Ico D.n D'.n) fun s hs => by
          rw [mem_Ico] at hs
          rw [(h0 s hs.1 hs.2).1, ite_self], add_zero]
      refine sum_congr rfl fun s hs => ?_
      rw [hw s (mem_range.mp hs)]
    · intro f hf
      refine ⟨D'.X.row f.1.group, fun s hs => ?_, fun _ _ => rfl⟩
      unfold Table.row
      rw [hX s hs]
    · exact optionPrior _ _ _ _ _ _ hp (fun s => D'.prior.map fun q => q s) (fun s hs => (hq s hs).symm) (fun _ _ => rfl)
  refine hrows.fit E .each (modelled_invariant E hE.modelled) ⟨D'.w, fun s hs => (hw s hs).symm, fun _ _ => rfl⟩ ⟨?_, ?_⟩ fuel
  · intro hv s hs
    by_cases hsn : s < D.n
    · rw [hy s hsn]; exact hv s hsn
    · exact (h0 s (by omega) hs).2
  · intro hv s hs
    rw [← hy s hs]; exact hv s (by omega)

end

/-! ### Estimators for which weights are not repetitions -/

/-- **C76, counterexample.** For `CBLocationRegressor` a sample of weight 2 has another uncertainty than two samples of
weight 1. -/
theorem C76_location_counterexample :
    (locationEstimator.parameters 0 1 (fun _ => 0) (fun _ => 0) (fun _ => 2) (fun _ => 0) 0).2 ≠
      (locationEstimator.parameters 0 2 (fun _ => 0) (fun _ => 0) (fun _ => 1) (fun _ => 0) 0).2 := by
  unfold locationEstimator
  dsimp only
  intro h
  have h2 := congrArg (fun x => x ^ 2) h
  rw [Real.sq_sqrt, Real.sq_sqrt] at h2
  · norm_num [calcVarianceGeneric, binSum, precalcVarianceY, variancePrior, sum_range_succ] at h2
  · norm_num [calcVarianceGeneric, binSum, precalcVarianceY, variancePrior, sum_range_succ]
  · norm_num [calcVarianceGeneric, binSum, precalcVarianceY, variancePrior, sum_range_succ]

/-- **C76, counterexample.** For `CBLocPoissonRegressor` even the factor of a bin differs between a sample of weight 2 and two
samples of weight 1 (beside another sample in another bin). -/
theorem C76_locPoisson_counterexample :
    (locPoissonEstimator.parameters 0 2 (fun s => if s = 0 then 0 else 1) (fun s => if s = 0 then 2 else 0)
        (fun s => if s = 0 then 2 else 1) (fun _ => 1) 0).1 ≠
      (locPoissonEstimator.parameters 0 3 (fun s => if s < 2 then 0 else 1) (fun s => if s < 2 then 2 else 0)
        (fun _ => 1) (fun _ => 1) 0).1 := by
  have hs : (√8 / √9 : ℝ) ^ 2 = 8 / 9 := by rw [div_pow, Real.sq_sqrt (by norm_num), Real.sq_sqrt (by norm_num)]
  have hf : (range 3).filter (fun s => s ≤ 1) = range 2 := by decide
  unfold locPoissonEstimator locPoissonParameter regularizeSummand weightedStddev
  dsimp only
  norm_num [binSum, sum_range_succ, hs, hf]

end CB
