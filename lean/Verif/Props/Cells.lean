import Verif.Props.ConvergenceMore
import Verif.Spec.Cells

/-!
# C129: an interaction makes its components redundant, and fits the mean of every cell
-/

set_option autoImplicit false
set_option linter.unusedSectionVars false

namespace CB
open Finset Spec

section
variable {σ : Type*} (S S' : Setup σ) (D : TrainSet) (ra ra' low low' : ℝ)

/-- Two samples with usable rows and the same combined bin number have the same bin number in every column. -/
theorem same_code_floor (X : Table ℝ) (n : ℕ) (group : List String) (hg : group ≠ []) (i j : ℕ) (hi : i < n) (hj : j < n)
    (hfi : finiteSemiPositive (X.row group i) = true) (hfj : finiteSemiPositive (X.row group j) = true)
    (h : (bindData X n group none).1.getD i 0 = (bindData X n group none).1.getD j 0) (c : String) (hc : c ∈ group) :
    floorComp (X i c) = floorComp (X j c) := by
  rw [bindData_code X n group hg i hi, bindData_code X n group hg j hj, if_pos hfi, if_pos hfj] at h
  have e := encode_inj _ _ _ (validRow_tuple _ _ (by rw [bindData_length]; simp [Table.row]) (bindData_valid X n group hg i hi hfi))
    (validRow_tuple _ _ (by rw [bindData_length]; simp [Table.row]) (bindData_valid X n group hg j hj hfj)) h
  unfold Table.row at e
  rw [List.map_map, List.map_map, List.map_inj_left] at e
  exact e c hc

/-- Usable rows with the same bin numbers in every column have the same combined bin number. -/
theorem same_floor_code (X : Table ℝ) (n : ℕ) (group : List String) (hg : group ≠ []) (i j : ℕ) (hi : i < n) (hj : j < n)
    (hfi : finiteSemiPositive (X.row group i) = true) (hfj : finiteSemiPositive (X.row group j) = true)
    (h : ∀ c ∈ group, floorComp (X i c) = floorComp (X j c)) :
    (bindData X n group none).1.getD i 0 = (bindData X n group none).1.getD j 0 := by
  rw [bindData_code X n group hg i hi, bindData_code X n group hg j hj, if_pos hfi, if_pos hfj]
  congr 1
  unfold Table.row
  rw [List.map_map, List.map_map, List.map_inj_left]
  exact h

theorem usable_row (columns group : List String) (h : HasBinNumbers D columns) (hsub : group ⊆ columns) (i : ℕ) (hi : i < D.n) :
    finiteSemiPositive (D.X.row group i) = true := by
  rw [finiteSemiPositive_iff]
  intro b hb
  unfold Table.row at hb
  obtain ⟨c, hc, rfl⟩ := List.mem_map.mp hb
  obtain ⟨k, hk⟩ := h i hi c (hsub hc)
  exact ⟨k, hk, Nat.cast_nonneg k⟩

/-- The bins of an interaction determine the bins of every feature made of some of its columns. -/
theorem interaction_refines (f f' : FeatureSpec × SmootherKind) (hg : f'.1.group ≠ []) (h : HasBinNumbers D f.1.group)
    (hsub : f'.1.group ⊆ f.1.group) (i j : ℕ) (hi : i < D.n) (hj : j < D.n)
    (he : (f.1.cfg D.X D.n).bin i = (f.1.cfg D.X D.n).bin j) : (f'.1.cfg D.X D.n).bin i = (f'.1.cfg D.X D.n).bin j := by
  have hg0 : f.1.group ≠ [] := by
    intro h0
    rw [h0] at hsub
    exact hg (List.subset_nil.mp hsub)
  refine same_floor_code D.X D.n f'.1.group hg i j hi hj (usable_row D _ _ h hsub i hi) (usable_row D _ _ h hsub j hj) fun c hc => ?_
  exact same_code_floor D.X D.n f.1.group hg0 i j hi hj (usable_row D _ _ h (List.Subset.refl _) i hi)
    (usable_row D _ _ h (List.Subset.refl _) j hj) he c (hsub hc)

/-- What features can say whose bins are determined by other features, these other features can say. -/
theorem additive_refines (hsup : ∀ f' ∈ S'.features, ∃ f ∈ S.features, ∀ i < D.n, ∀ j < D.n,
      (f.1.cfg D.X D.n).bin i = (f.1.cfg D.X D.n).bin j → (f'.1.cfg D.X D.n).bin i = (f'.1.cfg D.X D.n).bin j)
    (q : ℕ → ℝ) (h : AdditiveModel S' D q) : AdditiveModel S D q := by
  classical
  obtain ⟨φ, hφ⟩ := h
  choose! other hmem hdet using hsup
  let lift : FeatureSpec × SmootherKind → ℕ → ℝ := fun f' b =>
    if hb : ∃ j, j < D.n ∧ ((other f').1.cfg D.X D.n).bin j = b then φ f' ((f'.1.cfg D.X D.n).bin hb.choose) else 0
  have hlift : ∀ f' ∈ S'.features, ∀ i < D.n, lift f' (((other f').1.cfg D.X D.n).bin i) = φ f' ((f'.1.cfg D.X D.n).bin i) := by
    intro f' hf' i hi
    have hb : ∃ j, j < D.n ∧ ((other f').1.cfg D.X D.n).bin j = ((other f').1.cfg D.X D.n).bin i := ⟨i, hi, rfl⟩
    show (if hb : _ then _ else _) = _
    rw [dif_pos hb]
    congr 1
    exact hdet f' hf' _ hb.choose_spec.1 i hi hb.choose_spec.2
  obtain ⟨ψ, hψ⟩ := merge_functions S.features (codeOf D.X D.n) (S'.features.map fun f' => (other f', lift f')) (by
    intro p hp
    obtain ⟨f', hf', rfl⟩ := List.mem_map.mp hp
    exact hmem f' hf')
  refine ⟨ψ, fun i hi => ?_⟩
  rw [hφ i hi]
  congr 1
  refine Eq.trans ?_ (hψ ⟨i, hi⟩)
  rw [List.map_map]
  exact congrArg List.sum (List.map_congr_left fun f' hf' => (hlift f' hf' i hi).symm)

/-- **C129.** An interaction makes its components redundant: if the training data has no missing values there, features made of some of
the columns of another feature change nothing in the long run. -/
theorem C129_components_redundant (h : FreeDescent S D ra low) (h' : FreeDescent S' D ra' low') (hlow : 0 < low) (hlow' : 0 < low')
    (hsub : ∀ f ∈ S.features, ∃ f' ∈ S'.features, f'.1.group = f.1.group)
    (hsup : ∀ f' ∈ S'.features, ∃ f ∈ S.features, f.1.group = f'.1.group ∨ f'.1.group ⊆ f.1.group ∧ HasBinNumbers D f.1.group)
    (hf : S.params.minimalFactorChange < 0) (hl : S.params.minimalLossChange < 0)
    (hf' : S'.params.minimalFactorChange < 0) (hl' : S'.params.minimalLossChange < 0) (hsum : ∑ i ∈ range D.n, D.w i ≠ 0)
    (ε : ℝ) (hε : 0 < ε) :
    ∃ N, ∀ M M', N ≤ M → N ≤ M' → ∃ m m', (withMaximalIterations S M).fit (gbsEstimator ra) D (M + 4) = some (.ok m) ∧
      (withMaximalIterations S' M').fit (gbsEstimator ra') D (M' + 4) = some (.ok m') ∧
      weightedDistance D (m.predict D.prior D.X) (m'.predict D.prior D.X) < ε := by
  have hback : ∀ q, AdditiveModel S' D q → AdditiveModel S D q := additive_refines S S' D (by
    intro f' hf'
    obtain ⟨f, hfm, hc⟩ := hsup f' hf'
    refine ⟨f, hfm, fun i hi j hj he => ?_⟩
    rcases hc with hc | ⟨hc, hb⟩
    · show (bindData D.X D.n f'.1.group none).1.getD i 0 = (bindData D.X D.n f'.1.group none).1.getD j 0
      rw [← hc]
      exact he
    · exact interaction_refines D f f' (h'.plain.features f' hf').1 hb hc i j hi hj he)
  obtain ⟨best, hb⟩ := C124_best_exists S D h.plain.weights
  have hb' : BestAdditiveModel S' D best := ⟨additive_mono S S' D hsub best hb.1, fun q hq => hb.2 q (hback q hq)⟩
  obtain ⟨N, hN⟩ := C124_limit S D ra low h hlow hf hl hsum best hb (ε / 4) (by linarith)
  obtain ⟨N', hN'⟩ := C124_limit S' D ra' low' h' hlow' hf' hl' hsum best hb' (ε / 4) (by linarith)
  refine ⟨max N N', fun M M' h1 h2 => ?_⟩
  obtain ⟨m, hm, hd, -⟩ := hN M (le_trans (le_max_left _ _) h1)
  obtain ⟨m', hm', hd', -⟩ := hN' M' (le_trans (le_max_right _ _) h2)
  refine ⟨m, m', hm, hm', ?_⟩
  have := weightedDistance_triangle D h.plain.weights (m.predict D.prior D.X) (m'.predict D.prior D.X) best
  linarith

/-- The samples of a bin of an interaction are those of its cell. -/
theorem bin_cell (f : FeatureSpec × SmootherKind) (hg : f.1.group ≠ []) (hb : HasBinNumbers D f.1.group) (i : ℕ) (hi : i < D.n) :
    (range D.n).filter (fun j => (f.1.cfg D.X D.n).bin j = (f.1.cfg D.X D.n).bin i) = cell D f.1.group i := by
  classical
  unfold cell
  refine Finset.filter_congr fun j hj => ?_
  have hj := Finset.mem_range.mp hj
  have hu := usable_row D f.1.group f.1.group hb (List.Subset.refl _)
  constructor
  · intro he c hc
    have := same_code_floor D.X D.n f.1.group hg j i hj hi (hu j hj) (hu i hi) he c hc
    obtain ⟨a, ha⟩ := hb j hj c hc
    obtain ⟨b, hb⟩ := hb i hi c hc
    rw [ha, hb] at this ⊢
    simp only [floorComp, Int.floor_natCast, Int.toNat_natCast] at this
    rw [this]
  · intro he
    exact same_floor_code D.X D.n f.1.group hg j i hj hi (hu j hj) (hu i hi) fun c hc => by rw [he c hc]

/-- **C129**, cell means: if one of the features comprises the columns of all the others and the training data has no missing values
there, the prediction of every training sample with weight comes as close as one likes to the weighted mean of the target over the
training samples that agree with it in these columns, whatever the regularization. -/
theorem C129_cell_means (h : FreeDescent S D ra low) (hlow : 0 < low) (hprior : D.prior = none) (f : FeatureSpec × SmootherKind)
    (hfm : f ∈ S.features) (hb : HasBinNumbers D f.1.group) (hall : ∀ f' ∈ S.features, f'.1.group ⊆ f.1.group)
    (hf : S.params.minimalFactorChange < 0) (hl : S.params.minimalLossChange < 0) (hsum : ∑ i ∈ range D.n, D.w i ≠ 0)
    (ε : ℝ) (hε : 0 < ε) :
    ∃ N, ∀ M, N ≤ M → ∃ m, (withMaximalIterations S M).fit (gbsEstimator ra) D (M + 4) = some (.ok m) ∧
      ∀ i < D.n, D.w i ≠ 0 → |m.predict D.prior D.X i - cellMean D f.1.group i| < ε := by
  classical
  have hw := h.plain.weights
  have hg := (h.plain.features f hfm).1
  obtain ⟨best, hbest⟩ := C124_best_exists S D hw
  -- the best model says the cell means
  have hmean : ∀ i < D.n, D.w i ≠ 0 → best i = cellMean D f.1.group i := by
    intro i hi hwi
    have hconst : ∀ j ∈ cell D f.1.group i, best j = best i := by
      intro j hj
      rw [← bin_cell D f hg hb i hi, Finset.mem_filter, Finset.mem_range] at hj
      obtain ⟨φ, hφ⟩ := hbest.1
      rw [hφ j hj.1, hφ i hi]
      congr 1
      · unfold startingPredictions
        rw [hprior]
      · refine congrArg List.sum (List.map_congr_left fun f' hf' => ?_)
        rw [interaction_refines D f f' (h.plain.features f' hf').1 hb (hall f' hf') j i hj.1 hi hj.2]
    have hc := best_calibrated S D best hbest f hfm ((f.1.cfg D.X D.n).bin i)
    unfold sumInBin at hc
    rw [bin_cell D f hg hb i hi] at hc
    have hcell : ∑ j ∈ cell D f.1.group i, D.w j * best j = (∑ j ∈ cell D f.1.group i, D.w j) * best i := by
      rw [Finset.sum_mul]
      exact Finset.sum_congr rfl fun j hj => by rw [hconst j hj]
    rw [hcell] at hc
    have hpos : 0 < ∑ j ∈ cell D f.1.group i, D.w j := by
      refine Finset.sum_pos' (fun j hj => hw j ?_) ⟨i, ?_, lt_of_le_of_ne (hw i hi) (Ne.symm hwi)⟩
      · exact Finset.mem_range.mp (Finset.mem_filter.mp hj).1
      · exact Finset.mem_filter.mpr ⟨Finset.mem_range.mpr hi, fun c _ => rfl⟩
    unfold cellMean
    rw [eq_div_iff (ne_of_gt hpos), ← hc]
    ring
  -- the smallest positive weight
  have hne : ((range D.n).filter fun i => D.w i ≠ 0).Nonempty := by
    by_contra hempty
    rw [Finset.not_nonempty_iff_eq_empty, Finset.filter_eq_empty_iff] at hempty
    exact hsum (Finset.sum_eq_zero fun i hi => not_not.mp (hempty hi))
  obtain ⟨k, hk, hmin⟩ := Finset.exists_min_image _ D.w hne
  rw [Finset.mem_filter, Finset.mem_range] at hk
  have hk0 : 0 < D.w k := lt_of_le_of_ne (hw k hk.1) (Ne.symm hk.2)
  obtain ⟨N, hN⟩ := C124_limit S D ra low h hlow hf hl hsum best hbest (D.w k * ε ^ 2) (by positivity)
  refine ⟨N, fun M hM => ?_⟩
  obtain ⟨m, hm, hd, -⟩ := hN M hM
  refine ⟨m, hm, fun i hi hwi => ?_⟩
  rw [← hmean i hi hwi]
  have hki : D.w k ≤ D.w i := hmin i (by rw [Finset.mem_filter, Finset.mem_range]; exact ⟨hi, hwi⟩)
  have h1 : D.w i * (m.predict D.prior D.X i - best i) ^ 2 ≤ weightedDistance D (m.predict D.prior D.X) best := by
    unfold weightedDistance
    exact Finset.single_le_sum (f := fun i => D.w i * (m.predict D.prior D.X i - best i) ^ 2)
      (fun j hj => mul_nonneg (hw j (Finset.mem_range.mp hj)) (sq_nonneg _)) (Finset.mem_range.mpr hi)
  have h2 : D.w k * (m.predict D.prior D.X i - best i) ^ 2 ≤ D.w i * (m.predict D.prior D.X i - best i) ^ 2 :=
    mul_le_mul_of_nonneg_right hki (sq_nonneg _)
  have h3 : (m.predict D.prior D.X i - best i) ^ 2 < ε ^ 2 := by
    by_contra hcon
    push Not at hcon
    have := mul_le_mul_of_nonneg_left hcon hk0.le
    linarith
  exact abs_lt_of_sq_lt_sq h3 hε.le

end

/-- An interaction of the two columns of the example and one of its components. -/
noncomputable def crossSetup : Setup (List (FitRow ℝ) × List ℝ) :=
  { twoSetup with
    features := [(⟨["a"], false, false⟩, .normalizationRegressionType .binValuesOne .discontinuous),
      (⟨["a", "b"], false, false⟩, .normalizationRegressionType .binValuesMany .discontinuous)] }

theorem crossFeatures : createFeatures plainChoice none [["a"], ["a", "b"]] = .ok crossSetup.features := by rfl

/-- The interaction alone. -/
noncomputable def cellSetup : Setup (List (FitRow ℝ) × List ℝ) :=
  { twoSetup with features := [(⟨["a", "b"], false, false⟩, .normalizationRegressionType .binValuesMany .discontinuous)] }

theorem cellFeatures : createFeatures plainChoice none [["a", "b"]] = .ok cellSetup.features := by rfl

/-- Four samples, the last two in the same cell. -/
def crossData : TrainSet :=
  ⟨fun s c => .fin (if c = "a" then (if 2 ≤ s then 1 else 0) else (if s = 0 then 0 else 1)), 4, fun s => s, fun s => s + 1, none⟩

theorem crossNumbers : HasBinNumbers crossData ["a", "b"] := by
  intro s _ c _
  simp only [crossData]
  split_ifs
  · exact ⟨1, by simp⟩
  · exact ⟨0, by simp⟩
  · exact ⟨0, by simp⟩
  · exact ⟨1, by simp⟩

theorem crossInts (s : ℕ) (c : String) (x : ℝ) (hx : crossData.X s c = .fin x) : ∃ k : ℤ, x = (k : ℝ) := by
  simp only [crossData, Flt.fin.injEq] at hx
  rw [← hx]
  split_ifs
  · exact ⟨1, by simp⟩
  · exact ⟨0, by simp⟩
  · exact ⟨0, by simp⟩
  · exact ⟨1, by simp⟩

theorem crossFree : FreeDescent crossSetup crossData 7 (1 / 2) := by
  refine ⟨⟨rfl, rfl, by norm_num, fun i _ => by simp only [crossData]; positivity, fun k => ?_, by simp [crossSetup],
    C80_no_smoothing crossSetup noOpen plainChoice none [["a"], ["a", "b"]] rfl crossFeatures rfl crossData⟩, fun k _ => ?_, ?_, ?_⟩
  · simp only [crossSetup, twoSetup]
    split_ifs <;> norm_num
  · simp only [crossSetup, twoSetup]
    split_ifs <;> norm_num
  · exact C124_no_smoothing crossSetup noOpen rfl crossFeatures rfl (by simp) crossData
      (fun i _ => by simp only [crossData]; positivity) (by simp [crossSetup])
  · exact fun f _ c _ i _ x hx => crossInts i c x hx

theorem cellFree : FreeDescent cellSetup crossData 0 (1 / 2) := by
  refine ⟨⟨rfl, rfl, by norm_num, fun i _ => by simp only [crossData]; positivity, fun k => ?_, by simp [cellSetup],
    C80_no_smoothing cellSetup noOpen plainChoice none [["a", "b"]] rfl cellFeatures rfl crossData⟩, fun k _ => ?_, ?_, ?_⟩
  · simp only [cellSetup, twoSetup]
    split_ifs <;> norm_num
  · simp only [cellSetup, twoSetup]
    split_ifs <;> norm_num
  · exact C124_no_smoothing cellSetup noOpen rfl cellFeatures rfl (by simp) crossData
      (fun i _ => by simp only [crossData]; positivity) (by simp [cellSetup])
  · exact fun f _ c _ i _ x hx => crossInts i c x hx

/-- Witness for C129: the component `a` is redundant next to the interaction of `a` and `b`. -/
example (ε : ℝ) (hε : 0 < ε) : ∃ N, ∀ M M', N ≤ M → N ≤ M' → ∃ m m',
    (withMaximalIterations cellSetup M).fit (gbsEstimator 0) crossData (M + 4) = some (.ok m) ∧
      (withMaximalIterations crossSetup M').fit (gbsEstimator 7) crossData (M' + 4) = some (.ok m') ∧
      weightedDistance crossData (m.predict none crossData.X) (m'.predict none crossData.X) < ε :=
  C129_components_redundant cellSetup crossSetup crossData 0 7 (1 / 2) (1 / 2) cellFree crossFree (by norm_num) (by norm_num)
    (by simp [cellSetup, crossSetup])
    (fun f' hf' => ⟨_, List.mem_singleton.mpr rfl, Or.inr ⟨by
      simp only [crossSetup, List.mem_cons, List.not_mem_nil, or_false] at hf'
      rcases hf' with rfl | rfl <;> simp, crossNumbers⟩⟩)
    (by norm_num [cellSetup, twoSetup]) (by norm_num [cellSetup, twoSetup]) (by norm_num [crossSetup, twoSetup])
    (by norm_num [crossSetup, twoSetup]) (by simp [crossData, Finset.sum_range_succ]; norm_num) ε hε

/-- Witness for C129, cell means: the last two samples, with targets 2 and 3 and weights 3 and 4, share a cell; the predictions of
the third one come close to 18 / 7. -/
example (ε : ℝ) (hε : 0 < ε) : ∃ N, ∀ M, N ≤ M → ∃ m,
    (withMaximalIterations crossSetup M).fit (gbsEstimator 7) crossData (M + 4) = some (.ok m) ∧
      |m.predict none crossData.X 2 - 18 / 7| < ε := by
  have hc : cell crossData ["a", "b"] 2 = {2, 3} := by
    classical
    unfold cell
    ext j
    simp only [crossData, Finset.mem_filter, Finset.mem_range, List.mem_cons, List.not_mem_nil, or_false, Finset.mem_insert,
      Finset.mem_singleton]
    constructor
    · rintro ⟨h1, h2⟩
      have := h2 "a" (by simp)
      interval_cases j <;> simp at this ⊢
    · rintro (rfl | rfl) <;> simp
  obtain ⟨N, hN⟩ := C129_cell_means crossSetup crossData 7 (1 / 2) crossFree (by norm_num) rfl
    (⟨["a", "b"], false, false⟩, .normalizationRegressionType .binValuesMany .discontinuous) (by simp [crossSetup]) crossNumbers
    (by simp [crossSetup]) (by norm_num [crossSetup, twoSetup]) (by norm_num [crossSetup, twoSetup])
    (by simp [crossData, Finset.sum_range_succ]; norm_num) ε hε
  refine ⟨N, fun M hM => ?_⟩
  obtain ⟨m, hm, hd⟩ := hN M hM
  refine ⟨m, hm, ?_⟩
  have h2 := hd 2 (by simp [crossData]) (by simp [crossData]; norm_num)
  have hv : cellMean crossData ["a", "b"] 2 = 18 / 7 := by
    unfold cellMean
    rw [hc]
    simp [crossData]
    norm_num
  rw [hv] at h2
  exact h2

end CB
