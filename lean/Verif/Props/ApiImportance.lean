import Verif.Props.Api
import Verif.Props.Importance
import Verif.Props.PredictMore
import Mathlib.Tactic.Ring

/-!
# C28 for estimator objects: importances after any number of fits
-/

set_option autoImplicit false
set_option linter.unusedSectionVars false

namespace CB
open Finset Spec

/-! ### Dictionaries -/

theorem dictSet_replace {α β : Type*} [DecidableEq α] (pre d : List (α × β)) (k : α) (v v' : β) (h : k ∉ pre.map Prod.fst) :
    dictSet (pre ++ (k, v') :: d) k v = pre ++ (k, v) :: d := by
  induction pre with
  | nil => simp [dictSet]
  | cons a pre ih =>
    rw [List.map_cons, List.mem_cons, not_or] at h
    rw [List.cons_append, dictSet, if_neg (fun e => h.1 e.symm), ih h.2, List.cons_append]

/-- Assigning all keys of a dictionary, in order, replaces its values. -/
theorem foldl_replace {α β : Type*} [DecidableEq α] (l : List (α × β)) : ∀ (pre d : List (α × β)), d.map Prod.fst = l.map Prod.fst →
    ((pre ++ d).map Prod.fst).Nodup → l.foldl (fun d p => dictSet d p.1 p.2) (pre ++ d) = pre ++ l := by
  induction l with
  | nil =>
    intro pre d h _
    have : d = [] := by simpa using h
    rw [this]
    rfl
  | cons p l ih =>
    intro pre d h hn
    cases d with
    | nil => simp at h
    | cons q d =>
      rw [List.map_cons, List.map_cons, List.cons.injEq] at h
      obtain ⟨k, v'⟩ := q
      obtain ⟨k2, v⟩ := p
      obtain ⟨h1, h2⟩ := h
      dsimp only at h1
      subst h1
      rw [List.foldl_cons]
      have hk : k ∉ pre.map Prod.fst := by
        intro hk
        rw [List.map_append, List.nodup_append] at hn
        exact hn.2.2 k hk k (by simp) rfl
      rw [dictSet_replace pre d k v v' hk]
      have e : pre ++ (k, v) :: d = (pre ++ [(k, v)]) ++ d := by simp
      rw [e, ih (pre ++ [(k, v)]) d h2 ?_]
      · simp
      · simpa using hn

/-- Of several rounds of assignments to the same keys the last one counts. -/
theorem dictOf_last {α β : Type*} [DecidableEq α] (keys : List α) (hk : keys.Nodup) (blocks : List (List (α × β)))
    (last : List (α × β)) (hb : ∀ b ∈ blocks, b.map Prod.fst = keys) (hl : last.map Prod.fst = keys) :
    dictOf (blocks.flatten ++ last) = last := by
  have key : ∀ (blocks : List (List (α × β))) (d : List (α × β)), (∀ b ∈ blocks, b.map Prod.fst = keys) → d.map Prod.fst = keys →
      ((blocks.flatten ++ last).foldl (fun d p => dictSet d p.1 p.2) d) = last := by
    intro blocks
    induction blocks with
    | nil =>
      intro d _ hd
      have := foldl_replace last [] d (by rw [hd, hl]) (by rw [List.nil_append, hd]; exact hk)
      simpa using this
    | cons b blocks ih =>
      intro d hb hd
      have hbk := hb b (by simp)
      rw [List.flatten_cons, List.append_assoc, List.foldl_append]
      have := foldl_replace b [] d (by rw [hd, hbk]) (by rw [List.nil_append, hd]; exact hk)
      rw [List.nil_append, List.nil_append] at this
      rw [this]
      exact ih b (fun b' h' => hb b' (by simp [h'])) hbk
  cases blocks with
  | nil =>
    rw [List.flatten_nil, List.nil_append]
    exact dictOf_nodup last (by rw [hl]; exact hk)
  | cons b blocks =>
    have hbk := hb b (by simp)
    unfold dictOf
    rw [List.flatten_cons, List.append_assoc, List.foldl_append]
    have : b.foldl (fun d p => dictSet d p.1 p.2) [] = b := dictOf_nodup b (by rw [hbk]; exact hk)
    rw [this]
    exact key blocks b (fun b' h' => hb b' (by simp [h'])) hbk

section
variable {K : Type*} [Field K] [LinearOrder K] [IsStrictOrderedRing K]

/-- The importances, if the stored values come from several fits of features with the same names, all different. -/
theorem getFeatureImportances_blocks (groups : List (List String)) (hne : groups ≠ [])
    (hnames : (groups.map fun g => "_".intercalate g).Nodup) (blocks : List (List (List String × K))) (last : List (List String × K))
    (hb : ∀ b ∈ blocks, b.map Prod.fst = groups) (hl : last.map Prod.fst = groups) :
    getFeatureImportances (blocks.flatten ++ last) =
      .ok (last.map fun e => ("_".intercalate e.1,
        if roundedNonzero ((blocks.flatten ++ last).map Prod.snd).sum then e.2 / ((blocks.flatten ++ last).map Prod.snd).sum else e.2)) := by
  unfold getFeatureImportances
  have hemp : (blocks.flatten ++ last).isEmpty = false := by
    cases last with
    | nil => exact absurd hl.symm hne
    | cons a l => simp
  rw [hemp]
  simp only [Bool.false_eq_true, if_false]
  congr 1
  set t := ((blocks.flatten ++ last).map Prod.snd).sum with ht
  set f : K → K := fun v => if roundedNonzero t then v / t else v with hf
  have hnorm : getNormalizedValues ((blocks.flatten ++ last).map Prod.snd) = (blocks.flatten ++ last).map fun e => f e.2 := by
    unfold getNormalizedValues
    rw [← ht]
    by_cases hr : roundedNonzero t = true
    · rw [if_pos hr, List.map_map]
      refine List.map_congr_left fun e _ => ?_
      simp [hf, hr]
    · rw [if_neg hr]
      refine List.map_congr_left fun e _ => ?_
      simp [hf, hr]
  have hzip : ∀ l : List (List String × K), List.zipWith (fun e v => ("_".intercalate e.1, v)) l (l.map fun e => f e.2) =
      l.map fun e => ("_".intercalate e.1, f e.2) := by
    intro l
    induction l with
    | nil => rfl
    | cons a l ih => rw [List.map_cons, List.zipWith_cons_cons, ih, List.map_cons]
  rw [hnorm, hzip, List.map_append, List.map_flatten]
  refine dictOf_last (groups.map fun g => "_".intercalate g) hnames _ _ ?_ ?_
  · intro b hb'
    obtain ⟨b, hb0, rfl⟩ := List.mem_map.mp hb'
    rw [← hb b hb0, List.map_map, List.map_map]
    rfl
  · rw [← hl, List.map_map, List.map_map]
    rfl

end

section
variable {σ : Type*}

theorem fitMain_factors_length (p : Params ℝ) (o : Oracle ℝ) (cfgs : List FeatureCfg) (prior : ℕ → ℝ) (fuel : ℕ) (r : FitResult ℝ)
    (h : fitMain p o cfgs prior fuel = some (.ok r)) : r.factors.length = cfgs.length := by
  obtain ⟨past, s, ht, -, hf, -⟩ := fitMain_ok p o cfgs prior fuel r h
  have h1 := (trace_WF p o cfgs prior past s ht).1
  have h2 := congrArg List.length hf
  rw [List.length_map, List.length_map] at h2
  rw [← h2, ← h1]

/-- A fitted model has the features it was created with. -/
theorem fit_model_groups (S : Setup σ) (E : Estimator) (D : TrainSet) (fuel : ℕ) (m : FittedModel) (h : S.fit E D fuel = some (.ok m)) :
    m.features.map (fun f => f.group) = S.features.map fun f => f.1.group := by
  obtain ⟨a, r, -, -, hmain, rfl⟩ := fit_ok S E D fuel m h
  have hl := fitMain_factors_length _ _ _ _ _ r hmain
  rw [Setup.cfgs, List.length_map] at hl
  dsimp only
  unfold fittedFeatures
  generalize S.features = fs at hl
  generalize r.factors = l at hl
  induction fs generalizing l with
  | nil => simp
  | cons f fs ih =>
    cases l with
    | nil => simp at hl
    | cons x l =>
      simp only [List.map_cons, List.zipWith_cons_cons, List.cons.injEq, true_and]
      exact ih l (by simpa using hl)

/-- The stored importances are those of the fits so far, each with an entry for each feature group. -/
theorem history_importances (C : Config σ) (E : Estimator) (P : DataFrame → Prop) (gs : List (List String)) (hgs : C.groups = some gs)
    (o : EstimatorObject) (h : History C E P o) :
    ∃ blocks : List (List (List String × ℝ)), o.importances = blocks.flatten ∧ (∀ b ∈ blocks, b.map Prod.fst = gs) ∧
      ∀ b ∈ blocks, ∀ e ∈ b, 0 ≤ e.2 := by
  have step : ∀ (o o' : EstimatorObject) (F : DataFrame) (y : ℕ → ℝ) (fuel : ℕ) (r : Except ApiErr Unit), History C E P o →
      o.fit C E F y fuel = some (o', r) →
      (∃ blocks : List (List (List String × ℝ)), o.importances = blocks.flatten ∧ (∀ b ∈ blocks, b.map Prod.fst = gs) ∧
        ∀ b ∈ blocks, ∀ e ∈ b, 0 ≤ e.2) →
      ∃ blocks : List (List (List String × ℝ)), o'.importances = blocks.flatten ∧ (∀ b ∈ blocks, b.map Prod.fst = gs) ∧
        ∀ b ∈ blocks, ∀ e ∈ b, 0 ≤ e.2 := by
    rintro o o' F y fuel r ho hr ⟨blocks, h1, h2, h3⟩
    cases r with
    | error e => exact ⟨blocks, by rw [(fit_attributes C E o o' F y fuel _ hr).2 e rfl, h1], h2, h3⟩
    | ok u =>
      obtain ⟨fs, m, -, hfs, hm, rfl⟩ := fit_object_ok C E o o' F y fuel hr
      have hg : o.groupsFor C F = gs := by
        unfold EstimatorObject.groupsFor
        rw [(history_groups C E P o ho).1 gs hgs]
      rw [hg] at hfs
      refine ⟨blocks ++ [(modelImportances F m).map fun f => (f.1, binWeightedAverage f.2.1 f.2.2.1 f.2.2.2)], ?_, ?_, ?_⟩
      · rw [List.flatten_append, ← h1]
        simp [setFeatureImportances]
      · intro b hb
        rw [List.mem_append, List.mem_singleton] at hb
        rcases hb with hb | rfl
        · exact h2 b hb
        · rw [List.map_map]
          unfold modelImportances
          rw [List.map_map]
          have := fit_model_groups (C.setup fs) E (C.trainSet F y) fuel m hm
          rw [← createFeatures_columns C.choice C.props gs fs hfs]
          exact this
      · intro b hb e he
        rw [List.mem_append, List.mem_singleton] at hb
        rcases hb with hb | rfl
        · exact h3 b hb e he
        · obtain ⟨f, -, rfl⟩ := List.mem_map.mp he
          exact binWeightedAverage_nonneg _ _ _
  induction h with
  | constructed o h => exact ⟨[], (construct_ok C o h).2.2.2, by simp, by simp⟩
  | fit o o' h F hF y fuel r hr ih => exact step o o' F y fuel r h hr ih
  | fitTransform o o' h F hF y fuel r hr ih =>
    rcases fitTransform_fit C E o o' F y fuel r hr with rfl | ⟨r', hr'⟩
    · exact ih
    · exact step o o' F y fuel r' h hr' ih

/-- The importance that a fit stores for a feature: its mean absolute contribution, in link space, to the predictions of the
training rows. -/
theorem modelImportance_eq (F : DataFrame) (f : FeatureSpec) (hg : f.group ≠ []) (fac : ℕ → ℝ)
    (hint : ∀ c, f.group = [c] → ∀ s < F.n, ∀ x : ℝ, F.X s c = .fin x → ∃ k : ℤ, x = k) :
    let g : FittedFeature ℝ := ⟨f.group, f.external, (bindData F.X F.n f.group none).2, fac⟩
    binWeightedAverage (bindData F.X F.n f.group none).1 (g.nFinite + 1) fac =
      (∑ s ∈ range F.n, |g.predict (F.X.row f.group s)|) / F.n := by
  intro g
  have hlen : (bindData F.X F.n f.group none).1.length = F.n := by
    unfold bindData lexBinnos
    simp
  have hget : ∀ s (hs : s < F.n), (bindData F.X F.n f.group none).1[s]'(by rw [hlen]; exact hs) = (f.cfg F.X F.n).bin s := by
    intro s hs
    unfold FeatureSpec.cfg
    dsimp only
    rw [List.getD_eq_getElem?_getD, List.getElem?_eq_getElem (by rw [hlen]; exact hs)]
    rfl
  have hcodes : (bindData F.X F.n f.group none).1 = (List.range F.n).map (f.cfg F.X F.n).bin := by
    refine List.ext_getElem (by rw [hlen]; simp) fun s h1 h2 => ?_
    rw [List.getElem_map, List.getElem_range, hget s (by rw [hlen] at h1; exact h1)]
  rw [C28_meaning _ _ ?_ fac, hlen]
  · congr 1
    rw [hcodes, List.map_map, ← List.sum_toFinset]
    · rw [List.toFinset_range]
      refine sum_congr rfl fun s hs => ?_
      rw [predict_train F.X F.n f hg fac s (mem_range.mp hs) fun c hc => hint c hc s (mem_range.mp hs)]
      rfl
    · exact List.nodup_range
  · intro c hc
    rw [hcodes, List.mem_map] at hc
    obtain ⟨s, hs, rfl⟩ := hc
    obtain ⟨h1, h2⟩ := C19_missing_bin f hg F.X F.n s (List.mem_range.mp hs)
    by_cases hall : ∀ c ∈ f.group, ∃ x, F.X s c = .fin x ∧ 0 ≤ x
    · exact lt_trans (h2 hall) (Nat.lt_succ_self _)
    · push Not at hall
      rw [h1 hall]
      exact Nat.lt_succ_self _

section
variable (C : Config σ) (E : Estimator) (gs : List (List String)) (hgs : C.groups = some gs) (hne : gs ≠ [])
  (hg : ∀ g ∈ gs, g ≠ []) (hnames : (gs.map fun g => "_".intercalate g).Nodup)
  (o o' : EstimatorObject) (F : DataFrame) (y : ℕ → ℝ) (fuel : ℕ) (h : o.fit C E F y fuel = some (o', .ok ()))
  (hint : ∀ c, [c] ∈ gs → ∀ s < F.n, ∀ x : ℝ, F.X s c = .fin x → ∃ k : ℤ, x = k)
include hgs hne hg hnames h hint

/-- **C28, refits.** With given feature groups whose joined names differ, and integer bin numbers in one-dimensional features: after
a fit, whatever was fitted before, there is one importance for each feature group, in order. It is the mean absolute contribution of
the feature to the predictions of the training rows, in link space, divided by the sum of these over all features - and of the
importances of all earlier fits, which is why importances after a refit do not sum to 1. -/
theorem C28_refit_values (ho : History C E (fun _ => True) o) :
    ∃ m past, o'.status = .fitted m ∧ m.features.map (fun f => f.group) = gs ∧ 0 ≤ past ∧ past = (o.importances.map Prod.snd).sum ∧
      (1 / 2000000 < past + (m.features.map (meanContribution F)).sum →
        o'.getImportances = .ok (m.features.map fun f => ("_".intercalate f.group,
          meanContribution F f / (past + (m.features.map (meanContribution F)).sum)))) := by
  obtain ⟨blocks, hb1, hb2, hb3⟩ := history_importances C E _ gs hgs o ho
  obtain ⟨fs, m, -, hfs, hm, rfl⟩ := fit_object_ok C E o o' F y fuel h
  have hgf : o.groupsFor C F = gs := by
    unfold EstimatorObject.groupsFor
    rw [(history_groups C E _ o ho).1 gs hgs]
  rw [hgf] at hfs
  have hmg : m.features.map (fun f => f.group) = gs := by
    rw [fit_model_groups (C.setup fs) E (C.trainSet F y) fuel m hm]
    exact createFeatures_columns C.choice C.props gs fs hfs
  have hlast : (modelImportances F m).map (fun f => (f.1, binWeightedAverage f.2.1 f.2.2.1 f.2.2.2)) =
      m.features.map fun f => (f.group, meanContribution F f) := by
    unfold modelImportances
    rw [List.map_map]
    refine List.map_congr_left fun f hf => ?_
    have hfg : f.group ∈ gs := by rw [← hmg]; exact List.mem_map.mpr ⟨f, hf, rfl⟩
    obtain ⟨a, r, -, -, -, hmm⟩ := fit_ok (C.setup fs) E (C.trainSet F y) fuel m hm
    rw [hmm] at hf
    obtain ⟨j, sp, fac, -, -, rfl⟩ := fittedFeatures_get _ _ _ _ _ hf
    have := modelImportance_eq F sp (hg _ hfg) fac (fun c hc => hint c (hc ▸ hfg))
    exact congrArg (Prod.mk sp.group) this
  refine ⟨m, _, rfl, hmg, ?_, rfl, ?_⟩
  · rw [hb1]
    refine List.sum_nonneg fun v hv => ?_
    obtain ⟨e, he, rfl⟩ := List.mem_map.mp hv
    obtain ⟨b, hb, heb⟩ := List.mem_flatten.mp he
    exact hb3 b hb e heb
  · intro htot
    unfold EstimatorObject.getImportances setFeatureImportances
    dsimp only
    rw [hlast]
    have hsum : ((o.importances ++ m.features.map fun f => (f.group, meanContribution F f)).map Prod.snd).sum =
        (o.importances.map Prod.snd).sum + (m.features.map (meanContribution F)).sum := by
      rw [List.map_append, List.sum_append, List.map_map]
      rfl
    have hround : roundedNonzero ((o.importances.map Prod.snd).sum + (m.features.map (meanContribution F)).sum) = true := by
      unfold roundedNonzero
      rw [decide_eq_true_eq]
      exact lt_of_lt_of_le htot (le_abs_self _)
    have := getFeatureImportances_blocks gs hne hnames blocks (m.features.map fun f => (f.group, meanContribution F f)) hb2 (by
      rw [List.map_map]; exact hmg)
    rw [← hb1, hsum, hround] at this
    rw [this]
    simp only [if_true, List.map_map]
    rfl

/-- **C28, whole fits.** After the first successful fit the importances are the shares of the features in the total mean absolute
contribution, so they sum to 1. -/
theorem C28_fit (ho : NeverFitted C E o) :
    ∃ m, o'.status = .fitted m ∧ m.features.map (fun f => f.group) = gs ∧
      (1 / 2000000 < (m.features.map (meanContribution F)).sum →
        ∃ imp, o'.getImportances = .ok imp ∧ (imp.map Prod.snd).sum = 1 ∧ (∀ e ∈ imp, 0 ≤ e.2) ∧
          imp = m.features.map fun f => ("_".intercalate f.group,
            meanContribution F f / (m.features.map (meanContribution F)).sum)) := by
  have hh : History C E (fun _ => True) o := by
    clear h
    induction ho with
    | constructed o h => exact .constructed o h
    | fit o o' h F y fuel e hr ih => exact .fit o o' ih F trivial y fuel _ hr
  have hi : o.importances = [] := by
    clear h hh
    induction ho with
    | constructed o h => exact (construct_ok C o h).2.2.2
    | fit o o' h F y fuel e hr ih => rw [(fit_attributes C E o o' F y fuel _ hr).2 e rfl, ih]
  obtain ⟨m, past, h1, h2, -, h4, h5⟩ := C28_refit_values C E gs hgs hne hg hnames o o' F y fuel h hint hh
  rw [hi] at h4
  have hp : past = 0 := h4
  subst hp
  simp only [zero_add] at h5
  refine ⟨m, h1, h2, fun ht => ⟨_, h5 ht, ?_, ?_, rfl⟩⟩
  · have hpos : 0 < (m.features.map (meanContribution F)).sum := lt_trans (by norm_num) ht
    rw [List.map_map]
    have := sum_div (m.features.map (meanContribution F)) (m.features.map (meanContribution F)).sum
    rw [List.map_map] at this
    rw [div_self (ne_of_gt hpos)] at this
    exact this
  · intro e he
    obtain ⟨f, -, rfl⟩ := List.mem_map.mp he
    have hnn : ∀ f, 0 ≤ meanContribution F f := fun f =>
      div_nonneg (sum_nonneg fun _ _ => abs_nonneg _) (Nat.cast_nonneg _)
    refine div_nonneg (hnn f) (List.sum_nonneg fun v hv => ?_)
    obtain ⟨g, -, rfl⟩ := List.mem_map.mp hv
    exact hnn g

end

end

end CB
