import Verif.Lemmas.Predict
import Verif.Props.Link
import Mathlib.Analysis.SpecialFunctions.Pow.Real

set_option autoImplicit false
set_option linter.unusedSectionVars false

/-!
C19 (prediction on the training data), C24 (contributions), C25 (missing and unseen bins).
-/
namespace CB

open Spec

section
variable {K : Type*} [Field K] [LinearOrder K] [IsStrictOrderedRing K] [FloorRing K]

/-! ### C24 in link space -/

/-- Contribution of a feature to the prediction of sample `s`, if the feature is of the given type. -/
def contributionSum (external : Bool) (features : List (FittedFeature K)) (X : Table K) (s : ℕ) : K :=
  ((features.filter (fun f => f.external == external)).map (fun f => f.predict (X.row f.group s))).sum

theorem predictExtended_aux (features : List (FittedFeature K)) (X : Table K) (s : ℕ) (pred : Pred K) :
    let r := features.foldl (fun pred f =>
      let v : ℕ → K := fun s => f.predict (X.row f.group s)
      if f.external then { pred with exponents := fun s => pred.exponents s + v s }
      else { pred with factors := fun s => pred.factors s + v s }) pred
    r.factors s = pred.factors s + contributionSum false features X s ∧
      r.exponents s = pred.exponents s + contributionSum true features X s := by
  induction features generalizing pred with
  | nil => simp [contributionSum]
  | cons f fs ih =>
    simp only [List.foldl_cons]
    obtain ⟨h1, h2⟩ := ih (let v : ℕ → K := fun s => f.predict (X.row f.group s)
      if f.external then { pred with exponents := fun s => pred.exponents s + v s }
      else { pred with factors := fun s => pred.factors s + v s })
    simp only at h1 h2
    rw [h1, h2]
    unfold contributionSum
    cases he : f.external
    · simp [he]; ring
    · simp [he]; ring

/-- **C24**, in link space: the prediction is the prior prediction plus the sum of the contributions of the standard
features; the exponent is the sum of the contributions of the external features. -/
theorem C24_link_space (prior : ℕ → K) (features : List (FittedFeature K)) (X : Table K) (s : ℕ) :
    (predictExtended prior features X).factors s = prior s + contributionSum false features X s ∧
      (predictExtended prior features X).exponents s = contributionSum true features X s := by
  have := predictExtended_aux features X s ⟨prior, fun _ => 0⟩
  simp only [zero_add] at this
  exact this

/-! ### C19 -/

/-- On a sample of the training table, a fitted feature predicts the factor of the sample's bin, provided a feature of a
single column has an integer (or special) entry there. -/
theorem predict_train (X : Table K) (n : ℕ) (f : FeatureSpec) (hg : f.group ≠ []) (fac : ℕ → K) (s : ℕ) (hs : s < n)
    (hint : ∀ c, f.group = [c] → ∀ x : K, X s c = .fin x → ∃ k : ℤ, x = (k : K)) :
    (⟨f.group, f.external, (bindData X n f.group none).2, fac⟩ : FittedFeature K).predict (X.row f.group s)
      = fac ((f.cfg X n).bin s) := by
  have hcode := bindData_code X n f.group hg s hs
  have hbl := bindData_length X n f.group
  unfold FeatureSpec.cfg
  simp only
  rw [hcode]
  by_cases hf : finiteSemiPositive (X.row f.group s) = true
  · rw [if_pos hf]
    have hv := bindData_valid X n f.group hg s hs hf
    have hrl : (X.row f.group s).length = f.group.length := by simp [Table.row]
    by_cases h2 : 2 ≤ f.group.length
    · rw [predict_multi _ hbl h2 _ hrl hf, if_pos hv]
    · have hpos : 0 < f.group.length := List.length_pos_iff.mpr hg
      obtain ⟨c, hc⟩ := List.length_eq_one_iff.mp (show f.group.length = 1 by omega)
      obtain ⟨m, hm⟩ := List.length_eq_one_iff.mp (show (bindData X n f.group none).2.length = 1 by omega)
      have hrow : X.row f.group s = [X s c] := by rw [hc]; rfl
      rw [hrow] at hf hv ⊢
      obtain ⟨x, hx, hx0⟩ := (finiteSemiPositive_iff _).mp hf (X s c) (by simp)
      obtain ⟨k, hk⟩ := hint c hc x hx
      rw [hx] at hv ⊢
      rw [predict_one _ m hm (by simp [hc]) x hx0]
      rw [hm] at hv ⊢
      have hxm : x < (m : K) := by
        have := (validRow_iff [m] [Flt.fin x] rfl).mp hv 0 (by simp) (by simp)
        obtain ⟨y, hy, _, h3⟩ := this
        simp only [List.getElem_cons_zero, Flt.fin.injEq] at hy h3
        rw [hy]; exact h3
      rw [hk, rint_intCast]
      have hkm : k < (m : ℤ) := by
        rw [hk] at hxm
        exact_mod_cast hxm
      rw [if_pos hkm]
      simp [encode, floorComp]
  · rw [if_neg hf]
    unfold FittedFeature.predict
    rw [if_neg hf]
    rfl

theorem contributionSum_train (X : Table K) (n s : ℕ) (hs : s < n) (e : Bool) :
    ∀ (specs : List FeatureSpec) (factors : List (ℕ → K)), (∀ f ∈ specs, f.group ≠ []) →
      (∀ f ∈ specs, ∀ c, f.group = [c] → ∀ x : K, X s c = .fin x → ∃ k : ℤ, x = (k : K)) →
      contributionSum e (fittedFeatures X n specs factors) X s = factorSum e (specs.map (fun f => f.cfg X n)) factors s := by
  intro specs
  induction specs with
  | nil => intro factors _ _; simp [contributionSum, fittedFeatures, factorSum]
  | cons f specs ih =>
    intro factors hg hint
    cases factors with
    | nil => simp [contributionSum, fittedFeatures, factorSum]
    | cons fac factors =>
      have h1 := ih factors (fun f hf => hg f (by simp [hf])) (fun f hf => hint f (by simp [hf]))
      have h2 := predict_train X n f (hg f (by simp)) fac s hs (hint f (by simp))
      unfold contributionSum fittedFeatures factorSum at *
      simp only [List.zipWith_cons_cons, List.map_cons, List.zip_cons_cons, List.filter_cons]
      have he : (f.cfg X n).external = f.external := rfl
      rw [he]
      by_cases hfe : f.external = e
      · simp only [hfe, beq_self_eq_true, if_true, List.map_cons, List.sum_cons]
        rw [h1]
        subst hfe
        rw [h2]
      · have : (f.external == e) = false := by simpa using hfe
        simp only [this, Bool.false_eq_true, if_false]
        exact h1

/-- **C19.** After a successful fit in aggregate mode, on any table, with any features, oracle and prior prediction, `predict`
on the training table reproduces in link space exactly the in-sample prediction that `fit` computed. Needed: features
made of a single column hold integers or special values there (what `BinNumberTransformer` produces); see
`C19_fraction_counterexample` for why. -/
theorem C19_predict_train (p : Params K) (hp : p.aggregate = true) (o : Oracle K) (X : Table K) (n : ℕ)
    (specs : List FeatureSpec) (prior : ℕ → K) (fuel : ℕ) (r : FitResult K)
    (h : fitMain p o (specs.map (fun f => f.cfg X n)) prior fuel = some (.ok r)) (s : ℕ) (hs : s < n)
    (hg : ∀ f ∈ specs, f.group ≠ [])
    (hint : ∀ f ∈ specs, ∀ c, f.group = [c] → ∀ x : K, X s c = .fin x → ∃ k : ℤ, x = (k : K)) :
    (predictExtended prior (fittedFeatures X n specs r.factors) X).factors s = r.prediction.factors s ∧
      (predictExtended prior (fittedFeatures X n specs r.factors) X).exponents s = r.prediction.exponents s := by
  obtain ⟨h1, h2⟩ := C24_link_space prior (fittedFeatures X n specs r.factors) X s
  obtain ⟨h3, h4⟩ := C19_final_factors p hp o _ prior fuel r h s
  rw [h1, h2, h3, h4, contributionSum_train X n s hs false specs _ hg hint,
    contributionSum_train X n s hs true specs _ hg hint]
  exact ⟨rfl, rfl⟩

/-! ### C25 -/

/-- **C25**, missing: at prediction, a row with a missing, infinite or negative bin number contributes the factor of the
missing bin. -/
theorem C25_missing (f : FittedFeature K) (row : List (Flt K)) (h : ∃ b ∈ row, ∀ x : K, b = .fin x → x < 0) :
    f.predict row = f.factors f.nBins.prod := by
  unfold FittedFeature.predict
  have : finiteSemiPositive row ≠ true := by
    intro hf
    obtain ⟨b, hb, hx⟩ := h
    obtain ⟨x, hx1, hx2⟩ := (finiteSemiPositive_iff row).mp hf b hb
    exact absurd (hx x hx1) (not_lt.mpr hx2)
  rw [if_neg this]
  rfl

/-- **C25**, unseen: a row of usable bin numbers with one that is larger than all those of the training data contributes
the neutral factor. -/
theorem C25_unseen (f : FittedFeature K) (hpos : 1 ≤ f.group.length) (hlen : f.nBins.length = f.group.length)
    (row : List (Flt K)) (hr : row.length = f.group.length) (hfin : ∀ b ∈ row, ∃ x : K, b = .fin x ∧ 0 ≤ x)
    (i : ℕ) (h1 : i < row.length) (h2 : i < f.nBins.length) (x : K) (hx : row[i] = .fin x) (hge : (f.nBins[i] : K) ≤ x) :
    f.predict row = 0 := by
  have hf := (finiteSemiPositive_iff row).mpr hfin
  have hv : validRow f.nBins row = false := by
    rw [validRow_false_iff _ _ (by omega)]
    refine ⟨i, h1, h2, fun y hy => Or.inr ?_⟩
    rw [hx] at hy
    injection hy with hy
    rw [← hy]; exact hge
  by_cases hd : 2 ≤ f.group.length
  · rw [predict_multi f hlen hd row hr hf, if_neg (by rw [hv]; simp)]
  · obtain ⟨m, hm⟩ := List.length_eq_one_iff.mp (show f.nBins.length = 1 by omega)
    obtain ⟨b, hb⟩ := List.length_eq_one_iff.mp (show row.length = 1 by omega)
    have hi : i = 0 := by omega
    subst hi
    have hbx : b = .fin x := by rw [← hx]; simp [hb]
    have hmx : (m : K) ≤ x := by simpa [hm] using hge
    rw [hb, hbx, predict_one f m hm (by omega) x (by
      exact le_trans (Nat.cast_nonneg m) hmx)]
    have h3 : (m : ℤ) ≤ ⌊x⌋ := Int.le_floor.mpr (by exact_mod_cast hmx)
    have h4 := floor_le_rint x
    rw [if_neg (by omega)]

/-- **C25**, the seen range: usable rows of the training table are below the numbers of bins of the feature. With
`C25_range_attained` this says that "larger than all those of the training data" in `C25_unseen` means just that. -/
theorem C25_seen_range (X : Table K) (n : ℕ) (group : List String) (hg : group ≠ []) (s : ℕ) (hs : s < n)
    (hfin : ∀ b ∈ X.row group s, ∃ x : K, b = .fin x ∧ 0 ≤ x) (i : ℕ) (h1 : i < (X.row group s).length)
    (h2 : i < (bindData X n group none).2.length) :
    ∃ x : K, (X.row group s)[i] = .fin x ∧ x < ((bindData X n group none).2[i] : K) := by
  have hv := bindData_valid X n group hg s hs ((finiteSemiPositive_iff _).mpr hfin)
  rw [validRow_iff _ _ (by rw [bindData_length]; simp [Table.row])] at hv
  obtain ⟨x, hx, _, hlt⟩ := hv i h1 h2
  exact ⟨x, hx, hlt⟩

theorem natFoldlMax_mem (l : List ℕ) (a : ℕ) : l.foldl max a = a ∨ l.foldl max a ∈ l := by
  induction l generalizing a with
  | nil => simp
  | cons y l ih =>
    rw [List.foldl_cons]
    rcases ih (max a y) with h | h
    · rw [h]
      rcases max_choice a y with h' | h'
      · exact Or.inl h'
      · exact Or.inr (by rw [h']; simp)
    · exact Or.inr (by simp [h])

/-- **C25**, the seen range is tight: in every column, the largest bin number of the feature occurs in a usable row of the
training table, if there is a usable row at all. -/
theorem C25_range_attained (X : Table K) (n : ℕ) (group : List String)
    (hsome : ∃ s < n, ∀ b ∈ X.row group s, ∃ x : K, b = .fin x ∧ 0 ≤ x) (i : ℕ) (h1 : i < group.length)
    (h2 : i < (bindData X n group none).2.length) :
    ∃ s < n, (∀ b ∈ X.row group s, ∃ x : K, b = .fin x ∧ 0 ≤ x) ∧
      ∃ x : K, X s group[i] = .fin x ∧ ((bindData X n group none).2[i] : K) ≤ x + 1 := by
  set rows := (List.range n).map (X.row group) with hrows
  set fs := rows.filter finiteSemiPositive with hfs
  have hmem : ∀ r ∈ fs, ∃ s < n, r = X.row group s ∧ finiteSemiPositive r = true := by
    intro r hr
    rw [hfs, List.mem_filter, hrows, List.mem_map] at hr
    obtain ⟨⟨s, hs, rfl⟩, hf⟩ := hr
    exact ⟨s, List.mem_range.mp hs, rfl, hf⟩
  obtain ⟨s0, hs0, hfin0⟩ := hsome
  have hr0 : X.row group s0 ∈ fs := by
    rw [hfs, List.mem_filter, hrows, List.mem_map]
    exact ⟨⟨s0, List.mem_range.mpr hs0, rfl⟩, (finiteSemiPositive_iff _).mpr hfin0⟩
  have hval : inferBins group.length rows = maxPlusOne group.length fs := by
    unfold inferBins
    split
    · rename_i he; rw [hfs, he] at hr0; cases hr0
    · rfl
  have hni : (bindData X n group none).2[i] = (fs.map (fun r => floorComp (r.getD i .nan))).foldl max 0 + 1 := by
    have : (bindData X n group none).2 = inferBins group.length rows := rfl
    simp only [this, hval, maxPlusOne, List.getElem_map, List.getElem_range]
  -- a usable row that attains the maximum
  have hatt : ∃ r ∈ fs, (fs.map (fun r => floorComp (r.getD i .nan))).foldl max 0 ≤ floorComp (r.getD i .nan) := by
    rcases natFoldlMax_mem (fs.map (fun r => floorComp (r.getD i .nan))) 0 with h | h
    · exact ⟨_, hr0, by rw [h]; exact Nat.zero_le _⟩
    · rw [List.mem_map] at h
      obtain ⟨r, hr, he⟩ := h
      exact ⟨r, hr, le_of_eq he.symm⟩
  obtain ⟨r, hr, hle⟩ := hatt
  obtain ⟨s, hs, rfl, hf⟩ := hmem r hr
  have hfin := (finiteSemiPositive_iff _).mp hf
  refine ⟨s, hs, hfin, ?_⟩
  have hget : (X.row group s).getD i .nan = X s group[i] := by
    rw [List.getD_eq_getElem _ _ (by simpa [Table.row] using h1)]
    simp [Table.row]
  rw [hget] at hle
  obtain ⟨x, hx, hx0⟩ := hfin (X s group[i]) (by
    unfold Table.row
    exact List.mem_map.mpr ⟨group[i], List.getElem_mem h1, rfl⟩)
  refine ⟨x, hx, ?_⟩
  rw [hni, Nat.cast_add, Nat.cast_one]
  rw [hx] at hle
  have he : floorComp (Flt.fin x) = ⌊x⌋.toNat := rfl
  rw [he] at hle
  have h0 : 0 ≤ ⌊x⌋ := Int.floor_nonneg.mpr hx0
  have h3 : (((fs.map (fun r => floorComp (r.getD i .nan))).foldl max 0 : ℕ) : ℤ) ≤ ⌊x⌋ := by omega
  have h4 : (((fs.map (fun r => floorComp (r.getD i .nan))).foldl max 0 : ℕ) : K) ≤ x := by
    refine le_trans ?_ (Int.floor_le x)
    exact_mod_cast h3
  linarith

end

section
variable {K : Type*} [Field K] [LinearOrder K] [IsStrictOrderedRing K]

theorem clipTo_zero (lo hi : K) (h1 : lo ≤ 0) (h2 : 0 ≤ hi) : clipTo 0 lo hi = 0 := by
  unfold clipTo
  rw [max_eq_left h1, min_eq_left h2]

/-- Invariant of a feature with MISSING_NOT_LEARNED. -/
theorem featureIteration_missing (p : Params K) (o : Oracle K) (it i : ℕ) (cfg : FeatureCfg) (dv : ℕ) (isd : Bool)
    (il : Flt K) (fs : FState K) (pred : Pred K) (hc : p.consts.Ok) (hm : cfg.missingNotLearned = true)
    (hcal : ∀ it i (fs : FState K), fs.factors cfg.nFinite = 0 → o.calibrate it i fs cfg.nFinite = 0)
    (hd : p.clip = true → p.aggregate = true → isd = false) (hst : stored fs cfg.nFinite = 0) :
    (featureIteration p o it i cfg dv isd il fs pred).1.factors cfg.nFinite = 0 ∧
      stored (featureIteration p o it i cfg dv isd il fs pred).1 cfg.nFinite = 0 := by
  unfold featureIteration
  simp only
  set pred1 := if p.aggregate then pred else pred.remove cfg (predInSample cfg fs) with hpred1
  set u := o.estimate it i pred1 fs with hu
  set f1 := updateFactors cfg fs u (o.learnRate (it + 1)) with hf1
  set f2 : FState K := { f1 with factors := predictFactors cfg f1 (o.smooth it i pred1 f1 u) (o.learnRate (it + 1)) } with hf2
  have hz2 : f2.factors cfg.nFinite = 0 := by
    rw [hf2, hf1]
    simp [predictFactors, updateFactors, hm]
  set f3 : FState K := { f2 with factors := o.calibrate it i f2 } with hf3
  have hz3 : f3.factors cfg.nFinite = 0 := hcal it i f2 hz2
  have hs3 : stored f3 cfg.nFinite = 0 := by rw [← hst]; rfl
  clear_value f3
  clear hf3 hz2 hf2
  have key : ∀ g : FState K, g.factors cfg.nFinite = 0 → stored g cfg.nFinite = 0 →
      stored ({ g with agg := some (match g.isFitted, p.aggregate, g.agg with
        | true, true, some agg => fun b => agg b + g.factors b
        | _, _, _ => g.factors), isFitted := true } : FState K) cfg.nFinite = 0 := by
    intro g h1 h2
    unfold stored at h2 ⊢
    simp only
    cases g.isFitted <;> cases p.aggregate <;> cases ha : g.agg <;> simp_all
  unfold visitFactors
  by_cases hca : (p.clip && p.aggregate) = true
  · have hisd : isd = false := by
      rw [Bool.and_eq_true] at hca
      exact hd hca.1 hca.2
    subst hisd
    have hcl : clipUpdate p.consts cfg f3 cfg.nFinite = 0 := by
      have h0 : clipTo (f3.factors cfg.nFinite) p.consts.logHalf p.consts.logTwo = 0 := by
        rw [hz3]; exact clipTo_zero _ _ hc.half hc.two
      unfold clipUpdate
      cases hf : f3.isFitted with
      | false => exact h0
      | true =>
        cases ha : f3.agg with
        | none => exact h0
        | some agg =>
          simp only
          rw [h0]
          have : agg cfg.nFinite = 0 := by
            unfold stored at hs3; rw [ha] at hs3; exact hs3
          rw [this, sub_zero, sub_zero]
          exact clipTo_zero _ _ (le_trans (hc.min_le _ _) hc.half) (le_trans hc.two (hc.le_max _ _))
    simp only [hca, if_true, Bool.false_eq_true, if_false]
    exact ⟨hcl, key { f3 with factors := clipUpdate p.consts cfg f3 } hcl (by rw [← hs3]; rfl)⟩
  · simp only [hca, Bool.false_eq_true, if_false]
    exact ⟨hz3, key f3 hz3 hs3⟩

/-- **C25**, MISSING_NOT_LEARNED: in every training history the stored factor of the missing bin of such a feature is neutral.
For log-link models in aggregate mode the history must not contain a diverged iteration, see
`C25_divergence_counterexample`; `calibrate_to_weighted_mean` must not touch the missing bin (it is the identity except in
the location regressors). -/
theorem C25_missing_not_learned (p : Params K) (hc : p.consts.Ok) (o : Oracle K) (cfgs : List FeatureCfg)
    (prior : ℕ → K) (past : List (TState K)) (s : TState K) (h : Trace p o cfgs (startState o cfgs prior) past s)
    (hnd : p.clip = true → p.aggregate = true → s.diverging = 0) (j : ℕ) (cfg : FeatureCfg) (hj : cfgs[j]? = some cfg)
    (hm : cfg.missingNotLearned = true)
    (hcal : ∀ it i (fs : FState K), fs.factors cfg.nFinite = 0 → o.calibrate it i fs cfg.nFinite = 0) :
    ∃ fs, s.feats[j]? = some fs ∧ stored fs cfg.nFinite = 0 := by
  have hflag : ∀ (past : List (TState K)) (s : TState K), Trace p o cfgs (startState o cfgs prior) past s →
      s.diverging = 0 → s.isDiverging = false := by
    intro past s h hnd
    cases h with
    | start => rfl
    | step ht hc' hit =>
      obtain ⟨_, _, _, _, hcc, _⟩ := iterate_ok p o cfgs _ _ hit
      obtain ⟨_, h2, _⟩ := checkConvergence_ok _ _ _ _ _ hcc
      cases hd : s.isDiverging with
      | false => rfl
      | true => rw [hd] at h2; simp only [if_true] at h2; omega
  suffices hsuf : ∃ fs, s.feats[j]? = some fs ∧ fs.factors cfg.nFinite = 0 ∧ stored fs cfg.nFinite = 0 by
    obtain ⟨fs, h1, _, h2⟩ := hsuf
    exact ⟨fs, h1, h2⟩
  induction h with
  | start =>
    refine ⟨FState.init, ?_, rfl, rfl⟩
    unfold startState
    simp only [List.getElem?_map, hj, Option.map_some]
  | @step past s s' ht hc' hit ih =>
    obtain ⟨feats, pred, r, hfp, hcc, hr, hf, _⟩ := iterate_ok p o cfgs _ _ hit
    obtain ⟨_, h2, _⟩ := checkConvergence_ok _ _ _ _ _ hcc
    have hdv : p.clip = true → p.aggregate = true → s.diverging = 0 := by
      intro a b
      have := hnd a b
      split at h2 <;> omega
    obtain ⟨fs, hfs, hz, hst⟩ := ih hdv
    have hw := trace_WF p o cfgs prior past s ht
    obtain ⟨fs', fs0, pred', h1, h3, h4⟩ :=
      featurePass_get p o s.iteration s.diverging s.isDiverging s.initialLoss cfgs 0 s.feats s.pred j cfg fs hj hfs
    have hz0 : fs0.factors cfg.nFinite = 0 ∧ stored fs0 cfg.nFinite = 0 := by
      rw [h3]
      split
      · exact ⟨rfl, hst⟩
      · exact ⟨hz, hst⟩
    have hfin : fs'.factors cfg.nFinite = 0 ∧ stored fs' cfg.nFinite = 0 := by
      rcases h4 with ⟨_, h4⟩ | ⟨_, h4⟩
      · rw [h4]; exact ⟨hz0.1, hz0.2⟩
      · rw [h4]
        exact featureIteration_missing p o _ _ cfg _ _ _ fs0 pred' hc hm hcal
          (fun a b => hflag _ _ ht (hdv a b)) hz0.2
    rw [hfp] at h1
    split at hr
    · have hlen : feats.length = cfgs.length := by
        have := featurePass_length p o s.iteration s.diverging s.isDiverging s.initialLoss cfgs 0 s.feats s.pred hw.1
        rw [hfp] at this; exact this
      obtain ⟨_, hget⟩ := removePreds_get cfgs feats pred r hr hlen.symm
      obtain ⟨agg, ha, hb⟩ := hget j fs' h1
      refine ⟨{ fs' with agg := some (fun b => agg b - fs'.factors b) }, by rw [hf]; exact hb, hfin.1, ?_⟩
      have h5 := hfin.2
      unfold stored at h5 ⊢
      rw [ha] at h5
      simp only at h5 ⊢
      rw [h5, hfin.1, sub_zero]
    · injection hr with hr
      exact ⟨fs', by rw [hf, ← hr]; exact h1, hfin⟩

end

/-! ### C24 with link functions -/

/-- Key of a feature in the dictionary returned by `get_feature_contributions`, `base.py` lines 1011-1013. -/
def contributionKey (group : List String) (external : Bool) : String :=
  " ".intercalate group ++ (if external then "_external" else "")

/-- `get_feature_contributions`, `base.py` lines 990-1015, for one sample: a dictionary; a later feature with the same key
overwrites an earlier one. -/
noncomputable def featureContributions (L : Link) (features : List (FittedFeature ℝ)) (X : Table ℝ) (s : ℕ) :
    String → Option ℝ :=
  features.foldl (fun dict f => fun k =>
    if k = contributionKey f.group f.external then some (L.unlink (f.predict (X.row f.group s))) else dict k)
    (fun _ => none)

/-- `predict` for one sample, `base.py` lines 839-841: the mean function of the link-space prediction. -/
noncomputable def predictMean (L : Link) (prior : ℕ → ℝ) (features : List (FittedFeature ℝ)) (X : Table ℝ) (s : ℕ) : ℝ :=
  L.unlink ((predictExtended prior features X).factors s)

theorem featureContributions_get (L : Link) (X : Table ℝ) (s : ℕ) :
    ∀ (features : List (FittedFeature ℝ)) (dict : String → Option ℝ),
      (features.map (fun f => contributionKey f.group f.external)).Nodup →
      ∀ k, (features.foldl (fun dict f => fun k =>
          if k = contributionKey f.group f.external then some (L.unlink (f.predict (X.row f.group s))) else dict k)
          dict) k =
        match features.find? (fun f => contributionKey f.group f.external = k) with
        | some f => some (L.unlink (f.predict (X.row f.group s)))
        | none => dict k := by
  intro features
  induction features with
  | nil => intro dict _ k; rfl
  | cons f fs ih =>
    intro dict hnd k
    rw [List.map_cons, List.nodup_cons] at hnd
    rw [List.foldl_cons, ih _ hnd.2 k, List.find?_cons]
    by_cases hk : contributionKey f.group f.external = k
    · simp only [hk, decide_true]
      have : fs.find? (fun f => contributionKey f.group f.external = k) = none := by
        rw [List.find?_eq_none]
        intro g hg hc
        apply hnd.1
        rw [hk]
        rw [decide_eq_true_eq] at hc
        rw [← hc]
        exact List.mem_map.mpr ⟨g, hg, rfl⟩
      rw [this]
      simp
    · have hk' : ¬ k = contributionKey f.group f.external := fun h => hk h.symm
      simp only [hk, decide_false, hk', if_false]

theorem featureContributions_mem (L : Link) (features : List (FittedFeature ℝ)) (X : Table ℝ) (s : ℕ)
    (hnd : (features.map (fun f => contributionKey f.group f.external)).Nodup) (f : FittedFeature ℝ) (hf : f ∈ features) :
    featureContributions L features X s (contributionKey f.group f.external)
      = some (L.unlink (f.predict (X.row f.group s))) := by
  unfold featureContributions
  rw [featureContributions_get L X s features _ hnd]
  have : features.find? (fun g => contributionKey g.group g.external = contributionKey f.group f.external) = some f := by
    induction features with
    | nil => cases hf
    | cons g gs ih =>
      rw [List.map_cons, List.nodup_cons] at hnd
      rw [List.find?_cons]
      rcases List.mem_cons.mp hf with rfl | hf'
      · simp
      · have hne : contributionKey g.group g.external ≠ contributionKey f.group f.external := by
          intro hc
          apply hnd.1
          rw [hc]
          exact List.mem_map.mpr ⟨f, hf', rfl⟩
        simp only [hne, decide_false]
        exact ih hnd.2 hf'
  rw [this]

/-- **C24.** For a model of standard features and a link function whose `link` undoes `unlink` (all three do, C16): if the
features have different keys, `get_feature_contributions` has an entry for each of them and `link` of the prediction is the
prior prediction plus the sum of `link` of the contributions. -/
theorem C24_decomposition (L : Link) (hL : ∀ l, L.link (L.unlink l) = l) (prior : ℕ → ℝ) (features : List (FittedFeature ℝ))
    (X : Table ℝ) (s : ℕ) (hstd : ∀ f ∈ features, f.external = false)
    (hnd : (features.map (fun f => contributionKey f.group f.external)).Nodup) :
    (∀ f ∈ features, (featureContributions L features X s (contributionKey f.group f.external)).isSome) ∧
      L.link (predictMean L prior features X s) = prior s +
        (features.map (fun f =>
          L.link ((featureContributions L features X s (contributionKey f.group f.external)).getD 0))).sum := by
  refine ⟨fun f hf => by rw [featureContributions_mem L features X s hnd f hf]; rfl, ?_⟩
  unfold predictMean
  rw [hL, (C24_link_space prior features X s).1]
  congr 1
  unfold contributionSum
  have hfil : features.filter (fun f => f.external == false) = features := by
    rw [List.filter_eq_self]
    intro f hf
    rw [hstd f hf]; rfl
  rw [hfil]
  congr 1
  apply List.map_congr_left
  intro f hf
  rw [featureContributions_mem L features X s hnd f hf, Option.getD_some, hL]

/-- **C24**, multiplicative models: the prediction is the prior prediction times the product of the contributions. -/
theorem C24_multiplicative (prior : ℕ → ℝ) (features : List (FittedFeature ℝ)) (X : Table ℝ) (s : ℕ)
    (hstd : ∀ f ∈ features, f.external = false)
    (hnd : (features.map (fun f => contributionKey f.group f.external)).Nodup) :
    predictMean logLink prior features X s = Real.exp (prior s) *
      (features.map (fun f =>
        (featureContributions logLink features X s (contributionKey f.group f.external)).getD 1)).prod := by
  unfold predictMean
  rw [(C24_link_space prior features X s).1]
  change Real.exp _ = _
  rw [Real.exp_add]
  congr 1
  unfold contributionSum
  have hfil : features.filter (fun f => f.external == false) = features := by
    rw [List.filter_eq_self]
    intro f hf
    rw [hstd f hf]; rfl
  rw [hfil]
  have hmap : features.map (fun f =>
      (featureContributions logLink features X s (contributionKey f.group f.external)).getD 1)
      = features.map (fun f => Real.exp (f.predict (X.row f.group s))) := by
    apply List.map_congr_left
    intro f hf
    rw [featureContributions_mem logLink features X s hnd f hf, Option.getD_some]
    rfl
  rw [hmap]
  clear hmap hfil hnd hstd
  induction features with
  | nil => simp
  | cons f fs ih => rw [List.map_cons, List.sum_cons, Real.exp_add, List.map_cons, List.prod_cons, ih]

/-- **C24**: the keys can collide. The features ("a b",) and ("a", "b") share one entry, so the dictionary misses the
contribution of the first one and the claimed decomposition is false. -/
theorem C24_key_collision :
    ∃ (prior : ℕ → ℝ) (features : List (FittedFeature ℝ)) (X : Table ℝ),
      predictMean logLink prior features X 0 ≠ Real.exp (prior 0) *
        (features.map (fun f =>
          (featureContributions logLink features X 0 (contributionKey f.group f.external)).getD 1)).prod := by
  refine ⟨fun _ => 0, [⟨["a b"], false, [1], fun _ => 1⟩, ⟨["a", "b"], false, [1, 1], fun _ => 0⟩], fun _ _ => .nan, ?_⟩
  unfold predictMean
  rw [(C24_link_space _ _ _ _).1]
  have hfs : finiteSemiPositive (Table.row (fun _ _ => (Flt.nan : Flt ℝ)) ["a b"] 0) = false := rfl
  have hfs2 : finiteSemiPositive (Table.row (fun _ _ => (Flt.nan : Flt ℝ)) ["a", "b"] 0) = false := rfl
  have hk : contributionKey ["a b"] false = contributionKey ["a", "b"] false := by decide
  simp [contributionSum, FittedFeature.predict, hfs, hfs2, featureContributions, hk, logLink]

/-! ### C24 for the exponent model -/

/-- `CBLinkPredictions.predict_link`, `price.py` lines 461-469, for one sample. -/
noncomputable def pricePredictLink (priorExponents base : ℕ → ℝ) (pred : Pred ℝ) (s : ℕ) : ℝ :=
  pred.factors s + priorExponents s * Real.exp (pred.exponents s) * base s

/-- **C24** for models with an external column: the prediction is the prior times the product of the factors of the standard
features times `base` (in link space) to the prior exponent times the factors of the external features. -/
theorem C24_exponent_model (prior priorExponents base : ℕ → ℝ) (features : List (FittedFeature ℝ)) (X : Table ℝ) (s : ℕ) :
    logLink.unlink (pricePredictLink priorExponents base (predictExtended prior features X) s) =
      Real.exp (prior s) * Real.exp (contributionSum false features X s) *
        (Real.exp (base s)) ^ (priorExponents s * Real.exp (contributionSum true features X s)) := by
  obtain ⟨h1, h2⟩ := C24_link_space prior features X s
  unfold pricePredictLink
  rw [h1, h2]
  change Real.exp _ = _
  rw [← Real.exp_mul, ← Real.exp_add, ← Real.exp_add]
  congr 1
  ring

/-! ### Witnesses and counterexamples -/

/-- A training table of four samples: column "a" with integer bin numbers and a missing value, "b" with a fraction. -/
def toyTable : Table ℚ := fun s c =>
  if c = "a" then (if s = 0 then .fin 0 else if s = 1 then .fin 1 else if s = 2 then .nan else .fin 2)
  else (if s = 0 then .fin (3/5) else .fin 1)

/-- Witness for C19: a fit with the features ("a",) and ("a", "b") that succeeds, and its prediction on the training table. -/
example :
    let specs : List FeatureSpec := [⟨["a"], false, false⟩, ⟨["a", "b"], false, true⟩]
    (fitMain (toyParams true none) (toyOracle (fun it => 1 / (it + 1)) (fun _ => .fin 1))
      (specs.map (fun f => f.cfg toyTable 4)) (fun _ => 1/2) 7).map
      (fun r => r.toOption.map (fun r => (List.range 4).map (fun s =>
        (r.prediction.factors s, (predictExtended (fun _ => 1/2) (fittedFeatures toyTable 4 specs r.factors) toyTable).factors s))))
    = some (some [(19/10, 19/10), (19/10, 19/10), (6/5, 6/5), (19/10, 19/10)]) := by decide +kernel

/-- **C19** is false for a feature of a single column with fractional bin numbers: training puts 3/5 into bin 0 (floor),
prediction looks it up in bin 1 (`np.rint`). The fit succeeds, but `predict` on the training table differs from the
in-sample prediction. -/
theorem C19_fraction_counterexample :
    ∃ (o : Oracle ℚ) (X : Table ℚ) (specs : List FeatureSpec) (r : FitResult ℚ),
      fitMain (toyParams true none) o (specs.map (fun f => f.cfg X 2)) (fun _ => 0) 7 = some (.ok r) ∧
      (predictExtended (fun _ => 0) (fittedFeatures X 2 specs r.factors) X).factors 0 ≠ r.prediction.factors 0 := by
  have h : ∃ r, fitMain (toyParams true none) (toyOracle (fun it => if it = 0 then -1/2 else 0) (fun _ => .fin 1))
      ([⟨["b"], false, false⟩].map (fun f : FeatureSpec => f.cfg toyTable 2)) (fun _ => 0) 7 = some (.ok r) ∧
      (predictExtended (fun _ => 0) (fittedFeatures toyTable 2 [⟨["b"], false, false⟩] r.factors) toyTable).factors 0
        ≠ r.prediction.factors 0 := by
    have hd : ((fitMain (toyParams true none) (toyOracle (fun it => if it = 0 then -1/2 else 0) (fun _ => .fin 1))
      ([⟨["b"], false, false⟩].map (fun f : FeatureSpec => f.cfg toyTable 2)) (fun _ => 0) 7).map
      (fun r => r.toOption.map (fun r =>
        decide ((predictExtended (fun _ => 0) (fittedFeatures toyTable 2 [⟨["b"], false, false⟩] r.factors) toyTable).factors 0
        ≠ r.prediction.factors 0)))) = some (some true) := by decide +kernel
    revert hd
    generalize fitMain (toyParams true none) (toyOracle (fun it => if it = 0 then -1/2 else 0) (fun _ => .fin 1))
      ([⟨["b"], false, false⟩].map (fun f : FeatureSpec => f.cfg toyTable 2)) (fun _ => 0) 7 = res
    intro hd
    match res, hd with
    | some (.ok r), hd =>
      refine ⟨r, rfl, ?_⟩
      simpa [Except.toOption] using hd
  obtain ⟨r, h1, h2⟩ := h
  exact ⟨_, _, _, r, h1, h2⟩

/-- Witness for C25: a fitted two-column feature at a missing, an unseen and a seen row. -/
example :
    let f : FittedFeature ℚ := ⟨["a", "b"], false, [3, 2], fun b => b + 10⟩
    (f.predict [.nan, .fin 1], f.predict [.fin 3, .fin 0], f.predict [.fin 2, .fin (1/2)], f.predict [.fin (-1), .fin 9])
      = (16, 0, 14, 16) := by decide +kernel

/-- Witness for C25 with MISSING_NOT_LEARNED: in a run without divergence the missing bin of the second toy feature stays
neutral while its other bin is learned. -/
example : (runN (toyParams true none) (toyOracle (fun _ => 1/4) (fun _ => .fin 1)) toyFeatures 1
      (startState (toyOracle (fun _ => 1/4) (fun _ => .fin 1)) toyFeatures (fun _ => 1/2))).map
      (fun s => (s.diverging, s.feats.map (fun fs => (stored fs 0, stored fs 1))))
      = some (0, [(1/4, 7/10), (7/10, 0)]) := by decide +kernel

/-- A loss that is large when the prediction of sample 2 is between 1/2 and 2. -/
def bumpLoss (pred : Pred ℚ) : Flt ℚ := if 1/2 < pred.factors 2 ∧ pred.factors 2 < 2 then .fin 10 else .fin 1

/-- **C25** is false for histories with divergence: the feature "b" of `toyFeatures` has MISSING_NOT_LEARNED and its missing
bin has number 1, but after a diverged iteration the clip around the unsmoothed estimate moves its factor away from the
neutral one. -/
theorem C25_divergence_counterexample :
    ∃ (o : Oracle ℚ) (prior : ℕ → ℚ) (past : List (TState ℚ)) (s : TState ℚ) (fs : FState ℚ),
      Trace (toyParams true none) o toyFeatures (startState o toyFeatures prior) past s ∧
        (∀ it i (fs : FState ℚ), o.calibrate it i fs = fs.factors) ∧
        s.feats[1]? = some fs ∧ stored fs 1 ≠ 0 := by
  have h : ∃ s, runN (toyParams true none) (toyOracle (fun _ => 1) bumpLoss)
      toyFeatures 2 (startState (toyOracle (fun _ => 1) bumpLoss)
        toyFeatures (fun _ => 0)) = some s ∧ (s.feats[1]?.map (fun fs => decide (stored fs 1 ≠ 0))) = some true := by
    have hd : (runN (toyParams true none) (toyOracle (fun _ => 1) bumpLoss)
      toyFeatures 2 (startState (toyOracle (fun _ => 1) bumpLoss)
        toyFeatures (fun _ => 0))).map (fun s => s.feats[1]?.map (fun fs => decide (stored fs 1 ≠ 0)))
        = some (some true) := by decide +kernel
    rw [Option.map_eq_some_iff] at hd
    obtain ⟨s, h1, h2⟩ := hd
    exact ⟨s, h1, h2⟩
  obtain ⟨s, h1, h2⟩ := h
  obtain ⟨past, ht, _⟩ := runN_trace _ _ _ _ _ _ h1
  rw [Option.map_eq_some_iff] at h2
  obtain ⟨fs, h3, h4⟩ := h2
  exact ⟨_, _, past, s, fs, ht, fun _ _ _ => rfl, h3, by simpa using h4⟩

end CB
