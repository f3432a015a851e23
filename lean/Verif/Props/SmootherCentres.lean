import Verif.Props.LossDescent
import Verif.Props.UnseenBins
import Verif.Props.Regularize
import Verif.Model.BinSmoothers

/-!
# What the smoothers of the package return at bin centres

Bin values are kept (no smoothing) or moved towards the neutral factor (weighted mean), so that C80 applies to them.
-/

set_option autoImplicit false
set_option linter.unusedSectionVars false

namespace CB
open Finset Spec

section
variable {K : Type*} [Field K] [LinearOrder K] [IsStrictOrderedRing K] [FloorRing K]

/-- The bin centres as rows for `predict`. -/
theorem centreRows_getElem? (ns : List ℕ) (b : ℕ) (hb : b < ns.prod) :
    ((arangeMulti ns).map fun c => c.map fun (i : ℕ) => Flt.fin (i : K))[b]?
      = some ((digits ns b).map fun (i : ℕ) => Flt.fin (i : K)) := by
  rw [List.getElem?_map, arangeMulti_getElem? ns b hb]; rfl

theorem centreRows_none (ns : List ℕ) (b : ℕ) (hb : ¬ b < ns.prod) :
    ((arangeMulti ns).map fun c => c.map fun (i : ℕ) => Flt.fin (i : K))[b]? = none := by
  rw [List.getElem?_eq_none]
  rw [List.length_map, (C12_inverse (K := ℚ) ns).1]
  omega

theorem digits_one (n b : ℕ) (hb : b < n) : digits [n] b = [b] := by simp [digits, Nat.mod_eq_of_lt hb]

/-- Looking up a bin centre in one dimension. -/
theorem lookupOneDim_centre (v : List (Flt K)) (b : ℕ) : lookupOneDim v [Flt.fin (b : K)] = v.getD b .nan := by
  have hr : rint (b : K) = (b : ℤ) := by exact_mod_cast rint_intCast (K := K) (b : ℤ)
  simp only [lookupOneDim, List.headD_cons, hr, Nat.cast_nonneg, true_and, Nat.cast_lt, Int.toNat_natCast]
  split_ifs with h
  · rfl
  · rw [List.getD_eq_getElem?_getD, List.getElem?_eq_none (not_lt.mp h)]; rfl

/-- Looking up a bin centre in several dimensions. -/
theorem lookupMultiDim_centre (ns : List ℕ) (v : List (Flt K)) (b : ℕ) (hb : b < ns.prod) :
    lookupMultiDim ns v ((digits ns b).map fun (i : ℕ) => Flt.fin (i : K)) = v.getD b .nan := by
  have ht : Spec.IsBinTuple ns (digits ns b) := digits_valid ns b (by omega)
  have hcell : Spec.InCell ((digits ns b).map fun (i : ℕ) => (i : K)) (digits ns b) := by
    refine ⟨by simp, fun i h h' => ?_⟩
    rw [List.getElem_map]
    exact ⟨le_rfl, by linarith⟩
  obtain ⟨h1, h2⟩ := validRow_cell ns _ _ ht hcell
  have e : ((digits ns b).map fun (i : ℕ) => (i : K)).map Flt.fin = (digits ns b).map fun (i : ℕ) => Flt.fin (i : K) := by
    rw [List.map_map]; rfl
  rw [e] at h1 h2
  unfold lookupMultiDim
  rw [validFloor_all, h1, if_pos rfl, dotRow_eq _ _ (by rw [List.length_map, ht.1]), h2, encode_digits, Nat.mod_eq_of_lt hb]

/-- The cut of a regression type only removes values. -/
theorem applyCut_getElem? (t : RegType) (info : BinInfo K) (rows : List (List (Flt K))) (sm out : List (Flt K))
    (h : applyCut t info rows sm = some out) (b : ℕ) (v : K) (hv : out[b]? = some (.fin v)) : sm[b]? = some (.fin v) := by
  have hcut : ∀ sel : List Bool, (List.zipWith (fun (s : Bool) v => if s = true then Flt.nan else v) sel sm)[b]? = some (.fin v) →
      sm[b]? = some (.fin v) := by
    intro sel hs
    rw [List.getElem?_zipWith] at hs
    cases h1 : sel[b]? with
    | none => rw [h1] at hs; simp at hs
    | some s =>
      cases h2 : sm[b]? with
      | none => rw [h1, h2] at hs; simp at hs
      | some a => rw [h1, h2] at hs; cases s <;> simp_all
  cases t with
  | discontinuous =>
    simp only [applyCut, Option.map_eq_some_iff] at h
    obtain ⟨sel, -, rfl⟩ := h
    exact hcut sel hv
  | interpolating =>
    simp only [applyCut, Option.some.injEq] at h
    subst h
    exact hcut _ hv
  | extrapolating =>
    simp only [applyCut, Option.some.injEq] at h
    subst h
    exact hv

theorem addFin_fin (a : Flt K) (c v : K) (h : a.addFin c = .fin v) : a = .fin (v - c) := by
  cases a <;> simp_all [Flt.addFin, eq_sub_iff_add_eq]

/-- What a wrapped smoother gives at bin centres in terms of the smoother itself: the bin values minus a constant go in, and
the constant is added to what comes out. Without normalization the constant is 0. -/
theorem meta_centre {σ : Type*} (base : SmootherKind → Smoother K σ) (s : SmootherKind)
    (hs : ∀ X y rows, kindPredict base s X y rows = some ((base s).predict ((base s).fit X y) rows))
    (useNorm : Bool) (t : Option RegType) (ns : List ℕ) (w u v : ℕ → K) (b : ℕ) (x : K)
    (h : smoothAtCentres base (metaSmoother s useNorm t) ns w u v b = some x) :
    ∃ c : K, (useNorm = false → c = 0) ∧
      ((base s).predict ((base s).fit (smootherTable ns w u) ((List.range ns.prod).map fun i => v i - c))
        ((arangeMulti ns).map fun c => c.map fun (i : ℕ) => Flt.fin (i : K)))[b]? = some (.fin (x - c)) := by
  unfold smoothAtCentres at h
  have h0 : ((List.range ns.prod).map fun i => v i - 0) = (List.range ns.prod).map v := by simp
  have hsub : ∀ c : K, (((List.range ns.prod).map v).map fun a => a - c) = (List.range ns.prod).map fun i => v i - c := by
    intro c; rw [List.map_map]; rfl
  have key : ∀ l : List (Flt K), (match l[b]? with | some (.fin v) => some v | _ => none) = some x → l[b]? = some (.fin x) := by
    intro l hl
    split at hl
    · rename_i hh; rw [hh]; simp only [Option.some.injEq] at hl; rw [hl]
    · cases hl
  cases hk : kindPredict base (metaSmoother s useNorm t) (smootherTable ns w u) ((List.range ns.prod).map v)
      ((arangeMulti ns).map fun c => c.map fun (i : ℕ) => Flt.fin (i : K)) with
  | none => rw [hk] at h; cases h
  | some l =>
    rw [hk] at h
    have hl := key l h
    cases useNorm with
    | false =>
      refine ⟨0, fun _ => rfl, ?_⟩
      rw [h0, sub_zero]
      cases t with
      | none =>
        simp only [metaSmoother] at hk
        rw [hs, Option.some.injEq] at hk
        rw [hk]; exact hl
      | some t =>
        simp only [metaSmoother, kindPredict, regTypePredict, regTypeFit] at hk
        exact applyCut_getElem? t _ _ _ _ hk b x hl
    | true =>
      refine ⟨calcNorm (smootherTable ns w u) ((List.range ns.prod).map v), (fun h => nomatch h), ?_⟩
      rw [← hsub]
      have hadd : ∀ (sm : List (Flt K)) (c : K), (sm.map fun a => a.addFin c)[b]? = some (.fin x) → sm[b]? = some (.fin (x - c)) := by
        intro sm c hm
        rw [List.getElem?_map] at hm
        cases ha : sm[b]? with
        | none => rw [ha] at hm; simp at hm
        | some a =>
          rw [ha] at hm
          simp only [Option.map_some, Option.some.injEq] at hm
          rw [addFin_fin _ _ _ hm]
      cases t with
      | none =>
        simp only [metaSmoother, kindPredict, normalizationSmoother, Option.some.injEq] at hk
        subst hk
        exact hadd _ _ hl
      | some t =>
        simp only [metaSmoother, kindPredict, normRegTypePredict, normRegTypeFit] at hk
        exact hadd _ _ (applyCut_getElem? t _ _ _ _ hk b x hl)

theorem getD_range_map {α : Type*} (n : ℕ) (f : ℕ → α) (d : α) (b : ℕ) (hb : b < n) : ((List.range n).map f).getD b d = f b := by
  rw [List.getD_eq_getElem?_getD, List.getElem?_map, List.getElem?_range hb]; rfl

/-- The bin values smoother returns the value of a bin at its centre. -/
theorem binValues1_centre (n : ℕ) (w u v : ℕ → K) (b : ℕ) (x : K)
    (h : (binValues1.predict (binValues1.fit (smootherTable [n] w u) ((List.range n).map v))
        ((arangeMulti [n]).map fun c => c.map fun (i : ℕ) => Flt.fin (i : K)))[b]? = some (.fin x)) : x = v b := by
  by_cases hb : b < n
  · simp only [binValues1] at h
    rw [List.getElem?_map, centreRows_getElem? [n] b (by simpa using hb), digits_one n b hb] at h
    simp only [List.map_cons, List.map_nil, Option.map_some, Option.some.injEq] at h
    have hr : rint (b : K) = (b : ℤ) := by exact_mod_cast rint_intCast (K := K) (b : ℤ)
    simp only [predictOneDim, List.length_map, List.length_range] at h
    simp [hr, hb, ofLookup] at h
    exact h.symm
  · simp only [binValues1] at h
    rw [List.getElem?_map, centreRows_none [n] b (by simpa using hb)] at h
    simp at h

theorem binValuesMulti_centre (ns : List ℕ) (w u v : ℕ → K) (b : ℕ) (x : K)
    (h : (binValuesMulti.predict (binValuesMulti.fit (smootherTable ns w u) ((List.range ns.prod).map v))
        ((arangeMulti ns).map fun c => c.map fun (i : ℕ) => Flt.fin (i : K)))[b]? = some (.fin x)) : x = v b := by
  by_cases hb : b < ns.prod
  · have ht : Spec.IsBinTuple ns (digits ns b) := digits_valid ns b (by omega)
    have hcell : Spec.InCell ((digits ns b).map fun (i : ℕ) => (i : K)) (digits ns b) := by
      refine ⟨by simp, fun i h h' => ?_⟩
      rw [List.getElem_map]
      exact ⟨le_rfl, by linarith⟩
    have := (C51_multi_dim ns (by omega) (smootherTable ns w u) (smootherTable_centres ns w u) ((List.range ns.prod).map v)
      ((arangeMulti ns).map fun c => c.map fun (i : ℕ) => Flt.fin (i : K)) b).1 ((digits ns b).map fun (i : ℕ) => (i : K)) b
      ⟨digits ns b, w b, u b⟩ (v b) (by rw [centreRows_getElem? ns b hb, List.map_map]; rfl) ht hcell
      (smootherTable_getElem? ns w u b hb) (by rw [List.getElem?_map, List.getElem?_range hb]; rfl)
    rw [this] at h
    simpa using h.symm
  · simp only [binValuesMulti] at h
    rw [List.getElem?_map, centreRows_none ns b hb] at h
    simp at h

/-- Regularising to the prior 0 moves each value towards 0. -/
theorem regularize_shrinks (n : ℕ) (x u : ℕ → K) (i : ℕ) (v : K) (hi : i < n) (h : regularizeToMeanFlt n x u (some 0) i = .fin v) :
    ∃ t, 0 ≤ t ∧ t ≤ 1 ∧ v = t * x i := by
  unfold regularizeToMeanFlt at h
  by_cases h1 : n < 1 ∨ ((some 0 : Option K) = none ∧ n = 1) ∨ allclose n x ((some 0 : Option K).getD (x 0)) = true
  · rw [if_pos h1] at h
    exact ⟨1, zero_le_one, le_rfl, by rw [one_mul]; exact (Flt.fin.inj h).symm⟩
  · rw [if_neg h1] at h
    by_cases h2 : ((List.range n).any fun j => decide (u j = 0)) = true
    · rw [if_pos h2] at h; cases h
    rw [if_neg h2] at h
    have hu : ∀ j < n, u j ≠ 0 := by
      intro j hj h0
      apply h2
      rw [List.any_eq_true]
      exact ⟨j, List.mem_range.mpr hj, by simpa using h0⟩
    have habs : regularizeToMean n x u (some 0) = regularizeToMean n x (fun j => |u j|) (some 0) := by
      unfold regularizeToMean regMeanTarget
      simp only [sq_abs]
    rw [habs, Flt.fin.injEq] at h
    rcases regularizeToMean_cases n x (fun j => |u j|) (fun j hj => abs_pos.mpr (hu j hj)) (some 0) with e | ⟨q, hq, e⟩
    · rw [e] at h
      exact ⟨1, zero_le_one, le_rfl, by rw [one_mul]; exact h.symm⟩
    · rw [e] at h
      have hw : 0 < 1 / |u i| ^ 2 := by
        have := abs_pos.mpr (hu i hi)
        positivity
      have hpos : 0 < 1 / |u i| ^ 2 + q := by linarith
      refine ⟨(1 / |u i| ^ 2) / (1 / |u i| ^ 2 + q), (div_pos hw hpos).le, ?_, ?_⟩
      · rw [div_le_one hpos]; linarith
      · rw [← h]
        simp only [regMeanTarget, mul_zero, add_zero]
        ring

theorem regularize_congr (n : ℕ) (x x' u u' : ℕ → K) (p : Option K) (hx : ∀ j < n, x j = x' j) (hu : ∀ j < n, u j = u' j) (i : ℕ)
    (hi : i < n) : regularizeToMeanFlt n x u p i = regularizeToMeanFlt n x' u' p i := by
  have hn : 0 < n := by omega
  have h0 : x 0 = x' 0 := hx 0 hn
  have hall : ∀ c, allclose n x c = allclose n x' c := by
    intro c
    unfold allclose
    rw [Bool.eq_iff_iff, List.all_eq_true, List.all_eq_true]
    constructor <;> intro h j hj <;> have := h j hj <;> have hjn := List.mem_range.mp hj
    · rw [← hx j hjn]; exact this
    · rw [hx j hjn]; exact this
  have hany : ((List.range n).any fun j => decide (u j = 0)) = ((List.range n).any fun j => decide (u' j = 0)) := by
    rw [Bool.eq_iff_iff, List.any_eq_true, List.any_eq_true]
    constructor <;> rintro ⟨j, hj, h⟩ <;> have hjn := List.mem_range.mp hj
    · exact ⟨j, hj, by rw [← hu j hjn]; exact h⟩
    · exact ⟨j, hj, by rw [hu j hjn]; exact h⟩
  have hs1 : ∑ i ∈ range n, 1 / u i ^ 2 = ∑ i ∈ range n, 1 / u' i ^ 2 :=
    Finset.sum_congr rfl fun j hj => by rw [hu j (Finset.mem_range.mp hj)]
  have ht : regMeanTarget n x u p = regMeanTarget n x' u' p := by
    unfold regMeanTarget
    cases p with
    | some p => rfl
    | none =>
      simp only
      rw [hs1]
      congr 1
      exact Finset.sum_congr rfl fun j hj => by rw [hu j (Finset.mem_range.mp hj), hx j (Finset.mem_range.mp hj)]
  have hs2 : ∀ m, ∑ i ∈ range n, 1 / u i ^ 2 * (x i - m) ^ 2 = ∑ i ∈ range n, 1 / u' i ^ 2 * (x' i - m) ^ 2 := fun m =>
    Finset.sum_congr rfl fun j hj => by rw [hu j (Finset.mem_range.mp hj), hx j (Finset.mem_range.mp hj)]
  unfold regularizeToMeanFlt regularizeToMean
  rw [hany, h0]
  simp only [hall, hs1, ht, hs2, apply_ite (fun f : ℕ → K => f i), hu i hi, hx i hi]

/-- What the weighted mean smoother keeps for a bin. -/
theorem weightedMean1_centre (n : ℕ) (p : Option K) (w u v : ℕ → K) (b : ℕ) (hb : b < n) :
    ((weightedMean1 p).predict ((weightedMean1 p).fit (smootherTable [n] w u) ((List.range n).map v))
        ((arangeMulti [n]).map fun c => c.map fun (i : ℕ) => Flt.fin (i : K)))[b]? = some (regularizeToMeanFlt n v u p b) := by
  simp only [weightedMean1]
  rw [List.getElem?_map, centreRows_getElem? [n] b (by simpa using hb), digits_one n b hb]
  simp only [List.map_cons, List.map_nil, Option.map_some, Option.some.injEq]
  rw [lookupOneDim_centre, List.length_map, List.length_range, getD_range_map _ _ _ _ hb]
  refine regularize_congr n _ _ _ _ p ?_ ?_ b hb
  · intro j hj
    unfold column
    rw [getD_range_map _ _ _ _ hj]
  · intro j hj
    unfold uncColumn column
    rw [List.getD_eq_getElem?_getD, List.getElem?_map, smootherTable_getElem? [n] w u j (by simpa using hj)]
    rfl

theorem weightedMeanMulti_centre (ns : List ℕ) (p : Option K) (w u v : ℕ → K) (b : ℕ) (hb : b < ns.prod) :
    ((weightedMeanMultiDim p).predict ((weightedMeanMultiDim p).fit (smootherTable ns w u) ((List.range ns.prod).map v))
        ((arangeMulti ns).map fun c => c.map fun (i : ℕ) => Flt.fin (i : K)))[b]? = some (regularizeToMeanFlt ns.prod v u p b) := by
  simp only [weightedMeanMultiDim]
  rw [List.getElem?_map, centreRows_getElem? ns b hb]
  simp only [Option.map_some, Option.some.injEq]
  rw [setBinInfo_centres ns (by omega) _ (smootherTable_centres ns w u)]
  rw [lookupMultiDim_centre ns _ b hb, List.length_map, List.length_range, getD_range_map _ _ _ _ hb]
  refine regularize_congr ns.prod _ _ _ _ p ?_ ?_ b hb
  · intro j hj
    unfold column
    rw [getD_range_map _ _ _ _ hj]
  · intro j hj
    unfold uncColumn column
    rw [List.getD_eq_getElem?_getD, List.getElem?_map, smootherTable_getElem? ns w u j hj]
    rfl

end

/-- Each feature made by `create_features` belongs to a group and has the smoother chosen for it. -/
theorem createFeatures_mem (c : Choice) (props : Option (List (String × ℕ))) (groups : List (List String))
    (fs : List (FeatureSpec × SmootherKind)) (h : createFeatures c props groups = .ok fs) (f : FeatureSpec × SmootherKind)
    (hf : f ∈ fs) : f.1.group ∈ groups ∧ f.1.external = false ∧ smootherForGroup c props f.1.group = .ok f.2 := by
  obtain ⟨j, hj, rfl⟩ := List.getElem_of_mem hf
  rcases createFeatures_get c props groups fs h j with ⟨-, h2⟩ | ⟨g, q, h1, h2, h3, h4, h5⟩
  · rw [List.getElem?_eq_getElem hj] at h2; cases h2
  · rw [List.getElem?_eq_getElem hj, Option.some.injEq] at h2
    rw [h2, h3]
    exact ⟨List.mem_of_getElem? h1, h4, h5⟩

section
variable (S : Setup (List (FitRow ℝ) × List ℝ)) (O : OpenSmoothers) (c : Choice) (props : Option (List (String × ℕ)))
  (groups : List (List String))

/-- With `NoSmootherChoice` the smoothers return the values of the bins. -/
theorem noSmoothing_keeps (hbase : S.base = packageSmoothers O) (hS : createFeatures c props groups = .ok S.features)
    (hk : c.kind = .noSmoother) (D : TrainSet) : KeepingSmoothers S D := by
  intro f hf u v b x h
  obtain ⟨-, -, hch⟩ := createFeatures_mem c props groups S.features hS f hf
  have hlen := bindData_length D.X D.n f.1.group
  revert h
  generalize binSum D.n (f.1.cfg D.X D.n).bin D.w = w
  revert hlen
  generalize (bindData D.X D.n f.1.group none).2 = ns
  intro hlen h
  unfold smootherForGroup Choice.choose at hch
  rw [hk] at hch
  simp only [Choice.wrap, hk, Except.ok.injEq] at hch
  rw [← hch, hbase] at h
  by_cases hl : f.1.group.length = 1
  · rw [if_pos hl] at h
    obtain ⟨n, rfl⟩ := List.length_eq_one_iff.mp (hlen.trans hl)
    obtain ⟨d, -, hd⟩ := meta_centre (packageSmoothers O) .binValuesOne (fun _ _ _ => rfl) _ _ [n] w u v b x h
    rw [List.prod_singleton] at hd
    have := binValues1_centre n w u (fun i => v i - d) b (x - d) hd
    linarith
  · rw [if_neg hl] at h
    obtain ⟨d, -, hd⟩ := meta_centre (packageSmoothers O) .binValuesMany (fun _ _ _ => rfl) _ _ ns w u v b x h
    have := binValuesMulti_centre ns w u (fun i => v i - d) b (x - d) hd
    linarith

/-- **C80**, no smoothing: with `NoSmootherChoice` (with or without normalization, for all feature properties) the smoothers return
the values of the bins. -/
theorem C80_no_smoothing (hbase : S.base = packageSmoothers O) (hS : createFeatures c props groups = .ok S.features)
    (hk : c.kind = .noSmoother) (D : TrainSet) : ShrinkingSmoothers S D := fun f hf u v b x h =>
  ⟨1, zero_le_one, le_rfl, by rw [one_mul]; exact noSmoothing_keeps S O c props groups hbase hS hk D f hf u v b x h⟩

/-- **C80**, weighted means: with the weighted mean choice without normalization, categorical features and features of several
columns have smoothers that move the values of the bins towards the neutral factor. -/
theorem C80_weighted_mean (hbase : S.base = packageSmoothers O) (hS : createFeatures c props groups = .ok S.features)
    (hk : c.kind = .weightedMean) (hn : c.useNormalization = false) (he : c.explicit = [])
    (hcat : ∀ name, [name] ∈ groups → ∀ fp ∈ readFeatureProperty props [name] Flags.HAS_MISSING,
      simplifyFlags fp = .ok Flags.IS_UNORDERED)
    (D : TrainSet) : ShrinkingSmoothers S D := by
  intro f hf u v b x h
  obtain ⟨hmem, -, hch⟩ := createFeatures_mem c props groups S.features hS f hf
  have hlen := bindData_length D.X D.n f.1.group
  revert h
  generalize binSum D.n (f.1.cfg D.X D.n).bin D.w = w
  revert hlen
  generalize (bindData D.X D.n f.1.group none).2 = ns
  intro hlen h
  have hex : ∀ g, c.explicitFor g = none := fun g => by simp [Choice.explicitFor, he]
  rw [hbase] at h
  unfold smootherForGroup Choice.choose at hch
  rw [hk] at hch
  simp only [hex] at hch
  have fin : ∀ s, c.wrap s (readFeatureProperty props f.1.group Flags.HAS_MISSING) = .ok f.2 → ∃ t, f.2 = metaSmoother s false t := by
    intro s hs
    simp only [Choice.wrap, hk, hn, Except.ok.injEq] at hs
    exact ⟨_, hs.symm⟩
  by_cases hl : 1 < f.1.group.length
  · have hraw : c.raw f.1.group (readFeatureProperty props f.1.group Flags.HAS_MISSING) = .ok .weightedMeanMulti := by
      simp [Choice.raw, hk, hl]
    rw [hraw] at hch
    obtain ⟨t, ht⟩ := fin _ hch
    rw [ht] at h
    obtain ⟨d, hd0, hd⟩ := meta_centre (packageSmoothers O) .weightedMeanMulti (fun _ _ _ => rfl) _ _ ns w u v b x h
    rw [hd0 rfl] at hd
    simp only [sub_zero] at hd
    by_cases hb : b < ns.prod
    · have hd : ((weightedMeanMultiDim (some 0)).predict ((weightedMeanMultiDim (some 0)).fit (smootherTable ns w u)
          ((List.range ns.prod).map v)) ((arangeMulti ns).map fun c => c.map fun (i : ℕ) => Flt.fin (i : ℝ)))[b]? = some (.fin x) := hd
      rw [weightedMeanMulti_centre ns _ w u v b hb, Option.some.injEq] at hd
      exact regularize_shrinks ns.prod v u b x hb hd
    · have hd : (((arangeMulti ns).map fun c => c.map fun (i : ℕ) => Flt.fin (i : ℝ)).map _)[b]? = some (Flt.fin x) := hd
      rw [List.getElem?_map, centreRows_none ns b hb] at hd
      simp at hd
  · rcases hg : f.1.group with _ | ⟨name, _ | ⟨name2, l⟩⟩
    · rw [hg] at hch
      simp [Choice.raw, hk, readFeatureProperty] at hch
    · rw [hg] at hch hlen fin hmem
      have hsf := hcat name hmem _ (List.mem_singleton_self _)
      have hraw : c.raw [name] (readFeatureProperty props [name] Flags.HAS_MISSING) = .ok .weightedMean := by
        simp only [Choice.raw, hk, readFeatureProperty, List.length_singleton, lt_irrefl, if_false, List.map_cons, List.map_nil,
          List.head?_cons, Choice.onedim, hex, hsf]
        rfl
      rw [hraw] at hch
      obtain ⟨t, ht⟩ := fin _ hch
      rw [ht] at h
      obtain ⟨n, rfl⟩ := List.length_eq_one_iff.mp hlen
      obtain ⟨d, hd0, hd⟩ := meta_centre (packageSmoothers O) .weightedMean (fun _ _ _ => rfl) _ _ [n] w u v b x h
      rw [hd0 rfl] at hd
      simp only [sub_zero, List.prod_singleton] at hd
      by_cases hb : b < n
      · have hd : ((weightedMean1 (some 0)).predict ((weightedMean1 (some 0)).fit (smootherTable [n] w u) ((List.range n).map v))
            ((arangeMulti [n]).map fun c => c.map fun (i : ℕ) => Flt.fin (i : ℝ)))[b]? = some (.fin x) := hd
        rw [weightedMean1_centre n _ w u v b hb, Option.some.injEq] at hd
        exact regularize_shrinks n v u b x hb hd
      · have hd : (((arangeMulti [n]).map fun c => c.map fun (i : ℕ) => Flt.fin (i : ℝ)).map _)[b]? = some (Flt.fin x) := hd
        rw [List.getElem?_map, centreRows_none [n] b (by simpa using hb)] at hd
        simp at hd
    · rw [hg] at hl
      simp at hl

end

end CB
