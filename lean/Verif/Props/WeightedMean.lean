import Verif.Props.SmootherCentres
import Verif.Spec.WeightedMean

/-!
# C81: what weighted mean smoothing does to bin values
-/

set_option autoImplicit false
set_option linter.unusedSectionVars false

namespace CB
open Finset Spec

section
variable {K : Type*} [Field K] [LinearOrder K] [IsStrictOrderedRing K] [FloorRing K]

/-- A float as the value of a factor: numbers that are not finite are replaced. -/
def Flt.toOption : Flt K → Option K
  | .fin v => some v
  | _ => none

theorem sum_map_range (n : ℕ) (f : ℕ → K) : ((List.range n).map f).sum = ∑ i ∈ range n, f i := by
  induction n with
  | zero => simp
  | succ n ih => rw [List.range_succ, List.map_append, List.sum_append, ih, Finset.sum_range_succ]; simp

theorem sum_zipWith_range (n : ℕ) (f g : ℕ → K) :
    (List.zipWith (fun a b => a * b) ((List.range n).map f) ((List.range n).map g)).sum = ∑ i ∈ range n, f i * g i := by
  rw [← sum_map_range]
  congr 1
  apply List.ext_getElem
  · simp
  · intro i h1 h2
    simp

theorem smootherTable_weights (ns : List ℕ) (w u : ℕ → K) : (smootherTable ns w u).map (·.w) = (List.range ns.prod).map w := by
  apply List.ext_getElem?
  intro i
  rw [List.getElem?_map, List.getElem?_map]
  by_cases hi : i < ns.prod
  · rw [smootherTable_getElem? ns w u i hi, List.getElem?_range hi]; rfl
  · rw [List.getElem?_eq_none (by rw [centres_length ns _ (smootherTable_centres ns w u)]; omega),
      List.getElem?_eq_none (by rw [List.length_range]; omega)]
    rfl

/-- The normalization of a feature is what its bins are pulled to. -/
theorem calcNorm_table (ns : List ℕ) (w u v : ℕ → K) :
    calcNorm (smootherTable ns w u) ((List.range ns.prod).map v) = pullTarget true ns.prod w v := by
  unfold calcNorm pullTarget
  simp only [smootherTable_weights, sum_map_range, sum_zipWith_range, true_and]

/-- The cut of a regression type at the centre of a bin: only bins without weight are removed. -/
theorem applyCut_centre (t : RegType) (ns : List ℕ) (hne : ns ≠ []) (w u : ℕ → K) (sm : List (Flt K)) (b : ℕ) (hb : b < ns.prod)
    (x : Flt K) (hsm : sm[b]? = some x) :
    ∃ out, applyCut t (setBinInfo (smootherTable ns w u)) ((arangeMulti ns).map fun c => c.map fun (i : ℕ) => Flt.fin (i : K)) sm
      = some out ∧ out[b]? = some (if t = .discontinuous ∧ w b = 0 then .nan else x) := by
  cases t with
  | discontinuous =>
    obtain ⟨sel, h1, h2⟩ := selected_centre ns hne w u b hb
    refine ⟨List.zipWith (fun (s : Bool) v => if s = true then Flt.nan else v) sel sm,
      by simp only [applyCut, h1, Option.map_some], ?_⟩
    rw [List.getElem?_zipWith, h2, hsm]
    by_cases hw : w b = 0 <;> simp [hw]
  | interpolating =>
    refine ⟨_, rfl, ?_⟩
    rw [List.getElem?_zipWith, List.getElem?_map, centreRows_getElem? ns b hb, hsm]
    rw [setBinInfo_centres ns (by omega) _ (smootherTable_centres ns w u)]
    have ht : Spec.IsBinTuple ns (digits ns b) := digits_valid ns b (by omega)
    have hsel : selectedInterpolating ns ((digits ns b).map fun (i : ℕ) => Flt.fin (i : K)) = false := by
      unfold selectedInterpolating
      rw [Bool.or_eq_false_iff]
      constructor
      · unfold minNeg
        rw [Bool.and_eq_false_iff, List.any_eq_false]
        right
        intro a ha
        obtain ⟨i, -, rfl⟩ := List.mem_map.mp ha
        simp [fltNeg]
      · rw [List.any_eq_false]
        intro a ha
        obtain ⟨j, hj, rfl⟩ := List.getElem_of_mem ha
        rw [List.length_zipWith, List.length_map] at hj
        have h3 := ht.2 j (by omega) (by omega)
        have h4 : (((digits ns b)[j]'(by omega) : ℕ) : K) + 1 ≤ (ns[j]'(by omega) : K) := by exact_mod_cast h3
        simp only [List.getElem_zipWith, List.getElem_map, fltGt, id, decide_eq_true_eq, not_lt]
        linarith
    simp [hsel]
  | extrapolating => exact ⟨sm, rfl, by simpa using hsm⟩

/-- What a wrapped smoother gives at the centre of a bin: the pull target is subtracted before smoothing and added afterwards, and
bins without weight of discontinuous features are removed. -/
theorem meta_centre_eq {σ : Type*} (base : SmootherKind → Smoother K σ) (s : SmootherKind)
    (hs : ∀ X y rows, kindPredict base s X y rows = some ((base s).predict ((base s).fit X y) rows))
    (useNorm : Bool) (t : Option RegType) (ns : List ℕ) (hne : ns ≠ []) (w u v : ℕ → K) (b : ℕ) (hb : b < ns.prod) (x : Flt K)
    (hx : ((base s).predict ((base s).fit (smootherTable ns w u)
        ((List.range ns.prod).map fun i => v i - pullTarget useNorm ns.prod w v))
        ((arangeMulti ns).map fun c => c.map fun (i : ℕ) => Flt.fin (i : K)))[b]? = some x) :
    smoothAtCentres base (metaSmoother s useNorm t) ns w u v b =
      if t = some .discontinuous ∧ w b = 0 then none else x.toOption.map fun a => a + pullTarget useNorm ns.prod w v := by
  have hsub : ∀ c : K, (((List.range ns.prod).map v).map fun a => a - c) = (List.range ns.prod).map fun i => v i - c := by
    intro c; rw [List.map_map]; rfl
  unfold smoothAtCentres
  cases useNorm with
  | false =>
    have h0 : pullTarget false ns.prod w v = 0 := by simp [pullTarget]
    rw [h0] at hx ⊢
    simp only [sub_zero] at hx
    simp only [add_zero, Option.map_id']
    cases t with
    | none =>
      simp only [metaSmoother, hs]
      rw [show ((List.range ns.prod).map fun i => v i) = (List.range ns.prod).map v from rfl] at hx
      rw [hx]
      simp only [reduceCtorEq, false_and, if_false]
      cases x <;> rfl
    | some t =>
      obtain ⟨out, h1, h2⟩ := applyCut_centre t ns hne w u _ b hb x hx
      simp only [metaSmoother, kindPredict, regTypePredict, regTypeFit]
      rw [h1]
      simp only [h2]
      by_cases hc : t = .discontinuous ∧ w b = 0
      · simp [hc]
      · simp only [hc, Option.some.injEq, if_false]
        cases x <;> rfl
  | true =>
    rw [← calcNorm_table ns w u v] at hx ⊢
    rw [← hsub] at hx
    cases t with
    | none =>
      simp only [metaSmoother, kindPredict, normalizationSmoother]
      rw [List.getElem?_map, hx]
      simp only [reduceCtorEq, false_and, if_false]
      cases x <;> rfl
    | some t =>
      obtain ⟨out, h1, h2⟩ := applyCut_centre t ns hne w u
        (((base s).predict ((base s).fit (smootherTable ns w u) (((List.range ns.prod).map v).map fun a => a -
          calcNorm (smootherTable ns w u) ((List.range ns.prod).map v)))
          ((arangeMulti ns).map fun c => c.map fun (i : ℕ) => Flt.fin (i : K))).map fun a => a.addFin
            (calcNorm (smootherTable ns w u) ((List.range ns.prod).map v))) b hb
            (x.addFin (calcNorm (smootherTable ns w u) ((List.range ns.prod).map v)))
        (by rw [List.getElem?_map, hx]; rfl)
      simp only [metaSmoother, kindPredict, normRegTypePredict, normRegTypeFit]
      rw [h1]
      simp only [h2]
      by_cases hc : t = .discontinuous ∧ w b = 0
      · simp [hc]
      · simp only [hc, Option.some.injEq, if_false]
        cases x <;> rfl

end

section
variable (O : OpenSmoothers)

/-- The weighted mean smoothers that `common_smoothers` chooses for a feature with the given numbers of bins in its columns. -/
inductive IsWeightedMean : SmootherKind → List ℕ → Prop
  | one (n : ℕ) : IsWeightedMean .weightedMean [n]
  | many (ns : List ℕ) (h : ns ≠ []) : IsWeightedMean .weightedMeanMulti ns

theorem weightedMean_pred (s : SmootherKind) (ns : List ℕ) (h : IsWeightedMean s ns) (w u v : ℕ → ℝ) (b : ℕ) (hb : b < ns.prod) :
    ((packageSmoothers O s).predict ((packageSmoothers O s).fit (smootherTable ns w u) ((List.range ns.prod).map v))
        ((arangeMulti ns).map fun c => c.map fun (i : ℕ) => Flt.fin (i : ℝ)))[b]?
      = some (regularizeToMeanFlt ns.prod v u (some 0) b) := by
  cases h with
  | one n =>
    rw [List.prod_singleton] at hb ⊢
    exact weightedMean1_centre n (some 0) w u v b hb
  | many ns h => exact weightedMeanMulti_centre ns (some 0) w u v b hb

/-- Weighted mean smoothing at the centre of a bin. -/
theorem weightedMean_eq (s : SmootherKind) (ns : List ℕ) (h : IsWeightedMean s ns) (useNorm : Bool) (t : Option RegType)
    (w u v : ℕ → ℝ) (b : ℕ) (hb : b < ns.prod) :
    smoothAtCentres (packageSmoothers O) (metaSmoother s useNorm t) ns w u v b =
      if t = some .discontinuous ∧ w b = 0 then none
      else (regularizeToMeanFlt ns.prod (fun i => v i - pullTarget useNorm ns.prod w v) u (some 0) b).toOption.map
        fun a => a + pullTarget useNorm ns.prod w v := by
  refine meta_centre_eq (packageSmoothers O) s ?_ useNorm t ns ?_ w u v b hb _ (weightedMean_pred O s ns h w u _ b hb)
  · cases h <;> intro _ _ _ <;> rfl
  · cases h with
    | one n => simp
    | many ns h => exact h

/-- **C81.** Weighted mean smoothing never overshoots: the smoothed value of a bin lies between the estimate for the bin and the
value to which all bins are pulled. -/
theorem C81_between (s : SmootherKind) (ns : List ℕ) (h : IsWeightedMean s ns) (useNorm : Bool) (t : Option RegType)
    (w u v : ℕ → ℝ) (b : ℕ) (hb : b < ns.prod) (x : ℝ)
    (hx : smoothAtCentres (packageSmoothers O) (metaSmoother s useNorm t) ns w u v b = some x) :
    LiesBetween (v b) (pullTarget useNorm ns.prod w v) x := by
  rw [weightedMean_eq O s ns h useNorm t w u v b hb] at hx
  generalize pullTarget useNorm ns.prod w v = c at hx
  split_ifs at hx
  cases hr : regularizeToMeanFlt ns.prod (fun i => v i - c) u (some 0) b with
  | fin a =>
    rw [hr] at hx
    simp only [Flt.toOption, Option.map_some, Option.some.injEq] at hx
    obtain ⟨τ, h0, h1, ha⟩ := regularize_shrinks ns.prod _ u b a hb hr
    rw [← hx, ha]
    unfold LiesBetween
    rcases le_total (v b) c with hc | hc
    · rw [min_eq_left hc, max_eq_right hc]
      constructor <;> nlinarith
    · rw [min_eq_right hc, max_eq_left hc]
      constructor <;> nlinarith
  | nan => rw [hr] at hx; simp [Flt.toOption] at hx
  | pinf => rw [hr] at hx; simp [Flt.toOption] at hx
  | ninf => rw [hr] at hx; simp [Flt.toOption] at hx

/-- **C81**, bins with weight: if the uncertainties are positive, every bin with weight gets a smoothed value. -/
theorem C81_defined_partial (s : SmootherKind) (ns : List ℕ) (h : IsWeightedMean s ns) (useNorm : Bool) (t : Option RegType)
    (w u v : ℕ → ℝ) (hu : ∀ b < ns.prod, 0 < u b) (b : ℕ) (hb : b < ns.prod) (hw : w b ≠ 0) :
    ∃ x, smoothAtCentres (packageSmoothers O) (metaSmoother s useNorm t) ns w u v b = some x := by
  rw [weightedMean_eq O s ns h useNorm t w u v b hb, if_neg (by tauto)]
  have hany : ((List.range ns.prod).any fun j => decide (u j = 0)) = false := by
    rw [List.any_eq_false]
    intro j hj
    have := hu j (List.mem_range.mp hj)
    simpa using this.ne'
  unfold regularizeToMeanFlt
  rw [hany]
  simp only [Bool.false_eq_true, if_false]
  split <;> exact ⟨_, rfl⟩

/-- If one bin has no uncertainty, no bin gets a smoothed value, unless the estimates are all within 1e-8 of the value to which they
are pulled. -/
theorem C81_zero_uncertainty (s : SmootherKind) (ns : List ℕ) (h : IsWeightedMean s ns) (useNorm : Bool) (t : Option RegType)
    (w u v : ℕ → ℝ) (k : ℕ) (hk : k < ns.prod) (hu : u k = 0) (b : ℕ) (hb : b < ns.prod) (x : ℝ)
    (hx : smoothAtCentres (packageSmoothers O) (metaSmoother s useNorm t) ns w u v b = some x) :
    x = v b ∧ ∀ j < ns.prod, |v j - pullTarget useNorm ns.prod w v| ≤ 1 / 10 ^ 8 := by
  rw [weightedMean_eq O s ns h useNorm t w u v b hb] at hx
  generalize pullTarget useNorm ns.prod w v = c at hx ⊢
  split_ifs at hx
  unfold regularizeToMeanFlt at hx
  by_cases h1 : ns.prod < 1 ∨ ((some 0 : Option ℝ) = none ∧ ns.prod = 1) ∨
      allclose ns.prod (fun i => v i - c) ((some 0 : Option ℝ).getD (v 0 - c)) = true
  · rw [if_pos h1] at hx
    simp only [Flt.toOption, Option.map_some, Option.some.injEq, sub_add_cancel] at hx
    refine ⟨hx.symm, fun j hj => ?_⟩
    rcases h1 with h1 | h1 | h1
    · omega
    · cases h1.1
    · unfold allclose at h1
      rw [List.all_eq_true] at h1
      have := h1 j (List.mem_range.mpr hj)
      simpa using this
  · rw [if_neg h1, if_pos] at hx
    · simp [Flt.toOption] at hx
    · rw [List.any_eq_true]
      exact ⟨k, List.mem_range.mpr hk, by simpa using hu⟩

/-- **C81**, what fails: the uncertainty that the GBS regressor finds for a bin without samples is 0. If a categorical feature or an
interaction has such a bin, every update of each of its bins that the smoother returns is at most 2e-8: the feature is not learned,
whatever the data. -/
theorem C81_gbs_empty_bin (it : ℕ) (ra : ℝ) (D : TrainSet) (f : FeatureSpec) (s : SmootherKind)
    (h : IsWeightedMean s (bindData D.X D.n f.group none).2) (useNorm : Bool) (t : Option RegType) (pred : ℕ → ℝ)
    (k : ℕ) (hk : k < (bindData D.X D.n f.group none).2.prod) (hempty : ∀ i < D.n, (f.cfg D.X D.n).bin i ≠ k)
    (b : ℕ) (hb : b < (bindData D.X D.n f.group none).2.prod) (x : ℝ)
    (hx : smoothAtCentres (packageSmoothers O) (metaSmoother s useNorm t) (bindData D.X D.n f.group none).2
      (binSum D.n (f.cfg D.X D.n).bin D.w)
      (fun b => ((gbsEstimator ra).parameters it D.n (f.cfg D.X D.n).bin D.y D.w pred b).2)
      (fun b => ((gbsEstimator ra).parameters it D.n (f.cfg D.X D.n).bin D.y D.w pred b).1) b = some x) :
    |x| ≤ 2 / 10 ^ 8 := by
  obtain ⟨e1, e2⟩ := C46_empty_bin ra D.n (f.cfg D.X D.n).bin D.y pred D.w k hempty
  obtain ⟨h1, h2⟩ := C81_zero_uncertainty O s _ h useNorm t _ _ _ k hk (by simp only [gbsEstimator, e2, Real.sqrt_zero]) b hb x hx
  have a1 := h2 k hk
  have a2 := h2 b hb
  rw [← h1] at a2
  have e3 : ((gbsEstimator ra).parameters it D.n (f.cfg D.X D.n).bin D.y D.w pred k).1 = 0 := e1
  rw [e3] at a1
  rw [abs_le] at a1 a2 ⊢
  constructor <;> linarith [a1.1, a1.2, a2.1, a2.2]

/-- If the smoother never gives a bin more than `ε`, what is stored for the bin is at most `ε` per iteration. -/
theorem stored_small (p : Params ℝ) (hp : p.aggregate = true) (hok : p.consts.Ok) (hclip : p.clip = false) (o : Oracle ℝ)
    (cfgs : List FeatureCfg) (prior : ℕ → ℝ) (hcal : ∀ it i (fs : FState ℝ), o.calibrate it i fs = fs.factors)
    (hlr : ∀ k, 0 ≤ o.learnRate k ∧ o.learnRate k ≤ 1)
    (j : ℕ) (cfg : FeatureCfg) (hj : cfgs[j]? = some cfg) (b : ℕ) (hb : b < cfg.nFinite) (ε : ℝ) (hε : 0 ≤ ε)
    (hsm : ∀ it pr fs fs' v, o.smooth it j pr fs (o.estimate it j pr fs') b = some v → |v| ≤ ε)
    (past : List (TState ℝ)) (s : TState ℝ) (h : Trace p o cfgs (startState o cfgs prior) past s) (hnd : s.diverging = 0) :
    ∃ fs, s.feats[j]? = some fs ∧ |stored fs b| ≤ past.length * ε := by
  have hjl : j < cfgs.length := by
    by_contra hc
    rw [List.getElem?_eq_none (not_lt.mp hc)] at hj; cases hj
  have hflag : ∀ (past : List (TState ℝ)) (s : TState ℝ), Trace p o cfgs (startState o cfgs prior) past s →
      s.diverging = 0 → s.isDiverging = false := by
    intro past s h hnd
    cases h with
    | start => rfl
    | step ht hc' hit =>
      obtain ⟨_, _, _, _, hcc, _⟩ := iterate_ok p o cfgs _ _ hit
      obtain ⟨_, h2, _⟩ := checkConvergence_ok _ _ _ _ _ hcc
      cases hd : s.isDiverging with
      | false => rfl
      | true => rw [hd] at h2; simp only [if_true] at h2; omega
  induction h with
  | start =>
    refine ⟨FState.init, ?_, by simp [stored, FState.init]⟩
    unfold startState
    simp only [List.getElem?_map, hj, Option.map_some]
  | @step past s s' htr hcont hit ih =>
    obtain ⟨_, _, _, _, hcc, _⟩ := iterate_ok p o cfgs _ _ hit
    obtain ⟨_, h2, _⟩ := checkConvergence_ok _ _ _ _ _ hcc
    have hd' : s'.isDiverging = false := hflag _ _ (.step htr hcont hit) hnd
    rw [hd'] at h2
    simp only [Bool.false_eq_true, if_false] at h2
    have hnd0 : s.diverging = 0 := by omega
    have hd := hflag _ _ htr hnd0
    obtain ⟨fs, hfs, hold⟩ := ih hnd0
    have hw' := trace_WF p o cfgs prior _ s' (.step htr hcont hit)
    have hl' : j < s'.feats.length := by rw [← hw'.1]; exact hjl
    refine ⟨s'.feats[j], List.getElem?_eq_getElem hl', ?_⟩
    have hfs' := List.getElem?_eq_getElem hl'
    generalize s'.feats[j] = fs' at hfs'
    rw [List.length_cons, Nat.cast_succ, add_mul, one_mul]
    cases hsk : skipped p past.length cfg with
    | true =>
      have hiter := (trace_iterations p o cfgs prior past s htr).1
      obtain ⟨feats, pred, r, hfp, _, hr, hf, _⟩ := iterate_ok p o cfgs _ _ hit
      rw [hd'] at hr
      simp only [Bool.false_eq_true, if_false, Except.ok.injEq] at hr
      obtain ⟨fs1, fs0, pred', g1, g2, g3⟩ := featurePass_get p o s.iteration s.diverging s.isDiverging s.initialLoss
        cfgs 0 s.feats s.pred j cfg fs hj hfs
      rw [reset_noop p o cfgs prior past s htr fs (List.mem_of_getElem? hfs)] at g2
      subst g2
      rw [hfp] at g1
      rw [hf, ← hr] at hfs'
      simp only at g1 hfs'
      rw [g1, Option.some.injEq] at hfs'
      rw [hiter, hsk] at g3
      rcases g3 with ⟨-, g3⟩ | ⟨g3, -⟩
      · rw [← hfs', g3]
        exact le_trans hold (by linarith)
      · cases g3
    | false =>
      obtain ⟨running, input, raw, -, ⟨r1, r2, r3, -⟩, hupd⟩ := C66_update_aggregate p hp hok o cfgs prior hcal past s s' htr hit
        hd hd' j cfg fs fs' hj hfs hfs' hsk
      have hraw : |raw b| ≤ ε := by
        cases hz : fs.zeroSmoother with
        | true => rw [r1 b hb hz, abs_zero]; exact hε
        | false =>
          cases hv : o.smooth past.length j running input (o.estimate past.length j running fs) b with
          | none => rw [r3 b hb hz hv, abs_zero]; exact hε
          | some v =>
            have h1 := hsm _ _ _ _ _ hv
            obtain ⟨l0, l1⟩ := hlr (past.length + 1)
            rw [r2 b v hb hz hv, abs_mul, abs_of_nonneg l0]
            nlinarith [abs_nonneg v]
      have := (hupd b).1 hclip
      have e : stored fs' b = stored fs b + raw b := by linarith
      rw [e]
      exact (abs_add_le _ _).trans (add_le_add hold hraw)

/-- **C81**, what fails, in a fit: a feature with weighted mean smoothing and a bin without samples is not learned by the GBS
regressor. After any number of iterations of any training without divergence, no finite bin of the feature contributes more than
2e-8 per iteration, whatever the targets are. -/
theorem C81_gbs_not_learned (ra : ℝ) (S : Setup (List (FitRow ℝ) × List ℝ)) (hbase : S.base = packageSmoothers O)
    (hagg : S.params.aggregate = true) (hok : S.params.consts.Ok) (hlr : ∀ k, 0 ≤ S.learnRate k ∧ S.learnRate k ≤ 1) (D : TrainSet)
    (j : ℕ) (f : FeatureSpec) (s : SmootherKind) (useNorm : Bool) (t : Option RegType)
    (hj : S.features[j]? = some (f, metaSmoother s useNorm t)) (h : IsWeightedMean s (bindData D.X D.n f.group none).2)
    (k : ℕ) (hk : k < (f.cfg D.X D.n).nFinite) (hempty : ∀ i < D.n, (f.cfg D.X D.n).bin i ≠ k)
    (b : ℕ) (hb : b < (f.cfg D.X D.n).nFinite) (prior : ℕ → ℝ) (past : List (TState ℝ)) (st : TState ℝ)
    (ht : Trace (S.paramsFor (gbsEstimator ra)) (S.oracle (gbsEstimator ra) D) (S.cfgs D)
      (startState (S.oracle (gbsEstimator ra) D) (S.cfgs D) prior) past st) (hnd : st.diverging = 0) :
    ∃ fs, st.feats[j]? = some fs ∧ |stored fs b| ≤ past.length * (2 / 10 ^ 8) := by
  refine stored_small (S.paramsFor (gbsEstimator ra)) hagg hok (by simp [Setup.paramsFor, gbsEstimator]) _ (S.cfgs D) prior ?_ hlr
    j (f.cfg D.X D.n) (by unfold Setup.cfgs; rw [List.getElem?_map, hj]; rfl) b hb _ (by positivity) ?_ past st ht hnd
  · intro it i fs
    unfold Setup.oracle
    dsimp only
    cases S.features[i]? with
    | none => rfl
    | some f => rfl
  · intro it pr fs fs' v hv
    simp only [Setup.oracle, hj, hbase] at hv
    exact C81_gbs_empty_bin O _ ra D f s h useNorm t pr.factors k hk hempty b hb v hv

end

end CB
