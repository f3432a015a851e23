import Verif.Props.Monotone
import Verif.Model.Estimators
import Verif.Spec.UnseenBins

/-!
# C74: bins without training weight stay neutral
-/

set_option autoImplicit false
set_option linter.unusedSectionVars false

namespace CB
open Spec

section
variable {K : Type*} [Field K] [LinearOrder K] [IsStrictOrderedRing K] [FloorRing K]

/-- A group with a categorical column gets a smoother that removes bins without weight. -/
theorem C74_chosen (c : Choice) (hr : c.useRegressionType = true) (group : List String) (fps : List ℕ)
    (fp : ℕ) (hfp : fp ∈ fps) (hcat : IsCategorical fp)
    (hgb : c.kind ≠ .groupBy ∨ (∃ name, group = [name] ∧ Spec.NoExplicit c [name]) ∧ fps = [fp])
    (kind : SmootherKind) (hkind : c.choose group fps = .ok kind) :
    ∃ s, kind = metaSmoother s c.useNormalization (some .discontinuous) := by
  have hsingle : regTypeSingle fp = .discontinuous := by
    unfold regTypeSingle
    rw [show Flags.isSet fp Flags.IS_LINEAR = fp.testBit 8 from Flags.isSet_bit fp 8,
      show Flags.isSet fp Flags.IS_SEASONAL = fp.testBit 9 from Flags.isSet_bit fp 9,
      show Flags.isSet fp Flags.IS_CONTINUOUS = fp.testBit 0 from Flags.isSet_bit fp 0, hcat.1, hcat.2.1, hcat.2.2]
    simp
  have htuple : regTypeTuple fps = .discontinuous := by
    unfold regTypeTuple
    dsimp only
    rw [if_pos]
    rw [List.contains_iff_mem]
    exact List.mem_map.mpr ⟨fp, hfp, hsingle⟩
  have hwrap : ∀ s k, (c.kind ≠ .groupBy ∨ s.isGroupByCB = false ∧ fps = [fp]) → c.wrap s fps = .ok k →
      ∃ s, k = metaSmoother s c.useNormalization (some .discontinuous) := by
    intro s k hs hk
    refine ⟨s, ?_⟩
    unfold Choice.wrap at hk
    cases hkk : c.kind with
    | groupBy =>
      rcases hs with hs | ⟨hs, hl⟩
      · exact absurd hkk hs
      · rw [hkk, hl] at hk
        simp only [hs, Bool.false_eq_true, if_false, hr, if_true, List.getLast?_singleton, hsingle, Except.ok.injEq] at hk
        exact hk.symm
    | weightedMean =>
      rw [hkk] at hk
      simp only [hr, if_true, htuple, Except.ok.injEq] at hk
      exact hk.symm
    | noSmoother =>
      rw [hkk] at hk
      simp only [hr, if_true, htuple, Except.ok.injEq] at hk
      exact hk.symm
  unfold Choice.choose at hkind
  rcases hgb with hgb | ⟨⟨name, rfl, hex⟩, hfps⟩
  · split at hkind
    · exact hwrap _ _ (Or.inl hgb) hkind
    · split at hkind
      · exact hwrap _ _ (Or.inl hgb) hkind
      · split at hkind
        · cases hkind
        · exact hwrap _ _ (Or.inl hgb) hkind
  · by_cases hk : c.kind = .groupBy
    · rw [hk, noExplicit_iff.mpr hex] at hkind
      simp only at hkind
      cases hraw : c.raw [name] fps with
      | error e => rw [hraw] at hkind; cases hkind
      | ok s =>
        rw [hraw] at hkind
        refine hwrap s _ (Or.inr ⟨?_, hfps⟩) hkind
        unfold Choice.raw at hraw
        rw [hk, hfps] at hraw
        simp only [List.getLast?_singleton, List.length_singleton, lt_irrefl, if_false] at hraw
        unfold Choice.onedim at hraw
        rw [noExplicit_iff.mpr hex] at hraw
        simp only at hraw
        cases hsf : simplifyFlags fp with
        | error e => rw [hsf] at hraw; simp at hraw
        | ok key =>
          rw [hsf] at hraw
          simp only at hraw
          cases hlk : (defaultSmootherTypes c.useNormalization).lookup key with
          | none => rw [hlk] at hraw; simp at hraw
          | some s' =>
            rw [hlk] at hraw
            simp only [Except.ok.injEq] at hraw
            subst hraw
            have : ∀ (l : List (ℕ × SmootherKind)), l.lookup key = some s' → ∃ p ∈ l, p.2 = s' := by
              intro l
              induction l with
              | nil => intro h; simp at h
              | cons p l ih =>
                intro h
                rw [List.lookup_cons] at h
                split at h
                · exact ⟨p, by simp, by simpa using h⟩
                · obtain ⟨q, hq, hq2⟩ := ih h
                  exact ⟨q, by simp [hq], hq2⟩
            obtain ⟨p, hp, rfl⟩ := this _ hlk
            unfold defaultSmootherTypes at hp
            simp only [List.mem_cons, List.not_mem_nil, or_false] at hp
            rcases hp with rfl | rfl | rfl | rfl | rfl | rfl | rfl | rfl <;> rfl
    · split at hkind
      · exact hwrap _ _ (Or.inl hk) hkind
      · split at hkind
        · exact hwrap _ _ (Or.inl hk) hkind
        · split at hkind
          · cases hkind
          · exact hwrap _ _ (Or.inl hk) hkind

theorem smootherTable_getElem? (ns : List ℕ) (w u : ℕ → K) (b : ℕ) (hb : b < ns.prod) :
    (smootherTable ns w u)[b]? = some ⟨digits ns b, w b, u b⟩ := by
  unfold smootherTable
  rw [List.getElem?_map, List.getElem?_zipIdx, arangeMulti_getElem? ns b hb]
  simp

/-- The cut of bins without weight, at the bin centers. -/
theorem selected_centre (ns : List ℕ) (hne : ns ≠ []) (w u : ℕ → K) (b : ℕ) (hb : b < ns.prod) :
    ∃ sel, notSeenEvents (setBinInfo (smootherTable ns w u)).ndim
        ((arangeMulti ns).map fun c => c.map fun (i : ℕ) => Flt.fin (i : K)) (setBinInfo (smootherTable ns w u)).binWeights
        (setBinInfo (smootherTable ns w u)).nBins = some sel ∧ sel[b]? = some (decide (w b = 0)) := by
  set X := smootherTable ns w u with hX
  set rows : List (List (Flt K)) := (arangeMulti ns).map fun c => c.map fun (i : ℕ) => Flt.fin (i : K) with hrows
  have hp : ns.prod ≠ 0 := by omega
  have hct : Spec.IsCentreTable ns X := smootherTable_centres ns w u
  -- a smoother that predicts 0 everywhere
  let sub : Smoother K Unit := ⟨fun _ _ => (), fun _ rows => rows.map fun _ => .fin 0⟩
  have hsub : (sub.predict (sub.fit X []) rows).length = rows.length := by simp [sub]
  have hrow : rows[b]? = some ((digits ns b).map fun (i : ℕ) => Flt.fin (i : K)) := by
    rw [hrows, List.getElem?_map, arangeMulti_getElem? ns b hb]; rfl
  have hv : (sub.predict (sub.fit X []) rows)[b]? = some (.fin 0) := by
    simp only [sub, List.getElem?_map, hrow, Option.map_some]
  have hr : (⟨digits ns b, w b, u b⟩ : FitRow K) ∈ X := List.mem_of_getElem? (smootherTable_getElem? ns w u b hb)
  have key : ∃ out, regTypePredict sub .discontinuous (regTypeFit sub X []) rows = some out ∧
      out[b]? = some (if w b = 0 then .nan else .fin 0) := by
    by_cases h1 : ns.length = 1
    · obtain ⟨n, rfl⟩ := List.length_eq_one_iff.mp h1
      obtain ⟨out, e1, -, e2⟩ := C49_discontinuous_1d sub n (by simpa using hp) X hct [] rows hsub
      refine ⟨out, e1, ?_⟩
      have hbn : b < n := by simpa using hb
      have hd : digits [n] b = [b] := by simp [digits, Nat.mod_eq_of_lt hbn]
      rw [hd] at hrow hr
      have := (e2 b _ hv).1 (b : K) _ b hrow (Nat.cast_nonneg b) (by exact_mod_cast rint_intCast (K := K) (b : ℤ)) hr rfl
      rw [this]
    · have h2 : 2 ≤ ns.length := by
        have := List.length_pos_iff.mpr hne
        omega
      have ht : Spec.IsBinTuple ns (digits ns b) := digits_valid ns b (by omega)
      have hcell : Spec.InCell ((digits ns b).map fun (i : ℕ) => (i : K)) (digits ns b) := by
        refine ⟨by simp, fun i h h' => ?_⟩
        rw [List.getElem_map]
        exact ⟨le_rfl, by linarith⟩
      have hrow' : rows[b]? = some (((digits ns b).map fun (i : ℕ) => (i : K)).map Flt.fin) := by
        rw [hrow, List.map_map]; rfl
      have hgood : ∀ (x : List K) (t : List ℕ), Spec.IsBinTuple ns t → Spec.InCell x t →
          ¬ HasBadComponent ns (x.map Flt.fin) := by
        rintro x t ht hc ⟨i, h1, h2, hall⟩
        have h1' : i < x.length := by simpa using h1
        have hit : i < t.length := by rw [← hc.1]; exact h1'
        obtain ⟨c1, c2⟩ := hc.2 i h1' hit
        have c3 := ht.2 i hit h2
        rcases hall x[i] (by simp) with h | h
        · have : (0 : K) ≤ (t[i] : K) := Nat.cast_nonneg _
          linarith
        · have : (t[i] : K) + 1 ≤ (ns[i] : K) := by exact_mod_cast c3
          linarith
      obtain ⟨out, e1, -, e2⟩ := C49_discontinuous_multi_partial sub ns h2 hp X hct [] rows
        (by
          intro row hrow
          rw [hrows, List.mem_map] at hrow
          obtain ⟨c, hc, rfl⟩ := hrow
          obtain ⟨i, hi, rfl⟩ := List.getElem_of_mem hc
          have hi' : i < ns.prod := by rw [← (C12_inverse (K := ℚ) ns).1]; exact hi
          have := arangeMulti_getElem? ns i hi'
          rw [List.getElem?_eq_getElem hi, Option.some.injEq] at this
          rw [this, List.length_map]
          exact (digits_valid ns i (by omega)).1)
        ⟨_, List.mem_of_getElem? hrow', hgood _ _ ht hcell⟩ hsub
      refine ⟨out, e1, ?_⟩
      have := (e2 b _ hv).1 _ _ _ hrow' ht hcell hr rfl
      rw [this]
  obtain ⟨out, e1, e2⟩ := key
  unfold regTypePredict regTypeFit applyCut at e1
  simp only [Option.map_eq_some_iff] at e1
  obtain ⟨sel, e3, e4⟩ := e1
  refine ⟨sel, e3, ?_⟩
  rw [← e4, List.getElem?_zipWith, hv] at e2
  cases hs : sel[b]? with
  | none => rw [hs] at e2; simp at e2
  | some a =>
    rw [hs] at e2
    by_cases hw : w b = 0
    · rw [if_pos hw] at e2; cases a <;> simp_all
    · rw [if_neg hw] at e2; cases a <;> simp_all

/-- Bins without weight are cut. -/
theorem unseen_selected (ns : List ℕ) (hne : ns ≠ []) (w u : ℕ → K) (b : ℕ) (hb : b < ns.prod) (hw : w b = 0) :
    ∃ sel, notSeenEvents (setBinInfo (smootherTable ns w u)).ndim
        ((arangeMulti ns).map fun c => c.map fun (i : ℕ) => Flt.fin (i : K)) (setBinInfo (smootherTable ns w u)).binWeights
        (setBinInfo (smootherTable ns w u)).nBins = some sel ∧ sel[b]? = some true := by
  obtain ⟨sel, h1, h2⟩ := selected_centre ns hne w u b hb
  exact ⟨sel, h1, by rw [h2, decide_eq_true hw]⟩

/-- What the smoother of a categorical feature gives at the center of a bin without weight. -/
theorem unseen_none {σ : Type*} (base : SmootherKind → Smoother K σ) (s : SmootherKind) (useNorm : Bool) (ns : List ℕ)
    (hne : ns ≠ []) (w u v : ℕ → K) (b : ℕ) (hb : b < ns.prod) (hw : w b = 0) :
    smoothAtCentres base (metaSmoother s useNorm (some .discontinuous)) ns w u v b = none := by
  obtain ⟨sel, h1, h2⟩ := unseen_selected ns hne w u b hb hw
  have hcut : ∀ l : List (Flt K), (match (List.zipWith (fun (s : Bool) v => if s = true then Flt.nan else v) sel l)[b]? with
      | some (.fin v) => some v
      | _ => none) = none := by
    intro l
    rw [List.getElem?_zipWith, h2]
    cases l[b]? with
    | none => rfl
    | some a => rfl
  cases useNorm
  · unfold smoothAtCentres metaSmoother kindPredict regTypePredict regTypeFit applyCut
    simp only [h1, Option.map_some]
    exact hcut _
  · unfold smoothAtCentres metaSmoother kindPredict normRegTypePredict normRegTypeFit applyCut
    simp only [h1, Option.map_some]
    exact hcut _

/-- A bin for which the smoother never gives a number keeps the neutral factor. -/
theorem stored_zero (p : Params K) (hp : p.aggregate = true) (hok : p.consts.Ok) (o : Oracle K)
    (cfgs : List FeatureCfg) (prior : ℕ → K)
    (hcal : ∀ it i (fs : FState K), o.calibrate it i fs = fs.factors)
    (j : ℕ) (cfg : FeatureCfg) (hj : cfgs[j]? = some cfg) (b : ℕ) (hb : b < cfg.nFinite)
    (hsm : ∀ it pr fs est, o.smooth it j pr fs est b = none)
    (past : List (TState K)) (s : TState K) (h : Trace p o cfgs (startState o cfgs prior) past s) (hnd : s.diverging = 0) :
    ∃ fs, s.feats[j]? = some fs ∧ stored fs b = 0 := by
  have hjl : j < cfgs.length := by
    by_contra hc
    rw [List.getElem?_eq_none (not_lt.mp hc)] at hj; cases hj
  have hflag : ∀ (past : List (TState K)) (s : TState K), Trace p o cfgs (startState o cfgs prior) past s →
      s.diverging = 0 → s.isDiverging = false := by
    intro past s h hnd
    cases h with
    | start => rfl
    | step ht hc' hit =>
      obtain ⟨_, _, _, _, hcc, _⟩ := iterate_ok p o cfgs _ _ hit
      obtain ⟨_, h2, _⟩ := checkConvergence_ok _ _ _ _ _ hcc
      cases hd : s.isDiverging with
      | false => rfl
      | true => rw [hd] at h2; simp only [if_true] at h2; omega
  induction h with
  | start =>
    refine ⟨FState.init, ?_, rfl⟩
    unfold startState
    simp only [List.getElem?_map, hj, Option.map_some]
  | @step past s s' htr hcont hit ih =>
    obtain ⟨_, _, _, _, hcc, _⟩ := iterate_ok p o cfgs _ _ hit
    obtain ⟨_, h2, _⟩ := checkConvergence_ok _ _ _ _ _ hcc
    have hd' : s'.isDiverging = false := hflag _ _ (.step htr hcont hit) hnd
    rw [hd'] at h2
    simp only [Bool.false_eq_true, if_false] at h2
    have hnd0 : s.diverging = 0 := by omega
    have hd := hflag _ _ htr hnd0
    obtain ⟨fs, hfs, hzero⟩ := ih hnd0
    have hw' := trace_WF p o cfgs prior _ s' (.step htr hcont hit)
    have hl' : j < s'.feats.length := by rw [← hw'.1]; exact hjl
    refine ⟨s'.feats[j], List.getElem?_eq_getElem hl', ?_⟩
    have hfs' := List.getElem?_eq_getElem hl'
    generalize s'.feats[j] = fs' at hfs'
    cases hsk : skipped p past.length cfg with
    | true =>
      have hiter := (trace_iterations p o cfgs prior past s htr).1
      obtain ⟨feats, pred, r, hfp, _, hr, hf, _⟩ := iterate_ok p o cfgs _ _ hit
      rw [hd'] at hr
      simp only [Bool.false_eq_true, if_false, Except.ok.injEq] at hr
      obtain ⟨fs1, fs0, pred', g1, g2, g3⟩ := featurePass_get p o s.iteration s.diverging s.isDiverging s.initialLoss
        cfgs 0 s.feats s.pred j cfg fs hj hfs
      rw [reset_noop p o cfgs prior past s htr fs (List.mem_of_getElem? hfs)] at g2
      subst g2
      rw [hfp] at g1
      rw [hf, ← hr] at hfs'
      simp only at g1 hfs'
      rw [g1, Option.some.injEq] at hfs'
      rw [hiter, hsk] at g3
      rcases g3 with ⟨-, g3⟩ | ⟨g3, -⟩
      · rw [← hfs', g3]; exact hzero
      · cases g3
    | false =>
      obtain ⟨running, input, raw, -, ⟨r1, -, r3, -⟩, hupd⟩ := C66_update_aggregate p hp hok o cfgs prior hcal past s s' htr hit
        hd hd' j cfg fs fs' hj hfs hfs' hsk
      have hraw : raw b = 0 := by
        cases hz : fs.zeroSmoother with
        | true => exact r1 b hb hz
        | false => exact r3 b hb hz (hsm _ _ _ _)
      obtain ⟨u1, u2, u3⟩ := hupd b
      rw [hraw] at u1 u2 u3
      have h0 : ∀ y : K, IsClip 0 p.consts.logHalf p.consts.logTwo y → y = 0 :=
        fun y hy => hy.2.2 hok.half hok.two
      cases hc : p.clip with
      | false => have := u1 hc; rw [hzero] at this; linarith
      | true =>
        cases hfit : fs.isFitted with
        | false => exact h0 _ (u2 hc hfit)
        | true =>
          obtain ⟨once, o1, o2⟩ := u3 hc hfit
          rw [h0 _ o1, hzero] at o2
          have h1 := hok.min_le cfg.external (cfg.group.length == 1)
          have h2 := hok.le_max cfg.external (cfg.group.length == 1)
          have := o2.2.2 (by linarith [hok.half]) (by linarith [hok.two])
          linarith

/-- **C74.** Let feature `j` contain a categorical column and let its smoother be chosen by the library (with regression
types, and not the group-by smoother of several columns). Whatever the inner smoother does, the stored factor of every bin
whose training samples have no weight is exactly neutral after every iteration of every training without divergence. -/
theorem C74_stored (p : Params K) (hp : p.aggregate = true) (hok : p.consts.Ok) (o : Oracle K)
    (X : Table K) (n : ℕ) (weights : ℕ → K) (specs : List FeatureSpec) (prior : ℕ → K)
    (hcal : ∀ it i (fs : FState K), o.calibrate it i fs = fs.factors)
    (j : ℕ) (f : FeatureSpec) (hj : specs[j]? = some f) (hgroup : f.group ≠ [])
    (c : Choice) (hr : c.useRegressionType = true) (fps : List ℕ) (fp : ℕ) (hfp : fp ∈ fps) (hcat : IsCategorical fp)
    (hgb : c.kind ≠ .groupBy ∨ (∃ name, f.group = [name] ∧ Spec.NoExplicit c [name]) ∧ fps = [fp])
    (kind : SmootherKind) (hkind : c.choose f.group fps = .ok kind)
    {σ : Type*} (base : SmootherKind → Smoother K σ)
    (hsm : ∀ it pr fs est, ∃ u, ∀ b < (f.cfg X n).nFinite, o.smooth it j pr fs est b
      = smoothAtCentres base kind (bindData X n f.group none).2 (binSum n (f.cfg X n).bin weights) u est b)
    (b : ℕ) (hb : b < (f.cfg X n).nFinite) (hempty : ∀ i < n, (f.cfg X n).bin i = b → weights i = 0)
    (past : List (TState K)) (s : TState K)
    (h : Trace p o (specs.map fun f => f.cfg X n) (startState o (specs.map fun f => f.cfg X n) prior) past s)
    (hnd : s.diverging = 0) :
    ∃ fs, s.feats[j]? = some fs ∧ stored fs b = 0 := by
  obtain ⟨sub, rfl⟩ := C74_chosen c hr f.group fps fp hfp hcat hgb kind hkind
  refine stored_zero p hp hok o _ prior hcal j (f.cfg X n) (by rw [List.getElem?_map, hj]; rfl) b hb ?_ past s h hnd
  intro it pr fs est
  obtain ⟨u, hu⟩ := hsm it pr fs est
  rw [hu b hb]
  refine unseen_none base sub _ _ ?_ _ u est b hb ?_
  · have := bindData_length X n f.group
    intro e
    rw [e] at this
    exact hgroup (List.length_eq_zero_iff.mp this.symm)
  · unfold binSum
    apply Finset.sum_eq_zero
    intro i hi
    split
    · exact hempty i (Finset.mem_range.mp hi) (by assumption)
    · rfl

/-- **C74, prediction.** In the model fitted by such a training, a query in a bin tuple of the feature without training
weight gets the contribution 0 (in link space): its prediction is the one of the remaining features. -/
theorem C74_prediction (p : Params K) (hp : p.aggregate = true) (hok : p.consts.Ok) (o : Oracle K)
    (X : Table K) (n : ℕ) (weights : ℕ → K) (specs : List FeatureSpec) (prior : ℕ → K)
    (hcal : ∀ it i (fs : FState K), o.calibrate it i fs = fs.factors)
    (j : ℕ) (f : FeatureSpec) (hj : specs[j]? = some f) (hgroup : f.group ≠ [])
    (c : Choice) (hr : c.useRegressionType = true) (fps : List ℕ) (fp : ℕ) (hfp : fp ∈ fps) (hcat : IsCategorical fp)
    (hgb : c.kind ≠ .groupBy ∨ (∃ name, f.group = [name] ∧ Spec.NoExplicit c [name]) ∧ fps = [fp])
    (kind : SmootherKind) (hkind : c.choose f.group fps = .ok kind)
    {σ : Type*} (base : SmootherKind → Smoother K σ)
    (hsm : ∀ it pr fs est, ∃ u, ∀ b < (f.cfg X n).nFinite, o.smooth it j pr fs est b
      = smoothAtCentres base kind (bindData X n f.group none).2 (binSum n (f.cfg X n).bin weights) u est b)
    (fuel : ℕ) (r : FitResult K) (h : fitMain p o (specs.map fun f => f.cfg X n) prior fuel = some (.ok r))
    (hnd : ∀ past s, Trace p o (specs.map fun f => f.cfg X n) (startState o (specs.map fun f => f.cfg X n) prior) past s →
      s.diverging = 0)
    (t : List ℕ) (ht : IsBinTuple (bindData X n f.group none).2 t)
    (hempty : ∀ i < n, (f.cfg X n).bin i = encode (bindData X n f.group none).2 t → weights i = 0)
    (x : List K) (hx : BelongsTo x t) :
    ∃ g, (fittedFeatures X n specs r.factors)[j]? = some g ∧ g.group = f.group ∧ g.predict (x.map Flt.fin) = 0 := by
  obtain ⟨past, st, htr, -, hfac, -⟩ := fitMain_ok p o _ prior fuel r h
  have hb := encode_lt _ t ht
  obtain ⟨fs, hfs, hz⟩ := C74_stored p hp hok o X n weights specs prior hcal j f hj hgroup c hr fps fp hfp hcat hgb kind hkind
    base hsm _ hb hempty past st htr (hnd _ _ htr)
  have hagg : ∃ fac, r.factors[j]? = some fac ∧ stored fs = fac := by
    have h1 : (st.feats.map (fun fs => fs.agg))[j]? = (r.factors.map some)[j]? := by rw [hfac]
    rw [List.getElem?_map, List.getElem?_map, hfs] at h1
    cases hrj : r.factors[j]? with
    | none => rw [hrj] at h1; simp at h1
    | some fac =>
      rw [hrj] at h1
      simp only [Option.map_some, Option.some.injEq] at h1
      refine ⟨fac, rfl, ?_⟩
      funext b
      unfold stored
      rw [h1]
  obtain ⟨fac, hfacj, hst⟩ := hagg
  refine ⟨⟨f.group, f.external, (bindData X n f.group none).2, fac⟩, ?_, rfl, ?_⟩
  · unfold fittedFeatures
    rw [List.getElem?_zipWith, hj, hfacj]
  have hlen := bindData_length X n f.group
  generalize (bindData X n f.group none).2 = ns at *
  rw [hst] at hz
  by_cases h1 : f.group.length = 1
  · rw [h1] at hlen
    obtain ⟨m, rfl⟩ := List.length_eq_one_iff.mp hlen
    obtain ⟨k, rfl⟩ := List.length_eq_one_iff.mp (ht.1.trans hlen)
    have hk : k < m := by simpa using ht.2 0 (by simp) (by simp)
    have hx' : ∃ y, x = [y] ∧ 0 ≤ y ∧ |y - k| < 1 / 2 := by
      unfold BelongsTo at hx
      match x, hx with
      | [y], hx => exact ⟨y, rfl, hx⟩
      | [], hx => exact absurd hx.1 (by simp)
      | _ :: _ :: _, hx => exact absurd hx.1 (by simp)
    obtain ⟨y, rfl, hy0, hy⟩ := hx'
    have hrk : rint y = (k : ℤ) := by
      have h2 := abs_le.mp (rint_nearest y).1
      rw [abs_lt] at hy
      have h3 : ((rint y : ℤ) : K) < ((k + 1 : ℤ) : K) := by push_cast; linarith [h2.1, h2.2]
      have h4 : (((k : ℤ) - 1 : ℤ) : K) < ((rint y : ℤ) : K) := by push_cast; linarith [h2.1, h2.2]
      have h5 := Int.cast_lt.mp h3
      have h6 := Int.cast_lt.mp h4
      omega
    rw [List.map_singleton, predict_one _ m rfl h1 y hy0, hrk, if_pos (by omega)]
    simpa [encode] using hz
  · have h2 : 2 ≤ f.group.length := by
      have := List.length_pos_iff.mpr hgroup
      omega
    have hcell : InCell x t := by
      unfold BelongsTo at hx
      split at hx
      · have := ht.1
        simp at this
        omega
      · exact hx
    have hxl : (x.map Flt.fin).length = ns.length := by rw [List.length_map, hcell.1, ht.1]
    have hfin : finiteSemiPositive (x.map Flt.fin) = true := by
      rw [finiteSemiPositive_iff]
      intro b hb
      rw [List.mem_map] at hb
      obtain ⟨z, hz, rfl⟩ := hb
      obtain ⟨i, hi, rfl⟩ := List.getElem_of_mem hz
      exact ⟨_, rfl, le_trans (Nat.cast_nonneg _) (hcell.2 i hi (by rw [← hcell.1]; exact hi)).1⟩
    rw [predict_multi _ (by simpa using hlen) h2 _ (by rw [hxl, hlen]) hfin]
    split
    · have : (x.map Flt.fin).map floorComp = t := by
        apply List.ext_getElem
        · rw [List.length_map, List.length_map, hcell.1]
        · intro i h1 h2
          rw [List.getElem_map, List.getElem_map]
          obtain ⟨c1, c2⟩ := hcell.2 i (by simpa using h1) h2
          have : ⌊x[i]'(by simpa using h1)⌋ = (t[i] : ℤ) := by
            rw [Int.floor_eq_iff]
            exact ⟨by exact_mod_cast c1, by exact_mod_cast c2⟩
          simp [floorComp, this]
      rw [this]
      exact hz
    · rfl

end

/-! ### Witness -/

/-- A column with the bins 0 and 2; bin 1 has no sample. -/
def gapTable : Table ℚ := fun s _ => .fin ([0, 2, 2].getD s 0)

def gapSpecs : List FeatureSpec := [⟨["a"], false, false⟩]

/-- Estimates that are not neutral in any bin, smoothed by the smoother of kind `kind`. -/
def gapOracle (kind : SmootherKind) : Oracle ℚ :=
  { estimate := fun _ _ _ _ b => [-1/5, 2/5, 1/5].getD b 0
    smooth := fun _ _ _ _ est => smoothAtCentres toyBase kind (bindData gapTable 3 ["a"] none).2
      (binSum 3 ((⟨["a"], false, false⟩ : FeatureSpec).cfg gapTable 3).bin fun _ => 1) (fun _ => 1) est
    learnRate := fun _ => 1/2
    calibrate := fun _ _ fs => fs.factors
    loss := fun pred => .fin (10 - pred.factors 2) }

/-- Witness for C74: for an unordered column the factor of the empty bin 1 stays 0, the others are learned; without
regression types the empty bin gets a factor. -/
example : IsCategorical Flags.IS_UNORDERED ∧
    (([true, false].map fun rt => ((⟨.weightedMean, rt, true, []⟩ : Choice).choose ["a"] [Flags.IS_UNORDERED]).toOption.bind
      fun kind => (runN (toyParams true none) (gapOracle kind) (gapSpecs.map fun f => f.cfg gapTable 3) 2
        (startState (gapOracle kind) (gapSpecs.map fun f => f.cfg gapTable 3) fun _ => 0)).map
        fun s => (s.diverging, s.feats.map fun fs => [stored fs 0, stored fs 1, stored fs 2]))
      = [some (0, [[-1/5, 0, 2/5]]), some (0, [[-1/5, 2/5, 2/5]])]) := by
  refine ⟨by unfold IsCategorical; decide, by decide +kernel⟩

end CB
