import Verif.Model.FeatureSmooth
import Verif.Spec.Monotone
import Verif.Props.SmootherChoice
import Verif.Props.MetaSmoother
import Verif.Props.Updates
import Verif.Props.Predict
import Verif.Props.PredictMore

/-!
# C73: monotonic features
-/

set_option autoImplicit false
set_option linter.unusedSectionVars false

namespace CB
open Spec

section
variable {K : Type*} [Field K] [LinearOrder K] [IsStrictOrderedRing K]

theorem InOrder.refl (inc : Bool) (a : K) : InOrder inc a a := by
  unfold InOrder; split <;> exact le_rfl

theorem InOrder.add (inc : Bool) {a b c d : K} (h : InOrder inc a b) (h' : InOrder inc c d) :
    InOrder inc (a + c) (b + d) := by
  unfold InOrder at *; split at h <;> simp_all <;> linarith

theorem InOrder.mul (inc : Bool) {a b c : K} (hc : 0 ≤ c) (h : InOrder inc a b) : InOrder inc (c * a) (c * b) := by
  unfold InOrder at *
  split at h
  · simp_all; exact mul_le_mul_of_nonneg_left h hc
  · simp_all; exact mul_le_mul_of_nonneg_left h hc

theorem isClip_mono {lo hi x x' y y' : K} (h : lo ≤ hi) (h1 : IsClip x lo hi y) (h2 : IsClip x' lo hi y') (hx : x ≤ x') :
    y ≤ y' := by
  obtain ⟨a1, a2, a3⟩ := h1
  obtain ⟨b1, b2, b3⟩ := h2
  rcases lt_or_ge x lo with c1 | c1 <;> rcases lt_or_ge hi x with c2 | c2 <;>
    rcases lt_or_ge x' lo with d1 | d1 <;> rcases lt_or_ge hi x' with d2 | d2 <;> simp_all <;> linarith

theorem InOrder.clip (inc : Bool) {lo hi x x' y y' : K} (h : lo ≤ hi) (h1 : IsClip x lo hi y) (h2 : IsClip x' lo hi y')
    (hx : InOrder inc x x') : InOrder inc y y' := by
  unfold InOrder at *
  split at hx
  · simp_all; exact isClip_mono h h1 h2 hx
  · simp_all; exact isClip_mono h h2 h1 hx

/-- Clipping the update such that the sum stays in a range is clipping the sum. -/
theorem isClip_shift {lo hi x y st st' : K} (h : IsClip x (lo - st) (hi - st) (st' - st)) (hy : y = st + x) :
    IsClip y lo hi st' := by
  subst hy
  obtain ⟨a1, a2, a3⟩ := h
  refine ⟨fun c => ?_, fun c => ?_, fun c d => ?_⟩
  · have := a1 (by linarith); linarith
  · have := a2 (by linarith); linarith
  · have := a3 (by linarith) (by linarith); linarith

theorem isotonicWeight_pos (sigma : K) : 0 < isotonicWeight sigma := by
  unfold isotonicWeight
  dsimp only
  split
  · rename_i h; positivity
  · positivity

variable [FloorRing K]

theorem smootherTable_centres (ns : List ℕ) (w u : ℕ → K) : Spec.IsCentreTable ns (smootherTable ns w u) := by
  unfold Spec.IsCentreTable smootherTable
  rw [List.map_map]
  have : ((fun r : FitRow K => r.x) ∘ fun p : List ℕ × ℕ => (⟨p.1, w p.2, u p.2⟩ : FitRow K)) = Prod.fst := rfl
  rw [this, List.zipIdx_map_fst]

theorem arangeMulti_one (n : ℕ) : arangeMulti [n] = (List.range n).map fun i => [i] := by
  apply List.ext_getElem?
  intro i
  rw [List.getElem?_map]
  by_cases hi : i < n
  · rw [arangeMulti_getElem? [n] i (by simpa using hi), List.getElem?_range hi]
    simp [digits, Nat.mod_eq_of_lt hi]
  · rw [List.getElem?_eq_none (by rw [(C12_inverse (K := ℚ) [n]).1]; simpa using hi), List.getElem?_eq_none (by simpa using hi)]
    rfl

theorem not_selected (n i : ℕ) (hi : i < n) : selectedInterpolating [n] [Flt.fin (i : K)] = false := by
  unfold selectedInterpolating minNeg fltNeg fltGt fltIsNan
  have h0 : ¬ ((i : K) < 0) := not_lt.2 (Nat.cast_nonneg i)
  have h1 : ¬ ((n : K) - 1 / 2 < (i : K)) := by
    have : ((i + 1 : ℕ) : K) ≤ (n : K) := by exact_mod_cast hi
    push_cast at this
    rw [not_lt]; linarith
  simp [h0]
  linarith

/-- The isotonic smoother, with any of the wrappers that can be chosen for it, predicts a number at every bin center, and
these are in order. -/
theorem isotonic_centres (inc : Bool) (reg : List (K × K × K) → K → K) (hreg : IsIsotonic inc reg)
    (base : SmootherKind → Smoother K (List (K × K × K))) (hbase : base (.isotonic (some inc)) = isotonicSmoother reg)
    (useNorm : Bool) (t : Option RegType) (ht : t = none ∨ t = some .interpolating)
    (n : ℕ) (w u v : ℕ → K) :
    ∃ g : ℕ → K, (∀ b < n, smoothAtCentres base (metaSmoother (.isotonic (some inc)) useNorm t) [n] w u v b = some (g b)) ∧
      ∀ a b, a ≤ b → b < n → InOrder inc (g a) (g b) := by
  set X := smootherTable [n] w u with hX
  have hrow0 : (arangeMulti [n]).map (fun c => c.map fun (i : ℕ) => Flt.fin (i : K))
      = (List.range n).map fun (i : ℕ) => [Flt.fin (i : K)] := by
    rw [arangeMulti_one, List.map_map]; rfl
  have hprod : [n].prod = n := by simp
  set y := (List.range n).map v with hy
  set rows : List (List (Flt K)) := (List.range n).map fun (i : ℕ) => [Flt.fin (i : K)] with hrows
  have hdir : ∀ y' : List K, ∀ a b : ℕ, a ≤ b →
      InOrder inc (reg ((isotonicSmoother reg).fit X y') a) (reg ((isotonicSmoother reg).fit X y') b) := by
    intro y' a b hab
    refine hreg _ ?_ _ _ (by exact_mod_cast hab)
    intro d hd
    unfold isotonicSmoother at hd
    dsimp only at hd
    obtain ⟨i, hi, rfl⟩ := List.getElem_of_mem hd
    rw [List.getElem_zipWith]
    exact isotonicWeight_pos _
  have hget : ∀ y' : List K, ∀ b < n, ((isotonicSmoother reg).predict ((isotonicSmoother reg).fit X y') rows)[b]?
      = some (.fin (reg ((isotonicSmoother reg).fit X y') (b : K))) := by
    intro y' b hb
    unfold isotonicSmoother
    simp only [hrows, List.map_map, List.getElem?_map, List.getElem?_range hb]
    rfl
  have hinfo : 0 < n → (setBinInfo X).nBins = [n] := by
    intro hn
    rw [setBinInfo_centres [n] (by simpa using hn.ne') X (smootherTable_centres [n] w u)]
  have hsel : ∀ b < n, (rows.map (selectedInterpolating (setBinInfo X).nBins))[b]? = some false := by
    intro b hb
    rw [hinfo (by omega), hrows, List.map_map, List.getElem?_map, List.getElem?_range hb]
    simp only [Option.map_some, Function.comp, not_selected n b hb]
  rcases ht with rfl | rfl <;> cases useNorm
  · refine ⟨fun b => reg ((isotonicSmoother reg).fit X y) b, fun b hb => ?_, fun a b hab _ => hdir y a b hab⟩
    unfold smoothAtCentres metaSmoother kindPredict
    simp only [hrow0, hprod, hbase]
    rw [hget y b hb]
  · refine ⟨fun b => reg ((isotonicSmoother reg).fit X (y.map fun v => v - calcNorm X y)) b + calcNorm X y,
      fun b hb => ?_, fun a b hab _ => InOrder.add inc (hdir _ a b hab) (InOrder.refl inc _)⟩
    unfold smoothAtCentres metaSmoother kindPredict normalizationSmoother
    simp only [hrow0, hprod, hbase, List.getElem?_map]
    rw [hget _ b hb]
    rfl
  · refine ⟨fun b => reg ((isotonicSmoother reg).fit X y) b, fun b hb => ?_, fun a b hab _ => hdir y a b hab⟩
    unfold smoothAtCentres metaSmoother kindPredict regTypePredict regTypeFit applyCut
    simp only [hrow0, hprod, hbase, List.getElem?_zipWith]
    rw [hget y b hb, hsel b hb]
    rfl
  · refine ⟨fun b => reg ((isotonicSmoother reg).fit X (y.map fun v => v - calcNorm X y)) b + calcNorm X y,
      fun b hb => ?_, fun a b hab _ => InOrder.add inc (hdir _ a b hab) (InOrder.refl inc _)⟩
    unfold smoothAtCentres metaSmoother kindPredict normRegTypePredict normRegTypeFit applyCut
    simp only [hrow0, hprod, hbase, List.getElem?_zipWith, List.getElem?_map]
    have h1 := hsel b hb
    rw [List.getElem?_map] at h1
    rw [hget _ b hb, h1]
    rfl

/-- A feature of one column whose property asks for a direction gets the isotonic smoother with this direction. -/
theorem C73_chosen (c : Choice) (hk : c.kind ≠ .noSmoother) (name : String) (hex : Spec.NoExplicit c [name])
    (inc : Bool) (fp : ℕ) (hfp : AsksDirection inc fp) :
    ∃ t, (t = none ∨ t = some RegType.interpolating) ∧
      c.choose [name] [fp] = .ok (metaSmoother (.isotonic (some inc)) c.useNormalization t) := by
  obtain ⟨h0, h3, h8, h9, hdir⟩ := hfp
  have hrep : ¬ Spec.Unreportable fp := by
    rintro ⟨⟨-, -, h, -⟩, -⟩; rw [h0] at h; cases h
  have hdef : Spec.defaultSmoother c.useNormalization fp = .isotonic (some inc) := by
    unfold Spec.defaultSmoother
    rw [h8, h9, h0, h3]
    cases inc with
    | true => simp only [if_true] at hdir; simp [hdir]
    | false => simp only [Bool.false_eq_true, if_false] at hdir; simp [hdir]
  have hone := (C53_onedim c fp name hex).1 hrep
  rw [hdef] at hone
  have hreg : regTypeSingle fp = .interpolating := by
    unfold regTypeSingle
    rw [show Flags.isSet fp Flags.IS_LINEAR = fp.testBit 8 from Flags.isSet_bit fp 8,
      show Flags.isSet fp Flags.IS_SEASONAL = fp.testBit 9 from Flags.isSet_bit fp 9,
      show Flags.isSet fp Flags.IS_CONTINUOUS = fp.testBit 0 from Flags.isSet_bit fp 0, h8, h0]
    simp
  have htup : regTypeTuple [fp] = .interpolating := by
    unfold regTypeTuple
    simp [hreg]
  refine ⟨if c.useRegressionType then some .interpolating else none, ?_, ?_⟩
  · split <;> simp
  · unfold Choice.choose Choice.raw Choice.wrap
    cases hkk : c.kind with
    | noSmoother => exact absurd hkk hk
    | weightedMean => simp [noExplicit_iff.mpr hex, hone, htup]
    | groupBy => simp [noExplicit_iff.mpr hex, hone, hreg, SmootherKind.isGroupByCB]

/-- **C73.** Monotonic features with a direction: let feature `j` be a single column whose property asks for a direction and
whose smoother is chosen by the library. If the isotonic regression gives functions in the requested direction and the
learning rates are not negative, then in every training history without divergence the stored factors of the finite bins
are in the requested order after every iteration. -/
theorem C73_stored (p : Params K) (hp : p.aggregate = true) (hok : p.consts.Ok) (o : Oracle K)
    (cfgs : List FeatureCfg) (prior : ℕ → K)
    (hcal : ∀ it i (fs : FState K), o.calibrate it i fs = fs.factors) (hlr : ∀ it, 0 ≤ o.learnRate it)
    (j : ℕ) (cfg : FeatureCfg) (hj : cfgs[j]? = some cfg)
    (inc : Bool) (reg : List (K × K × K) → K → K) (hreg : IsIsotonic inc reg)
    (base : SmootherKind → Smoother K (List (K × K × K))) (hbase : base (.isotonic (some inc)) = isotonicSmoother reg)
    (c : Choice) (hk : c.kind ≠ .noSmoother) (name : String) (hex : Spec.NoExplicit c [name])
    (fp : ℕ) (hfp : AsksDirection inc fp) (kind : SmootherKind) (hkind : c.choose [name] [fp] = .ok kind)
    (hsm : ∀ it pr fs est, ∃ w u, ∀ b < cfg.nFinite,
      o.smooth it j pr fs est b = smoothAtCentres base kind [cfg.nFinite] w u est b)
    (past : List (TState K)) (s : TState K) (h : Trace p o cfgs (startState o cfgs prior) past s) (hnd : s.diverging = 0) :
    ∃ fs, s.feats[j]? = some fs ∧ ∀ a b, a ≤ b → b < cfg.nFinite → InOrder inc (stored fs a) (stored fs b) := by
  obtain ⟨t, ht, hch⟩ := C73_chosen c hk name hex inc fp hfp
  rw [hkind, Except.ok.injEq] at hch
  have hsmooth : ∀ it pr fs est, ∃ g : ℕ → K, (∀ b < cfg.nFinite, o.smooth it j pr fs est b = some (g b)) ∧
      ∀ a b, a ≤ b → b < cfg.nFinite → InOrder inc (g a) (g b) := by
    intro it pr fs est
    obtain ⟨w, u, hwu⟩ := hsm it pr fs est
    obtain ⟨g, hg, hg2⟩ := isotonic_centres inc reg hreg base hbase c.useNormalization t ht cfg.nFinite w u est
    exact ⟨g, fun b hb => by rw [hwu b hb, hch, hg b hb], hg2⟩
  have hjl : j < cfgs.length := by
    by_contra hc
    rw [List.getElem?_eq_none (not_lt.mp hc)] at hj; cases hj
  have hflag : ∀ (past : List (TState K)) (s : TState K), Trace p o cfgs (startState o cfgs prior) past s →
      s.diverging = 0 → s.isDiverging = false := by
    intro past s h hnd
    cases h with
    | start => rfl
    | step ht hc' hit =>
      obtain ⟨_, _, _, _, hcc, _⟩ := iterate_ok p o cfgs _ _ hit
      obtain ⟨_, h2, _⟩ := checkConvergence_ok _ _ _ _ _ hcc
      cases hd : s.isDiverging with
      | false => rfl
      | true => rw [hd] at h2; simp only [if_true] at h2; omega
  induction h with
  | start =>
    refine ⟨FState.init, ?_, fun a b _ _ => InOrder.refl inc _⟩
    unfold startState
    simp only [List.getElem?_map, hj, Option.map_some]
  | @step past s s' htr hcont hit ih =>
    obtain ⟨_, _, _, _, hcc, _⟩ := iterate_ok p o cfgs _ _ hit
    obtain ⟨_, h2, _⟩ := checkConvergence_ok _ _ _ _ _ hcc
    have hd' : s'.isDiverging = false := hflag _ _ (.step htr hcont hit) hnd
    rw [hd'] at h2
    simp only [Bool.false_eq_true, if_false] at h2
    have hnd0 : s.diverging = 0 := by omega
    have hd := hflag _ _ htr hnd0
    obtain ⟨fs, hfs, hmono⟩ := ih hnd0
    have hw' := trace_WF p o cfgs prior _ s' (.step htr hcont hit)
    have hl' : j < s'.feats.length := by rw [← hw'.1]; exact hjl
    refine ⟨s'.feats[j], List.getElem?_eq_getElem hl', ?_⟩
    have hfs' := List.getElem?_eq_getElem hl'
    generalize s'.feats[j] = fs' at hfs'
    cases hsk : skipped p past.length cfg with
    | true =>
      have hiter := (trace_iterations p o cfgs prior past s htr).1
      obtain ⟨feats, pred, r, hfp, _, hr, hf, _⟩ := iterate_ok p o cfgs _ _ hit
      rw [hd'] at hr
      simp only [Bool.false_eq_true, if_false, Except.ok.injEq] at hr
      obtain ⟨fs1, fs0, pred', g1, g2, g3⟩ := featurePass_get p o s.iteration s.diverging s.isDiverging s.initialLoss
        cfgs 0 s.feats s.pred j cfg fs hj hfs
      rw [reset_noop p o cfgs prior past s htr fs (List.mem_of_getElem? hfs)] at g2
      subst g2
      rw [hfp] at g1
      rw [hf, ← hr] at hfs'
      simp only at g1 hfs'
      rw [g1, Option.some.injEq] at hfs'
      rw [hiter, hsk] at g3
      rcases g3 with ⟨-, g3⟩ | ⟨g3, -⟩
      · intro a b hab hb
        rw [← hfs', g3]
        exact hmono a b hab hb
      · cases g3
    | false =>
      obtain ⟨running, input, raw, -, ⟨r1, r2, r3, -⟩, hupd⟩ := C66_update_aggregate p hp hok o cfgs prior hcal past s s' htr hit
        hd hd' j cfg fs fs' hj hfs hfs' hsk
      obtain ⟨g, hg1, hg2⟩ := hsmooth past.length running input (o.estimate past.length j running fs)
      intro a b hab hb
      have hraw : InOrder inc (raw a) (raw b) := by
        cases hz : fs.zeroSmoother with
        | true => rw [r1 a (by omega) hz, r1 b hb hz]; exact InOrder.refl inc _
        | false =>
          rw [r2 a _ (by omega) hz (hg1 a (by omega)), r2 b _ hb hz (hg1 b hb)]
          exact InOrder.mul inc (hlr _) (hg2 a b hab hb)
      have hht : p.consts.logHalf ≤ p.consts.logTwo := le_trans hok.half hok.two
      obtain ⟨ua1, ua2, ua3⟩ := hupd a
      obtain ⟨ub1, ub2, ub3⟩ := hupd b
      cases hc : p.clip with
      | false =>
        have e1 : stored fs' a = stored fs a + raw a := by rw [← ua1 hc]; ring
        have e2 : stored fs' b = stored fs b + raw b := by rw [← ub1 hc]; ring
        rw [e1, e2]
        exact InOrder.add inc (hmono a b hab hb) hraw
      | true =>
        cases hfit : fs.isFitted with
        | false => exact InOrder.clip inc hht (ua2 hc hfit) (ub2 hc hfit) hraw
        | true =>
          obtain ⟨oa, oa1, oa2⟩ := ua3 hc hfit
          obtain ⟨ob, ob1, ob2⟩ := ub3 hc hfit
          have h1 := hok.min_le cfg.external (cfg.group.length == 1)
          have h2 := hok.le_max cfg.external (cfg.group.length == 1)
          exact InOrder.clip inc (by linarith) (isClip_shift oa2 rfl) (isClip_shift ob2 rfl)
            (InOrder.add inc (hmono a b hab hb) (InOrder.clip inc hht oa1 ob1 hraw))

theorem rint_mono {x x' : K} (h : x ≤ x') : rint x ≤ rint x' := by
  by_contra hc
  have h1 := abs_le.mp (rint_nearest x).1
  have h2 := abs_le.mp (rint_nearest x').1
  have h3 : rint x' + 1 ≤ rint x := by omega
  have h4 : ((rint x' + 1 : ℤ) : K) ≤ (rint x : K) := by exact_mod_cast h3
  push_cast at h4
  have : x = x' := le_antisymm h (by linarith [h1.1, h2.2])
  rw [this] at hc
  exact hc le_rfl

theorem rint_nonneg {x : K} (h : 0 ≤ x) : 0 ≤ rint x := by
  have := rint_mono h
  have h0 := rint_intCast (K := K) 0
  rw [Int.cast_zero] at h0
  rw [← h0]; exact this

/-- **C73, prediction.** Let the feature of column `col` be monotonic with a direction as in `C73_stored`, and let no other
feature use this column. If training succeeds without divergence, then raising the entry of the column from one bin to
another, all other columns unchanged, moves the prediction (in link space) in the requested direction. -/
theorem C73_prediction (p : Params K) (hp : p.aggregate = true) (hok : p.consts.Ok) (o : Oracle K)
    (X : Table K) (n : ℕ) (specs : List FeatureSpec) (prior : ℕ → K)
    (hcal : ∀ it i (fs : FState K), o.calibrate it i fs = fs.factors) (hlr : ∀ it, 0 ≤ o.learnRate it)
    (j : ℕ) (f : FeatureSpec) (hj : specs[j]? = some f) (col : String) (hcol : f.group = [col])
    (hother : ∀ i g, specs[i]? = some g → col ∈ g.group → i = j)
    (inc : Bool) (reg : List (K × K × K) → K → K) (hreg : IsIsotonic inc reg)
    (base : SmootherKind → Smoother K (List (K × K × K))) (hbase : base (.isotonic (some inc)) = isotonicSmoother reg)
    (c : Choice) (hk : c.kind ≠ .noSmoother) (hex : Spec.NoExplicit c [col])
    (fp : ℕ) (hfp : AsksDirection inc fp) (kind : SmootherKind) (hkind : c.choose [col] [fp] = .ok kind)
    (hsm : ∀ it pr fs est, ∃ w u, ∀ b < (f.cfg X n).nFinite,
      o.smooth it j pr fs est b = smoothAtCentres base kind [(f.cfg X n).nFinite] w u est b)
    (fuel : ℕ) (r : FitResult K) (h : fitMain p o (specs.map fun f => f.cfg X n) prior fuel = some (.ok r))
    (hnd : ∀ past s, Trace p o (specs.map fun f => f.cfg X n) (startState o (specs.map fun f => f.cfg X n) prior) past s →
      s.diverging = 0)
    (X1 X2 : Table K) (s : ℕ) (hsame : ∀ c', c' ≠ col → X1 s c' = X2 s c') (x x' : K) (hx : X1 s col = .fin x)
    (hx' : X2 s col = .fin x') (hx0 : 0 ≤ x) (hxx : x ≤ x') (hin : rint x' < ((f.cfg X n).nFinite : ℤ)) (prior' : ℕ → K) :
    InOrder inc ((predictExtended prior' (fittedFeatures X n specs r.factors) X1).factors s)
      ((predictExtended prior' (fittedFeatures X n specs r.factors) X2).factors s) := by
  obtain ⟨past, st, htr, -, hfac, -⟩ := fitMain_ok p o _ prior fuel r h
  obtain ⟨fs, hfs, hmono⟩ := C73_stored p hp hok o _ prior hcal hlr j (f.cfg X n)
    (by rw [List.getElem?_map, hj]; rfl) inc reg hreg base hbase c hk col hex fp hfp kind hkind hsm past st htr (hnd _ _ htr)
  rw [(C24_link_space prior' _ X1 s).1, (C24_link_space prior' _ X2 s).1]
  refine InOrder.add inc (InOrder.refl inc _) ?_
  have hsum : ∀ l : List (FittedFeature K),
      (∀ g ∈ l, InOrder inc (g.predict (X1.row g.group s)) (g.predict (X2.row g.group s))) →
      InOrder inc (contributionSum false l X1 s) (contributionSum false l X2 s) := by
    intro l hl
    unfold contributionSum
    have : ∀ g ∈ l.filter (fun f => f.external == false),
        InOrder inc (g.predict (X1.row g.group s)) (g.predict (X2.row g.group s)) :=
      fun g hg => hl g (List.mem_filter.mp hg).1
    revert this
    generalize l.filter (fun f => f.external == false) = m
    intro hm
    induction m with
    | nil => exact InOrder.refl inc _
    | cons g m ih =>
      simp only [List.map_cons, List.sum_cons]
      exact InOrder.add inc (hm g (by simp)) (ih fun g' hg' => hm g' (by simp [hg']))
  apply hsum
  intro g hg
  unfold fittedFeatures at hg
  obtain ⟨i, hi, rfl⟩ := List.getElem_of_mem hg
  rw [List.getElem_zipWith]
  rw [List.length_zipWith] at hi
  have hsi : specs[i]? = some (specs[i]'(by omega)) := List.getElem?_eq_getElem (by omega)
  by_cases hij : i = j
  · subst hij
    rw [hj, Option.some.injEq] at hsi
    have hri : r.factors[i]? = some (r.factors[i]'(by omega)) := List.getElem?_eq_getElem (by omega)
    generalize r.factors[i]'(by omega) = fac at hri
    rw [← hsi]
    have hagg : stored fs = fac := by
      have h1 : (st.feats.map (fun fs => fs.agg))[i]? = (r.factors.map some)[i]? := by rw [hfac]
      rw [List.getElem?_map, List.getElem?_map, hfs, hri] at h1
      simp only [Option.map_some, Option.some.injEq] at h1
      funext b
      unfold stored
      rw [h1]
    have hl := bindData_length X n f.group
    rw [hcol] at hl
    obtain ⟨m, hm⟩ := List.length_eq_one_iff.mp hl
    have hnf : (f.cfg X n).nFinite = m := by
      show (bindData X n f.group none).2.prod = m
      rw [hcol, hm]; simp
    rw [hnf] at hin hmono
    have hr1 : X1.row f.group s = [Flt.fin x] := by rw [hcol]; unfold Table.row; simp [hx]
    have hr2 : X2.row f.group s = [Flt.fin x'] := by rw [hcol]; unfold Table.row; simp [hx']
    simp only [hr1, hr2]
    have hmono' := rint_mono hxx
    have h0 := rint_nonneg hx0
    rw [predict_one _ m (by simp only [hcol, hm]) (by simp [hcol]) x hx0,
      predict_one _ m (by simp only [hcol, hm]) (by simp [hcol]) x' (hx0.trans hxx), if_pos (by omega), if_pos hin]
    simp only [← hagg]
    exact hmono _ _ (by omega) (by omega)
  · have hne : ∀ c' ∈ (specs[i]'(by omega)).group, c' ≠ col := by
      rintro c' hc' rfl
      exact hij (hother i _ hsi hc')
    have : X1.row (specs[i]'(by omega)).group s = X2.row (specs[i]'(by omega)).group s := by
      unfold Table.row
      exact List.map_congr_left fun c' hc' => hsame c' (hne c' hc')
    simp only [this]
    exact InOrder.refl inc _

end

/-! ### Witness and counterexample -/

/-- A simple isotonic regression: the largest value (`up`) or smallest value of the positions up to `x`. -/
def cumulativeRegression {K : Type*} [Field K] [LinearOrder K] (up : Bool) (data : List (K × K × K)) (x : K) : K :=
  data.foldl (fun m d => if d.1 ≤ x then (if up then max m d.2.1 else min m d.2.1) else m) (if up then -100 else 100)

theorem cumulative_mono {K : Type*} [Field K] [LinearOrder K] [IsStrictOrderedRing K] (up : Bool) (data : List (K × K × K)) (x x' : K) (h : x ≤ x') :
    InOrder up (cumulativeRegression up data x) (cumulativeRegression up data x') := by
  unfold cumulativeRegression
  have : ∀ m m' : K, InOrder up m m' → InOrder up
      (data.foldl (fun m d => if d.1 ≤ x then (if up then max m d.2.1 else min m d.2.1) else m) m)
      (data.foldl (fun m d => if d.1 ≤ x' then (if up then max m d.2.1 else min m d.2.1) else m) m') := by
    induction data with
    | nil => exact fun m m' h => h
    | cons d data ih =>
      intro m m' hm
      simp only [List.foldl_cons]
      apply ih
      unfold InOrder at *
      cases up
      · simp only [Bool.false_eq_true, if_false] at *
        by_cases hd : d.1 ≤ x
        · rw [if_pos hd, if_pos (hd.trans h)]; exact min_le_min_right _ hm
        · rw [if_neg hd]
          split
          · exact (min_le_left _ _).trans hm
          · exact hm
      · simp only [if_true] at *
        by_cases hd : d.1 ≤ x
        · rw [if_pos hd, if_pos (hd.trans h)]; exact max_le_max_right _ hm
        · rw [if_neg hd]
          split
          · exact hm.trans (le_max_left _ _)
          · exact hm
  exact this _ _ (InOrder.refl up _)

/-- The smoothers of the witness: isotonic regression for both directions; without direction, the direction is the sign of
the difference of the last and first value. -/
def toyBase : SmootherKind → Smoother ℚ (List (ℚ × ℚ × ℚ))
  | .isotonic (some inc) => isotonicSmoother (cumulativeRegression inc)
  | _ => isotonicSmoother fun data =>
    cumulativeRegression (decide ((data.headD (0, 0, 0)).2.1 ≤ (data.getLastD (0, 0, 0)).2.1)) data

/-- Estimates that are not monotonic: in the first iteration `-1/5, -2/5, 1/5`, afterwards `3/10, 0, 1/10`. -/
def wavyOracle (kind : SmootherKind) : Oracle ℚ :=
  { estimate := fun it _ _ _ b => if it = 0 then [-1/5, -2/5, 1/5].getD b 0 else [3/10, 0, 1/10].getD b 0
    smooth := fun _ _ _ _ est => smoothAtCentres toyBase kind [3] (fun _ => 1) (fun _ => 1) est
    learnRate := fun _ => 1/2
    calibrate := fun _ _ fs => fs.factors
    loss := fun pred => .fin (10 - pred.factors 2) }

/-- One feature of three bins. -/
def threeBins : List FeatureCfg := [⟨["a"], false, 3, id, false⟩]

def defaultChoice : Choice := ⟨.weightedMean, true, true, []⟩

/-- Witness for C73: the hypotheses hold for IS_MONOTONIC with INCREASING, and the factors after two
iterations are in order although the estimates are not. -/
example : AsksDirection true (Flags.IS_MONOTONIC ||| Flags.INCREASING) ∧ IsIsotonic true (cumulativeRegression (K := ℚ) true) ∧
    ((defaultChoice.choose ["a"] [Flags.IS_MONOTONIC ||| Flags.INCREASING]).toOption.bind fun kind =>
      (runN (toyParams true none) (wavyOracle kind) threeBins 2 (startState (wavyOracle kind) threeBins fun _ => 0)).map
        fun s => (s.diverging, s.feats.map fun fs => [stored fs 0, stored fs 1, stored fs 2]))
      = some (0, [[1/20, 1/20, 1/4]]) := by
  refine ⟨by unfold AsksDirection; decide, fun data _ x x' h => cumulative_mono true data x x' h, by decide +kernel⟩

/-- **C73, counterexample without direction.** With IS_MONOTONIC alone every smoothed update is monotonic, but the direction
can change between iterations, and the factors need not be monotonic in any direction. -/
theorem C73_without_direction :
    (∀ data : List (ℚ × ℚ × ℚ), (∀ x x', x ≤ x' → cumulativeRegression (decide ((data.headD (0, 0, 0)).2.1 ≤ (data.getLastD (0, 0, 0)).2.1)) data x
        ≤ cumulativeRegression (decide ((data.headD (0, 0, 0)).2.1 ≤ (data.getLastD (0, 0, 0)).2.1)) data x') ∨
      (∀ x x', x ≤ x' → cumulativeRegression (decide ((data.headD (0, 0, 0)).2.1 ≤ (data.getLastD (0, 0, 0)).2.1)) data x'
        ≤ cumulativeRegression (decide ((data.headD (0, 0, 0)).2.1 ≤ (data.getLastD (0, 0, 0)).2.1)) data x)) ∧
    ∃ kind, defaultChoice.choose ["a"] [Flags.IS_MONOTONIC] = .ok kind ∧
      ∃ past s fs, Trace (toyParams true none) (wavyOracle kind) threeBins (startState (wavyOracle kind) threeBins fun _ => 0)
        past s ∧ s.diverging = 0 ∧ s.feats[0]? = some fs ∧
        ∀ inc, ¬ ∀ a b, a ≤ b → b < 3 → InOrder inc (stored fs a) (stored fs b) := by
  constructor
  · intro data
    cases decide ((data.headD (0, 0, 0)).2.1 ≤ (data.getLastD (0, 0, 0)).2.1) with
    | true => left; intro x x' h; simpa [InOrder] using cumulative_mono true data x x' h
    | false => right; intro x x' h; simpa [InOrder] using cumulative_mono false data x x' h
  · refine ⟨.normalizationRegressionType (.isotonic none) .interpolating, by rfl, ?_⟩
    have h : (runN (toyParams true none) (wavyOracle (.normalizationRegressionType (.isotonic none) .interpolating)) threeBins 2
        (startState (wavyOracle (.normalizationRegressionType (.isotonic none) .interpolating)) threeBins fun _ => 0)).map
        (fun s => (s.diverging, s.feats.map fun fs => [stored fs 0, stored fs 1, stored fs 2])) =
        some (0, [[1/20, -1/10, 1/10]]) := by decide +kernel
    rw [Option.map_eq_some_iff] at h
    obtain ⟨s, hs, hv⟩ := h
    obtain ⟨past, ht, hl⟩ := runN_trace _ _ _ _ _ _ hs
    rw [Prod.mk.injEq] at hv
    obtain ⟨hv1, hv2⟩ := hv
    cases hf : s.feats with
    | nil => rw [hf] at hv2; simp at hv2
    | cons fs l =>
      rw [hf] at hv2
      simp only [List.map_cons, List.cons.injEq] at hv2
      obtain ⟨⟨e0, e1, e2, -⟩, -⟩ := hv2
      refine ⟨past, s, fs, ht, hv1, by rw [hf]; rfl, fun inc hall => ?_⟩
      have a1 := hall 0 1 (by omega) (by omega)
      have a2 := hall 1 2 (by omega) (by omega)
      rw [e0, e1] at a1
      rw [e1, e2] at a2
      unfold InOrder at a1 a2
      cases inc
      · simp at a2; norm_num at a2
      · simp at a1; norm_num at a1

end CB
