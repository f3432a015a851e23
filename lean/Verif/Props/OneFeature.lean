import Verif.Props.Calibration
import Verif.Spec.OneFeature

/-!
# C117: models with a single feature neither overshoot nor change the order of the bins
-/

set_option autoImplicit false
set_option linter.unusedSectionVars false

namespace CB
open Finset Spec

theorem isClip_eq {x lo hi y : ℝ} (hl : lo ≤ hi) (h : IsClip x lo hi y) : y = max lo (min hi x) := by
  rcases lt_or_ge x lo with hx | hx
  · rw [h.1 hx, min_eq_right (hx.le.trans hl), max_eq_left hx.le]
  · rcases lt_or_ge hi x with hy | hy
    · rw [h.2.1 hy, min_eq_left hy.le, max_eq_right hl]
    · rw [h.2.2 hx hy, min_eq_right hy, max_eq_right hx]

/-- An update of one bin: the stored value `t` and the raw update `raw` give `new`. -/
def IsUpdate (clip fitted : Bool) (c : ClipConsts ℝ) (lo hi t raw new : ℝ) : Prop :=
  (clip = false → new - t = raw) ∧ (clip = true → fitted = false → IsClip raw c.logHalf c.logTwo new) ∧
    (clip = true → fitted = true → ∃ once, IsClip raw c.logHalf c.logTwo once ∧ IsClip once (lo - t) (hi - t) (new - t))

theorem isUpdate_order {clip fitted : Bool} {c : ClipConsts ℝ} (hc : c.logHalf ≤ c.logTwo) {lo hi t raw new t' raw' new' : ℝ}
    (hl : lo ≤ hi) (hf : fitted = false → t = 0 ∧ t' = 0)
    (h : IsUpdate clip fitted c lo hi t raw new) (h' : IsUpdate clip fitted c lo hi t' raw' new')
    (h1 : t' ≤ t) (h2 : t' + raw' ≤ t + raw) : new' ≤ new := by
  cases clip with
  | false =>
    have := h.1 rfl
    have := h'.1 rfl
    linarith
  | true =>
    cases fitted with
    | false =>
      obtain ⟨e1, e2⟩ := hf rfl
      have a := isClip_eq hc (h.2.1 rfl rfl)
      have a' := isClip_eq hc (h'.2.1 rfl rfl)
      rw [a, a']
      exact max_le_max le_rfl (min_le_min le_rfl (by linarith))
    | true =>
      obtain ⟨o, a1, a2⟩ := h.2.2 rfl rfl
      obtain ⟨o', a1', a2'⟩ := h'.2.2 rfl rfl
      have e1 := isClip_eq hc a1
      have e1' := isClip_eq hc a1'
      have e2 := isClip_eq (by linarith) a2
      have e2' := isClip_eq (by linarith) a2'
      have ho : t' + o' ≤ t + o := by
        rw [e1, e1']
        rcases max_choice c.logHalf (min c.logTwo raw') with hm | hm
        · rw [hm]; have := le_max_left c.logHalf (min c.logTwo raw); linarith
        · rw [hm]
          rcases le_total c.logTwo raw with hr | hr
          · rw [min_eq_left hr]; have := le_max_right c.logHalf c.logTwo; have := min_le_left c.logTwo raw'; linarith
          · rw [min_eq_right hr]; have := le_max_right c.logHalf raw; have := min_le_right c.logTwo raw'; linarith
      have k : new = max lo (min hi (t + o)) := by
        have : new = t + max (lo - t) (min (hi - t) o) := by rw [← e2]; ring
        rw [this, ← max_add_add_left, ← min_add_add_left]
        congr 1
        · ring
        · congr 1; ring
      have k' : new' = max lo (min hi (t' + o')) := by
        have : new' = t' + max (lo - t') (min (hi - t') o') := by rw [← e2']; ring
        rw [this, ← max_add_add_left, ← min_add_add_left]
        congr 1
        · ring
        · congr 1; ring
      rw [k, k']
      exact max_le_max le_rfl (min_le_min le_rfl ho)

/-- An update does not go below a bound that neither the old value nor the updated value without limits goes below. -/
theorem isUpdate_ge {clip fitted : Bool} {c : ClipConsts ℝ} (h0 : c.logHalf ≤ 0) (h2' : 0 ≤ c.logTwo) {lo hi t raw new : ℝ}
    (hlo : lo ≤ 0) (hhi : 0 ≤ hi) (hf : fitted = false → t = 0) (h : IsUpdate clip fitted c lo hi t raw new) (u : ℝ) (hu : u ≤ 0)
    (h1 : u ≤ t) (h2 : u ≤ t + raw) : u ≤ new := by
  have key : ∀ o, IsClip raw c.logHalf c.logTwo o → u ≤ t + o := by
    intro o ho
    rw [isClip_eq (by linarith) ho]
    rcases le_total raw 0 with hr | hr
    · have : raw ≤ max c.logHalf (min c.logTwo raw) := by rw [min_eq_right (by linarith)]; exact le_max_right _ _
      linarith
    · have : 0 ≤ max c.logHalf (min c.logTwo raw) := le_max_of_le_right (le_min h2' hr)
      linarith
  cases clip with
  | false => have := h.1 rfl; linarith
  | true =>
    cases fitted with
    | false =>
      have := key _ (h.2.1 rfl rfl)
      rw [hf rfl] at this
      linarith
    | true =>
      obtain ⟨o, a1, a2⟩ := h.2.2 rfl rfl
      have k := key o a1
      have e2 := isClip_eq (by linarith) a2
      have : min (hi - t) o ≤ new - t := by rw [e2]; exact le_max_right _ _
      rcases min_choice (hi - t) o with hm | hm <;> rw [hm] at this <;> linarith

theorem isUpdate_le {clip fitted : Bool} {c : ClipConsts ℝ} (h0 : c.logHalf ≤ 0) (h2' : 0 ≤ c.logTwo) {lo hi t raw new : ℝ}
    (hlo : lo ≤ 0) (hhi : 0 ≤ hi) (hf : fitted = false → t = 0) (h : IsUpdate clip fitted c lo hi t raw new) (u : ℝ) (hu : 0 ≤ u)
    (h1 : t ≤ u) (h2 : t + raw ≤ u) : new ≤ u := by
  have key : ∀ o, IsClip raw c.logHalf c.logTwo o → t + o ≤ u := by
    intro o ho
    rw [isClip_eq (by linarith) ho]
    rcases le_total 0 raw with hr | hr
    · have : max c.logHalf (min c.logTwo raw) ≤ raw := max_le (by linarith) (min_le_right _ _)
      linarith
    · have : max c.logHalf (min c.logTwo raw) ≤ 0 := max_le h0 ((min_le_right _ _).trans hr)
      linarith
  cases clip with
  | false => have := h.1 rfl; linarith
  | true =>
    cases fitted with
    | false =>
      have := key _ (h.2.1 rfl rfl)
      rw [hf rfl] at this
      linarith
    | true =>
      obtain ⟨o, a1, a2⟩ := h.2.2 rfl rfl
      have k := key o a1
      have e2 := isClip_eq (by linarith) a2
      have : new - t ≤ max (lo - t) o := by rw [e2]; exact max_le_max le_rfl (min_le_right _ _)
      rcases max_choice (lo - t) o with hm | hm <;> rw [hm] at this <;> linarith

section
variable {σ : Type*} {S : Setup σ} {E : Estimator} {D : TrainSet} {m : FittedModel} {f : FeatureSpec × SmootherKind}

/-- Without prior predictions training starts with the global scale. -/
theorem baseline_none (a : ℝ) (h : D.prior = none) (i : ℕ) : baseline E D a i = a := by
  unfold baseline priorPrediction
  rw [h]
  rfl

/-- How the stored values of the only feature change in an iteration. -/
theorem oneFeature_step (h : OneFeatureModel S E D m f) (hcal : ∀ cfg bw fac, E.calibrate cfg bw fac = fac) (a : ℝ)
    (hs : E.scale D.n D.y D.w = .fin a) (past : List (TState ℝ)) (s s' : TState ℝ)
    (ht : Trace (S.paramsFor E) (S.oracle E D) (S.cfgs D) (startState (S.oracle E D) (S.cfgs D) (baseline E D a)) past s)
    (hc1 : continues (S.paramsFor E) s = true)
    (hit : iterate (S.paramsFor E) (S.oracle E D) (S.cfgs D) s = .ok s') :
    ∃ fs fs' : FState ℝ, s.feats = [fs] ∧ s'.feats = [fs'] ∧
      ((skipped (S.paramsFor E) past.length (f.1.cfg D.X D.n) = true ∧ ∀ b, stored fs' b = stored fs b) ∨
      ∃ (it : ℕ) (running raw : ℕ → ℝ), it = past.length ∧ (∀ i, running i = a + stored fs ((f.1.cfg D.X D.n).bin i)) ∧
        (fs.isFitted = false → ∀ b, stored fs b = 0) ∧
        IsRawUpdate (f.1.cfg D.X D.n) (S.learnRate (it + 1)) false
          (smoothAtCentres S.base f.2 (bindData D.X D.n f.1.group none).2 (binSum D.n (f.1.cfg D.X D.n).bin D.w)
            (fun b => (E.parameters it D.n (f.1.cfg D.X D.n).bin D.y D.w running b).2)
            fun b => (E.parameters it D.n (f.1.cfg D.X D.n).bin D.y D.w running b).1)
          (fun b => (E.parameters it D.n (f.1.cfg D.X D.n).bin D.y D.w running b).1) raw ∧
        ∀ b, IsUpdate (S.paramsFor E).clip fs.isFitted realConsts
          (realConsts.logMin f.1.external (f.1.group.length == 1)) (realConsts.logMax f.1.external (f.1.group.length == 1))
          (stored fs b) (raw b) (stored fs' b)) := by
  have hcfgs : S.cfgs D = [f.1.cfg D.X D.n] := by unfold Setup.cfgs; rw [h.single]; rfl
  have hlen : ∀ past s, Trace (S.paramsFor E) (S.oracle E D) (S.cfgs D) (startState (S.oracle E D) (S.cfgs D) (baseline E D a)) past s →
      ∃ fs, s.feats = [fs] := by
    intro past s ht
    have hw := (trace_WF _ _ _ _ _ _ ht).1
    rw [hcfgs] at hw
    exact List.length_eq_one_iff.mp hw.symm
  have ht' := Trace.step ht hc1 hit
  obtain ⟨fs, hfs⟩ := hlen _ _ ht
  obtain ⟨fs', hfs'⟩ := hlen _ _ ht'
  have hd := trace_not_diverging _ _ _ _ _ _ ht (h.converging a hs _ _ ht)
  have hd' := trace_not_diverging _ _ _ _ _ _ ht' (h.converging a hs _ _ ht')
  refine ⟨fs, fs', hfs, hfs', ?_⟩
  have hgx : s.feats[0]? = some fs := by rw [hfs]; rfl
  have hgx' : s'.feats[0]? = some fs' := by rw [hfs']; rfl
  have hgc : (S.cfgs D)[0]? = some (f.1.cfg D.X D.n) := by rw [hcfgs]; rfl
  cases hsk : skipped (S.paramsFor E) past.length (f.1.cfg D.X D.n) with
  | true =>
    left
    refine ⟨rfl, ?_⟩
    obtain ⟨feats, pred, r, hfp, -, hr, hf, -⟩ := iterate_ok _ _ _ _ _ hit
    rw [hd'] at hr
    simp only [Bool.false_eq_true, if_false, Except.ok.injEq] at hr
    rw [(trace_iterations _ _ _ _ _ _ ht).1, hcfgs, hfs] at hfp
    unfold featurePass at hfp
    simp only [hsk, if_true] at hfp
    rw [← hr] at hf
    simp only at hf
    rw [hf] at hfs'
    have := congrArg Prod.fst hfp
    simp only at this
    rw [hfs', List.cons.injEq] at this
    intro b
    rw [← this.1]
    unfold stored
    split_ifs <;> rfl
  | false =>
    right
    obtain ⟨running, input, raw, hrun, hraw, hupd⟩ := C66_update_aggregate (S.paramsFor E) h.aggregate
      (by show S.params.consts.Ok; rw [h.limits]; exact realConsts_ok) (S.oracle E D) (S.cfgs D) (baseline E D a)
      (by
        intro it i fs
        unfold Setup.oracle
        dsimp only
        cases S.features[i]? with
        | none => rfl
        | some q => exact hcal _ _ _)
      past s s' ht hit hd hd' 0 _ _ _ hgc hgx hgx' hsk
    have hz : fs.zeroSmoother = false := by
      by_contra hz
      have := trace_zeroSmoother _ _ _ _ _ _ ht fs (by rw [hfs]; exact List.mem_singleton.mpr rfl) (by simpa using hz)
      have := h.converging a hs _ _ ht
      omega
    have hgf : S.features[0]? = some f := by rw [h.single]; rfl
    refine ⟨past.length, running.factors, raw, rfl, ?_, ?_, ?_, ?_⟩
    · intro i
      rw [(hrun i).1, baseline_none a h.noPrior, hcfgs, hfs, hfs']
      have hx : (f.1.cfg D.X D.n).external = false := h.standard
      simp [storedSum, hx]
    · intro hfit b
      have hwf : fs.isFitted = true ↔ fs.agg.isSome = true := (trace_WF _ _ _ _ _ _ ht).2 fs (by rw [hfs]; exact List.mem_singleton.mpr rfl)
      unfold stored
      cases hag : fs.agg with
      | none => rfl
      | some x => exact absurd (hwf.mpr (by rw [hag]; rfl)) (by rw [hfit]; simp)
    · rw [hz] at hraw
      have e1 : (S.oracle E D).estimate past.length 0 running fs =
          fun b => (E.parameters past.length D.n (f.1.cfg D.X D.n).bin D.y D.w running.factors b).1 := by
        funext b
        unfold Setup.oracle
        dsimp only
        rw [hgf]
      rw [e1] at hraw
      unfold Setup.oracle at hraw
      dsimp only at hraw
      rw [hgf] at hraw
      exact hraw
    · intro b
      have hcons : (S.paramsFor E).consts = realConsts := h.limits
      have := hupd b
      rw [hcons] at this
      exact this

/-- The prediction for a training sample is the global scale plus the stored value of its bin. -/
theorem oneFeature_predict (h : OneFeatureModel S E D m f) :
    ∃ a past s fs, E.scale D.n D.y D.w = .fin a ∧
      Trace (S.paramsFor E) (S.oracle E D) (S.cfgs D) (startState (S.oracle E D) (S.cfgs D) (baseline E D a)) past s ∧ s.feats = [fs] ∧
      m.iterations = past.length ∧
      ∀ i < D.n, m.predict D.prior D.X i = E.link.toLink.unlink (a + stored fs ((f.1.cfg D.X D.n).bin i)) := by
  obtain ⟨fuel, hfit⟩ := h.fitted
  obtain ⟨a, r, -, hs, hfit, hm⟩ := fit_ok S _ D fuel m hfit
  obtain ⟨past, s, ht, hcont, hfac, hpred, hiter⟩ := fitMain_ok _ _ _ _ fuel r hfit
  have hd : s.isDiverging = false := by
    unfold continues at hcont
    rw [Bool.or_eq_false_iff] at hcont
    exact hcont.2
  have hcfgs : S.cfgs D = [f.1.cfg D.X D.n] := by unfold Setup.cfgs; rw [h.single]; rfl
  have hw := (trace_WF _ _ _ _ _ _ ht).1
  rw [hcfgs] at hw
  obtain ⟨fs, hfs⟩ := List.length_eq_one_iff.mp hw.symm
  refine ⟨a, past, s, fs, hs, ht, hfs, by rw [hm]; exact hiter.trans (trace_iterations _ _ _ _ _ _ ht).1, fun i hi => ?_⟩
  have hbook := (C18_bookkeeping (S.paramsFor E) h.aggregate _ _ _ _ _ ht i).1
  rw [baseline_none a h.noPrior, hcfgs, hfs] at hbook
  have hx : (f.1.cfg D.X D.n).external = false := h.standard
  simp only [storedSum, List.zip_cons_cons, List.zip_nil_right, List.filter_cons, hx, beq_self_eq_true, if_true, List.filter_nil,
    List.map_cons, List.map_nil, List.sum_cons, List.sum_nil, add_zero] at hbook
  have hspec : S.cfgs D = ([f.1].map fun f => f.cfg D.X D.n) := by rw [hcfgs]; rfl
  rw [hspec] at hfit
  obtain ⟨h1, -⟩ := C19_predict_train (S.paramsFor E) h.aggregate (S.oracle E D) D.X D.n [f.1] (baseline E D a) fuel r hfit i hi
    (by intro q hq; rw [List.mem_singleton.mp hq]; exact h.columns)
    (by intro q hq c hqc x hx; rw [List.mem_singleton.mp hq] at hqc; exact h.binNumbers c hqc i hi x hx)
  have hp : r.prediction.factors i = a + stored fs ((f.1.cfg D.X D.n).bin i) := by
    rw [hpred, trace_prediction _ _ _ _ _ s ht hd, hbook]
  rw [hm]
  unfold FittedModel.predict
  dsimp only
  rw [h.single, ← hp, ← h1]
  rfl

/-- Training keeps a property of the stored values that every iteration keeps and that holds if all are 0. -/
theorem oneFeature_invariant (h : OneFeatureModel S E D m f) (hcal : ∀ cfg bw fac, E.calibrate cfg bw fac = fac)
    (I : ℝ → (ℕ → ℝ) → Prop) (h0 : ∀ a, E.scale D.n D.y D.w = .fin a → I a fun _ => 0)
    (hI : ∀ (a : ℝ) (t new raw running : ℕ → ℝ) (it : ℕ) (fitted : Bool), E.scale D.n D.y D.w = .fin a → I a t →
      (∀ i, running i = a + t ((f.1.cfg D.X D.n).bin i)) → (fitted = false → ∀ b, t b = 0) →
      IsRawUpdate (f.1.cfg D.X D.n) (S.learnRate (it + 1)) false
          (smoothAtCentres S.base f.2 (bindData D.X D.n f.1.group none).2 (binSum D.n (f.1.cfg D.X D.n).bin D.w)
            (fun b => (E.parameters it D.n (f.1.cfg D.X D.n).bin D.y D.w running b).2)
            fun b => (E.parameters it D.n (f.1.cfg D.X D.n).bin D.y D.w running b).1)
          (fun b => (E.parameters it D.n (f.1.cfg D.X D.n).bin D.y D.w running b).1) raw →
      (∀ b, IsUpdate (S.paramsFor E).clip fitted realConsts
          (realConsts.logMin f.1.external (f.1.group.length == 1)) (realConsts.logMax f.1.external (f.1.group.length == 1))
          (t b) (raw b) (new b)) → I a new) :
    ∃ (a : ℝ) (t : ℕ → ℝ), E.scale D.n D.y D.w = .fin a ∧ I a t ∧
      ∀ i < D.n, m.predict D.prior D.X i = E.link.toLink.unlink (a + t ((f.1.cfg D.X D.n).bin i)) := by
  obtain ⟨a, past, s, fs, hs, ht, hfs, -, hp⟩ := oneFeature_predict h
  refine ⟨a, stored fs, hs, ?_, hp⟩
  have key : ∀ past s, Trace (S.paramsFor E) (S.oracle E D) (S.cfgs D) (startState (S.oracle E D) (S.cfgs D) (baseline E D a)) past s →
      ∀ fs, s.feats = [fs] → I a (stored fs) := by
    intro past s ht
    induction ht with
    | start =>
      intro fs hfs
      have : S.cfgs D = [f.1.cfg D.X D.n] := by unfold Setup.cfgs; rw [h.single]; rfl
      unfold startState at hfs
      rw [this] at hfs
      simp only [List.map_cons, List.map_nil, List.cons.injEq, and_true] at hfs
      rw [← hfs]
      exact h0 a hs
    | step ht hc hit ih =>
      intro fs'' hfs''
      obtain ⟨fs, fs', e1, e2, hstep⟩ := oneFeature_step h hcal a hs _ _ _ ht hc hit
      rw [e2, List.cons.injEq] at hfs''
      rw [← hfs''.1]
      rcases hstep with ⟨-, hsame⟩ | ⟨it, running, raw, -, hr, hf, hraw, hu⟩
      · rw [show stored fs' = stored fs from funext hsame]
        exact ih fs e1
      · exact hI a (stored fs) (stored fs') raw running it fs.isFitted hs (ih fs e1) hr hf hraw hu
  exact key past s ht fs hfs

theorem sumInBin_const (D : TrainSet) (f : FeatureSpec × SmootherKind) (b : ℕ) (w : ℕ → ℝ) (g : ℕ → ℝ) :
    sumInBin D f b (fun i => w i * g ((f.1.cfg D.X D.n).bin i)) = sumInBin D f b w * g b := by
  unfold sumInBin
  rw [sum_mul]
  refine sum_congr rfl fun i hi => ?_
  beta_reduce
  rw [(mem_filter.mp hi).2]

theorem realConsts_sign (e o : Bool) : realConsts.logHalf ≤ 0 ∧ 0 ≤ realConsts.logTwo ∧ realConsts.logMin e o ≤ 0 ∧ 0 ≤ realConsts.logMax e o := by
  have := realConsts_ok
  exact ⟨this.half, this.two, (this.min_le e o).trans this.half, this.two.trans (this.le_max e o)⟩

/-- Order is kept if the estimates keep it. -/
theorem oneFeature_order (h : OneFeatureModel S E D m f) (hcal : ∀ cfg bw fac, E.calibrate cfg bw fac = fac) (b b' : ℕ)
    (hsm : SmoothedAlike S D f b b')
    (hE : ∀ (a : ℝ) (t running : ℕ → ℝ) (it : ℕ), (∀ i, running i = a + t ((f.1.cfg D.X D.n).bin i)) → t b' ≤ t b →
      t b' + (E.parameters it D.n (f.1.cfg D.X D.n).bin D.y D.w running b').1 ≤
        t b + (E.parameters it D.n (f.1.cfg D.X D.n).bin D.y D.w running b).1) :
    ∃ (a : ℝ) (t : ℕ → ℝ), t b' ≤ t b ∧ ∀ i < D.n, m.predict D.prior D.X i = E.link.toLink.unlink (a + t ((f.1.cfg D.X D.n).bin i)) := by
  obtain ⟨a, t, -, hI, hp⟩ := oneFeature_invariant h hcal (fun _ t => t b' ≤ t b) (fun _ _ => le_rfl) (by
    intro a t new raw running it fitted _ hI hr hf hraw hu
    obtain ⟨s1, s2, s3, s4⟩ := realConsts_sign f.1.external (f.1.group.length == 1)
    refine isUpdate_order (by linarith) (by linarith) (fun hh => ⟨hf hh b, hf hh b'⟩) (hu b) (hu b') hI ?_
    have hest := hE a t running it hr hI
    set P := fun b => (E.parameters it D.n (f.1.cfg D.X D.n).bin D.y D.w running b).1 with hP
    have hq : ∃ q, 0 ≤ q ∧ q ≤ 1 ∧ raw b - raw b' = q * (P b - P b') := by
      obtain ⟨l0, l1⟩ := h.rates (it + 1)
      rcases hsm with ⟨hb, hb', hs⟩ | ⟨h1, h2⟩
      · obtain ⟨u, v, q, e1, e2, q0, q1, e3⟩ := hs (fun b => (E.parameters it D.n (f.1.cfg D.X D.n).bin D.y D.w running b).2) P
        refine ⟨S.learnRate (it + 1) * q, mul_nonneg l0 q0, mul_le_one₀ l1 q0 q1, ?_⟩
        rw [hraw.2.1 b u hb rfl e1, hraw.2.1 b' v hb' rfl e2, ← mul_sub, e3, mul_assoc]
      · have one : ∀ c, Unsmoothed S D f c → raw c = S.learnRate (it + 1) * P c := by
          intro c hc
          rcases hc with ⟨hc, hs⟩ | ⟨hc, hl⟩
          · exact hraw.2.1 c _ hc rfl (hs _ _)
          · rw [hc]; exact hraw.2.2.2.2 hl
        exact ⟨S.learnRate (it + 1), l0, l1, by rw [one b h1, one b' h2, ← mul_sub]⟩
    obtain ⟨q, q0, q1, hq⟩ := hq
    change t b' + P b' ≤ t b + P b at hest
    nlinarith [mul_nonneg q0 (sub_nonneg.mpr hest), mul_nonneg (sub_nonneg.mpr q1) (sub_nonneg.mpr hI)])
  exact ⟨a, t, hI, hp⟩

/-- With shrinking smoothers the value of a bin stays in an interval around 0 that the estimates do not leave. -/
theorem oneFeature_range (h : OneFeatureModel S E D m f) (hcal : ∀ cfg bw fac, E.calibrate cfg bw fac = fac) (b : ℕ)
    (hb : b ≤ (f.1.cfg D.X D.n).nFinite) (hsm : ShrinkingSmoothers S D) (C : ℝ → Set ℝ) (hC : ∀ a, (C a).OrdConnected)
    (h0 : ∀ a, E.scale D.n D.y D.w = .fin a → 0 ∈ C a)
    (hE : ∀ (a : ℝ) (t running : ℕ → ℝ) (it : ℕ), E.scale D.n D.y D.w = .fin a →
      (∀ i, running i = a + t ((f.1.cfg D.X D.n).bin i)) → t b ∈ C a →
      t b + (E.parameters it D.n (f.1.cfg D.X D.n).bin D.y D.w running b).1 ∈ C a) :
    ∃ (a : ℝ) (t : ℕ → ℝ), E.scale D.n D.y D.w = .fin a ∧ t b ∈ C a ∧
      ∀ i < D.n, m.predict D.prior D.X i = E.link.toLink.unlink (a + t ((f.1.cfg D.X D.n).bin i)) := by
  refine oneFeature_invariant h hcal (fun a t => t b ∈ C a) h0 ?_
  intro a t new raw running it fitted hs hI hr hf hraw hu
  obtain ⟨s1, s2, s3, s4⟩ := realConsts_sign f.1.external (f.1.group.length == 1)
  have e := hE a t running it hs hr hI
  set P := fun b => (E.parameters it D.n (f.1.cfg D.X D.n).bin D.y D.w running b).1 with hP
  change t b + P b ∈ C a at e
  have hq : ∃ q, 0 ≤ q ∧ q ≤ 1 ∧ raw b = q * P b := by
    obtain ⟨l0, l1⟩ := h.rates (it + 1)
    rcases lt_or_eq_of_le hb with hb | hb
    · cases hv : smoothAtCentres S.base f.2 (bindData D.X D.n f.1.group none).2 (binSum D.n (f.1.cfg D.X D.n).bin D.w)
          (fun b => (E.parameters it D.n (f.1.cfg D.X D.n).bin D.y D.w running b).2) P b with
      | none => exact ⟨0, le_rfl, zero_le_one, by rw [hraw.2.2.1 b hb rfl hv, zero_mul]⟩
      | some v =>
        obtain ⟨q, q0, q1, e⟩ := hsm f (by rw [h.single]; exact List.mem_singleton.mpr rfl) _ _ b v hv
        exact ⟨S.learnRate (it + 1) * q, mul_nonneg l0 q0, mul_le_one₀ l1 q0 q1, by
          rw [hraw.2.1 b v hb rfl hv, e, mul_assoc]⟩
    · cases hl : (f.1.cfg D.X D.n).missingNotLearned with
      | true => exact ⟨0, le_rfl, zero_le_one, by rw [hb, hraw.2.2.2.1 hl, zero_mul]⟩
      | false => exact ⟨_, l0, l1, by rw [hb]; exact hraw.2.2.2.2 hl⟩
  obtain ⟨q, q0, q1, hq⟩ := hq
  have lower : ∀ u ≤ 0, u ≤ t b → u ≤ t b + P b → u ≤ new b := fun u u0 i1 e1 =>
    isUpdate_ge s1 s2 s3 s4 (fun hh => hf hh b) (hu b) u u0 i1 (by
      rw [hq]; nlinarith [mul_nonneg q0 (sub_nonneg.mpr e1), mul_nonneg (sub_nonneg.mpr q1) (sub_nonneg.mpr i1)])
  have upper : ∀ u, 0 ≤ u → t b ≤ u → t b + P b ≤ u → new b ≤ u := fun u u0 i2 e2 =>
    isUpdate_le s1 s2 s3 s4 (fun hh => hf hh b) (hu b) u u0 i2 (by
      rw [hq]; nlinarith [mul_nonneg q0 (sub_nonneg.mpr e2), mul_nonneg (sub_nonneg.mpr q1) (sub_nonneg.mpr i2)])
  have hlo : min 0 (min (t b) (t b + P b)) ∈ C a := by
    rcases min_choice 0 (min (t b) (t b + P b)) with k | k <;> rw [k]
    · exact h0 a hs
    · rcases min_choice (t b) (t b + P b) with k | k <;> rw [k]
      exacts [hI, e]
  have hhi : max 0 (max (t b) (t b + P b)) ∈ C a := by
    rcases max_choice 0 (max (t b) (t b + P b)) with k | k <;> rw [k]
    · exact h0 a hs
    · rcases max_choice (t b) (t b + P b) with k | k <;> rw [k]
      exacts [hI, e]
  exact (hC a).out hlo hhi ⟨lower _ (min_le_left _ _) ((min_le_right _ _).trans (min_le_left _ _))
    ((min_le_right _ _).trans (min_le_right _ _)), upper _ (le_max_left _ _) ((le_max_left _ _).trans (le_max_right _ _))
    ((le_max_right _ _).trans (le_max_right _ _))⟩

end

/-! ### Background subtraction and Poisson regression -/

section
variable {σ : Type*} {S : Setup σ} {D : TrainSet} {m : FittedModel} {f : FeatureSpec × SmootherKind}

/-- The estimate of background subtraction for a bin whose samples all have the same prediction. -/
theorem gbs_estimate (alpha a : ℝ) (t running : ℕ → ℝ) (it b : ℕ) (hr : ∀ i, running i = a + t ((f.1.cfg D.X D.n).bin i)) :
    ((gbsEstimator alpha).parameters it D.n (f.1.cfg D.X D.n).bin D.y D.w running b).1 =
      (sumInBin D f b (fun i => D.w i * D.y i) - sumInBin D f b D.w * (a + t b)) / ((1 + alpha) * sumInBin D f b D.w + 1) := by
  change (binSum D.n _ (fun i => (D.y i - running i) * D.w i) b) / (binSum D.n _ (fun i => D.w i * (1 + alpha)) b + 1) = _
  rw [sumInBin_binSum, sumInBin_binSum, sumInBin_congr D f b (fun i => D.w i * (1 + alpha)) (fun i => (1 + alpha) * D.w i)
    (fun i _ => mul_comm _ _), sumInBin_mul, ← sumInBin_const D f b D.w fun b => a + t b]
  congr 1
  unfold sumInBin
  rw [← sum_sub_distrib]
  exact sum_congr rfl fun i _ => by beta_reduce; rw [hr i]; ring

/-- The estimate of Poisson regression for a bin whose samples all have the same prediction. -/
theorem poisson_estimate (g : ℝ → ℝ) (a : ℝ) (t running : ℕ → ℝ) (it b : ℕ) (hr : ∀ i, running i = a + t ((f.1.cfg D.X D.n).bin i)) :
    ((poissonEstimator g).parameters it D.n (f.1.cfg D.X D.n).bin D.y D.w running b).1 =
      calcFactorFromPosterior g (sumInBin D f b (fun i => D.w i * D.y i) + 2) (sumInBin D f b D.w * Real.exp (a + t b) + 1.67834) := by
  change (calcFactorsAndUncertainties g (binSum D.n _ (fun i => D.y i * D.w i) b) (binSum D.n _ (fun i => D.w i * Real.exp (running i)) b)).1 = _
  rw [sumInBin_binSum, sumInBin_binSum, sumInBin_congr D f b (fun i => D.y i * D.w i) (fun i => D.w i * D.y i) (fun i _ => mul_comm _ _),
    ← sumInBin_const D f b D.w fun b => Real.exp (a + t b),
    sumInBin_congr D f b (fun i => D.w i * Real.exp (running i)) (fun i => D.w i * Real.exp (a + t ((f.1.cfg D.X D.n).bin i)))
      (fun i _ => by rw [hr i])]
  rfl

/-- **C117**, background subtraction, order: of two bins with the same weight that are smoothed alike, the one with the larger sum
of targets gets the larger predictions. -/
theorem C117_gbs_order (alpha : ℝ) (ha : 0 ≤ alpha) (h : OneFeatureModel S (gbsEstimator alpha) D m f) (i j : ℕ) (hi : i < D.n)
    (hj : j < D.n) (hsm : SmoothedAlike S D f ((f.1.cfg D.X D.n).bin i) ((f.1.cfg D.X D.n).bin j))
    (hw : sumInBin D f ((f.1.cfg D.X D.n).bin i) D.w = sumInBin D f ((f.1.cfg D.X D.n).bin j) D.w)
    (hy : sumInBin D f ((f.1.cfg D.X D.n).bin j) (fun k => D.w k * D.y k) ≤ sumInBin D f ((f.1.cfg D.X D.n).bin i) fun k => D.w k * D.y k) :
    m.predict D.prior D.X j ≤ m.predict D.prior D.X i := by
  obtain ⟨a, t, h1, h2⟩ := oneFeature_order h (fun _ _ _ => rfl) _ _ hsm (by
    intro a t running it hr ht
    rw [gbs_estimate alpha a t running it _ hr, gbs_estimate alpha a t running it _ hr, hw]
    have hW := sumInBin_nonneg D f ((f.1.cfg D.X D.n).bin j) D.w h.weights
    set W := sumInBin D f ((f.1.cfg D.X D.n).bin j) D.w
    have hd : 0 < (1 + alpha) * W + 1 := by positivity
    rw [← sub_nonneg]
    have : ∀ x x' u u' : ℝ, x + (u - W * (a + x)) / ((1 + alpha) * W + 1) - (x' + (u' - W * (a + x')) / ((1 + alpha) * W + 1)) =
        ((x - x') * (alpha * W + 1) + (u - u')) / ((1 + alpha) * W + 1) := by
      intro x x' u u'
      field_simp
      ring
    rw [this]
    refine div_nonneg (add_nonneg (mul_nonneg (sub_nonneg.mpr ht) (by positivity)) (sub_nonneg.mpr hy)) hd.le)
  rw [h2 i hi, h2 j hj]
  exact add_le_add le_rfl h1

/-- **C117**, background subtraction, range: with smoothers that only shrink, the prediction for a sample lies between the mean of all
targets and the mean of the targets in its bin. -/
theorem C117_gbs_range (alpha : ℝ) (ha : 0 ≤ alpha) (h : OneFeatureModel S (gbsEstimator alpha) D m f) (hsm : ShrinkingSmoothers S D)
    (i : ℕ) (hi : i < D.n) (hw : 0 < sumInBin D f ((f.1.cfg D.X D.n).bin i) D.w) :
    let all := (∑ k ∈ range D.n, D.w k * D.y k) / ∑ k ∈ range D.n, D.w k
    let own := sumInBin D f ((f.1.cfg D.X D.n).bin i) (fun k => D.w k * D.y k) / sumInBin D f ((f.1.cfg D.X D.n).bin i) D.w
    min all own ≤ m.predict D.prior D.X i ∧ m.predict D.prior D.X i ≤ max all own := by
  intro all own
  have hscale : ∀ a, (gbsEstimator alpha).scale D.n D.y D.w = .fin a → a = all := by
    intro a hs
    change quotientFlt _ _ = _ at hs
    unfold quotientFlt at hs
    split_ifs at hs
    cases hs
    simp only [all]
    congr 1
    exact sum_congr rfl fun k _ => mul_comm _ _
  obtain ⟨a, t, hs, ht, hp⟩ := oneFeature_range h (fun _ _ _ => rfl) _ (cfg_bin_le f.1 h.columns D.X D.n i hi) hsm
    (fun a => Set.Icc (min a own - a) (max a own - a)) (fun a => Set.ordConnected_Icc)
    (fun a _ => ⟨by linarith [min_le_left a own], by linarith [le_max_left a own]⟩) (by
      intro a t running it hs hr ⟨t1, t2⟩
      rw [gbs_estimate alpha a t running it _ hr]
      set W := sumInBin D f ((f.1.cfg D.X D.n).bin i) D.w
      set b := (f.1.cfg D.X D.n).bin i
      have hd : 0 < (1 + alpha) * W + 1 := by positivity
      have e : sumInBin D f b (fun k => D.w k * D.y k) = W * own := (mul_div_cancel₀ _ hw.ne').symm
      have hr1 : 0 ≤ W / ((1 + alpha) * W + 1) := by positivity
      have hr2 : W / ((1 + alpha) * W + 1) ≤ 1 := by rw [div_le_one hd]; nlinarith [mul_nonneg ha hw.le]
      have e2 : (sumInBin D f b (fun k => D.w k * D.y k) - W * (a + t b)) / ((1 + alpha) * W + 1) =
          W / ((1 + alpha) * W + 1) * (own - (a + t b)) := by rw [e]; ring
      rw [e2]
      set r := W / ((1 + alpha) * W + 1)
      have m1 := min_le_right a own
      have m2 := le_max_right a own
      constructor <;> nlinarith [mul_nonneg hr1 (sub_nonneg.mpr m1), mul_nonneg hr1 (sub_nonneg.mpr m2),
        mul_nonneg (sub_nonneg.mpr hr2) (sub_nonneg.mpr t1), mul_nonneg (sub_nonneg.mpr hr2) (sub_nonneg.mpr t2)])
  rw [hp i hi, ← hscale a hs]
  change min a own ≤ a + _ ∧ a + _ ≤ max a own
  exact ⟨by linarith [ht.1], by linarith [ht.2]⟩

/-- The factor from the posterior lies between those of the bounds for the median. -/
theorem factorFromPosterior_bounds (g : ℝ → ℝ) (hg : GammaMedian g) (A B : ℝ) (hA : 2 ≤ A) (hB : 0 < B) :
    Real.log ((A - 1 / 3) / B) ≤ calcFactorFromPosterior g A B ∧ calcFactorFromPosterior g A B ≤ Real.log (A / B) := by
  unfold calcFactorFromPosterior
  have h0 : 0 < A - 1 / 3 := by linarith
  obtain ⟨g1, g2⟩ := GammaMedian.bounds hg A hA
  have hgp : 0 < g A := lt_of_lt_of_le h0 g1
  split_ifs
  · exact ⟨Real.log_le_log (div_pos h0 hB) (div_le_div_of_nonneg_right g1 hB.le),
      Real.log_le_log (div_pos hgp hB) (div_le_div_of_nonneg_right g2 hB.le)⟩
  · exact ⟨Real.log_le_log (div_pos h0 hB) (div_le_div_of_nonneg_right (by linarith) hB.le), le_rfl⟩

/-- More targets with the same prediction factor: `x * (factor)` grows with the prediction and the targets. -/
theorem factorFromPosterior_mono (g : ℝ → ℝ) (hg : GammaMedian g) (A A' W x x' a : ℝ)
    (hA : 2 ≤ A') (hAA : A' ≤ A) (hW : 0 ≤ W) (hx : x' ≤ x) :
    x' + calcFactorFromPosterior g A' (W * Real.exp (a + x') + 1.67834) ≤ x + calcFactorFromPosterior g A (W * Real.exp (a + x) + 1.67834) := by
  have hB : ∀ z, 0 < W * Real.exp (a + z) + 1.67834 := fun z => by have := Real.exp_pos (a + z); positivity
  have hBB : W * Real.exp (a + x') + 1.67834 ≤ W * Real.exp (a + x) + 1.67834 := by
    have := Real.exp_le_exp.mpr (show a + x' ≤ a + x by linarith)
    nlinarith
  have key : ∀ c c' : ℝ, 0 < c' → c' ≤ c → x' + Real.log (c' / (W * Real.exp (a + x') + 1.67834)) ≤
      x + Real.log (c / (W * Real.exp (a + x) + 1.67834)) := by
    intro c c' h0 hc
    have h0' : 0 < c := lt_of_lt_of_le h0 hc
    rw [Real.log_div h0.ne' (hB x').ne', Real.log_div h0'.ne' (hB x).ne']
    have h1 := Real.log_le_log h0 hc
    have h2 : Real.log (W * Real.exp (a + x) + 1.67834) ≤ (x - x') + Real.log (W * Real.exp (a + x') + 1.67834) := by
      rw [← Real.log_exp (x - x'), ← Real.log_mul (Real.exp_pos _).ne' (hB x').ne']
      refine Real.log_le_log (hB x) ?_
      have e1 : Real.exp (a + x) = Real.exp (x - x') * Real.exp (a + x') := by rw [← Real.exp_add]; congr 1; ring
      have e2 : 1 ≤ Real.exp (x - x') := Real.one_le_exp (by linarith)
      rw [e1, mul_add]
      nlinarith
    linarith
  obtain ⟨g1, g2⟩ := GammaMedian.bounds hg A' hA
  obtain ⟨g3, g4⟩ := GammaMedian.bounds hg A (hA.trans hAA)
  unfold calcFactorFromPosterior
  by_cases h1 : A ≤ 1e12 ∧ W * Real.exp (a + x) + 1.67834 ≤ 1e12
  · rw [if_pos h1, if_pos ⟨hAA.trans h1.1, hBB.trans h1.2⟩]
    exact key _ _ (by linarith) (gammaMedian_mono (by linarith) hAA (hg _ hA) (hg _ (hA.trans hAA)))
  · rw [if_neg h1]
    split_ifs
    · exact key _ _ (by linarith) (by linarith)
    · exact key _ _ (by linarith) hAA

/-- **C117**, Poisson regression, order: of two bins with the same weight that are smoothed alike, the one with the larger sum of targets
gets the larger predictions. -/
theorem C117_poisson_order (g : ℝ → ℝ) (hg : GammaMedian g)
    (h : OneFeatureModel S (poissonEstimator g) D m f) (hy0 : ∀ i < D.n, 0 ≤ D.y i) (i j : ℕ) (hi : i < D.n)
    (hj : j < D.n) (hsm : SmoothedAlike S D f ((f.1.cfg D.X D.n).bin i) ((f.1.cfg D.X D.n).bin j))
    (hw : sumInBin D f ((f.1.cfg D.X D.n).bin i) D.w = sumInBin D f ((f.1.cfg D.X D.n).bin j) D.w)
    (hy : sumInBin D f ((f.1.cfg D.X D.n).bin j) (fun k => D.w k * D.y k) ≤ sumInBin D f ((f.1.cfg D.X D.n).bin i) fun k => D.w k * D.y k) :
    m.predict D.prior D.X j ≤ m.predict D.prior D.X i := by
  obtain ⟨a, t, h1, h2⟩ := oneFeature_order h (fun _ _ _ => rfl) _ _ hsm (by
    intro a t running it hr ht
    rw [poisson_estimate g a t running it _ hr, poisson_estimate g a t running it _ hr, hw]
    have hY := sumInBin_nonneg D f ((f.1.cfg D.X D.n).bin j) (fun k => D.w k * D.y k) fun k hk => mul_nonneg (h.weights k hk) (hy0 k hk)
    exact factorFromPosterior_mono g hg _ _ _ _ _ a (by linarith) (by linarith) (sumInBin_nonneg D f _ D.w h.weights) ht)
  rw [h2 i hi, h2 j hj]
  exact Real.exp_le_exp.mpr (add_le_add le_rfl h1)

/-- **C117**, Poisson regression, range: with smoothers that only shrink, the prediction for a sample is not below the mean of all
targets (plus 0.001) and `0.012 / weight` below the mean of the targets in its bin, and not above the mean of all targets (plus 0.001) and
`0.322 / weight` above the mean of the targets in its bin, where `weight` is the sum of the weights in its bin. -/
theorem C117_poisson_range (g : ℝ → ℝ) (hg : GammaMedian g) (h : OneFeatureModel S (poissonEstimator g) D m f)
    (hy0 : ∀ i < D.n, 0 ≤ D.y i) (hsm : ShrinkingSmoothers S D) (i : ℕ) (hi : i < D.n)
    (hw : 0 < sumInBin D f ((f.1.cfg D.X D.n).bin i) D.w) :
    let all := (∑ k ∈ range D.n, D.w k * D.y k) / (∑ k ∈ range D.n, D.w k) + 0.001
    let weight := sumInBin D f ((f.1.cfg D.X D.n).bin i) D.w
    let own := sumInBin D f ((f.1.cfg D.X D.n).bin i) (fun k => D.w k * D.y k) / weight
    min all (own - 0.012 / weight) ≤ m.predict D.prior D.X i ∧ m.predict D.prior D.X i ≤ max all (own + 0.322 / weight) := by
  intro all weight own
  have hscale : ∀ a, (poissonEstimator g).scale D.n D.y D.w = .fin a → Real.exp a = all := by
    intro a hs
    change linkFlt .log ((quotientFlt _ _).addFin (1 / 1000)) = _ at hs
    unfold quotientFlt at hs
    split_ifs at hs
    · cases hs
    · simp only [Flt.addFin, linkFlt] at hs
      split_ifs at hs with hpos
      simp only [Flt.fin.injEq] at hs
      rw [← hs, Real.exp_log hpos]
      simp only [all]
      rw [sum_congr rfl fun k _ => mul_comm (D.w k) (D.y k)]
      norm_num
  have hY := sumInBin_nonneg D f ((f.1.cfg D.X D.n).bin i) (fun k => D.w k * D.y k) fun k hk => mul_nonneg (h.weights k hk) (hy0 k hk)
  have hYW : sumInBin D f ((f.1.cfg D.X D.n).bin i) (fun k => D.w k * D.y k) = own * weight := (div_mul_cancel₀ _ hw.ne').symm
  have hb := cfg_bin_le f.1 h.columns D.X D.n i hi
  constructor
  · by_cases hl : 0 < own - 0.012 / weight
    · set lo := own - 0.012 / weight with hlo
      obtain ⟨a, t, hs, ht, hp⟩ := oneFeature_range h (fun _ _ _ => rfl) _ hb hsm
        (fun a => Set.Ici (min a (Real.log lo) - a)) (fun a => Set.ordConnected_Ici)
        (fun a _ => by show _ ≤ (0 : ℝ); linarith [min_le_left a (Real.log lo)]) (by
          intro a t running it hs hr ht
          rw [poisson_estimate g a t running it _ hr]
          set b := (f.1.cfg D.X D.n).bin i
          change min a (Real.log lo) - a ≤ t b at ht
          show min a (Real.log lo) - a ≤ t b + _
          set u := min a (Real.log lo) with hu
          have hBz : ∀ z, 0 < weight * Real.exp z + 1.67834 := fun z => by have := Real.exp_pos z; positivity
          have hB := hBz (a + t b)
          refine le_trans ?_ (add_le_add le_rfl (factorFromPosterior_bounds g hg _ _ (by linarith) hB).1)
          have hu1 : Real.exp u ≤ lo := by
            rw [← Real.exp_log hl]; exact Real.exp_le_exp.mpr (min_le_right _ _)
          have e1 : weight * Real.exp u + 1.67834 ≤ own * weight + 2 - 1 / 3 := by
            have : weight * Real.exp u ≤ weight * lo := mul_le_mul_of_nonneg_left hu1 hw.le
            have e : weight * lo = own * weight - 0.012 := by
              have k : weight * (0.012 / weight) = 0.012 := mul_div_cancel₀ _ hw.ne'
              rw [hlo]; linear_combination -k
            norm_num at e ⊢
            linarith
          rw [hYW]
          have hn : 0 < own * weight + 2 - 1 / 3 := lt_of_lt_of_le (hBz u) e1
          rw [Real.log_div hn.ne' hB.ne']
          have e2 := Real.log_le_log (hBz u) e1
          have e3 : Real.log (weight * Real.exp (a + t b) + 1.67834) ≤ (a + t b - u) + Real.log (weight * Real.exp u + 1.67834) := by
            rw [← Real.log_exp (a + t b - u), ← Real.log_mul (Real.exp_pos _).ne' (hBz u).ne']
            refine Real.log_le_log hB ?_
            have k1 : Real.exp (a + t b) = Real.exp (a + t b - u) * Real.exp u := by rw [← Real.exp_add]; congr 1; ring
            have k2 : 1 ≤ Real.exp (a + t b - u) := Real.one_le_exp (by linarith)
            rw [k1, mul_add]
            nlinarith
          linarith)
      rw [hp i hi, ← hscale a hs]
      show _ ≤ Real.exp _
      have ht : min a (Real.log lo) - a ≤ t _ := ht
      refine le_trans ?_ (Real.exp_le_exp.mpr (show min a (Real.log lo) ≤ a + t ((f.1.cfg D.X D.n).bin i) by linarith))
      rcases min_choice a (Real.log lo) with k | k <;> rw [k]
      · exact min_le_left _ _
      · rw [Real.exp_log hl]; exact min_le_right _ _
    · obtain ⟨a, _, _, fs, hs, _, _, _, hp⟩ := oneFeature_predict h
      rw [hp i hi]
      exact (min_le_right _ _).trans ((not_lt.mp hl).trans (Real.exp_pos _).le)
  · have hup : 0 < own + 0.322 / weight := by
      have : 0 ≤ own := div_nonneg hY hw.le
      positivity
    set up := own + 0.322 / weight with hupd
    obtain ⟨a, t, hs, ht, hp⟩ := oneFeature_range h (fun _ _ _ => rfl) _ hb hsm
      (fun a => Set.Iic (max a (Real.log up) - a)) (fun a => Set.ordConnected_Iic)
      (fun a _ => by show (0 : ℝ) ≤ _; linarith [le_max_left a (Real.log up)]) (by
        intro a t running it hs hr ht
        rw [poisson_estimate g a t running it _ hr]
        set b := (f.1.cfg D.X D.n).bin i
        change t b ≤ max a (Real.log up) - a at ht
        show t b + _ ≤ max a (Real.log up) - a
        set u := max a (Real.log up) with hu
        have hBz : ∀ z, 0 < weight * Real.exp z + 1.67834 := fun z => by have := Real.exp_pos z; positivity
        have hB := hBz (a + t b)
        refine le_trans (add_le_add le_rfl (factorFromPosterior_bounds g hg _ _ (by linarith) hB).2) ?_
        have hu1 : up ≤ Real.exp u := by
          rw [← Real.exp_log hup]; exact Real.exp_le_exp.mpr (le_max_right _ _)
        have e1 : own * weight + 2 ≤ weight * Real.exp u + 1.67834 := by
          have : weight * up ≤ weight * Real.exp u := mul_le_mul_of_nonneg_left hu1 hw.le
          have e : weight * up = own * weight + 0.322 := by
            have k : weight * (0.322 / weight) = 0.322 := mul_div_cancel₀ _ hw.ne'
            rw [hupd]; linear_combination k
          norm_num at e ⊢
          linarith
        rw [hYW]
        have hn : 0 < own * weight + 2 := by rw [← hYW]; linarith
        rw [Real.log_div hn.ne' hB.ne']
        have e2 := Real.log_le_log hn e1
        have e3 : Real.log (weight * Real.exp u + 1.67834) ≤ (u - (a + t b)) + Real.log (weight * Real.exp (a + t b) + 1.67834) := by
          rw [← Real.log_exp (u - (a + t b)), ← Real.log_mul (Real.exp_pos _).ne' hB.ne']
          refine Real.log_le_log (hBz u) ?_
          have k1 : Real.exp u = Real.exp (u - (a + t b)) * Real.exp (a + t b) := by rw [← Real.exp_add]; congr 1; ring
          have k2 : 1 ≤ Real.exp (u - (a + t b)) := Real.one_le_exp (by linarith)
          rw [k1, mul_add]
          nlinarith
        linarith)
    rw [hp i hi, ← hscale a hs]
    show Real.exp _ ≤ _
    have ht : t _ ≤ max a (Real.log up) - a := ht
    refine le_trans (Real.exp_le_exp.mpr (show a + t ((f.1.cfg D.X D.n).bin i) ≤ max a (Real.log up) by linarith)) ?_
    rcases max_choice a (Real.log up) with k | k <;> rw [k]
    · exact le_max_left _ _
    · rw [Real.exp_log hup]; exact le_max_right _ _

end
end CB
