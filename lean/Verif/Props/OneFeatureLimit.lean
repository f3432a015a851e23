import Verif.Props.OneFeature
import Verif.Props.GammaPrior

/-!
# C151: models of Poisson regression with a single feature approach their limit

Every iteration moves the prediction of a bin towards the limit and not beyond it.
-/

set_option autoImplicit false
set_option linter.unusedSectionVars false

namespace CB
open Finset Spec

section
variable {σ : Type*} {S : Setup σ} {E : Estimator} {D : TrainSet} {m : FittedModel} {f : FeatureSpec × SmootherKind}

/-- Training keeps a property of the number of iterations and of the stored values that every iteration keeps and that holds at first. -/
theorem oneFeature_counted (h : OneFeatureModel S E D m f) (hcal : ∀ cfg bw fac, E.calibrate cfg bw fac = fac)
    (hsk : ∀ k, skipped (S.paramsFor E) k (f.1.cfg D.X D.n) = false)
    (I : ℝ → ℕ → (ℕ → ℝ) → Prop) (h0 : ∀ a, E.scale D.n D.y D.w = .fin a → I a 0 fun _ => 0)
    (hI : ∀ (a : ℝ) (k : ℕ) (t new raw running : ℕ → ℝ) (it : ℕ) (fitted : Bool), E.scale D.n D.y D.w = .fin a → it = k → I a k t →
      (∀ i, running i = a + t ((f.1.cfg D.X D.n).bin i)) → (fitted = false → ∀ b, t b = 0) →
      IsRawUpdate (f.1.cfg D.X D.n) (S.learnRate (it + 1)) false
          (smoothAtCentres S.base f.2 (bindData D.X D.n f.1.group none).2 (binSum D.n (f.1.cfg D.X D.n).bin D.w)
            (fun b => (E.parameters it D.n (f.1.cfg D.X D.n).bin D.y D.w running b).2)
            fun b => (E.parameters it D.n (f.1.cfg D.X D.n).bin D.y D.w running b).1)
          (fun b => (E.parameters it D.n (f.1.cfg D.X D.n).bin D.y D.w running b).1) raw →
      (∀ b, IsUpdate (S.paramsFor E).clip fitted realConsts
          (realConsts.logMin f.1.external (f.1.group.length == 1)) (realConsts.logMax f.1.external (f.1.group.length == 1))
          (t b) (raw b) (new b)) → I a (k + 1) new) :
    ∃ (a : ℝ) (t : ℕ → ℝ), E.scale D.n D.y D.w = .fin a ∧ I a m.iterations t ∧
      ∀ i < D.n, m.predict D.prior D.X i = E.link.toLink.unlink (a + t ((f.1.cfg D.X D.n).bin i)) := by
  obtain ⟨a, past, s, fs, hs, ht, hfs, hit, hp⟩ := oneFeature_predict h
  refine ⟨a, stored fs, hs, ?_, hp⟩
  have key : ∀ past s, Trace (S.paramsFor E) (S.oracle E D) (S.cfgs D) (startState (S.oracle E D) (S.cfgs D) (baseline E D a)) past s →
      ∀ fs, s.feats = [fs] → I a past.length (stored fs) := by
    intro past s ht
    induction ht with
    | start =>
      intro fs hfs
      have : S.cfgs D = [f.1.cfg D.X D.n] := by unfold Setup.cfgs; rw [h.single]; rfl
      unfold startState at hfs
      rw [this] at hfs
      simp only [List.map_cons, List.map_nil, List.cons.injEq, and_true] at hfs
      rw [← hfs]
      exact h0 a hs
    | step ht hc hit ih =>
      intro fs'' hfs''
      have ht' := Trace.step ht hc hit
      obtain ⟨fs, fs', e1, e2, hstep⟩ := oneFeature_step h hcal a hs _ _ _ ht hc hit
      rw [e2, List.cons.injEq] at hfs''
      rw [← hfs''.1]
      have hlen := (trace_iterations _ _ _ _ _ _ ht').1
      rcases hstep with ⟨hskip, -⟩ | ⟨it, running, raw, hk, hr, hf, hraw, hu⟩
      · rw [hsk] at hskip
        cases hskip
      · have := hI a _ (stored fs) (stored fs') raw running it fs.isFitted hs hk (ih fs e1) hr hf hraw hu
        simpa using this
  rw [hit]
  exact key past s ht fs hfs

end

/-! ### One update -/

/-- Between the slope at the lower end and slope 1. -/
theorem logSum_slope {W B u v K : ℝ} (hW : 0 < W) (hB : 0 < B) (huv : u ≤ v) (hK : 0 ≤ K) (hKu : K ≤ W * Real.exp u) :
    K / (K + B) * (v - u) ≤ Real.log (W * Real.exp v + B) - Real.log (W * Real.exp u + B) ∧
      Real.log (W * Real.exp v + B) - Real.log (W * Real.exp u + B) ≤ v - u := by
  have hu : 0 < W * Real.exp u + B := by positivity
  have hv : 0 < W * Real.exp v + B := by positivity
  have hev : Real.exp v = Real.exp u * Real.exp (v - u) := by rw [← Real.exp_add]; congr 1; ring
  have hd : 1 ≤ Real.exp (v - u) := Real.one_le_exp (by linarith)
  constructor
  · set κ := K / (K + B) with hκ
    have hκ0 : 0 ≤ κ := by positivity
    have hκ1 : κ ≤ 1 := by rw [hκ, div_le_one (by positivity)]; linarith
    have hconv : Real.exp (κ * (v - u)) ≤ κ * Real.exp (v - u) + (1 - κ) := by
      have := convexOn_exp.2 (Set.mem_univ (v - u)) (Set.mem_univ (0 : ℝ)) hκ0 (by linarith : 0 ≤ 1 - κ) (by ring)
      simpa using this
    rw [← Real.log_div hv.ne' hu.ne', Real.le_log_iff_exp_le (div_pos hv hu), le_div_iff₀ hu]
    refine le_trans (mul_le_mul_of_nonneg_right hconv hu.le) ?_
    have hk : κ * (W * Real.exp u + B) ≤ W * Real.exp u := by
      rw [hκ, div_mul_eq_mul_div, div_le_iff₀ (by positivity)]
      nlinarith
    rw [hev]
    nlinarith [mul_le_mul_of_nonneg_right hk (sub_nonneg.mpr hd)]
  · rw [← Real.log_div hv.ne' hu.ne', Real.log_le_iff_le_exp (div_pos hv hu), div_le_iff₀ hu, hev]
    nlinarith

/-- An update of one bin whose raw value points to `goal`, moves at least the share `κ` of the way and not beyond. -/
theorem isUpdate_towards {fitted : Bool} {lo hi t goal raw new κ δ : ℝ} (hlo : lo ≤ 0) (hhi : 0 ≤ hi) (hlg : lo ≤ goal) (hgh : goal ≤ hi)
    (hf : fitted = false → t = 0) (h : IsUpdate true fitted realConsts lo hi t raw new) (hb : min 0 goal ≤ t ∧ t ≤ max 0 goal)
    (hκ : 0 ≤ κ) (h1 : goal ≤ t → -(t - goal) ≤ raw ∧ raw ≤ -(κ * (t - goal)))
    (h2 : t ≤ goal → κ * (goal - t) ≤ raw ∧ raw ≤ goal - t) (hδ : δ ≤ κ) (hδ2 : δ * |t - goal| ≤ Real.log 2) :
    |new - goal| ≤ (1 - δ) * |t - goal| ∧ min 0 goal ≤ new ∧ new ≤ max 0 goal := by
  have hL : 0 < Real.log 2 := Real.log_pos (by norm_num)
  have hhalf : realConsts.logHalf = -Real.log 2 := by
    show Real.log 0.5 = _
    rw [← Real.log_inv]; norm_num
  have htwo : realConsts.logTwo = Real.log 2 := rfl
  set o := max (-Real.log 2) (min (Real.log 2) raw) with ho
  have hso : (goal ≤ t → -(t - goal) ≤ o ∧ o ≤ -(δ * (t - goal))) ∧ (t ≤ goal → δ * (goal - t) ≤ o ∧ o ≤ goal - t) := by
    constructor
    · intro hg
      obtain ⟨r1, r2⟩ := h1 hg
      have hd : 0 ≤ t - goal := by linarith
      rw [abs_of_nonneg hd] at hδ2
      have hr0 : raw ≤ 0 := r2.trans (by have := mul_nonneg hκ hd; linarith)
      rw [ho, min_eq_right (by linarith)]
      exact ⟨r1.trans (le_max_right _ _), max_le (by linarith) (r2.trans (by nlinarith))⟩
    · intro hg
      obtain ⟨r1, r2⟩ := h2 hg
      have hd : 0 ≤ goal - t := by linarith
      rw [abs_of_nonpos (by linarith)] at hδ2
      have hr0 : 0 ≤ raw := le_trans (mul_nonneg hκ hd) r1
      rw [ho]
      refine ⟨le_max_of_le_right (le_min (by linarith) (le_trans (by nlinarith) r1)), max_le (by linarith) ((min_le_right _ _).trans r2)⟩
  have hin : min 0 goal ≤ t + o ∧ t + o ≤ max 0 goal := by
    rcases le_total goal t with hg | hg
    · obtain ⟨o1, o2⟩ := hso.1 hg
      refine ⟨(min_le_right _ _).trans (by linarith), ?_⟩
      by_cases hd : 0 ≤ o
      · -- then `t = goal`
        have : t + o ≤ t + o := le_rfl
        rcases le_total 0 δ with h0 | h0
        · have : o ≤ 0 := o2.trans (by have := mul_nonneg h0 (sub_nonneg.mpr hg); linarith)
          linarith [hb.2]
        · have hr : raw ≤ 0 := (h1 hg).2.trans (by have := mul_nonneg hκ (sub_nonneg.mpr hg); linarith)
          have : o ≤ 0 := by rw [ho]; exact max_le (by linarith) ((min_le_right _ _).trans hr)
          linarith [hb.2]
      · linarith [hb.2]
    · obtain ⟨o1, o2⟩ := hso.2 hg
      refine ⟨?_, le_trans (by linarith) (le_max_right 0 goal)⟩
      have hr : 0 ≤ raw := le_trans (mul_nonneg hκ (sub_nonneg.mpr hg)) (h2 hg).1
      have : 0 ≤ o := by rw [ho]; exact le_max_of_le_right (le_min hL.le hr)
      linarith [hb.1]
  have hnew : new = t + o := by
    cases fitted with
    | false =>
      have := isClip_eq (by rw [hhalf, htwo]; linarith) (h.2.1 rfl rfl)
      rw [hhalf, htwo] at this
      rw [this, hf rfl, zero_add]
    | true =>
      obtain ⟨once, a1, a2⟩ := h.2.2 rfl rfl
      have e1 := isClip_eq (by rw [hhalf, htwo]; linarith) a1
      rw [hhalf, htwo] at e1
      have e2 := a2.2.2 (by
        rw [e1]
        have : lo ≤ min 0 goal := le_min hlo hlg
        linarith [hin.1]) (by
        rw [e1]
        have : max 0 goal ≤ hi := max_le hhi hgh
        linarith [hin.2])
      rw [e1] at e2
      linarith
  rw [hnew]
  refine ⟨?_, hin⟩
  rcases le_total goal t with hg | hg
  · obtain ⟨o1, o2⟩ := hso.1 hg
    rw [abs_of_nonneg (by linarith), abs_of_nonneg (by linarith)]
    linarith
  · obtain ⟨o1, o2⟩ := hso.2 hg
    rw [abs_of_nonpos (by linarith), abs_of_nonpos (by linarith)]
    linarith

theorem scaled_step {lr κ x z : ℝ} (h0 : 0 ≤ lr) (h1 : lr ≤ 1) (hx : 0 ≤ x) (h : κ * x ≤ z) (h' : z ≤ x) :
    lr * κ * x ≤ lr * z ∧ lr * z ≤ x := by
  constructor
  · rw [mul_assoc]; exact mul_le_mul_of_nonneg_left h h0
  · calc lr * z ≤ lr * x := mul_le_mul_of_nonneg_left h' h0
      _ ≤ 1 * x := mul_le_mul_of_nonneg_right h1 hx
      _ = x := one_mul x

/-- The median of the gamma distribution with shape 2 exceeds 1.67834, and so do those of larger shapes. -/
theorem gammaMedian_above (g : ℝ → ℝ) (hg : GammaMedian g) (a : ℝ) (ha : 2 ≤ a) : 1.67834 < g a := by
  have h2 := hg 2 le_rfl
  have : 1.67834 < g 2 := (gamma2_median_bounds (g 2) (by
    have hsh := IsGammaMedian.share (by norm_num : (0 : ℝ) < 2) h2
    unfold gammaShare at hsh
    have hG : Real.Gamma 2 = 1 := by norm_num
    rw [hG, div_one] at hsh
    refine ⟨h2.1, ?_⟩
    rw [← hsh]
    refine intervalIntegral.integral_congr fun t _ => ?_
    have e : (2 : ℝ) - 1 = 1 := by norm_num
    simp only [gammaKernel, e, Real.rpow_one])).1
  exact lt_of_lt_of_le this (gammaMedian_mono (by norm_num : (0 : ℝ) < 2) ha h2 (hg _ ha))

section
variable {σ : Type*} {S : Setup σ} {D : TrainSet} {m : FittedModel} {f : FeatureSpec × SmootherKind}

theorem poisson_scale (g : ℝ → ℝ) (a : ℝ) (hs : (poissonEstimator g).scale D.n D.y D.w = .fin a) :
    Real.exp a = (∑ k ∈ range D.n, D.w k * D.y k) / (∑ k ∈ range D.n, D.w k) + 0.001 := by
  change linkFlt .log ((quotientFlt _ _).addFin (1 / 1000)) = _ at hs
  unfold quotientFlt at hs
  split_ifs at hs
  · cases hs
  · simp only [Flt.addFin, linkFlt] at hs
    split_ifs at hs with hpos
    simp only [Flt.fin.injEq] at hs
    rw [← hs, Real.exp_log hpos, sum_congr rfl fun k _ => mul_comm (D.w k) (D.y k)]
    norm_num

/-- The raw update of an unsmoothed bin. -/
theorem raw_unsmoothed {b : ℕ} {lr : ℝ} {u v raw : ℕ → ℝ} (hu : Unsmoothed S D f b)
    (h : IsRawUpdate (f.1.cfg D.X D.n) lr false
      (smoothAtCentres S.base f.2 (bindData D.X D.n f.1.group none).2 (binSum D.n (f.1.cfg D.X D.n).bin D.w) u v) v raw) :
    raw b = lr * v b := by
  rcases hu with ⟨hb, hs⟩ | ⟨rfl, hm⟩
  · exact h.2.1 b (v b) hb rfl (hs u v)
  · exact h.2.2.2.2 hm

/-- **C151.** `CBPoissonRegressor` with a single feature: in an unsmoothed bin with the sum of weights `weight > 0`, the prediction lies
between the mean of all targets (plus 0.001), where training starts, and `limit = (median - 1.67834) / weight`, where `median` is that of
the gamma distribution with shape 2 more than the sum of the weighted targets. With every iteration its distance to the limit shrinks, on
a logarithmic scale, by the share `δ` at least. Here `δ` is any number such that neither the learning rate times the slope of the estimate
at the smaller of the two values nor the limit of log 2 for one update is exceeded. Assumed: no training without this feature in a
hierarchical phase, `limit` within the bounds for factors, and sums below 10^12. -/
theorem C151_rate (g : ℝ → ℝ) (hg : GammaMedian g) (h : OneFeatureModel S (poissonEstimator g) D m f) (hy : ∀ i < D.n, 0 ≤ D.y i)
    (hsk : S.params.hierarchical = none) (i : ℕ) (hi : i < D.n) (hu : Unsmoothed S D f ((f.1.cfg D.X D.n).bin i))
    (hw : 0 < sumInBin D f ((f.1.cfg D.X D.n).bin i) D.w) (δ : ℝ) :
    let all := (∑ k ∈ range D.n, D.w k * D.y k) / (∑ k ∈ range D.n, D.w k) + 0.001
    let weight := sumInBin D f ((f.1.cfg D.X D.n).bin i) D.w
    let total := sumInBin D f ((f.1.cfg D.X D.n).bin i) fun k => D.w k * D.y k
    let limit := (g (total + 2) - 1.67834) / weight
    minFactor false (f.1.group.length == 1) ≤ limit / all → limit / all ≤ maxFactor false (f.1.group.length == 1) →
    total + 2 ≤ 1e12 → weight * max all limit + 1.67834 ≤ 1e12 → δ ≤ 1 →
    (∀ k, 1 ≤ k → δ ≤ S.learnRate k * (weight * min all limit / (weight * min all limit + 1.67834))) →
    δ * |Real.log all - Real.log limit| ≤ Real.log 2 →
    min all limit ≤ m.predict D.prior D.X i ∧ m.predict D.prior D.X i ≤ max all limit ∧
      |Real.log (m.predict D.prior D.X i) - Real.log limit| ≤ (1 - δ) ^ m.iterations * |Real.log all - Real.log limit| := by
  intro all weight total limit hmin hmax ht12 hw12 hδ1 hδ hδ2
  set b := (f.1.cfg D.X D.n).bin i with hb
  have hall : ∀ a, (poissonEstimator g).scale D.n D.y D.w = .fin a → Real.exp a = all := fun a hs => poisson_scale g a hs
  have htot : 0 ≤ total := sumInBin_nonneg D f b (fun k => D.w k * D.y k) fun k hk => mul_nonneg (h.weights k hk) (hy k hk)
  have hlim : 0 < limit := by
    have h3 := gammaMedian_above g hg (total + 2) (by linarith)
    exact div_pos (by linarith) hw
  have hroot : weight * limit + 1.67834 = g (total + 2) := by
    have : weight * limit = g (total + 2) - 1.67834 := mul_div_cancel₀ _ hw.ne'
    rw [this]; ring
  have hB : (0 : ℝ) < 1.67834 := by norm_num
  have hclip : (S.paramsFor (poissonEstimator g)).clip = true := by simp [Setup.paramsFor, poissonEstimator]
  obtain ⟨a, t, hs, ⟨hI1, hI2, hI3⟩, hp⟩ := oneFeature_counted h (fun _ _ _ => rfl)
    (fun k => by
      have : (S.paramsFor (poissonEstimator g)).hierarchical = none := hsk
      simp [skipped, this])
    (fun a k t => |t b - (Real.log limit - a)| ≤ (1 - δ) ^ k * |Real.log limit - a| ∧
      min 0 (Real.log limit - a) ≤ t b ∧ t b ≤ max 0 (Real.log limit - a))
    (by
      intro a _
      refine ⟨by rw [pow_zero, one_mul, zero_sub, abs_neg], min_le_left _ _, le_max_left _ _⟩)
    (by
      intro a k t new raw running it fitted hs _ hI hr hf hraw hupd
      have ha : Real.exp a = all := hall a hs
      have hla : Real.log all = a := by rw [← ha, Real.log_exp]
      have hallp : 0 < all := by rw [← ha]; exact Real.exp_pos a
      have hraw' := raw_unsmoothed hu hraw
      rw [poisson_estimate g a t running it b hr] at hraw'
      set goal := Real.log limit - a with hgoal
      obtain ⟨hI1, hI2, hI3⟩ := hI
      have hgl : Real.exp (a + goal) = limit := by rw [hgoal, add_sub_cancel, Real.exp_log hlim]
      have hKpos : 0 < weight * min all limit := mul_pos hw (lt_min hallp hlim)
      -- the running prediction lies between the start and the limit
      have hxl : min all limit ≤ Real.exp (a + t b) := by
        rcases min_choice (0 : ℝ) goal with e | e <;> rw [e] at hI2
        · exact (min_le_left _ _).trans (by rw [← ha]; exact Real.exp_le_exp.mpr (by linarith))
        · exact (min_le_right _ _).trans (by rw [← hgl]; exact Real.exp_le_exp.mpr (by linarith))
      have hxu : Real.exp (a + t b) ≤ max all limit := by
        rcases max_choice (0 : ℝ) goal with e | e <;> rw [e] at hI3
        · exact le_trans (by rw [← ha]; exact Real.exp_le_exp.mpr (by linarith)) (le_max_left _ _)
        · exact le_trans (by rw [← hgl]; exact Real.exp_le_exp.mpr (by linarith)) (le_max_right _ _)
      have hest : calcFactorFromPosterior g (total + 2) (weight * Real.exp (a + t b) + 1.67834) =
          Real.log (weight * Real.exp (a + goal) + 1.67834) - Real.log (weight * Real.exp (a + t b) + 1.67834) := by
        unfold calcFactorFromPosterior
        rw [if_pos ⟨ht12, le_trans (add_le_add (mul_le_mul_of_nonneg_left hxu hw.le) le_rfl) hw12⟩, hgl, hroot, Real.log_div]
        · rw [← hroot]; positivity
        · have := Real.exp_pos (a + t b); positivity
      set κ := weight * min all limit / (weight * min all limit + 1.67834) with hκ
      have hκ0 : 0 ≤ κ := by positivity
      set lr := S.learnRate (it + 1) with hlr
      obtain ⟨l0, l1⟩ := h.rates (it + 1)
      obtain ⟨_, _, s3, s4⟩ := realConsts_sign f.1.external (f.1.group.length == 1)
      have hupd' := hupd b
      rw [hclip] at hupd'
      have hext : f.1.external = false := h.standard
      have hdist : |t b - goal| ≤ |goal| := by
        rcases le_total 0 goal with e | e
        · rw [min_eq_left e] at hI2
          rw [max_eq_right e] at hI3
          rw [abs_of_nonpos (by linarith), abs_of_nonneg e]; linarith
        · rw [min_eq_right e] at hI2
          rw [max_eq_left e] at hI3
          rw [abs_of_nonneg (by linarith), abs_of_nonpos e]; linarith
      have hδ2' : δ * |t b - goal| ≤ Real.log 2 := by
        rcases le_total 0 δ with e | e
        · refine le_trans (mul_le_mul_of_nonneg_left hdist e) ?_
          rw [hgoal, ← hla, abs_sub_comm]
          exact hδ2
        · exact (mul_nonpos_of_nonpos_of_nonneg e (abs_nonneg _)).trans (Real.log_nonneg (by norm_num))
      have hstep := isUpdate_towards (κ := lr * κ) (goal := goal) s3 s4 (by
          show Real.log (minFactor f.1.external _) ≤ _
          rw [hext, hgoal, ← hla, ← Real.log_div hlim.ne' hallp.ne']
          exact Real.log_le_log (minFactor_pos _ _) hmin) (by
          show _ ≤ Real.log (maxFactor f.1.external _)
          rw [hext, hgoal, ← hla, ← Real.log_div hlim.ne' hallp.ne']
          exact Real.log_le_log (div_pos hlim hallp) hmax)
        (fun e => hf e b) hupd' ⟨hI2, hI3⟩ (mul_nonneg l0 hκ0) (by
          intro hgt
          obtain ⟨q1, q2⟩ := logSum_slope (u := a + goal) (v := a + t b) hw hB (by linarith) hKpos.le
            (by rw [hgl]; exact mul_le_mul_of_nonneg_left (min_le_right _ _) hw.le)
          rw [hraw', hest]
          set X := Real.log (weight * Real.exp (a + t b) + 1.67834)
          set Y := Real.log (weight * Real.exp (a + goal) + 1.67834)
          rw [add_sub_add_left_eq_sub] at q1 q2
          have q1' : κ * (t b - goal) ≤ X - Y := q1
          have q2' : X - Y ≤ t b - goal := q2
          obtain ⟨z1, z2⟩ := scaled_step l0 l1 (sub_nonneg.mpr hgt) q1' q2'
          constructor <;> linarith [mul_sub lr Y X, mul_sub lr X Y]) (by
          intro hgt
          obtain ⟨q1, q2⟩ := logSum_slope (u := a + t b) (v := a + goal) hw hB (by linarith) hKpos.le
            (mul_le_mul_of_nonneg_left hxl hw.le)
          rw [hraw', hest]
          set X := Real.log (weight * Real.exp (a + t b) + 1.67834)
          set Y := Real.log (weight * Real.exp (a + goal) + 1.67834)
          rw [add_sub_add_left_eq_sub] at q1 q2
          have q1' : κ * (goal - t b) ≤ Y - X := q1
          have q2' : Y - X ≤ goal - t b := q2
          exact scaled_step l0 l1 (sub_nonneg.mpr hgt) q1' q2') (hδ (it + 1) (by omega)) hδ2'
      refine ⟨hstep.1.trans ?_, hstep.2.1, hstep.2.2⟩
      rw [pow_succ, mul_comm ((1 - δ) ^ k), mul_assoc]
      exact mul_le_mul_of_nonneg_left hI1 (by linarith))
  have ha : Real.exp a = all := hall a hs
  have hla : Real.log all = a := by rw [← ha, Real.log_exp]
  have hpi : m.predict D.prior D.X i = Real.exp (a + t b) := hp i hi
  have hgl : Real.exp (a + (Real.log limit - a)) = limit := by rw [add_sub_cancel, Real.exp_log hlim]
  rw [hpi]
  refine ⟨?_, ?_, ?_⟩
  · rcases min_choice (0 : ℝ) (Real.log limit - a) with e | e <;> rw [e] at hI2
    · exact (min_le_left _ _).trans (by rw [← ha]; exact Real.exp_le_exp.mpr (by linarith))
    · refine (min_le_right all limit).trans ?_
      conv_lhs => rw [← hgl]
      exact Real.exp_le_exp.mpr (by linarith)
  · rcases max_choice (0 : ℝ) (Real.log limit - a) with e | e <;> rw [e] at hI3
    · exact le_trans (by rw [← ha]; exact Real.exp_le_exp.mpr (by linarith)) (le_max_left _ _)
    · refine le_trans ?_ (le_max_right all limit)
      conv_rhs => rw [← hgl]
      exact Real.exp_le_exp.mpr (by linarith)
  · rw [Real.log_exp, hla, show a + t b - Real.log limit = t b - (Real.log limit - a) by ring, abs_sub_comm a]
    exact hI1

/-- **C151**, long training: however close to the limit the prediction is to be, there is a number of iterations after which every training
with learning rates of at least `low > 0`, whatever stops it, has come as close. -/
theorem C151_converges (g : ℝ → ℝ) (hg : GammaMedian g) (hy : ∀ i < D.n, 0 ≤ D.y i) (i : ℕ) (hi : i < D.n)
    (hw : 0 < sumInBin D f ((f.1.cfg D.X D.n).bin i) D.w) (low : ℝ) (hlow : 0 < low) (ε : ℝ) (hε : 0 < ε) :
    let all := (∑ k ∈ range D.n, D.w k * D.y k) / (∑ k ∈ range D.n, D.w k) + 0.001
    let weight := sumInBin D f ((f.1.cfg D.X D.n).bin i) D.w
    let total := sumInBin D f ((f.1.cfg D.X D.n).bin i) fun k => D.w k * D.y k
    let limit := (g (total + 2) - 1.67834) / weight
    minFactor false (f.1.group.length == 1) ≤ limit / all → limit / all ≤ maxFactor false (f.1.group.length == 1) →
    total + 2 ≤ 1e12 → weight * max all limit + 1.67834 ≤ 1e12 →
    ∃ N : ℕ, ∀ (S : Setup σ) (m : FittedModel), OneFeatureModel S (poissonEstimator g) D m f → S.params.hierarchical = none →
      Unsmoothed S D f ((f.1.cfg D.X D.n).bin i) → (∀ k, 1 ≤ k → low ≤ S.learnRate k) → N ≤ m.iterations →
      |m.predict D.prior D.X i - limit| < ε := by
  intro all weight total limit hmin hmax ht12 hw12
  by_cases hpos : 0 < all ∧ 0 ≤ total
  · obtain ⟨hall, htot⟩ := hpos
    have hlim : 0 < limit := div_pos (by have := gammaMedian_above g hg (total + 2) (by linarith); linarith) hw
    have hmx : 0 < max all limit := lt_max_of_lt_left hall
    have hK : 0 < weight * min all limit := mul_pos hw (lt_min hall hlim)
    set κ := weight * min all limit / (weight * min all limit + 1.67834) with hκ
    have hκ0 : 0 < κ := div_pos hK (by norm_num; linarith)
    have hκ1 : κ ≤ 1 := by rw [hκ, div_le_one (by norm_num; linarith)]; norm_num
    set L := |Real.log all - Real.log limit| with hL
    have hL0 : 0 ≤ L := abs_nonneg _
    have hlog2 : 0 < Real.log 2 := Real.log_pos (by norm_num)
    set δ := min 1 (min (low * κ) (Real.log 2 / (L + 1))) with hδ
    have hδ0 : 0 < δ := lt_min one_pos (lt_min (mul_pos hlow hκ0) (by positivity))
    have hδL : δ * L ≤ Real.log 2 := by
      have h1 : δ ≤ Real.log 2 / (L + 1) := (min_le_right _ _).trans (min_le_right _ _)
      rw [le_div_iff₀ (by positivity)] at h1
      nlinarith
    obtain ⟨N, hN⟩ := exists_pow_lt_of_lt_one (show 0 < ε / (max all limit * (L + 1)) by positivity) (show 1 - δ < 1 by linarith)
    refine ⟨N, fun S m h hsk hu hr hit => ?_⟩
    have hδ1 : δ ≤ 1 := min_le_left _ _
    obtain ⟨p1, p2, p3⟩ := C151_rate g hg h hy hsk i hi hu hw δ hmin hmax ht12 hw12 hδ1 (by
      intro k hk
      refine ((min_le_right _ _).trans (min_le_left _ _)).trans ?_
      exact mul_le_mul_of_nonneg_right (hr k hk) hκ0.le) hδL
    set p := m.predict D.prior D.X i
    have hp0 : 0 < p := lt_of_lt_of_le (lt_min hall hlim) p1
    have hpow : (1 - δ) ^ m.iterations ≤ (1 - δ) ^ N := pow_le_pow_of_le_one (by linarith) (by linarith) hit
    have hclose : |p - limit| ≤ max all limit * |Real.log p - Real.log limit| := by
      have key : ∀ u v : ℝ, 0 < u → 0 < v → v ≤ max all limit → u ≤ v → v - u ≤ max all limit * (Real.log v - Real.log u) := by
        intro u v hu0 hv0 hv huv
        have h1 := Real.log_le_sub_one_of_pos (div_pos hu0 hv0)
        rw [Real.log_div hu0.ne' hv0.ne'] at h1
        have h2 : v * (u / v - 1) = u - v := by field_simp
        have h3 : Real.log u ≤ Real.log v := Real.log_le_log hu0 huv
        nlinarith [mul_le_mul_of_nonneg_left h1 hv0.le]
      rcases le_total limit p with hc | hc
      · rw [abs_of_nonneg (by linarith), abs_of_nonneg (by linarith [Real.log_le_log hlim hc])]
        exact key limit p hlim hp0 p2 hc
      · rw [abs_of_nonpos (by linarith), abs_of_nonpos (by linarith [Real.log_le_log hp0 hc])]
        have := key p limit hp0 hlim (le_max_right _ _) hc
        linarith
    refine lt_of_le_of_lt (hclose.trans (mul_le_mul_of_nonneg_left p3 hmx.le)) ?_
    rw [lt_div_iff₀ (by positivity)] at hN
    have h4 : (1 - δ) ^ m.iterations * L ≤ (1 - δ) ^ N * (L + 1) :=
      mul_le_mul hpow (by linarith) hL0 (pow_nonneg (by linarith) _)
    calc max all limit * ((1 - δ) ^ m.iterations * L) ≤ max all limit * ((1 - δ) ^ N * (L + 1)) := mul_le_mul_of_nonneg_left h4 hmx.le
      _ = (1 - δ) ^ N * (max all limit * (L + 1)) := by ring
      _ < ε := hN
  · refine ⟨0, fun S m h hsk hu hr hit => absurd ?_ hpos⟩
    obtain ⟨a, _, _, _, hs, _⟩ := oneFeature_predict h
    exact ⟨by have := poisson_scale g a hs; rw [show all = Real.exp a from this.symm]; exact Real.exp_pos a,
      sumInBin_nonneg D f _ (fun k => D.w k * D.y k) fun k hk => mul_nonneg (h.weights k hk) (hy k hk)⟩

/-- **C151**, the limit: it lies between 0.012 / weight below and 0.322 / weight above the mean of the targets in the bin. -/
theorem C151_limit_near_mean (g : ℝ → ℝ) (hg : GammaMedian g) (weight total : ℝ) (hw : 0 < weight) (ht : 0 ≤ total) :
    total / weight - 0.012 / weight ≤ (g (total + 2) - 1.67834) / weight ∧
      (g (total + 2) - 1.67834) / weight ≤ total / weight + 0.322 / weight := by
  obtain ⟨g1, g2⟩ := GammaMedian.bounds hg (total + 2) (by linarith)
  rw [← sub_div, ← add_div, div_le_div_iff_of_pos_right hw, div_le_div_iff_of_pos_right hw]
  constructor <;> norm_num <;> linarith

end

end CB
