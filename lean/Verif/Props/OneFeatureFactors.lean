import Verif.Props.OneFeatureCosts
import Verif.Props.OneFeatureQuantile

/-!
# C156: multiplicative models with a single feature approach the optimum of their bins
-/

set_option autoImplicit false
set_option linter.unusedSectionVars false

namespace CB
open Finset Spec

/-! ### One update -/

/-- The update of a bin of a model with factors, if the bounds for factors are not reached. -/
theorem isUpdate_within {fitted : Bool} {lo hi t raw new : ℝ} (hf : fitted = false → t = 0)
    (h : IsUpdate true fitted realConsts lo hi t raw new)
    (h1 : lo ≤ t + max (-Real.log 2) (min (Real.log 2) raw)) (h2 : t + max (-Real.log 2) (min (Real.log 2) raw) ≤ hi) :
    new = t + max (-Real.log 2) (min (Real.log 2) raw) := by
  have hL : 0 < Real.log 2 := Real.log_pos (by norm_num)
  have hhalf : realConsts.logHalf = -Real.log 2 := by
    show Real.log 0.5 = _
    rw [← Real.log_inv]; norm_num
  have htwo : realConsts.logTwo = Real.log 2 := rfl
  cases fitted with
  | false =>
    have := isClip_eq (by rw [hhalf, htwo]; linarith) (h.2.1 rfl rfl)
    rw [hhalf, htwo] at this
    rw [this, hf rfl, zero_add]
  | true =>
    obtain ⟨once, a1, a2⟩ := h.2.2 rfl rfl
    have e1 := isClip_eq (by rw [hhalf, htwo]; linarith) a1
    rw [hhalf, htwo] at e1
    have e2 := a2.2.2 (by rw [e1]; linarith) (by rw [e1]; linarith)
    rw [e1] at e2
    linarith

/-- A limited step of the share `r` of the way to a point of an interval `P` approaches that interval. -/
theorem interval_step {P : ℝ → Prop} (hP : ∀ x y v, P x → P y → min x y ≤ v → v ≤ max x y → P v) {L r u x z d : ℝ} (hL : 0 < L)
    (h0 : 0 ≤ r) (h1 : r ≤ 1) (hx : P x) (hz : P z) (hd : |u - x| ≤ d) :
    (min u z ≤ u + max (-L) (min L (r * (z - u))) ∧ u + max (-L) (min L (r * (z - u))) ≤ max u z) ∧
      ∃ x', P x' ∧ |u + max (-L) (min L (r * (z - u))) - x'| ≤ max ((1 - r) * d) (d - L) := by
  set o := max (-L) (min L (r * (z - u))) with ho
  have hd0 : 0 ≤ d := (abs_nonneg _).trans hd
  have hsmall : 0 ≤ max ((1 - r) * d) (d - L) := le_max_of_le_left (mul_nonneg (by linarith) hd0)
  rcases lt_or_ge L (r * (z - u)) with hc | hc
  · -- limited, upwards
    have e : o = L := by rw [ho, min_eq_left hc.le, max_eq_right (by linarith)]
    have hzu : u + L < z := by
      have : 0 < z - u := by
        by_contra hn
        push Not at hn
        have := mul_nonpos_of_nonneg_of_nonpos h0 hn
        linarith
      nlinarith
    rw [e]
    refine ⟨⟨(min_le_left _ _).trans (by linarith), hzu.le.trans (le_max_right _ _)⟩, ?_⟩
    rcases le_total x (u + L) with hxu | hxu
    · refine ⟨u + L, hP x z _ hx hz ((min_le_left _ _).trans hxu) (hzu.le.trans (le_max_right _ _)), ?_⟩
      rw [sub_self, abs_zero]; exact hsmall
    · refine ⟨x, hx, le_max_of_le_right ?_⟩
      rw [abs_of_nonpos (by linarith)] at hd ⊢
      linarith
  · rcases lt_or_ge (r * (z - u)) (-L) with hc' | hc'
    · have e : o = -L := by rw [ho, min_eq_right hc, max_eq_left hc'.le]
      have hzu : z < u - L := by
        have : 0 < u - z := by
          by_contra hn
          push Not at hn
          have := mul_nonpos_of_nonneg_of_nonpos h0 hn
          linarith
        nlinarith
      rw [e]
      refine ⟨⟨(min_le_right _ _).trans (by linarith), le_trans (by linarith) (le_max_left _ _)⟩, ?_⟩
      rcases le_total (u + -L) x with hxu | hxu
      · refine ⟨u + -L, hP x z _ hx hz ((min_le_right _ _).trans (by linarith)) (hxu.trans (le_max_left _ _)), ?_⟩
        rw [sub_self, abs_zero]; exact hsmall
      · refine ⟨x, hx, le_max_of_le_right ?_⟩
        rw [abs_of_nonneg (by linarith)] at hd ⊢
        linarith
    · have e : o = r * (z - u) := by rw [ho, min_eq_right hc, max_eq_right hc']
      rw [e]
      have m1 := min_le_left u z
      have m2 := min_le_right u z
      have m3 := le_max_left u z
      have m4 := le_max_right u z
      refine ⟨⟨by nlinarith, by nlinarith⟩, (1 - r) * x + r * z, hP x z _ hx hz ?_ ?_, le_max_of_le_left ?_⟩
      · have m1 := min_le_left x z
        have m2 := min_le_right x z
        nlinarith
      · have m3 := le_max_left x z
        have m4 := le_max_right x z
        nlinarith
      · have e : u + r * (z - u) - ((1 - r) * x + r * z) = (1 - r) * (u - x) := by ring
        rw [e, abs_mul, abs_of_nonneg (by linarith)]
        exact mul_le_mul_of_nonneg_left hd (by linarith)

section
variable {σ : Type*} {S : Setup σ} {E : Estimator} {D : TrainSet} {m : FittedModel} {f : FeatureSpec × SmootherKind}
  {minimize : (ℝ → Flt ℝ) → ℝ → ℝ} {loss : ℝ → ℝ → ℝ}

/-- The objective of a bin whose samples all have the same prediction `p`: the mean loss of the parameter times the prediction. -/
theorem binObjective_factor (D : TrainSet) (f : FeatureSpec × SmootherKind) (loss : ℝ → ℝ → ℝ) (running : ℕ → ℝ) (b : ℕ) (u : ℝ)
    (hr : ∀ i, (f.1.cfg D.X D.n).bin i = b → running i = u) (hW : 0 < sumInBin D f b D.w) (c : ℝ) :
    binObjective (meanCosts loss) logLink true D.n (f.1.cfg D.X D.n).bin D.y D.w running b c =
      .fin (binCost D f b loss (c * Real.exp u) / sumInBin D f b D.w) := by
  have hsum : ((binMembers D.n (f.1.cfg D.X D.n).bin b).map D.w).sum = sumInBin D f b D.w := by
    rw [← binSum_members, sumInBin_binSum]
  unfold binObjective meanCosts
  rw [if_neg, if_neg]
  · rw [List.map_map, List.map_map]
    congr 2
    rw [binCost, ← sumInBin_binSum, binSum_members]
    congr 1
    refine List.map_congr_left fun i hi => ?_
    have hb : (f.1.cfg D.X D.n).bin i = b := by simpa using (List.mem_filter.mp hi).2
    show D.w i * loss (c * Real.exp (running i)) (D.y i) = D.w i * loss (c * Real.exp u) (D.y i)
    rw [hr i hb]
  · rw [List.map_map]
    exact (hsum.trans_ne hW.ne')
  · intro hnil
    rw [List.map_eq_nil_iff.mp hnil] at hsum
    simp at hsum
    exact hW.ne hsum

/-- Between two predictions of minimal costs all predictions have minimal costs. -/
theorem binCost_between (hc : ConvexLoss loss) (hw : ∀ i < D.n, 0 ≤ D.w i) {b : ℕ} {x y v : ℝ}
    (hx : ∀ z, binCost D f b loss x ≤ binCost D f b loss z) (hy : ∀ z, binCost D f b loss y ≤ binCost D f b loss z)
    (h1 : min x y ≤ v) (h2 : v ≤ max x y) (z : ℝ) : binCost D f b loss v ≤ binCost D f b loss z := by
  have key : ∀ x y : ℝ, x ≤ y → (∀ z, binCost D f b loss x ≤ binCost D f b loss z) → (∀ z, binCost D f b loss y ≤ binCost D f b loss z) →
      x ≤ v → v ≤ y → binCost D f b loss v ≤ binCost D f b loss z := by
    intro x y hxy hx hy h1 h2
    rcases eq_or_lt_of_le hxy with e | hlt
    · have : v = x := le_antisymm (by rw [e]; exact h2) h1
      rw [this]; exact hx z
    · set s := (v - x) / (y - x) with hs
      have hd : 0 < y - x := by linarith
      have hs0 : 0 ≤ s := div_nonneg (by linarith) hd.le
      have hs1 : s ≤ 1 := by rw [hs, div_le_one hd]; linarith
      have hv : v = (1 - s) * x + s * y := by
        have : s * (y - x) = v - x := div_mul_cancel₀ _ hd.ne'
        linarith
      have hcv : binCost D f b loss v ≤ (1 - s) * binCost D f b loss x + s * binCost D f b loss y := by
        rw [hv]
        unfold binCost sumInBin
        rw [mul_sum, mul_sum, ← sum_add_distrib]
        refine sum_le_sum fun j hj => ?_
        have hwj := hw j (mem_range.mp (mem_filter.mp hj).1)
        have := mul_le_mul_of_nonneg_left (hc.convex x y (D.y j) s hs0 hs1) hwj
        linarith
      have := mul_le_mul_of_nonneg_left (hx z) (sub_nonneg.mpr hs1)
      have := mul_le_mul_of_nonneg_left (hy z) hs0
      linarith
  rcases le_total x y with h | h
  · rw [min_eq_left h] at h1
    rw [max_eq_right h] at h2
    exact key x y h hx hy h1 h2
  · rw [min_eq_right h] at h1
    rw [max_eq_left h] at h2
    exact key y x h hy hx h1 h2

theorem factor_ratio (one : Bool) : (1e-5 : ℝ) * maxFactor false one ≤ minFactor false one := by
  unfold minFactor maxFactor; cases one <;> norm_num

/-- How training approaches an optimum: `dist` bounds the distance (on a logarithmic scale) after every iteration. -/
theorem oneFeature_factors (hE : CostEstimator minimize true E loss) (hmin : FindsMinimum minimize) (h : OneFeatureModel S E D m f)
    (hsk : S.params.hierarchical = none) (b : ℕ) (hu : Unsmoothed S D f b) (hw : 0 < sumInBin D f b D.w)
    (lo hi x₀ : ℝ) (hlo : 0 < lo) (hx₀ : ∀ z, binCost D f b loss x₀ ≤ binCost D f b loss z)
    (hopt : ∀ x, (∀ z, binCost D f b loss x ≤ binCost D f b loss z) → lo ≤ x ∧ x ≤ hi)
    (a : ℝ) (ha : E.scale D.n D.y D.w = .fin a) (hmn : minFactor false (f.1.group.length == 1) ≤ lo / Real.exp a)
    (hmx : hi / Real.exp a ≤ maxFactor false (f.1.group.length == 1))
    (dist : ℕ → ℝ) (hd0 : |a - Real.log x₀| ≤ dist 0)
    (hd : ∀ k, max ((1 - S.learnRate (k + 1)) * dist k) (dist k - Real.log 2) ≤ dist (k + 1)) :
    ∃ x, (∀ z, binCost D f b loss x ≤ binCost D f b loss z) ∧
      ∀ i < D.n, (f.1.cfg D.X D.n).bin i = b →
        0 < m.predict D.prior D.X i ∧ |Real.log (m.predict D.prior D.X i) - Real.log x| ≤ dist m.iterations := by
  have hM := costEstimator_minimizing hE
  have hlink : E.link = .log := hM.link
  have hcal : ∀ cfg bw fac, E.calibrate cfg bw fac = fac := hM.calibrate
  have hclip : (S.paramsFor E).clip = true := by simp [Setup.paramsFor, hlink]
  have hL : 0 < Real.log 2 := Real.log_pos (by norm_num)
  have hconv : ConvexLoss loss := hM.convex
  have hhi : 0 < hi := lt_of_lt_of_le hlo ((hopt x₀ hx₀).1.trans (hopt x₀ hx₀).2)
  have hpar : ∀ it running, (E.parameters it D.n (f.1.cfg D.X D.n).bin D.y D.w running b).1 = genericParamLink logLink
      (minimize (binObjective (meanCosts loss) logLink true D.n (f.1.cfg D.X D.n).bin D.y D.w running b) (logLink.unlink 0)) := by
    intro it running
    rw [hM.parameters, hlink]
    rfl
  obtain ⟨a', t, hs, ⟨⟨x, hx, hxd⟩, -, -⟩, hp⟩ := oneFeature_counted h hcal
    (fun k => by
      have : (S.paramsFor E).hierarchical = none := hsk
      simp [skipped, this])
    (fun a' n t => (∃ x, (∀ z, binCost D f b loss x ≤ binCost D f b loss z) ∧ |a' + t b - Real.log x| ≤ dist n) ∧
      min a' (Real.log lo) ≤ a' + t b ∧ a' + t b ≤ max a' (Real.log hi))
    (by
      intro a' ha'
      rw [ha, Flt.fin.injEq] at ha'
      rw [← ha', add_zero]
      exact ⟨⟨x₀, hx₀, hd0⟩, min_le_left _ _, le_max_left _ _⟩)
    (by
      intro a' k t new raw running it fitted ha' hk ⟨⟨x, hx, hxd⟩, hI2, hI3⟩ hr hf hraw hupd
      rw [ha, Flt.fin.injEq] at ha'
      subst ha'
      have hraw' := raw_unsmoothed hu hraw
      rw [hpar, hk] at hraw'
      have hupd' := hupd b
      rw [hclip, h.standard] at hupd'
      set u := a + t b with hudef
      set obj := binObjective (meanCosts loss) logLink true D.n (f.1.cfg D.X D.n).bin D.y D.w running b with hobj
      have hval : ∀ c, obj c = .fin (binCost D f b loss (c * Real.exp u) / sumInBin D f b D.w) := fun c =>
        binObjective_factor D f loss running b u (fun i hi => by rw [hr i, hi]) hw c
      have hcancel : x₀ / Real.exp u * Real.exp u = x₀ := div_mul_cancel₀ _ (Real.exp_ne_zero u)
      obtain ⟨c, hc, hle⟩ := hmin obj (logLink.unlink 0) (x₀ / Real.exp u) _ (hval _) fun z c hz => by
        rw [hval z, Flt.fin.injEq] at hz
        rw [← hz, hcancel]
        exact div_le_div_of_nonneg_right (hx₀ _) hw.le
      set param := minimize obj (logLink.unlink 0) with hparam
      rw [hval param, Flt.fin.injEq] at hc
      rw [← hc, hcancel, div_le_div_iff_of_pos_right hw] at hle
      have hz : ∀ y, binCost D f b loss (param * Real.exp u) ≤ binCost D f b loss y := fun y => hle.trans (hx₀ y)
      obtain ⟨z1, z2⟩ := hopt _ hz
      have hzpos : 0 < param * Real.exp u := lt_of_lt_of_le hlo z1
      have hppos : 0 < param := by
        by_contra hn
        push Not at hn
        have := mul_nonpos_of_nonpos_of_nonneg hn (Real.exp_pos u).le
        linarith
      have hpge : (1e-5 : ℝ) ≤ param := by
        have hmn' : minFactor false (f.1.group.length == 1) * Real.exp a ≤ lo := (le_div_iff₀ (Real.exp_pos a)).mp hmn
        have hmx' : hi ≤ maxFactor false (f.1.group.length == 1) * Real.exp a := (div_le_iff₀ (Real.exp_pos a)).mp hmx
        have hratio := factor_ratio (f.1.group.length == 1)
        have hone : (1e-5 : ℝ) ≤ minFactor false (f.1.group.length == 1) := by
          unfold minFactor; cases (f.1.group.length == 1) <;> norm_num
        have hU : Real.exp u ≤ max (Real.exp a) hi := by
          rcases le_total a (Real.log hi) with e | e
          · rw [max_eq_right e] at hI3
            exact ((Real.le_log_iff_exp_le hhi).mp hI3).trans (le_max_right _ _)
          · rw [max_eq_left e] at hI3
            exact (Real.exp_le_exp.mpr hI3).trans (le_max_left _ _)
        have hgoal : 1e-5 * Real.exp u ≤ lo := by
          refine (mul_le_mul_of_nonneg_left hU (by norm_num)).trans ?_
          rcases le_total (Real.exp a) hi with e | e
          · rw [max_eq_right e]
            refine le_trans ?_ hmn'
            calc (1e-5 : ℝ) * hi ≤ 1e-5 * (maxFactor false (f.1.group.length == 1) * Real.exp a) :=
                  mul_le_mul_of_nonneg_left hmx' (by norm_num)
              _ = 1e-5 * maxFactor false (f.1.group.length == 1) * Real.exp a := by ring
              _ ≤ _ := mul_le_mul_of_nonneg_right hratio (Real.exp_pos a).le
          · rw [max_eq_left e]
            exact (mul_le_mul_of_nonneg_right hone (Real.exp_pos a).le).trans hmn'
        exact le_of_mul_le_mul_right (hgoal.trans z1) (Real.exp_pos u)
      set zl := Real.log (param * Real.exp u) with hzl
      have hstored : genericParamLink logLink param = zl - u := by
        unfold genericParamLink
        rw [if_pos (show logLink.unlink 0 ≠ 0 from Real.exp_ne_zero 0), if_neg (by rw [abs_of_pos hppos]; exact not_lt.mpr hpge), hzl,
          Real.log_mul hppos.ne' (Real.exp_ne_zero u), Real.log_exp]
        ring
      rw [hstored] at hraw'
      obtain ⟨l0, l1⟩ := h.rates (k + 1)
      have hxlo := (hopt x hx).1
      obtain ⟨⟨o1, o2⟩, x', hx', hd'⟩ := interval_step
        (P := fun v => ∀ z, binCost D f b loss (Real.exp v) ≤ binCost D f b loss z)
        (fun p q v hp hq hv1 hv2 => binCost_between hconv h.weights hp hq (by
            rcases le_total p q with e | e
            · rw [min_eq_left e] at hv1
              exact (min_le_left _ _).trans (Real.exp_le_exp.mpr hv1)
            · rw [min_eq_right e] at hv1
              exact (min_le_right _ _).trans (Real.exp_le_exp.mpr hv1)) (by
            rcases le_total p q with e | e
            · rw [max_eq_right e] at hv2
              exact (Real.exp_le_exp.mpr hv2).trans (le_max_right _ _)
            · rw [max_eq_left e] at hv2
              exact (Real.exp_le_exp.mpr hv2).trans (le_max_left _ _)))
        (u := u) (x := Real.log x) (z := zl) (d := dist k) hL l0 l1
        (by rw [Real.exp_log (lt_of_lt_of_le hlo hxlo)]; exact hx) (by rw [hzl, Real.exp_log hzpos]; exact hz) hxd
      rw [← hraw'] at o1 o2 hd'
      have hzl1 : Real.log lo ≤ zl := Real.log_le_log hlo z1
      have hzl2 : zl ≤ Real.log hi := Real.log_le_log hzpos z2
      have hn1 : min a (Real.log lo) ≤ u + max (-Real.log 2) (min (Real.log 2) (raw b)) :=
        le_trans (le_min hI2 ((min_le_right _ _).trans hzl1)) o1
      have hn2 : u + max (-Real.log 2) (min (Real.log 2) (raw b)) ≤ max a (Real.log hi) :=
        o2.trans (max_le hI3 (hzl2.trans (le_max_right _ _)))
      obtain ⟨_, _, s3, s4⟩ := realConsts_sign false (f.1.group.length == 1)
      have hm1 : Real.log (minFactor false (f.1.group.length == 1)) ≤ Real.log lo - a := by
        have := Real.log_le_log (minFactor_pos _ _) hmn
        rwa [Real.log_div hlo.ne' (Real.exp_ne_zero a), Real.log_exp] at this
      have hm2 : Real.log hi - a ≤ Real.log (maxFactor false (f.1.group.length == 1)) := by
        have := Real.log_le_log (div_pos hhi (Real.exp_pos a)) hmx
        rwa [Real.log_div hhi.ne' (Real.exp_ne_zero a), Real.log_exp] at this
      have hnew := isUpdate_within (fun e => hf e b) hupd' (by
          show Real.log (minFactor false _) ≤ _
          have s3' : Real.log (minFactor false (f.1.group.length == 1)) ≤ 0 := s3
          rcases min_cases a (Real.log lo) with ⟨e, -⟩ | ⟨e, -⟩ <;> rw [e] at hn1 <;> linarith) (by
          show _ ≤ Real.log (maxFactor false _)
          have s4' : 0 ≤ Real.log (maxFactor false (f.1.group.length == 1)) := s4
          rcases max_cases a (Real.log hi) with ⟨e, -⟩ | ⟨e, -⟩ <;> rw [e] at hn2 <;> linarith)
      have hnu : a + new b = u + max (-Real.log 2) (min (Real.log 2) (raw b)) := by rw [hnew, hudef]; ring
      refine ⟨⟨Real.exp x', hx', ?_⟩, by rw [hnu]; exact hn1, by rw [hnu]; exact hn2⟩
      rw [hnu, Real.log_exp]
      exact hd'.trans (hd k))
  rw [ha, Flt.fin.injEq] at hs
  subst hs
  refine ⟨x, hx, fun i hi hb => ?_⟩
  rw [hp i hi, hlink, hb]
  exact ⟨Real.exp_pos _, by
    show |Real.log (Real.exp (a + t b)) - Real.log x| ≤ _
    rw [Real.log_exp]; exact hxd⟩

/-- **C156.** `CBMultiplicativeQuantileRegressor`, and `CBMultiplicativeGenericCRegressor` with a convex loss, with a
single feature and an optimiser that finds minima. Training starts from `exp a`, and `x₀` minimises the costs of the unsmoothed bin. If
all predictions that minimise them are positive and within the bounds for factors, the prediction approaches one of them: with every
iteration the distance shrinks, on a logarithmic scale, by the share `δ`, which is any number that exceeds no learning rate and such that
the limit of log 2 for one update is not exceeded. -/
theorem C156_rate (hE : CostEstimator minimize true E loss) (hmin : FindsMinimum minimize) (h : OneFeatureModel S E D m f)
    (hsk : S.params.hierarchical = none) (i : ℕ) (hi : i < D.n) (hu : Unsmoothed S D f ((f.1.cfg D.X D.n).bin i))
    (hw : 0 < sumInBin D f ((f.1.cfg D.X D.n).bin i) D.w) (low high x₀ : ℝ) (hlow : 0 < low)
    (hx₀ : ∀ z, binCost D f ((f.1.cfg D.X D.n).bin i) loss x₀ ≤ binCost D f ((f.1.cfg D.X D.n).bin i) loss z)
    (hopt : ∀ x, (∀ z, binCost D f ((f.1.cfg D.X D.n).bin i) loss x ≤ binCost D f ((f.1.cfg D.X D.n).bin i) loss z) → low ≤ x ∧ x ≤ high)
    (a : ℝ) (ha : E.scale D.n D.y D.w = .fin a) (hmn : minFactor false (f.1.group.length == 1) ≤ low / Real.exp a)
    (hmx : high / Real.exp a ≤ maxFactor false (f.1.group.length == 1))
    (δ : ℝ) (h0 : 0 ≤ δ) (hδ : ∀ k, 1 ≤ k → δ ≤ S.learnRate k) (hδ2 : δ * |a - Real.log x₀| ≤ Real.log 2) :
    0 < m.predict D.prior D.X i ∧ ∃ x,
      (∀ z, binCost D f ((f.1.cfg D.X D.n).bin i) loss x ≤ binCost D f ((f.1.cfg D.X D.n).bin i) loss z) ∧
      |Real.log (m.predict D.prior D.X i) - Real.log x| ≤ (1 - δ) ^ m.iterations * |a - Real.log x₀| := by
  have hδ1 : δ ≤ 1 := (hδ 1 le_rfl).trans (h.rates 1).2
  obtain ⟨x, hx, hp⟩ := oneFeature_factors hE hmin h hsk _ hu hw low high x₀ hlow hx₀ hopt a ha hmn hmx
    (fun k => (1 - δ) ^ k * |a - Real.log x₀|) (by simp) (fun k => by
      have hpow : (1 - δ) ^ k * |a - Real.log x₀| ≤ |a - Real.log x₀| :=
        mul_le_of_le_one_left (abs_nonneg _) (pow_le_one₀ (by linarith) (by linarith))
      have hpos : 0 ≤ (1 - δ) ^ k * |a - Real.log x₀| := mul_nonneg (pow_nonneg (by linarith) k) (abs_nonneg _)
      have hr := hδ (k + 1) (by omega)
      have e : (1 - δ) ^ (k + 1) * |a - Real.log x₀| = (1 - δ) * ((1 - δ) ^ k * |a - Real.log x₀|) := by ring
      beta_reduce
      rw [e]
      refine max_le (mul_le_mul_of_nonneg_right (by linarith) hpos) ?_
      have := mul_le_mul_of_nonneg_left hpow h0
      linarith)
  exact ⟨(hp i hi rfl).1, x, hx, (hp i hi rfl).2⟩

/-- **C156**, full steps: with learning rate 1 the optimum is found after as many iterations as there are steps of
log 2 between the start and an optimum. -/
theorem C156_optimal (hE : CostEstimator minimize true E loss) (hmin : FindsMinimum minimize) (h : OneFeatureModel S E D m f)
    (hsk : S.params.hierarchical = none) (i : ℕ) (hi : i < D.n) (hu : Unsmoothed S D f ((f.1.cfg D.X D.n).bin i))
    (hw : 0 < sumInBin D f ((f.1.cfg D.X D.n).bin i) D.w) (low high x₀ : ℝ) (hlow : 0 < low)
    (hx₀ : ∀ z, binCost D f ((f.1.cfg D.X D.n).bin i) loss x₀ ≤ binCost D f ((f.1.cfg D.X D.n).bin i) loss z)
    (hopt : ∀ x, (∀ z, binCost D f ((f.1.cfg D.X D.n).bin i) loss x ≤ binCost D f ((f.1.cfg D.X D.n).bin i) loss z) → low ≤ x ∧ x ≤ high)
    (a : ℝ) (ha : E.scale D.n D.y D.w = .fin a) (hmn : minFactor false (f.1.group.length == 1) ≤ low / Real.exp a)
    (hmx : high / Real.exp a ≤ maxFactor false (f.1.group.length == 1))
    (hr : ∀ k, 1 ≤ k → S.learnRate k = 1) (hsteps : |a - Real.log x₀| ≤ m.iterations * Real.log 2) (z : ℝ) :
    binCost D f ((f.1.cfg D.X D.n).bin i) loss (m.predict D.prior D.X i) ≤ binCost D f ((f.1.cfg D.X D.n).bin i) loss z := by
  have hL : 0 < Real.log 2 := Real.log_pos (by norm_num)
  obtain ⟨x, hx, hp⟩ := oneFeature_factors hE hmin h hsk _ hu hw low high x₀ hlow hx₀ hopt a ha hmn hmx
    (fun k => max 0 (|a - Real.log x₀| - k * Real.log 2)) (by simp) (fun k => by
      beta_reduce
      rw [hr (k + 1) (by omega), sub_self, zero_mul]
      refine max_le (le_max_left _ _) ?_
      push_cast
      rcases max_cases 0 (|a - Real.log x₀| - k * Real.log 2) with ⟨e, -⟩ | ⟨e, -⟩ <;> rw [e]
      · exact le_max_of_le_left (by linarith)
      · exact le_max_of_le_right (by linarith))
  obtain ⟨p1, p2⟩ := hp i hi rfl
  beta_reduce at p2
  rw [max_eq_left (by linarith)] at p2
  have e : m.predict D.prior D.X i = x := by
    have := abs_nonpos_iff.mp p2
    exact Real.log_injOn_pos p1 (lt_of_lt_of_le hlow (hopt x hx).1) (by linarith)
  rw [e]
  exact hx z

/-- The costs of a bin for the quantile loss, as a list sum. -/
theorem binCost_pinball (q : ℝ) (b : ℕ) (c : ℝ) :
    binCost D f b (Spec.pinball q) c =
      (((binMembers D.n (f.1.cfg D.X D.n).bin b).map fun i => (D.y i, D.w i)).map fun s => CB.pinball q c s.1 * s.2).sum := by
  rw [binCost, ← sumInBin_binSum, binSum_members, List.map_map]
  congr 1
  refine List.map_congr_left fun i _ => ?_
  show D.w i * Spec.pinball q c (D.y i) = CB.pinball q c (D.y i) * D.w i
  rw [pinball_eq, mul_comm]

theorem bin_weights (b : ℕ) :
    (((binMembers D.n (f.1.cfg D.X D.n).bin b).map fun i => (D.y i, D.w i)).map Prod.snd).sum = sumInBin D f b D.w := by
  rw [← sumInBin_binSum, binSum_members, List.map_map]; rfl

/-- Predictions of minimal quantile loss in a bin are quantiles of its targets. -/
theorem isBinQuantile_of_minimal (q : ℝ) (b : ℕ) (x : ℝ)
    (h : ∀ z, binCost D f b (Spec.pinball q) x ≤ binCost D f b (Spec.pinball q) z) : IsBinQuantile D f b q x := by
  obtain ⟨q1, q2⟩ := minimiser_isQuantile q x ((binMembers D.n (f.1.cfg D.X D.n).bin b).map fun i => (D.y i, D.w i)) fun c => by
    rw [← binCost_pinball, ← binCost_pinball]; exact h c
  rw [bin_weights, weightOf_members, sumInBin_binSum] at q1 q2
  simp only [decide_eq_true_eq] at q1 q2
  exact ⟨q1, q2⟩

/-- Quantiles between 0 and 1 of the targets in a bin lie between these targets. -/
theorem isBinQuantile_range (q : ℝ) (h0 : 0 < q) (h1 : q < 1) (hw : ∀ i < D.n, 0 ≤ D.w i) (b : ℕ) (hW : 0 < sumInBin D f b D.w)
    (low high : ℝ) (hy : ∀ i < D.n, (f.1.cfg D.X D.n).bin i = b → low ≤ D.y i ∧ D.y i ≤ high) (x : ℝ) (hx : IsBinQuantile D f b q x) :
    low ≤ x ∧ x ≤ high := by
  constructor
  · by_contra hn
    push Not at hn
    have : (sumInBin D f b fun i => if D.y i ≤ x then D.w i else 0) = 0 := by
      unfold sumInBin
      refine sum_eq_zero fun i hi => if_neg (not_le.mpr (lt_of_lt_of_le hn ?_))
      exact (hy i (mem_range.mp (mem_filter.mp hi).1) (mem_filter.mp hi).2).1
    have h2 := hx.2
    rw [this] at h2
    linarith [mul_pos h0 hW]
  · by_contra hn
    push Not at hn
    have : (sumInBin D f b fun i => if D.y i < x then D.w i else 0) = sumInBin D f b D.w := by
      unfold sumInBin
      refine sum_congr rfl fun i hi => if_pos (lt_of_le_of_lt ?_ hn)
      exact (hy i (mem_range.mp (mem_filter.mp hi).1) (mem_filter.mp hi).2).2
    have h2 := hx.1
    rw [this] at h2
    nlinarith

/-- **C156**, quantiles, full steps: `CBMultiplicativeQuantileRegressor` with a single feature, learning rate 1 and an optimiser
that finds minima. Training starts from `exp a`, a quantile of all targets. If the targets of the unsmoothed bin lie between `low > 0` and
`high`, both within the bounds for factors and not further from the start than one factor of 2 for every iteration, the prediction is a
quantile of the targets of the bin. -/
theorem C156_quantile (q : ℝ) (h0 : 0 < q) (h1 : q < 1) (hmin : FindsMinimum minimize)
    (h : OneFeatureModel S (quantileEstimator true q minimize) D m f) (hsk : S.params.hierarchical = none)
    (i : ℕ) (hi : i < D.n) (hu : Unsmoothed S D f ((f.1.cfg D.X D.n).bin i)) (hw : 0 < sumInBin D f ((f.1.cfg D.X D.n).bin i) D.w)
    (low high : ℝ) (hlow : 0 < low)
    (hy : ∀ k < D.n, (f.1.cfg D.X D.n).bin k = (f.1.cfg D.X D.n).bin i → low ≤ D.y k ∧ D.y k ≤ high)
    (a : ℝ) (ha : quantileScale .log q D.n D.y D.w = .fin a) (hmn : minFactor false (f.1.group.length == 1) ≤ low / Real.exp a)
    (hmx : high / Real.exp a ≤ maxFactor false (f.1.group.length == 1)) (hr : ∀ k, 1 ≤ k → S.learnRate k = 1)
    (hdown : Real.exp a ≤ 2 ^ m.iterations * low) (hup : high ≤ 2 ^ m.iterations * Real.exp a) :
    IsBinQuantile D f ((f.1.cfg D.X D.n).bin i) q (m.predict D.prior D.X i) := by
  have hopt : ∀ x, (∀ z, binCost D f ((f.1.cfg D.X D.n).bin i) (Spec.pinball q) x ≤
      binCost D f ((f.1.cfg D.X D.n).bin i) (Spec.pinball q) z) → low ≤ x ∧ x ≤ high := fun x hx =>
    isBinQuantile_range q h0 h1 h.weights _ hw low high hy x (isBinQuantile_of_minimal q _ x hx)
  obtain ⟨x₀, hx₀⟩ := exists_minimiser q h0.le h1.le
    ((binMembers D.n (f.1.cfg D.X D.n).bin ((f.1.cfg D.X D.n).bin i)).map fun i => (D.y i, D.w i))
    (fun s hs => by
      obtain ⟨k, hk, rfl⟩ := List.mem_map.mp hs
      exact h.weights k (List.mem_range.mp (List.mem_filter.mp hk).1))
    (by rw [bin_weights]; exact hw)
  have hx₀' : ∀ z, binCost D f ((f.1.cfg D.X D.n).bin i) (Spec.pinball q) x₀ ≤ binCost D f ((f.1.cfg D.X D.n).bin i) (Spec.pinball q) z :=
    fun z => by rw [binCost_pinball, binCost_pinball]; exact hx₀ z
  obtain ⟨b1, b2⟩ := hopt x₀ hx₀'
  have hxpos : 0 < x₀ := lt_of_lt_of_le hlow b1
  refine isBinQuantile_of_minimal q _ _ (C156_optimal (.quantile true q h0.le h1.le) hmin h hsk i hi hu hw low high x₀ hlow hx₀' hopt
    a ha hmn hmx hr (abs_le.mpr ⟨?_, ?_⟩))
  · have := Real.log_le_log hxpos (b2.trans hup)
    rw [Real.log_mul (by positivity) (Real.exp_ne_zero a), Real.log_exp, Real.log_pow] at this
    linarith
  · have h3 : Real.exp a ≤ 2 ^ m.iterations * x₀ := hdown.trans (mul_le_mul_of_nonneg_left b1 (by positivity))
    have := Real.log_le_log (Real.exp_pos a) h3
    rw [Real.log_mul (by positivity) hxpos.ne', Real.log_exp, Real.log_pow] at this
    linarith

end

end CB
