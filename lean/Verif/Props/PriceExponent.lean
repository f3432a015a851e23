import Verif.Props.PriceFit

/-!
# C24, C59: what the training of the price model fits
-/

set_option autoImplicit false
set_option linter.unusedSectionVars false

namespace CB
open Finset Spec Filter Topology

section
variable {σ : Type*} (S : Setup σ) (A : PriceArgs) (D : TrainSet) (pred : Pred ℝ)

/-! ### The costs that the exponents are fitted with -/

theorem exponentObjective_eq (codes : ℕ → ℕ) (t : ℝ) (ht : 0 < t) (i : ℕ) (he : A.exponent D.X i ≠ 0) :
    exponentObjective (A.expoData D pred codes) t i =
      exponentCost A D pred (∑ j ∈ range D.n, if codes j = codes i then 1 else 0) t i := by
  have hlog : Real.log (t * (A.exponent D.X i * Real.exp (pred.exponents i)) / A.exponent D.X i)
      = Real.log t + Real.log (priceExponent (A.exponent D.X i) (pred.exponents i) / A.exponent D.X i) := by
    unfold priceExponent
    rw [mul_div_assoc, Real.log_mul ht.ne']
    rw [mul_div_assoc]
    exact mul_ne_zero he (div_ne_zero (Real.exp_ne_zero _) he)
  unfold exponentCost exponentObjective
  dsimp only
  rw [priorExponent_eq, hlog]
  congr 1
  unfold PriceArgs.expoData
  dsimp only
  unfold PriceArgs.externalWeight PriceArgs.base externalBase PriceArgs.linkOf priceLinkOf PriceArgs.base externalBase priceExponent
  cases hx : D.X i A.externalColumn with
  | fin r =>
    simp only [Flt.isFinite, if_true, one_mul]
    rw [Real.exp_add]
    ring
  | nan => simp [Flt.isFinite]
  | pinf => simp [Flt.isFinite]
  | ninf => simp [Flt.isFinite]

/-- **C59, training.** For an external feature, the Jacobian in the exponent fit of a bin is the derivative of the documented costs
of the samples of the bin, at every running prediction. -/
theorem C59_training (codes : ℕ → ℕ) (l : ℕ → ℝ) (b : ℕ) (hl : 0 < l b) (he : ∀ i < D.n, priorExponentOf A D.X i ≠ 0) :
    HasDerivAt (fun t => ∑ i ∈ range D.n,
        if codes i = b then exponentCost A D pred (∑ j ∈ range D.n, if codes j = b then 1 else 0) t i else 0)
      ((A.expoData D pred codes).jac l b) (l b) := by
  refine (C59_jacobian (A.expoData D pred codes) l b hl).congr_of_eventuallyEq ?_
  filter_upwards [lt_mem_nhds hl] with t ht
  unfold binSum
  refine sum_congr rfl fun i hi => ?_
  by_cases hc : codes i = b
  · rw [if_pos hc]
    have hcc : (A.expoData D pred codes).codes i = b := hc
    rw [if_pos hcc, exponentObjective_eq A D pred codes t ht i (priorExponent_eq A D.X i ▸ he i (mem_range.mp hi)), hc]
  · rw [if_neg hc]
    have hcc : ¬ (A.expoData D pred codes).codes i = b := hc
    rw [if_neg hcc]

/-- **C59, parameter 0.** In a bin with samples the Jacobian has the limit minus infinity when the parameter tends to 0, and this is
what the step returns there. -/
theorem C59_zero (codes : ℕ → ℕ) (l : ℕ → ℝ) (b : ℕ) (hv : 0 < A.varPrior) (hb : ∃ i < D.n, codes i = b) :
    Tendsto (fun t => (A.expoData D pred codes).jac (Function.update l b t) b) (𝓝[>] 0) atBot ∧
      (l b = 0 → ((A.expoData D pred codes).step l).jac b = .ninf ∧ (((A.expoData D pred codes).step l).lnew b).isFinite = false) := by
  set d := A.expoData D pred codes with hd
  constructor
  · obtain ⟨i0, hi0, hc0⟩ := hb
    have hcount : ∀ i, codes i = b → 0 < d.count i := by
      intro i hi
      unfold ExpoData.count binSum
      have : (0 : ℝ) < if d.codes i0 = d.codes i then 1 else 0 := by
        rw [if_pos (show d.codes i0 = d.codes i from hc0.trans hi.symm)]
        exact one_pos
      exact lt_of_lt_of_le this (single_le_sum (f := fun j => if d.codes j = d.codes i then (1 : ℝ) else 0)
        (fun j _ => by split <;> norm_num) (mem_range.mpr hi0))
    have hlog : ∀ c : ℝ, Tendsto (fun t : ℝ => (c + 2 * Real.log t) / t) (𝓝[>] 0) atBot := by
      intro c
      have h1 : Tendsto (fun t : ℝ => c + 2 * Real.log t) (𝓝[>] 0) atBot :=
        tendsto_atBot_add_const_left _ _ (Real.tendsto_log_nhdsGT_zero.const_mul_atBot (by norm_num))
      simp only [div_eq_mul_inv]
      exact h1.atBot_mul_atTop₀ tendsto_inv_nhdsGT_zero
    have hterm : ∀ i, codes i = b → Tendsto (fun t => d.jacData t i + d.jacPrior t i) (𝓝[>] 0) atBot := by
      intro i hi
      have hcont : Tendsto (fun t => d.jacData t i) (𝓝[>] 0) (𝓝 (d.jacData 0 i)) := by
        have : Continuous fun t => d.jacData t i := by
          unfold ExpoData.jacData ExpoData.mu
          fun_prop
        exact (this.tendsto 0).mono_left nhdsWithin_le_nhds
      refine hcont.add_atBot ?_
      have h2 : Tendsto (fun t : ℝ => d.k i * (d.k i * t - d.prior i) + t - 1) (𝓝[>] 0)
          (𝓝 (d.k i * (d.k i * 0 - d.prior i) + 0 - 1)) := by
        have : Continuous fun t : ℝ => d.k i * (d.k i * t - d.prior i) + t - 1 := by fun_prop
        exact (this.tendsto 0).mono_left nhdsWithin_le_nhds
      have h3 := (h2.add_atBot (hlog (d.logKPrior i))).const_mul_atBot (show (0 : ℝ) < 2 / A.varPrior / d.count i by
        have := hcount i hi
        positivity)
      refine h3.congr fun t => ?_
      unfold ExpoData.jacPrior
      have : d.varL = A.varPrior := rfl
      rw [this]
      ring
    have hjac : ∀ t, d.jac (Function.update l b t) b =
        ∑ i ∈ (range D.n).filter (fun i => codes i = b), (d.jacData t i + d.jacPrior t i) := by
      intro t
      rw [jac_local, sum_filter]
      simp only [Function.update_self]
      rfl
    simp only [hjac]
    have hne : ((range D.n).filter fun i => codes i = b).Nonempty := ⟨i0, by simp [hi0, hc0]⟩
    have : ∀ s : Finset ℕ, s.Nonempty → (∀ i ∈ s, codes i = b) →
        Tendsto (fun t => ∑ i ∈ s, (d.jacData t i + d.jacPrior t i)) (𝓝[>] 0) atBot := by
      intro s hs
      induction hs using Finset.Nonempty.cons_induction with
      | singleton a =>
        intro h
        simp only [sum_singleton]
        exact hterm a (h a (by simp))
      | cons a s ha hs ih =>
        intro h
        simp only [sum_cons]
        exact (hterm a (h a (by simp))).atBot_add_atBot (ih fun i hi => h i (by simp [hi]))
    exact this _ hne (fun i hi => (mem_filter.mp hi).2)
  · intro h0
    have : l b ≤ 0 ∧ ∃ i < d.n, d.codes i = b := ⟨h0.le, hb⟩
    unfold ExpoData.step
    dsimp only
    rw [if_pos this, if_pos this]
    exact ⟨rfl, rfl⟩

/-! ### Estimates -/

/-- **C59, estimates.** For a bin of an external feature, the missing bin included: the estimate and its uncertainty are those of a
gamma distribution with the given prior, whose moments are a factor `l` between 0 and 2048 and a positive variance, or of the prior
alone. A bin in which no sample with a price ratio has weight is fitted with `l = 1`. -/
theorem C59_estimate (f : FeatureSpec) (hf : f.external = true) (b : ℕ) (hb : b ≤ (f.cfg D.X D.n).nFinite) :
    ∃ l : ℝ, 0 ≤ l ∧ l ≤ 2048 ∧
      ((∀ i < D.n, (f.cfg D.X D.n).bin i = b → (D.X i A.externalColumn).isFinite = true → D.w i = 0) → l = 1) ∧
      ((∃ v : ℝ, 0 < v ∧ A.parameters D pred f b = calcFactorsAndUncertainties A.gammaincinv (l ^ 2 / v) (l / v)) ∨
        A.parameters D pred f b = calcFactorsAndUncertainties A.gammaincinv 0 0) := by
  obtain ⟨r, hr, h1, h2, h3⟩ := C59_fit_total (A.expoData D pred (f.cfg D.X D.n).bin) ((f.cfg D.X D.n).nFinite + 1)
    (binSum D.n (f.cfg D.X D.n).bin (A.externalWeight D))
  have hpar : A.parameters D pred f b =
      calcFactorsAndUncertainties A.gammaincinv (gammaMoments (r.l b) (r.hessInv b)).1 (gammaMoments (r.l b) (r.hessInv b)).2 := by
    unfold PriceArgs.parameters PriceArgs.exponentParameters
    dsimp only
    rw [if_pos hf, hr]
  refine ⟨r.l b, (h1 b (by omega)).1, (h1 b (by omega)).2, fun h0 => h2 b (by omega) ?_, ?_⟩
  · have : binSum D.n (f.cfg D.X D.n).bin (A.externalWeight D) b = 0 := by
      unfold binSum
      refine sum_eq_zero fun i hi => ?_
      by_cases hc : (f.cfg D.X D.n).bin i = b
      · rw [if_pos hc]
        unfold PriceArgs.externalWeight
        by_cases hx : (D.X i A.externalColumn).isFinite = true
        · rw [h0 i (mem_range.mp hi) hc hx, mul_zero]
        · rw [if_neg hx, zero_mul]
      · rw [if_neg hc]
    rw [this]
    exact lt_irrefl 0
  · rcases h3 b with h | ⟨v, hv, h⟩
    · right
      rw [hpar, h]
      rfl
    · left
      refine ⟨v, hv, ?_⟩
      rw [hpar, h]
      have e : r.l b / v * r.l b = r.l b ^ 2 / v := by ring
      unfold gammaMoments
      dsimp only
      rw [e]

/-- **C59, demand features.** The bins of a demand feature are estimated as by the negative binomial model, from the complete running
prediction, price effect included. -/
theorem C59_demand (f : FeatureSpec) (hf : f.external = false) (b : ℕ) :
    A.parameters D pred f b = (nbinomEstimator A.gammaincinv A.a A.c).parameters 0 D.n (f.cfg D.X D.n).bin D.y D.w
      (fun s => pred.factors s + priorExponentOf A D.X s * Real.exp (pred.exponents s) * externalBase (D.X s A.externalColumn)) b := by
  unfold PriceArgs.parameters
  dsimp only
  rw [if_neg (by rw [hf]; exact Bool.false_ne_true)]
  simp only [priorExponent_eq]
  rfl

/-- **C59, loss.** Training is watched by the weighted mean squared error of the complete predictions, price effect included. -/
theorem C59_loss (hw : ∑ i ∈ range D.n, D.w i ≠ 0) : (S.priceOracle A D).loss pred =
    .fin ((∑ i ∈ range D.n, D.w i * (D.y i - Real.exp (pred.factors i) *
      Real.exp (priorExponentOf A D.X i * Real.exp (pred.exponents i) * externalBase (D.X i A.externalColumn))) ^ 2) / ∑ i ∈ range D.n, D.w i) := by
  unfold Setup.priceOracle squaredLoss quotientFlt
  dsimp only
  rw [if_neg hw]
  congr 2
  refine sum_congr rfl fun i _ => ?_
  rw [priorExponent_eq]
  unfold PriceArgs.linkOf priceLinkOf priceExponent PriceArgs.base
  rw [Real.exp_add]
  ring

/-- **C59, weights.** The weights of rows without price ratio do not matter to external features: neither to the estimates and
uncertainties of the bins nor to their smoothing. -/
theorem C59_weights (w : ℕ → ℝ) (hw : ∀ s, (D.X s A.externalColumn).isFinite = true → w s = D.w s) (i k : ℕ)
    (f : FeatureSpec × SmootherKind) (hf : S.features[i]? = some f) (hext : f.1.external = true) (g : FState ℝ) :
    (S.priceOracle A { D with w := w }).estimate k i pred g = (S.priceOracle A D).estimate k i pred g ∧
      (S.priceOracle A { D with w := w }).smooth k i pred g = (S.priceOracle A D).smooth k i pred g := by
  have he : A.externalWeight { D with w := w } = A.externalWeight D := by
    funext s
    unfold PriceArgs.externalWeight
    dsimp only
    by_cases hx : (D.X s A.externalColumn).isFinite = true
    · rw [hw s hx]
    · rw [if_neg hx, zero_mul, zero_mul]
  have hx : ∀ codes, A.expoData { D with w := w } pred codes = A.expoData D pred codes := by
    intro codes
    unfold PriceArgs.expoData
    rw [he]
  have hp : ∀ b, A.parameters { D with w := w } pred f.1 b = A.parameters D pred f.1 b := by
    intro b
    unfold PriceArgs.parameters PriceArgs.exponentParameters
    dsimp only
    rw [if_pos hext, if_pos hext, hx, he]
  have hwf : A.weightsFor { D with w := w } f.1 = A.weightsFor D f.1 := by
    unfold PriceArgs.weightsFor
    rw [if_pos hext, if_pos hext, he]
  unfold Setup.priceOracle
  dsimp only
  rw [hf]
  dsimp only
  refine ⟨?_, ?_⟩
  · funext b
    rw [hp]
  · simp only [hp, hwf]

/-! ### Objects -/

/-- **C24, price model.** Predictions of a fitted price model: the prior prediction times the factors of the demand features and
the price effect, whose exponent is the prior exponent times the factors of the external features. -/
theorem C24_price (P : PriceConfig σ) (o : PriceObject) (m : FittedModel) (hm : o.status = .fitted m) (F : DataFrame) (p : ℕ → ℝ)
    (hp : o.predict P F = some (.ok p)) (s : ℕ) :
    p s = Real.exp (priorPrediction m.link m.scale m.offset (P.config.priorColumn.map fun c s => F.X s c) s).getFin
      * ((m.features.filter fun f => !f.external).map fun f => Real.exp (f.predict (F.X.row f.group s))).prod
      * Real.exp (priorExponentOf P.args F.X s
        * ((m.features.filter fun f => f.external).map fun f => Real.exp (f.predict (F.X.row f.group s))).prod
        * externalBase (F.X s P.args.externalColumn)) := by
  have hdem : ((m.features.filter fun f => !f.external).map fun f => Real.exp (f.predict (F.X.row f.group s))).prod
      = Real.exp (contributionSum false m.features F.X s) := by
    unfold contributionSum
    simp only [beq_false]
    induction m.features.filter fun f => !f.external with
    | nil => simp
    | cons f fs ih => rw [List.map_cons, List.prod_cons, ih, List.map_cons, List.sum_cons, Real.exp_add]
  unfold PriceObject.predict at hp
  rw [hm] at hp
  dsimp only at hp
  split_ifs at hp
  · simp only [Option.some.injEq, Except.ok.injEq] at hp
    rw [← hp, hdem, ← exponent_product, ← Real.exp_add, ← Real.exp_add, priorExponent_eq]
    unfold PriceArgs.predict priceModelPredict pricePredict priceLinkOf priceExponent
    dsimp only
    rw [(C24_link_space _ _ _ _).1, (C24_link_space _ _ _ _).2]
    rfl
  · simp at hp

end

end CB
