import Verif.Props.PriceFit
import Verif.Props.Rows

/-!
# C77 for the price model: the order of the samples does not matter
-/

set_option autoImplicit false
set_option linter.unusedSectionVars false

namespace CB
open Finset Spec

section
variable {α : Type} {row row' : ℕ → α}

/-- Which bins are not empty is given by the numbers of samples with each row. -/
theorem occupied_same {n n' : ℕ} {codes codes' : ℕ → ℕ} (h1 : SameMass n n' row row' (fun _ => 1) (fun _ => 1))
    (hc : Agree n n' row row' codes codes') (b : ℕ) : (∃ i < n', codes' i = b) ↔ ∃ i < n, codes i = b := by
  have key : ∀ (n : ℕ) (codes : ℕ → ℕ), (∃ i < n, codes i = b) ↔ binSum n codes (fun _ => (1 : ℝ)) b ≠ 0 := by
    intro n codes
    unfold binSum
    rw [← sum_filter, sum_const, nsmul_eq_mul, mul_one, Nat.cast_ne_zero, card_ne_zero]
    constructor
    · rintro ⟨i, hi, h⟩
      exact ⟨i, mem_filter.mpr ⟨mem_range.mpr hi, h⟩⟩
    · rintro ⟨i, hi⟩
      rw [mem_filter, mem_range] at hi
      exact ⟨i, hi⟩
  rw [key, key, h1.binSum hc]

/-- The Newton step of the exponent fit only depends on how often each row occurs. -/
theorem expoStep_same (d d' : ExpoData) (h1 : SameMass d.n d'.n row row' (fun _ => 1) (fun _ => 1))
    (hc : Agree d.n d'.n row row' d.codes d'.codes) (hy : Agree d.n d'.n row row' d.y d'.y)
    (hp : Agree d.n d'.n row row' d.p d'.p) (hx : Agree d.n d'.n row row' d.logX d'.logX)
    (hk : Agree d.n d'.n row row' d.k d'.k) (hq : Agree d.n d'.n row row' d.prior d'.prior)
    (hs : Agree d.n d'.n row row' d.s d'.s) (hl : Agree d.n d'.n row row' d.logKPrior d'.logKPrior) (hv : d'.varL = d.varL) :
    d'.step = d.step := by
  have hall := hc.map₂ Prod.mk (hy.map₂ Prod.mk (hp.map₂ Prod.mk (hx.map₂ Prod.mk (hk.map₂ Prod.mk (hq.map₂ Prod.mk
    (hs.map₂ Prod.mk hl))))))
  have hn : binSum d'.n d'.codes (fun _ => (1 : ℝ)) = binSum d.n d.codes fun _ => 1 := (h1.binSum hc).symm
  let J : (ℕ → ℝ) → ℕ × ℝ × ℝ × ℝ × ℝ × ℝ × ℝ × ℝ → ℝ := fun l z =>
    -(2 * (z.2.2.2.2.1 * z.2.2.2.1) * (z.2.2.1 * Real.exp (z.2.2.2.2.1 * l z.1 * z.2.2.2.1))
      * (z.2.1 - z.2.2.1 * Real.exp (z.2.2.2.2.1 * l z.1 * z.2.2.2.1))) * z.2.2.2.2.2.2.1
  have hjac : d'.jac = d.jac := by
    funext l b
    unfold ExpoData.jac
    refine congrFun ?_ b
    symm
    refine h1.binSum_of hc (hall.map fun z => J l z
      + 2 * (z.2.2.2.2.1 * (z.2.2.2.2.1 * l z.1 - z.2.2.2.2.2.1) + l z.1 - 1 + (z.2.2.2.2.2.2.2 + 2 * Real.log (l z.1)) / l z.1)
        / d.varL / binSum d.n d.codes (fun _ => 1) z.1) (fun s => ?_) (fun s => ?_)
    · rw [one_mul]; rfl
    · rw [one_mul]
      unfold ExpoData.jacPrior ExpoData.count
      rw [hn, hv]
      rfl
  have hhess : d'.hess = d.hess := by
    funext l b
    unfold ExpoData.hess
    refine congrFun ?_ b
    symm
    refine h1.binSum_of hc (hall.map fun z =>
      2 * (z.2.2.2.2.1 * z.2.2.2.1) * (z.2.2.2.2.1 * z.2.2.2.1) * (z.2.2.1 * Real.exp (z.2.2.2.2.1 * l z.1 * z.2.2.2.1))
        * (z.2.2.1 * Real.exp (z.2.2.2.2.1 * l z.1 * z.2.2.2.1)) * z.2.2.2.2.2.2.1 + z.2.2.2.2.1 * z.2.2.2.1 * J l z
      + 2 * (z.2.2.2.2.1 * z.2.2.2.2.1 + 1 + (2 - (z.2.2.2.2.2.2.2 + 2 * Real.log (l z.1))) / l z.1 / l z.1)
        / d.varL / binSum d.n d.codes (fun _ => 1) z.1) (fun s => ?_) (fun s => ?_)
    · rw [one_mul]; rfl
    · rw [one_mul]
      unfold ExpoData.hessPrior ExpoData.count
      rw [hn, hv]
      rfl
  funext l
  unfold ExpoData.step
  simp only [hjac, hhess, occupied_same h1 hc]

end

section
variable {α : Type} {σ : Type*} {S : Setup σ} {D D' : TrainSet} {row row' : ℕ → α} (A : PriceArgs)

/-- The columns of prices and prior exponents are given by the row. -/
structure SamePrices (A : PriceArgs) (D D' : TrainSet) (row row' : ℕ → α) : Prop where
  weights : Agree D.n D'.n row row' D.w D'.w
  counts : SameMass D.n D'.n row row' (fun _ => 1) (fun _ => 1)
  price : Agree D.n D'.n row row' (fun s => D.X s A.externalColumn) (fun s => D'.X s A.externalColumn)
  exponent : Agree D.n D'.n row row' (A.exponent D.X) (A.exponent D'.X)

variable {A}

theorem SamePrices.base (h : SamePrices A D D' row row') : Agree D.n D'.n row row' (A.base D.X) (A.base D'.X) :=
  h.price.map externalBase

theorem SamePrices.externalWeight (h : SamePrices A D D' row row') :
    Agree D.n D'.n row row' (A.externalWeight D) (A.externalWeight D') :=
  h.price.map₂ (fun (v : Flt ℝ) (w : ℝ) => (if v.isFinite then 1 else 0) * w) h.weights

theorem SamePrices.link (h : SamePrices A D D' row row') {p p' : Pred ℝ} (hp : PredSim D.n D'.n row row' p p') :
    Agree D.n D'.n row row' (A.linkOf D.X p) (A.linkOf D'.X p') := by
  have h1 := (hp.1.map₂ Prod.mk hp.2).map₂ Prod.mk (h.exponent.map₂ Prod.mk h.base)
  exact h1.map fun z => priceLinkOf z.1.1 z.2.1 z.1.2 z.2.2

theorem SamePrices.mass (h : SamePrices A D D' row row') {w w' : ℕ → ℝ} (hw : Agree D.n D'.n row row' w w') :
    SameMass D.n D'.n row row' w w' := by
  have := h.counts.mul hw
  simpa only [one_mul] using this

theorem SamePrices.parameters (h : SamePrices A D D' row row') (hr : SameRows S D D' row row')
    (f : FeatureSpec × SmootherKind) (hf : f ∈ S.features) {p p' : Pred ℝ} (hp : PredSim D.n D'.n row row' p p') :
    A.parameters D' p' f.1 = A.parameters D p f.1 := by
  funext b
  have hc := hr.codes f hf
  have hn : (f.1.cfg D'.X D'.n).nFinite = (f.1.cfg D.X D.n).nFinite := congrArg List.prod (hr.bins f hf)
  have hlink := h.link hp
  unfold PriceArgs.parameters
  dsimp only
  rw [hn]
  split
  · have hk : Agree D.n D'.n row row' (fun s => priceExponent (A.exponent D.X s) (p.exponents s))
        (fun s => priceExponent (A.exponent D'.X s) (p'.exponents s)) := h.exponent.map₂ priceExponent hp.2
    unfold PriceArgs.exponentParameters
    rw [expoStep_same (row := row) (row' := row') (A.expoData D p (f.1.cfg D.X D.n).bin) (A.expoData D' p' (f.1.cfg D'.X D'.n).bin)
      h.counts hc hr.y (hp.1.map Real.exp) h.base hk h.exponent
      (h.externalWeight.map₂ (fun w v => w / (A.a * Real.exp v + A.c * Real.exp v * Real.exp v)) hlink)
      (hk.map₂ (fun k q => Real.log (k / q)) h.exponent) rfl, (h.mass h.externalWeight).binSum hc]
  · unfold nbinomCalcParameters
    dsimp only
    rw [hr.mass.binSum_of hc (hr.y.map₂ (fun u v => u / (A.a + A.c * Real.exp v)) hlink)
        (fun s => mul_div_assoc _ _ _) (fun s => mul_div_assoc _ _ _),
      hr.mass.binSum_of hc (hlink.map fun v => Real.exp v / (A.a + A.c * Real.exp v))
        (fun s => mul_div_assoc _ _ _) (fun s => mul_div_assoc _ _ _)]

theorem SamePrices.oracle (h : SamePrices A D D' row row') (hr : SameRows S D D' row row') :
    OracleSim (PredSim D.n D'.n row row') (S.priceOracle A D) (S.priceOracle A D') := by
  refine ⟨?_, ?_, rfl, rfl, ?_⟩
  · intro it i p p' fs hp
    unfold Setup.priceOracle
    dsimp only
    cases hi : S.features[i]? with
    | none => rfl
    | some f =>
      dsimp only
      rw [h.parameters hr f (List.mem_of_getElem? hi) hp]
  · intro it i p p' fs u hp
    unfold Setup.priceOracle
    dsimp only
    cases hi : S.features[i]? with
    | none => rfl
    | some f =>
      have hf := List.mem_of_getElem? hi
      dsimp only
      have hw : SameMass D.n D'.n row row' (A.weightsFor D f.1) (A.weightsFor D' f.1) := by
        unfold PriceArgs.weightsFor
        split
        · exact h.mass h.externalWeight
        · exact hr.mass
      rw [h.parameters hr f hf hp, hr.bins f hf, hw.binSum (hr.codes f hf)]
  · intro p p' hp
    exact inv_squaredLoss hr.mass hr.y ((h.link hp).map Real.exp)

/-- Two training sets made of the same rows give the same price model. -/
theorem SamePrices.fit (h : SamePrices A D D' row row') (hr : SameRows S D D' row row')
    (hv : (∀ i < D.n, A.estimator.valid (D.y i)) ↔ ∀ i < D'.n, A.estimator.valid (D'.y i)) (fuel : ℕ) :
    S.priceFit A D' fuel = S.priceFit A D fuel := by
  have hE := (nbinom_invariant A.gammaincinv A.a A.c).at_ hr trivial hv
  have hsc : A.estimator.scale D'.n D'.y D'.w = A.estimator.scale D.n D.y D.w := hE.scale
  have hoff : A.estimator.offset D' = A.estimator.offset D := by
    unfold Estimator.offset
    rcases hr.prior with ⟨h1, h2⟩ | ⟨q, q', h1, h2, hq⟩
    · rw [h1, h2]
    · rw [h1, h2]
      dsimp only
      rw [hsc, inv_priorOffset A.estimator.link _ hr.mass hq]
  unfold Setup.priceFit
  dsimp only
  by_cases hval : ∀ i < D.n, A.estimator.valid (D.y i)
  · rw [if_pos hval, if_pos (hv.mp hval), hsc, hoff]
    split
    · unfold Setup.priceFitMain
      dsimp only
      rw [hsc, hoff]
      have hprior : Agree D.n D'.n row row'
          (fun s => (priorPrediction A.estimator.link (A.estimator.scale D.n D.y D.w) (A.estimator.offset D) D.prior s).getFin)
          (fun s => (priorPrediction A.estimator.link (A.estimator.scale D.n D.y D.w) (A.estimator.offset D) D'.prior s).getFin) := by
        rcases hr.prior with ⟨h1, h2⟩ | ⟨q, q', h1, h2, hq⟩
        · rw [h1, h2]; exact Agree.const (A.estimator.scale D.n D.y D.w).getFin
        · rw [h1, h2]
          exact hq.map fun v => (if ((linkFlt A.estimator.link v).add (A.estimator.offset D)).isFinite = true then
            (linkFlt A.estimator.link v).add (A.estimator.offset D) else A.estimator.scale D.n D.y D.w).getFin
      generalize (fun s => (priorPrediction A.estimator.link (A.estimator.scale D.n D.y D.w) (A.estimator.offset D) D.prior s).getFin)
        = pr at hprior ⊢
      generalize (fun s => (priorPrediction A.estimator.link (A.estimator.scale D.n D.y D.w) (A.estimator.offset D) D'.prior s).getFin)
        = pr' at hprior ⊢
      rcases sim_fitMain (S.paramsFor A.estimator) (h.oracle hr) (S.cfgs D) (S.cfgs D') hr.cfgs pr pr' ⟨hprior, Agree.const 0⟩ fuel with
        ⟨e1, e2⟩ | ⟨e, e1, e2⟩ | ⟨r, r', e1, e2, e3, e4, -⟩
      · rw [e1, e2]
      · rw [e1, e2]
      · rw [e1, e2]
        dsimp only
        have hff : fittedFeatures D'.X D'.n (S.features.map (·.1)) r'.factors
            = fittedFeatures D.X D.n (S.features.map (·.1)) r.factors := by
          rw [e3]
          have hb := hr.bins
          unfold fittedFeatures
          generalize r.factors = fac
          generalize S.features = l at hb
          induction l generalizing fac with
          | nil => rfl
          | cons f l ih =>
            cases fac with
            | nil => rfl
            | cons g fac =>
              rw [List.map_cons, List.zipWith_cons_cons, List.zipWith_cons_cons,
                ih fac (fun f hf => hb f (List.mem_cons_of_mem _ hf)), hb f (List.mem_cons_self ..)]
        rw [hff, e4]
    · rfl
  · rw [if_neg hval, if_neg (fun hc => hval (hv.mpr hc))]

end

/-- **C77, price model.** Permuting the samples, with their weights, prices, prior exponents and prior predictions, gives exactly
the same outcome: the same error or the same model. -/
theorem C77_price {σ : Type*} (S : Setup σ) (hgroups : ∀ f ∈ S.features, f.1.group ≠ []) (A : PriceArgs) (D : TrainSet)
    (π : Equiv.Perm ℕ) (hπ : ∀ s, π s < D.n ↔ s < D.n) (fuel : ℕ) :
    S.priceFit A (resample D π D.n fun s => D.w (π s)) fuel = S.priceFit A D fuel := by
  have hrows := order_rows S hgroups D π hπ
  have hones : SameMass D.n D.n (fun s => s) π (fun _ => 1) (fun _ => 1) :=
    (order_rows S hgroups { D with w := fun _ => 1 } π hπ).mass
  refine SamePrices.fit (D' := resample D π D.n fun s => D.w (π s)) (row := fun s => s) (row' := π)
    ⟨⟨D.w, fun _ _ => rfl, fun _ _ => rfl⟩, hones, ⟨fun s => D.X s A.externalColumn, fun _ _ => rfl, fun _ _ => rfl⟩,
      ⟨A.exponent D.X, fun _ _ => rfl, fun s _ => ?_⟩⟩ hrows ⟨?_, ?_⟩ fuel
  · unfold PriceArgs.exponent resample
    cases A.exponentColumn <;> rfl
  · intro hv s hs
    exact hv (π s) ((hπ s).mpr hs)
  · intro hv s hs
    have := hv (π.symm s) ((hπ _).mp (by rw [π.apply_symm_apply]; exact hs))
    have e : (resample D π D.n fun s => D.w (π s)).y (π.symm s) = D.y s := congrArg D.y (π.apply_symm_apply s)
    rwa [e] at this

end CB
