import Verif.Props.PriceFit
import Verif.Props.Shift

/-!
# C97: without price information the price model is the negative binomial model
-/

set_option autoImplicit false
set_option linter.unusedSectionVars false

namespace CB
open Finset Spec

theorem base_neutral (A : PriceArgs) (X : Table ℝ) (s : ℕ)
    (h : X s A.externalColumn = .fin 1 ∨ (X s A.externalColumn).isFinite = false) : A.base X s = 0 := by
  unfold PriceArgs.base externalBase
  rcases h with h | h
  · rw [h]; norm_num
  · cases hx : X s A.externalColumn <;> rw [hx] at h <;> simp_all [Flt.isFinite]

theorem linkOf_neutral (A : PriceArgs) (X : Table ℝ) (s : ℕ) (pred : Pred ℝ)
    (h : X s A.externalColumn = .fin 1 ∨ (X s A.externalColumn).isFinite = false) : A.linkOf X pred s = pred.factors s := by
  unfold PriceArgs.linkOf priceLinkOf
  rw [base_neutral A X s h, mul_zero, add_zero]

section
variable {σ : Type*} (S : Setup σ) (A : PriceArgs) (D : TrainSet) (fuel : ℕ)

/-- What training calls is the same for both models. -/
theorem oracle_noPrices (hext : ∀ f ∈ S.features, f.1.external = false) (hno : NoPrices A D.X D.n) :
    OracleSim (fun p p' : Pred ℝ => p' = p) (S.oracle (nbinomEstimator A.gammaincinv A.a A.c) D) (S.priceOracle A D) := by
  have hpar : ∀ f ∈ S.features, ∀ (p : Pred ℝ), A.parameters D p f.1 =
      fun b => nbinomCalcParameters A.gammaincinv A.a A.c D.n (f.1.cfg D.X D.n).bin D.y D.w p.factors b := by
    intro f hf p
    funext b
    unfold PriceArgs.parameters
    dsimp only
    rw [hext f hf, if_neg (by simp)]
    unfold nbinomCalcParameters
    dsimp only
    rw [binSum_congr_lt D.n _ (fun i => D.w i * D.y i / (A.a + A.c * Real.exp (A.linkOf D.X p i)))
        (fun i => D.w i * D.y i / (A.a + A.c * Real.exp (p.factors i)))
        (fun i hi => by rw [linkOf_neutral A D.X i p (hno i hi)]),
      binSum_congr_lt D.n _ (fun i => D.w i * Real.exp (A.linkOf D.X p i) / (A.a + A.c * Real.exp (A.linkOf D.X p i)))
        (fun i => D.w i * Real.exp (p.factors i) / (A.a + A.c * Real.exp (p.factors i)))
        (fun i hi => by rw [linkOf_neutral A D.X i p (hno i hi)])]
  refine ⟨?_, ?_, rfl, ?_, ?_⟩
  · rintro it i p p' fs rfl
    unfold Setup.priceOracle Setup.oracle
    dsimp only
    cases hi : S.features[i]? with
    | none => rfl
    | some f =>
      dsimp only
      rw [hpar f (List.mem_of_getElem? hi)]
      rfl
  · rintro it i p p' fs u rfl
    unfold Setup.priceOracle Setup.oracle
    dsimp only
    cases hi : S.features[i]? with
    | none => rfl
    | some f =>
      have hf := List.mem_of_getElem? hi
      dsimp only
      rw [hpar f hf]
      unfold PriceArgs.weightsFor
      rw [hext f hf, if_neg (by simp)]
      rfl
  · funext it i fs
    unfold Setup.priceOracle Setup.oracle
    dsimp only
    cases hi : S.features[i]? <;> rfl
  · rintro p p' rfl
    show squaredLoss D.n _ D.y D.w = squaredLoss D.n (fun s => Real.exp (p'.factors s)) D.y D.w
    unfold squaredLoss
    congr 1
    refine sum_congr rfl fun i hi => ?_
    dsimp only
    rw [linkOf_neutral A D.X i p' (hno i (mem_range.mp hi))]

/-- **C97.** Without external features and without price information in the training set, fitting the price model gives what
fitting the negative binomial model gives, the same error or the same model. -/
theorem C97_no_prices (hext : ∀ f ∈ S.features, f.1.external = false) (hno : NoPrices A D.X D.n) :
    S.priceFit A D fuel = S.fit (nbinomEstimator A.gammaincinv A.a A.c) D fuel := by
  have hcfg : List.Forall₂ (CfgSim fun p p' : Pred ℝ => p' = p) (S.cfgs D) (S.cfgs D) := by
    refine List.forall₂_same.mpr fun c _ => ⟨rfl, rfl, rfl, rfl, ?_, ?_⟩ <;> (rintro v p p' rfl; rfl)
  unfold Setup.priceFit Setup.fit Setup.priceFitMain PriceArgs.estimator
  dsimp only
  split_ifs
  · rcases sim_fitMain (S.paramsFor (nbinomEstimator A.gammaincinv A.a A.c)) (oracle_noPrices S A D hext hno) (S.cfgs D) (S.cfgs D)
      hcfg (fun s => (priorPrediction (nbinomEstimator A.gammaincinv A.a A.c).link
        ((nbinomEstimator A.gammaincinv A.a A.c).scale D.n D.y D.w) ((nbinomEstimator A.gammaincinv A.a A.c).offset D)
        D.prior s).getFin) _ rfl fuel with
      ⟨e1, e2⟩ | ⟨e, e1, e2⟩ | ⟨r, r', e1, e2, e3, e4, -⟩
    · rw [e1, e2]
    · rw [e1, e2]
    · rw [e1, e2]
      dsimp only
      rw [e3, e4]
  · rfl
  · rfl

/-- **C97, predictions.** For every model and every row without price information, the price model predicts what the demand
features alone predict. -/
theorem C97_predict (m : FittedModel) (hm : m.link = .log) (prior : Option (ℕ → Flt ℝ)) (X : Table ℝ) (s : ℕ)
    (h : X s A.externalColumn = .fin 1 ∨ (X s A.externalColumn).isFinite = false) :
    A.predict m prior X s = m.predict prior X s := by
  unfold PriceArgs.predict FittedModel.predict priceModelPredict pricePredict
  dsimp only
  have := linkOf_neutral A X s
    (predictExtended (fun s => (priorPrediction m.link m.scale m.offset prior s).getFin) m.features X) h
  unfold PriceArgs.linkOf PriceArgs.base at this
  rw [this, hm]
  rfl

end

end CB
