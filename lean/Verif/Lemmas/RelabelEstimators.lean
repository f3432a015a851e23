import Verif.Lemmas.RelabelBins
import Verif.Props.WeightedMean
import Verif.Model.GenericFit
import Verif.Spec.Rows

/-!
# Estimators and weighted mean smoothing do not depend on the numbering of the bins
-/

set_option autoImplicit false
set_option linter.unusedSectionVars false

namespace CB
open Finset Spec

/-- Arrays over samples whose bins are numbered differently. -/
structure SameBins (n : ℕ) (β : Equiv.Perm ℕ) (codes codes' : ℕ → ℕ) : Prop where
  codes : ∀ s < n, codes' s = β (codes s)

theorem SameBins.binSum {n : ℕ} {β : Equiv.Perm ℕ} {codes codes' : ℕ → ℕ} (h : SameBins n β codes codes') {g g' : ℕ → ℝ}
    (hg : ∀ s < n, g' s = g s) (b : ℕ) : binSum n codes' g' (β b) = binSum n codes g b := by
  unfold CB.binSum
  refine sum_congr rfl fun s hs => ?_
  have hs := mem_range.mp hs
  rw [h.codes s hs, hg s hs]
  simp only [EmbeddingLike.apply_eq_iff_eq]

theorem SameBins.members {n : ℕ} {β : Equiv.Perm ℕ} {codes codes' : ℕ → ℕ} (h : SameBins n β codes codes') (b : ℕ) :
    binMembers n codes' (β b) = binMembers n codes b := by
  unfold binMembers
  refine List.filter_congr fun s hs => ?_
  rw [h.codes s (List.mem_range.mp hs)]
  simp only [EmbeddingLike.apply_eq_iff_eq]

/-- An estimator whose estimates do not depend on the numbering of the bins. -/
structure Numberless (E : Estimator) : Prop where
  parameters : ∀ {it n : ℕ} {β : Equiv.Perm ℕ} {codes codes' : ℕ → ℕ} {y w p p' : ℕ → ℝ}, SameBins n β codes codes' →
    (∀ s < n, p' s = p s) → ∀ b, E.parameters it n codes' y w p' (β b) = E.parameters it n codes y w p b
  calibrate : ∀ {β : Equiv.Perm ℕ} {c c' : FeatureCfg} {bw bw' f : ℕ → ℝ}, IsNumbering β c.nFinite → c'.nFinite = c.nFinite →
    c'.missingNotLearned = c.missingNotLearned → (∀ b, bw' (β b) = bw b) →
    ∀ b, E.calibrate c' bw' (fun b => f (β.symm b)) (β b) = E.calibrate c bw f b
  loss : ∀ {n : ℕ} {p p' y w : ℕ → ℝ}, (∀ s < n, p' s = p s) → E.loss n p' y w = E.loss n p y w

theorem numberless_squaredLoss {n : ℕ} {p p' y w : ℕ → ℝ} (h : ∀ s < n, p' s = p s) : squaredLoss n p' y w = squaredLoss n p y w := by
  unfold squaredLoss
  congr 1
  exact sum_congr rfl fun s hs => by rw [h s (mem_range.mp hs)]

theorem poisson_numberless (g : ℝ → ℝ) : Numberless (poissonEstimator g) where
  parameters h hp b := by
    unfold poissonEstimator poissonCalcParameters poissonPrecalc
    dsimp only
    rw [h.binSum (fun _ _ => rfl), h.binSum fun s hs => by rw [hp s hs]]
  calibrate _ _ _ _ b := congrArg _ (Equiv.symm_apply_apply _ b)
  loss := numberless_squaredLoss

theorem nbinom_numberless (g : ℝ → ℝ) (a c : ℝ) : Numberless (nbinomEstimator g a c) where
  parameters {it n β codes codes' y w p p'} h hp b := by
    unfold nbinomEstimator nbinomCalcParameters
    dsimp only
    rw [h.binSum (g := fun i => w i * y i / (a + c * Real.exp (p i))) fun s hs => by rw [hp s hs],
      h.binSum (g := fun i => w i * Real.exp (p i) / (a + c * Real.exp (p i))) fun s hs => by rw [hp s hs]]
  calibrate _ _ _ _ b := congrArg _ (Equiv.symm_apply_apply _ b)
  loss := numberless_squaredLoss

theorem classifier_numberless (ppf : ℝ → ℝ → ℝ → ℝ) (coef : ℝ → ℝ) : Numberless (classifierEstimator ppf coef) where
  parameters {it n β codes codes' y w p p'} h hp b := by
    unfold classifierEstimator classifierCalcParameters classifierPosterior
    dsimp only
    rw [h.binSum (g := fun i => w i * boostWeight (y i) (logitLink.unlink (p i)) * y i) fun s hs => by rw [hp s hs],
      h.binSum (g := fun i => w i * boostWeight (y i) (logitLink.unlink (p i)) * (1 - y i)) fun s hs => by rw [hp s hs]]
  calibrate _ _ _ _ b := congrArg _ (Equiv.symm_apply_apply _ b)
  loss := numberless_squaredLoss

theorem precalcVariance_numberless {n : ℕ} {β : Equiv.Perm ℕ} {codes codes' : ℕ → ℕ} {y w : ℕ → ℝ}
    (h : SameBins n β codes codes') (b : ℕ) : precalcVarianceY n codes' y w (β b) = precalcVarianceY n codes y w b := by
  unfold precalcVarianceY
  dsimp only
  rw [h.binSum (g := w) fun _ _ => rfl,
    h.binSum (g := fun i => w i * (y i - binSum n codes (fun i => w i * y i) (codes i) / binSum n codes w (codes i)) ^ 2)
      fun s hs => by rw [h.codes s hs, h.binSum (g := w) (fun _ _ => rfl), h.binSum (g := fun i => w i * y i) fun _ _ => rfl]]

theorem location_numberless : Numberless locationEstimator where
  parameters {it n β codes codes' y w p p'} h hp b := by
    unfold locationEstimator locationParameter interceptParameter calcFactorsGeneric calcVarianceGeneric
    dsimp only
    have hV : ∀ s < n, precalcVarianceY n codes' y w (codes' s) = precalcVarianceY n codes y w (codes s) := by
      intro s hs
      rw [h.codes s hs, precalcVariance_numberless h]
    rw [h.binSum (g := fun i => w i / precalcVarianceY n codes y w (codes i) * (y i - p i)) fun s hs => by rw [hV s hs, hp s hs],
      h.binSum (g := fun i => w i / precalcVarianceY n codes y w (codes i)) fun s hs => by rw [hV s hs],
      h.binSum (g := fun i => w i * (w i / precalcVarianceY n codes y w (codes i))) fun s hs => by rw [hV s hs]]
  calibrate {β c c' bw bw' f} hβ hn hm hbw b := by
    unfold locationEstimator
    dsimp only
    unfold locCalibrate
    simp only [hn, hm, Equiv.symm_apply_apply]
    have hbw' : ∀ b, bw' b = bw (β.symm b) := fun b => by rw [← hbw, Equiv.apply_symm_apply]
    have e1 : ∑ x ∈ range c.nFinite, f (β.symm x) * bw (β.symm x) = ∑ x ∈ range c.nFinite, f x * bw x :=
      hβ.symm.sum_range fun b => f b * bw b
    have e2 : ∑ x ∈ range c.nFinite, bw (β.symm x) = ∑ x ∈ range c.nFinite, bw x := hβ.symm.sum_range bw
    simp only [hβ.finite, sum_range_succ, hbw', hβ.symm.missing, e1, e2]
  loss := numberless_squaredLoss

theorem locPoisson_numberless : Numberless locPoissonEstimator where
  parameters {it n β codes codes' y w p p'} h hp b := by
    unfold locPoissonEstimator locPoissonParameter
    dsimp only
    rw [h.binSum (g := w) fun _ _ => rfl,
      h.binSum (g := fun i => w i * (y i - if 0 < p i then p i else 0)
        / if (if 0 < p i then p i else 0) ≤ 0 then 1 else if 0 < p i then p i else 0) fun s hs => by simp only [hp s hs],
      h.binSum (g := fun i => w i / if (if 0 < p i then p i else 0) ≤ 0 then 1 else if 0 < p i then p i else 0)
        fun s hs => by simp only [hp s hs],
      h.binSum (g := fun i => w i ^ 2 / if (if 0 < p i then p i else 0) ≤ 0 then 1 else if 0 < p i then p i else 0)
        fun s hs => by simp only [hp s hs]]
  calibrate _ _ _ _ b := congrArg _ (Equiv.symm_apply_apply _ b)
  loss := numberless_squaredLoss

theorem gbs_numberless (ra : ℝ) : Numberless (gbsEstimator ra) where
  parameters {it n β codes codes' y w p p'} h hp b := by
    unfold gbsEstimator gbsSummand gbsVariance
    dsimp only
    have e1 := h.binSum (g := fun i => (y i - p i) * w i) (g' := fun i => (y i - p' i) * w i)
      (fun s hs => by rw [hp s hs]) b
    have e2 := h.binSum (g := fun i => w i * (1 + ra)) (fun _ _ => rfl) b
    have e3 := h.binSum (g := fun i => (y i - p i) * w i * (w i * (1 + ra))) (g' := fun i => (y i - p' i) * w i * (w i * (1 + ra)))
      (fun s hs => by rw [hp s hs]) b
    have e4 := h.binSum (g := fun i => (y i - p i) * w i * ((y i - p i) * w i))
      (g' := fun i => (y i - p' i) * w i * ((y i - p' i) * w i)) (fun s hs => by rw [hp s hs]) b
    have e5 := h.binSum (g := fun i => w i * (1 + ra) * (w i * (1 + ra))) (fun _ _ => rfl) b
    rw [e1, e2, e3, e4, e5]
  calibrate _ _ _ _ b := congrArg _ (Equiv.symm_apply_apply _ b)
  loss {n p p' y w} hp := by
    unfold gbsEstimator gbsLoss
    dsimp only
    congr 1
    exact sum_congr rfl fun s hs => by rw [hp s (mem_range.mp hs)]

theorem generic_parameters_numberless (costs : List (ℝ × ℝ × ℝ) → Flt ℝ) (minimize : (ℝ → Flt ℝ) → ℝ → ℝ)
    (unc : List (ℝ × ℝ) → ℝ) (link : Link) (mult : Bool) {n : ℕ} {β : Equiv.Perm ℕ} {codes codes' : ℕ → ℕ} {y w p p' : ℕ → ℝ}
    (h : SameBins n β codes codes') (hp : ∀ s < n, p' s = p s) (b : ℕ) :
    genericParameters costs minimize unc link mult n codes' y w p' (β b)
      = genericParameters costs minimize unc link mult n codes y w p b := by
  unfold genericParameters
  have e : binObjective costs link mult n codes' y w p' (β b) = binObjective costs link mult n codes y w p b := by
    funext t
    unfold binObjective
    rw [h.members]
    congr 1
    refine List.map_congr_left fun i hi => ?_
    rw [hp i (List.mem_range.mp (List.mem_filter.mp hi).1)]
  rw [e, h.members]

theorem genericTotal_numberless (costs : List (ℝ × ℝ × ℝ) → Flt ℝ) {n : ℕ} {p p' y w : ℕ → ℝ} (hp : ∀ s < n, p' s = p s) :
    genericTotal costs n p' y w = genericTotal costs n p y w := by
  unfold genericTotal
  congr 1
  refine List.map_congr_left fun i hi => ?_
  rw [hp i (List.mem_range.mp hi)]

theorem modelled_numberless (E : Estimator) (h : Modelled E) : Numberless E := by
  cases h with
  | poisson g => exact poisson_numberless g
  | nbinom g a c => exact nbinom_numberless g a c
  | classifier p c => exact classifier_numberless p c
  | location => exact location_numberless
  | locPoisson => exact locPoisson_numberless
  | gbs a => exact gbs_numberless a

theorem optimising_numberless (E : Estimator) (h : Optimising E) : Numberless E := by
  cases h with
  | quantile m q mi =>
    exact ⟨generic_parameters_numberless _ _ _ _ _, fun _ _ _ _ b => congrArg _ (Equiv.symm_apply_apply _ b),
      fun hp => genericTotal_numberless (quantileCostsFlt q) hp⟩
  | generic m c mi _ =>
    exact ⟨generic_parameters_numberless _ _ _ _ _, fun _ _ _ _ b => congrArg _ (Equiv.symm_apply_apply _ b),
      fun hp => genericTotal_numberless _ hp⟩
  | classifier p c co mi _ =>
    exact ⟨generic_parameters_numberless _ _ _ _ _, fun _ _ _ _ b => congrArg _ (Equiv.symm_apply_apply _ b),
      fun hp => genericTotal_numberless _ hp⟩

/-! ### Weighted mean smoothing -/

theorem pullTarget_numberless {β : Equiv.Perm ℕ} {n : ℕ} (hβ : IsNumbering β n) (un : Bool) {w w' v v' : ℕ → ℝ}
    (hw : ∀ b, w' (β b) = w b) (hv : ∀ b, v' (β b) = v b) : pullTarget un n w' v' = pullTarget un n w v := by
  unfold pullTarget
  rw [← hβ.sum_range w', ← hβ.sum_range fun b => v' b * w' b]
  simp only [hw, hv]

theorem allclose_numberless {β : Equiv.Perm ℕ} {n : ℕ} (hβ : IsNumbering β n) {x x' : ℕ → ℝ} (hx : ∀ b, x' (β b) = x b) (c : ℝ) :
    allclose n x' c = allclose n x c := by
  unfold allclose
  rw [Bool.eq_iff_iff, List.all_eq_true, List.all_eq_true]
  simp only [List.mem_range, decide_eq_true_eq]
  constructor
  · intro h b hb
    rw [← hx]
    exact h _ ((hβ.finite b).mpr hb)
  · intro h b hb
    have := h (β.symm b) ((hβ.symm.finite b).mpr hb)
    rw [← hx, Equiv.apply_symm_apply] at this
    exact this

theorem regularize_numberless {β : Equiv.Perm ℕ} {n : ℕ} (hβ : IsNumbering β n) {x x' u u' : ℕ → ℝ} (hx : ∀ b, x' (β b) = x b)
    (hu : ∀ b, u' (β b) = u b) (b : ℕ) :
    regularizeToMeanFlt n x' u' (some 0) (β b) = regularizeToMeanFlt n x u (some 0) b := by
  have hany : ((List.range n).any fun j => decide (u' j = 0)) = (List.range n).any fun j => decide (u j = 0) := by
    rw [Bool.eq_iff_iff, List.any_eq_true, List.any_eq_true]
    simp only [List.mem_range, decide_eq_true_eq]
    constructor
    · rintro ⟨j, hj, e⟩
      refine ⟨β.symm j, (hβ.symm.finite j).mpr hj, ?_⟩
      rw [← hu, Equiv.apply_symm_apply, e]
    · rintro ⟨j, hj, e⟩
      exact ⟨β j, (hβ.finite j).mpr hj, by rw [hu, e]⟩
  have hreg : regularizeToMean n x' u' (some 0) (β b) = regularizeToMean n x u (some 0) b := by
    unfold regularizeToMean regMeanTarget
    dsimp only [Option.getD]
    have hall := allclose_numberless hβ hx 0
    have e1 := hβ.sum_range fun i => 1 / u' i ^ 2 * (x' i - 0) ^ 2
    have e2 := hβ.sum_range fun i => 1 / u' i ^ 2
    simp only [hx, hu] at e1 e2
    by_cases h1 : n < 1 ∨ some (0 : ℝ) = none ∧ n = 1
    · rw [if_pos h1, if_pos h1, hx]
    · rw [if_neg h1, if_neg h1]
      by_cases h2 : allclose n x 0 = true
      · rw [if_pos h2, if_pos (hall.trans h2), hx]
      · rw [if_neg h2, if_neg (by rw [hall]; exact h2), ← e1, ← e2, hx, hu]
  unfold regularizeToMeanFlt
  dsimp only [Option.getD]
  simp only [allclose_numberless hβ hx, hany, hreg, hx]

theorem weightedMean_numberless (O : OpenSmoothers) (s : SmootherKind) (ns : List ℕ) (h : IsWeightedMean s ns) (useNorm : Bool)
    (t : Option RegType) {β : Equiv.Perm ℕ} (hβ : IsNumbering β ns.prod) {w w' u u' v v' : ℕ → ℝ} (hw : ∀ b, w' (β b) = w b)
    (hu : ∀ b, u' (β b) = u b) (hv : ∀ b, v' (β b) = v b) (b : ℕ) (hb : b < ns.prod) :
    smoothAtCentres (packageSmoothers O) (metaSmoother s useNorm t) ns w' u' v' (β b)
      = smoothAtCentres (packageSmoothers O) (metaSmoother s useNorm t) ns w u v b := by
  rw [weightedMean_eq O s ns h useNorm t w u v b hb, weightedMean_eq O s ns h useNorm t w' u' v' (β b) ((hβ.finite b).mpr hb),
    pullTarget_numberless hβ useNorm hw hv, hw,
    regularize_numberless hβ (x := fun i => v i - pullTarget useNorm ns.prod w v)
      (x' := fun i => v' i - pullTarget useNorm ns.prod w v) (fun b => by rw [hv]) hu]

end CB
