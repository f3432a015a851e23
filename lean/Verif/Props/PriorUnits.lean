import Verif.Spec.PriorUnits
import Verif.Props.Shift
import Verif.Props.TargetUnits
import Verif.Model.GenericFit

/-!
# C119: only the relative sizes (or the differences) of prior predictions matter
-/

set_option autoImplicit false
set_option linter.unusedSectionVars false

namespace CB
open Finset Spec

noncomputable section

theorem priorPredMean_of (D : TrainSet) (prior : ℕ → Flt ℝ) (mean : ℝ) (h : IsPriorMean D prior mean) :
    priorPredMean D.n prior D.w = .fin mean := by
  obtain ⟨h1, h2⟩ := h
  rw [sum_filter] at h1 h2
  rw [sum_filter] at h2
  unfold priorPredMean quotientFlt
  rw [if_neg h1, ← h2, mul_div_cancel_left₀ mean h1]

theorem isFinite_units (c : ℝ) (x : Flt ℝ) : (inUnits c x).isFinite = x.isFinite := by
  cases x with
  | fin x => rfl
  | nan => rfl
  | pinf => by_cases h : 0 < c <;> simp [inUnits, h, Flt.isFinite]
  | ninf => by_cases h : 0 < c <;> simp [inUnits, h, Flt.isFinite]

theorem isFinite_moved (c : ℝ) (x : Flt ℝ) : (moved c x).isFinite = x.isFinite := by cases x <;> rfl

theorem priorMean_units (c : ℝ) (D : TrainSet) (prior : ℕ → Flt ℝ) (mean : ℝ) (h : IsPriorMean D prior mean) :
    IsPriorMean D (fun s => inUnits c (prior s)) (c * mean) := by
  obtain ⟨h1, h2⟩ := h
  simp only [IsPriorMean, isFinite_units]
  refine ⟨h1, ?_⟩
  rw [mul_left_comm, h2, mul_sum]
  refine sum_congr rfl fun i hi => ?_
  obtain ⟨-, hf⟩ := mem_filter.mp hi
  cases hp : prior i with
  | fin x => simp only [inUnits, Flt.getFin]; ring
  | nan => rw [hp] at hf; cases hf
  | pinf => rw [hp] at hf; cases hf
  | ninf => rw [hp] at hf; cases hf

theorem priorMean_moved (c : ℝ) (D : TrainSet) (prior : ℕ → Flt ℝ) (mean : ℝ) (h : IsPriorMean D prior mean) :
    IsPriorMean D (fun s => moved c (prior s)) (c + mean) := by
  obtain ⟨h1, h2⟩ := h
  simp only [IsPriorMean, isFinite_moved]
  refine ⟨h1, ?_⟩
  rw [mul_add, h2, sum_mul, ← sum_add_distrib]
  refine sum_congr rfl fun i hi => ?_
  obtain ⟨-, hf⟩ := mem_filter.mp hi
  cases hp : prior i with
  | fin x => simp only [moved, Flt.getFin]; ring
  | nan => rw [hp] at hf; cases hf
  | pinf => rw [hp] at hf; cases hf
  | ninf => rw [hp] at hf; cases hf

/-- Two columns of prior predictions that give the same starting points have the same fit. -/
theorem fit_same_start {σ : Type*} (S : Setup σ) (E : Estimator) (D : TrainSet) (p p' : ℕ → Flt ℝ) (fuel : ℕ)
    (change : Flt ℝ → Flt ℝ)
    (hp' : ∀ s, p' s = change (p s))
    (h : ∀ a, E.scale D.n D.y D.w = .fin a → ∀ x : Flt ℝ,
      priorPrediction E.link (.fin a) (E.offset (withPrior D p')) (some fun _ => change x) 0 =
        priorPrediction E.link (.fin a) (E.offset (withPrior D p)) (some fun _ => x) 0) :
    (S.fit E (withPrior D p) fuel = none ↔ S.fit E (withPrior D p') fuel = none) ∧
    (∀ e, S.fit E (withPrior D p) fuel = some (.error e) ↔ S.fit E (withPrior D p') fuel = some (.error e)) ∧
    (∀ m, S.fit E (withPrior D p) fuel = some (.ok m) →
      ∃ m', S.fit E (withPrior D p') fuel = some (.ok m') ∧ m'.iterations = m.iterations ∧
        ∀ (q : ℕ → Flt ℝ) (X : Table ℝ) (s : ℕ), m'.predict (some fun s => change (q s)) X s = m.predict (some q) X s) := by
  by_cases hv : ∀ i < D.n, E.valid (D.y i)
  · cases hs : E.scale D.n D.y D.w with
    | fin a =>
      have f1 := S.fit_finite (withPrior D p) E fuel hv a hs
      have f2 := S.fit_finite (withPrior D p') E fuel hv a hs
      have hstart : ∀ (q : ℕ → Flt ℝ) s, priorPrediction E.link (.fin a) (E.offset (withPrior D p')) (some fun s => change (q s)) s =
          priorPrediction E.link (.fin a) (E.offset (withPrior D p)) (some q) s := fun q s => h a hs (q s)
      have hsame : (fun s => (priorPrediction E.link (.fin a) (E.offset (withPrior D p')) (withPrior D p').prior s).getFin) =
          fun s => (priorPrediction E.link (.fin a) (E.offset (withPrior D p)) (withPrior D p).prior s).getFin := by
        funext s
        have : (withPrior D p').prior = some fun s => change (p s) := by
          show some p' = _
          rw [funext hp']
        rw [this, hstart p s]
        rfl
      rw [hsame] at f2
      rw [f1, f2]
      have ho : S.oracle E (withPrior D p') = S.oracle E (withPrior D p) := rfl
      have hcf : S.cfgs (withPrior D p') = S.cfgs (withPrior D p) := rfl
      rw [ho, hcf]
      cases fitMain (S.paramsFor E) (S.oracle E (withPrior D p)) (S.cfgs (withPrior D p))
          (fun s => (priorPrediction E.link (.fin a) (E.offset (withPrior D p)) (withPrior D p).prior s).getFin) fuel with
      | none => simp
      | some r =>
        cases r with
        | error e => simp
        | ok r =>
          refine ⟨by simp, by simp, ?_⟩
          intro m hm
          simp only [Option.some.injEq, Except.ok.injEq] at hm
          refine ⟨_, rfl, by rw [← hm], fun q X s => ?_⟩
          rw [← hm]
          unfold FittedModel.predict
          dsimp only
          simp only [hstart q]
          rfl
    | nan =>
      rw [S.fit_notFinite (withPrior D p) E fuel hv (by show Flt.isFinite (E.scale D.n D.y D.w) = _; rw [hs]; rfl),
        S.fit_notFinite (withPrior D p') E fuel hv (by show Flt.isFinite (E.scale D.n D.y D.w) = _; rw [hs]; rfl)]
      simp
    | pinf =>
      rw [S.fit_notFinite (withPrior D p) E fuel hv (by show Flt.isFinite (E.scale D.n D.y D.w) = _; rw [hs]; rfl),
        S.fit_notFinite (withPrior D p') E fuel hv (by show Flt.isFinite (E.scale D.n D.y D.w) = _; rw [hs]; rfl)]
      simp
    | ninf =>
      rw [S.fit_notFinite (withPrior D p) E fuel hv (by show Flt.isFinite (E.scale D.n D.y D.w) = _; rw [hs]; rfl),
        S.fit_notFinite (withPrior D p') E fuel hv (by show Flt.isFinite (E.scale D.n D.y D.w) = _; rw [hs]; rfl)]
      simp
  · have e : ∀ p, S.fit E (withPrior D p) fuel = some (.error .target) := fun p => by
      unfold Setup.fit
      exact if_neg hv
    rw [e, e]
    simp

theorem offset_log (E : Estimator) (hlink : E.link = .log) (hshift : E.shiftPrior = true) (D : TrainSet) (a : ℝ)
    (hs : E.scale D.n D.y D.w = .fin a) (prior : ℕ → Flt ℝ) (mean : ℝ) (hm : IsPriorMean D prior mean) (hpos : 0 < mean) :
    E.offset (withPrior D prior) = .fin (a - Real.log mean) := by
  unfold Estimator.offset withPrior
  dsimp only
  rw [hshift, if_pos rfl, hs, hlink]
  unfold priorOffsetFrom
  rw [priorPredMean_of D prior mean hm]
  simp [linkFlt, hpos, Flt.isFinite, Flt.sub]

theorem offset_identity (E : Estimator) (hlink : E.link = .identity) (hshift : E.shiftPrior = true) (D : TrainSet) (a : ℝ)
    (hs : E.scale D.n D.y D.w = .fin a) (prior : ℕ → Flt ℝ) (mean : ℝ) (hm : IsPriorMean D prior mean) :
    E.offset (withPrior D prior) = .fin (a - mean) := by
  unfold Estimator.offset withPrior
  dsimp only
  rw [hshift, if_pos rfl, hs, hlink]
  unfold priorOffsetFrom
  rw [priorPredMean_of D prior mean hm]
  simp [linkFlt, Flt.isFinite, Flt.sub]

/-- **C119, multiplicative models.** The unit of the prior predictions does not matter, as long as their weighted mean in the
training set is positive: with prior predictions multiplied by `c > 0`, in training and at prediction time, training ends alike,
after the same number of iterations, and all predictions are the same. -/
theorem C119_multiplicative {σ : Type*} (S : Setup σ) (E : Estimator) (hlink : E.link = .log) (hshift : E.shiftPrior = true)
    (D : TrainSet) (prior : ℕ → Flt ℝ) (mean : ℝ) (hm : IsPriorMean D prior mean) (hpos : 0 < mean) (c : ℝ) (hc : 0 < c) (fuel : ℕ) :
    let scaled := fun (q : ℕ → Flt ℝ) s => inUnits c (q s)
    (S.fit E (withPrior D prior) fuel = none ↔ S.fit E (withPrior D (scaled prior)) fuel = none) ∧
    (∀ e, S.fit E (withPrior D prior) fuel = some (.error e) ↔ S.fit E (withPrior D (scaled prior)) fuel = some (.error e)) ∧
    (∀ m, S.fit E (withPrior D prior) fuel = some (.ok m) →
      ∃ m', S.fit E (withPrior D (scaled prior)) fuel = some (.ok m') ∧ m'.iterations = m.iterations ∧
        ∀ (q : ℕ → Flt ℝ) (X : Table ℝ) (s : ℕ), m'.predict (some (scaled q)) X s = m.predict (some q) X s) := by
  refine fit_same_start S E D prior _ fuel (inUnits c) (fun _ => rfl) fun a hs x => ?_
  rw [offset_log E hlink hshift D a hs prior mean hm hpos,
    offset_log E hlink hshift D a hs _ (c * mean) (priorMean_units c D prior mean hm) (mul_pos hc hpos), hlink,
    Real.log_mul hc.ne' hpos.ne']
  unfold priorPrediction
  dsimp only
  cases x with
  | fin x =>
    rcases lt_trichotomy x 0 with h | h | h
    · have h1 : c * x < 0 := mul_neg_of_pos_of_neg hc h
      simp [inUnits, linkFlt, not_lt.mpr h.le, not_lt.mpr h1.le, h.ne, h1.ne, Flt.add, Flt.isFinite]
    · simp [inUnits, linkFlt, h, Flt.add, Flt.isFinite]
    · have h1 : 0 < c * x := mul_pos hc h
      simp only [inUnits, linkFlt, h, h1, if_true, Flt.add, Flt.isFinite, Real.log_mul hc.ne' h.ne']
      congr 1
      ring
  | nan => rfl
  | pinf => simp [inUnits, hc, linkFlt, Flt.add, Flt.isFinite]
  | ninf => simp [inUnits, hc, linkFlt, Flt.add, Flt.isFinite]

/-- **C119, additive models.** The origin of the prior predictions does not matter: with prior predictions moved by `c`, in training
and at prediction time, training ends alike, after the same number of iterations, and all predictions are the same. -/
theorem C119_additive {σ : Type*} (S : Setup σ) (E : Estimator) (hlink : E.link = .identity) (hshift : E.shiftPrior = true)
    (D : TrainSet) (prior : ℕ → Flt ℝ) (mean : ℝ) (hm : IsPriorMean D prior mean) (c : ℝ) (fuel : ℕ) :
    let shifted := fun (q : ℕ → Flt ℝ) s => moved c (q s)
    (S.fit E (withPrior D prior) fuel = none ↔ S.fit E (withPrior D (shifted prior)) fuel = none) ∧
    (∀ e, S.fit E (withPrior D prior) fuel = some (.error e) ↔ S.fit E (withPrior D (shifted prior)) fuel = some (.error e)) ∧
    (∀ m, S.fit E (withPrior D prior) fuel = some (.ok m) →
      ∃ m', S.fit E (withPrior D (shifted prior)) fuel = some (.ok m') ∧ m'.iterations = m.iterations ∧
        ∀ (q : ℕ → Flt ℝ) (X : Table ℝ) (s : ℕ), m'.predict (some (shifted q)) X s = m.predict (some q) X s) := by
  refine fit_same_start S E D prior _ fuel (moved c) (fun _ => rfl) fun a hs x => ?_
  rw [offset_identity E hlink hshift D a hs prior mean hm,
    offset_identity E hlink hshift D a hs _ (c + mean) (priorMean_moved c D prior mean hm), hlink]
  unfold priorPrediction
  dsimp only
  cases x with
  | fin x =>
    simp only [moved, linkFlt, Flt.add, Flt.isFinite, if_true]
    congr 1
    ring
  | nan => rfl
  | pinf => rfl
  | ninf => rfl

end
end CB
