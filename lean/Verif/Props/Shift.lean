import Verif.Lemmas.Simulation
import Verif.Model.Fit
import Mathlib.Tactic.Linarith
import Mathlib.Tactic.Ring
import Mathlib.Tactic.NormNum
import Mathlib.Tactic.FieldSimp
import Mathlib.Algebra.BigOperators.Ring.Finset
import Mathlib.Algebra.BigOperators.Field
import Mathlib.Algebra.Order.BigOperators.Group.Finset
import Mathlib.Algebra.BigOperators.Intervals

/-!
# C79: additive regression follows shifts of the target
-/

set_option autoImplicit false

namespace CB
open Finset

theorem binSum_congr_lt (n : ℕ) (codes : ℕ → ℕ) (f g : ℕ → ℝ) (h : ∀ i < n, f i = g i) : binSum n codes f = binSum n codes g := by
  funext b
  unfold binSum
  exact sum_congr rfl fun i hi => by rw [h i (mem_range.mp hi)]

theorem wmean_shift (n : ℕ) (y w : ℕ → ℝ) (c : ℝ) (hw : ∑ i ∈ range n, w i ≠ 0) :
    (∑ i ∈ range n, (y i + c) * w i) / ∑ i ∈ range n, w i = (∑ i ∈ range n, y i * w i) / ∑ i ∈ range n, w i + c := by
  have : ∑ i ∈ range n, (y i + c) * w i = ∑ i ∈ range n, y i * w i + c * ∑ i ∈ range n, w i := by
    rw [mul_sum, ← sum_add_distrib]
    exact sum_congr rfl fun i _ => by ring
  rw [this]
  field_simp

theorem variancePrior_shift (n : ℕ) (y w : ℕ → ℝ) (c : ℝ) (hw : ∑ i ∈ range n, w i ≠ 0) :
    variancePrior n (fun i => y i + c) w = variancePrior n y w := by
  unfold variancePrior
  dsimp only
  rw [wmean_shift n y w c hw]
  have : ∀ i, y i + c - ((∑ i ∈ range n, y i * w i) / ∑ i ∈ range n, w i + c)
      = y i - (∑ i ∈ range n, y i * w i) / ∑ i ∈ range n, w i := fun i => by ring
  simp only [this]

theorem precalcVarianceY_shift (n : ℕ) (codes : ℕ → ℕ) (y w : ℕ → ℝ) (c : ℝ) (hw : ∑ i ∈ range n, w i ≠ 0)
    (h0 : ∀ i < n, 0 ≤ w i) : precalcVarianceY n codes (fun i => y i + c) w = precalcVarianceY n codes y w := by
  funext b
  unfold precalcVarianceY
  dsimp only
  rw [variancePrior_shift n y w c hw]
  have key : ∀ i < n, w i * (y i + c - binSum n codes (fun i => w i * (y i + c)) (codes i) / binSum n codes w (codes i)) ^ 2
      = w i * (y i - binSum n codes (fun i => w i * y i) (codes i) / binSum n codes w (codes i)) ^ 2 := by
    intro i hi
    by_cases hz : binSum n codes w (codes i) = 0
    · have hwi : w i = 0 := by
        unfold binSum at hz
        rw [sum_eq_zero_iff_of_nonneg] at hz
        · simpa using hz i (mem_range.mpr hi)
        · intro j hj
          split
          · exact h0 j (mem_range.mp hj)
          · exact le_refl _
      rw [hwi, zero_mul, zero_mul]
    · have hs : binSum n codes (fun i => w i * (y i + c)) (codes i)
          = binSum n codes (fun i => w i * y i) (codes i) + c * binSum n codes w (codes i) := by
        unfold binSum
        rw [mul_sum, ← sum_add_distrib]
        refine sum_congr rfl fun j _ => ?_
        split <;> ring
      rw [hs]
      congr 2
      field_simp
      ring
  rw [binSum_congr_lt n codes _ _ key]

theorem location_parameters_shift (it n : ℕ) (codes : ℕ → ℕ) (y w pred pred' : ℕ → ℝ) (c : ℝ)
    (hw : ∑ i ∈ range n, w i ≠ 0) (h0 : ∀ i < n, 0 ≤ w i) (hp : ∀ i < n, pred' i = pred i + c) :
    locationEstimator.parameters it n codes (fun i => y i + c) w pred' = locationEstimator.parameters it n codes y w pred := by
  unfold locationEstimator
  dsimp only
  rw [precalcVarianceY_shift n codes y w c hw h0]
  unfold locationParameter interceptParameter calcFactorsGeneric
  dsimp only
  rw [precalcVarianceY_shift n codes y w c hw h0]
  have : binSum n codes (fun i => w i / precalcVarianceY n codes y w (codes i) * (y i + c - pred' i))
      = binSum n codes (fun i => w i / precalcVarianceY n codes y w (codes i) * (y i - pred i)) :=
    binSum_congr_lt _ _ _ _ fun i hi => by rw [hp i hi]; ring
  rw [this]

/-- Running predictions that differ by `c`. -/
def ShiftSim (n : ℕ) (c : ℝ) (p p' : Pred ℝ) : Prop := ∀ s < n, p'.factors s = p.factors s + c

theorem shift_cfg (n : ℕ) (c : ℝ) (cfg : FeatureCfg) : CfgSim (ShiftSim n c) cfg cfg := by
  refine ⟨rfl, rfl, rfl, rfl, ?_, ?_⟩
  · intro v p p' h s hs
    unfold Pred.update
    split
    · exact h s hs
    · dsimp only; rw [h s hs]; ring
  · intro v p p' h s hs
    unfold Pred.remove
    split
    · exact h s hs
    · dsimp only; rw [h s hs]; ring

section
variable {σ : Type*} (S : Setup σ) (D : TrainSet) (c : ℝ)

/-- A fit with valid targets and a finite global scale. -/
theorem Setup.fit_finite (E : Estimator) (fuel : ℕ) (hv : ∀ i < D.n, E.valid (D.y i)) (a : ℝ)
    (hs : E.scale D.n D.y D.w = .fin a) :
    S.fit E D fuel = match fitMain (S.paramsFor E) (S.oracle E D) (S.cfgs D)
        (fun s => (priorPrediction E.link (.fin a) (E.offset D) D.prior s).getFin) fuel with
      | none => none
      | some (.error e) => some (.error (.training e))
      | some (.ok r) => some (.ok ⟨E.link, .fin a, E.offset D,
          fittedFeatures D.X D.n (S.features.map (·.1)) r.factors, r.iterations⟩) := by
  unfold Setup.fit
  rw [if_pos hv]
  dsimp only
  rw [hs]
  rfl

/-- A fit with valid targets whose global scale is not finite. -/
theorem Setup.fit_notFinite (E : Estimator) (fuel : ℕ) (hv : ∀ i < D.n, E.valid (D.y i))
    (hs : (E.scale D.n D.y D.w).isFinite = false) : S.fit E D fuel = some (.error .notFinite) := by
  unfold Setup.fit
  rw [if_pos hv]
  dsimp only
  rw [hs]
  rfl

theorem shift_oracle (hw : ∑ i ∈ range D.n, D.w i ≠ 0) (h0 : ∀ i < D.n, 0 ≤ D.w i) :
    OracleSim (ShiftSim D.n c) (S.oracle locationEstimator D)
      (S.oracle locationEstimator { D with y := fun s => D.y s + c }) := by
  have hpar : ∀ it codes p p', ShiftSim D.n c p p' →
      locationEstimator.parameters it D.n codes (fun s => D.y s + c) D.w p'.factors
        = locationEstimator.parameters it D.n codes D.y D.w p.factors :=
    fun it codes p p' hp => location_parameters_shift it D.n codes D.y D.w p.factors p'.factors c hw h0 hp
  refine ⟨?_, ?_, rfl, rfl, ?_⟩
  · intro it i p p' fs hp
    unfold Setup.oracle
    dsimp only
    cases S.features[i]? with
    | none => rfl
    | some f => dsimp only; rw [hpar _ _ p p' hp]
  · intro it i p p' fs u hp
    unfold Setup.oracle
    dsimp only
    cases S.features[i]? with
    | none => rfl
    | some f => dsimp only; rw [hpar _ _ p p' hp]
  · intro p p' hp
    unfold Setup.oracle
    dsimp only
    show squaredLoss _ _ _ _ = squaredLoss _ _ _ _
    unfold squaredLoss
    congr 1
    refine sum_congr rfl fun i hi => ?_
    show (p'.factors i - (D.y i + c)) * (p'.factors i - (D.y i + c)) * D.w i = (p.factors i - D.y i) * (p.factors i - D.y i) * D.w i
    rw [hp i (mem_range.mp hi)]
    ring

/-- Without samples of positive weight, or where the weighted mean is a number, the global scale says so. -/
theorem location_scale (n : ℕ) (y w : ℕ → ℝ) :
    locationEstimator.scale n y w = if ∑ i ∈ range n, w i = 0 then .nan
      else .fin ((∑ i ∈ range n, y i * w i) / ∑ i ∈ range n, w i + 1 / 1000) := by
  show linkFlt .identity ((quotientFlt _ _).addFin _) = _
  simp only [linkFlt]
  unfold quotientFlt
  split <;> rfl

theorem predictExtended_shift (features : List (FittedFeature ℝ)) (X : Table ℝ) (s : ℕ) (prior prior' : ℕ → ℝ)
    (h : prior' s = prior s + c) :
    (predictExtended prior' features X).factors s = (predictExtended prior features X).factors s + c := by
  unfold predictExtended
  have key : ∀ (l : List (FittedFeature ℝ)) (p p' : Pred ℝ), p'.factors s = p.factors s + c →
      (l.foldl (fun pred f => if f.external then { pred with exponents := fun s => pred.exponents s + f.predict (X.row f.group s) }
        else { pred with factors := fun s => pred.factors s + f.predict (X.row f.group s) }) p').factors s
      = (l.foldl (fun pred f => if f.external then { pred with exponents := fun s => pred.exponents s + f.predict (X.row f.group s) }
        else { pred with factors := fun s => pred.factors s + f.predict (X.row f.group s) }) p).factors s + c := by
    intro l
    induction l with
    | nil => intro p p' h; exact h
    | cons f l ih =>
      intro p p' h
      rw [List.foldl_cons, List.foldl_cons]
      apply ih
      split
      · exact h
      · dsimp only; rw [h]; ring
  exact key features _ _ h

/-- The prior prediction in link space moves with the target. -/
theorem prior_shift (a : ℝ) (prior q : Option (ℕ → Flt ℝ)) (hpq : q.isSome = prior.isSome) (s : ℕ)
    (hs : locationEstimator.scale D.n D.y D.w = .fin a) (hs' : locationEstimator.scale D.n (fun s => D.y s + c) D.w = .fin (a + c))
    (hD : D.prior = prior) :
    (priorPrediction .identity (.fin (a + c)) (locationEstimator.offset { D with y := fun s => D.y s + c }) q s).getFin
      = (priorPrediction .identity (.fin a) (locationEstimator.offset D) q s).getFin + c := by
  subst hD
  unfold Estimator.offset
  dsimp only
  cases hq : q with
  | none => rfl
  | some q =>
    cases hp : D.prior with
    | none => rw [hq, hp] at hpq; simp at hpq
    | some p =>
      dsimp only
      have e : locationEstimator.shiftPrior = true := rfl
      simp only [e, if_true]
      unfold priorOffsetFrom
      have h1 : locationEstimator.scale D.n D.y D.w = .fin a := hs
      have h2 : locationEstimator.scale D.n (fun s => D.y s + c) D.w = .fin (a + c) := hs'
      rw [h1, h2]
      dsimp only
      have e2 : locationEstimator.link = .identity := rfl
      rw [e2]
      unfold priorPrediction
      simp only [linkFlt]
      have key : ∀ (y : ℝ), (if ((q s).add (.fin (y + c))).isFinite then (q s).add (.fin (y + c)) else .fin (a + c)).getFin
          = (if ((q s).add (.fin y)).isFinite then (q s).add (.fin y) else .fin a).getFin + c := by
        intro y
        cases q s with
        | fin z => simp only [Flt.add, Flt.isFinite, if_true, Flt.getFin]; ring
        | nan => simp [Flt.add, Flt.isFinite, Flt.getFin]
        | pinf => simp [Flt.add, Flt.isFinite, Flt.getFin]
        | ninf => simp [Flt.add, Flt.isFinite, Flt.getFin]
      cases priorPredMean D.n p D.w with
      | fin x =>
        simp only [show (Flt.fin x : Flt ℝ).isFinite = true from rfl, if_true, Flt.sub]
        rw [show a + c - x = a - x + c by ring]
        exact key (a - x)
      | nan => exact key a
      | pinf => exact key a
      | ninf => exact key a

/-- **C79.** `CBLocationRegressor` follows shifts of the target: with `c` added to every target (weights at least 0), training
ends in the same way after the same number of iterations, the factors of all features are the same, and every prediction, on
every table, is larger by exactly `c`. -/
theorem C79_shift (h0 : ∀ i < D.n, 0 ≤ D.w i) (fuel : ℕ) :
    (S.fit locationEstimator D fuel = none ↔ S.fit locationEstimator { D with y := fun s => D.y s + c } fuel = none) ∧
    (∀ e, S.fit locationEstimator D fuel = some (.error e) →
      S.fit locationEstimator { D with y := fun s => D.y s + c } fuel = some (.error e)) ∧
    (∀ m, S.fit locationEstimator D fuel = some (.ok m) →
      ∃ m', S.fit locationEstimator { D with y := fun s => D.y s + c } fuel = some (.ok m') ∧
        m'.features = m.features ∧ m'.iterations = m.iterations ∧
        ∀ (prior : Option (ℕ → Flt ℝ)) (X : Table ℝ) (s : ℕ), prior.isSome = D.prior.isSome →
          m'.predict prior X s = m.predict prior X s + c) := by
  by_cases hw : ∑ i ∈ range D.n, D.w i = 0
  · have e1 : locationEstimator.scale D.n D.y D.w = .nan := by rw [location_scale, if_pos hw]
    have e2 : locationEstimator.scale D.n (fun s => D.y s + c) D.w = .nan := by rw [location_scale, if_pos hw]
    have f1 := S.fit_notFinite D locationEstimator fuel (fun _ _ => trivial) (by rw [e1]; rfl)
    have f2 := S.fit_notFinite { D with y := fun s => D.y s + c } locationEstimator fuel (fun _ _ => trivial) (by
      show (locationEstimator.scale D.n (fun s => D.y s + c) D.w).isFinite = false
      rw [e2]; rfl)
    rw [f1, f2]
    exact ⟨by simp, fun e h => h, fun m h => by simp at h⟩
  · have e1 := location_scale D.n D.y D.w
    have e2 := location_scale D.n (fun s => D.y s + c) D.w
    rw [if_neg hw] at e1 e2
    rw [wmean_shift D.n D.y D.w c hw] at e2
    generalize ha : (∑ i ∈ range D.n, D.y i * D.w i) / ∑ i ∈ range D.n, D.w i + 1 / 1000 = a at e1
    have ha' : (∑ i ∈ range D.n, D.y i * D.w i) / ∑ i ∈ range D.n, D.w i + c + 1 / 1000 = a + c := by rw [← ha]; ring
    rw [ha'] at e2
    have hsim := sim_fitMain (S.paramsFor locationEstimator)
      (shift_oracle S D c hw h0) (S.cfgs D) (S.cfgs D)
      (by rw [List.forall₂_same]; exact fun x _ => shift_cfg _ _ x)
      (fun s => (priorPrediction locationEstimator.link (.fin a) (locationEstimator.offset D) D.prior s).getFin)
      (fun s => (priorPrediction locationEstimator.link (.fin (a + c))
        (locationEstimator.offset { D with y := fun s => D.y s + c }) D.prior s).getFin)
      (fun s _ => prior_shift D c a D.prior D.prior rfl s e1 e2 rfl) fuel
    have f1 := S.fit_finite D locationEstimator fuel (fun _ _ => trivial) a e1
    have f2 := S.fit_finite { D with y := fun s => D.y s + c } locationEstimator fuel (fun _ _ => trivial) (a + c) e2
    dsimp only at f2
    rw [show S.cfgs { D with y := fun s => D.y s + c } = S.cfgs D from rfl] at f2
    rw [f1, f2]
    rcases hsim with ⟨g1, g2⟩ | ⟨e, g1, g2⟩ | ⟨r, r', g1, g2, hfac, hit, -⟩
    · rw [g1, g2]; exact ⟨by simp, by simp, by simp⟩
    · rw [g1, g2]; exact ⟨by simp, fun e h => h, by simp⟩
    · rw [g1, g2]
      refine ⟨by simp, by simp, ?_⟩
      intro m hm
      simp only [Option.some.injEq, Except.ok.injEq] at hm
      refine ⟨_, rfl, ?_, ?_, ?_⟩
      · rw [← hm, hfac]
      · rw [← hm, hit]
      · intro prior X s hprior
        rw [← hm]
        unfold FittedModel.predict
        dsimp only
        rw [hfac]
        exact predictExtended_shift c _ X s _ _ (prior_shift D c a D.prior prior hprior s e1 e2 rfl)

end
end CB
