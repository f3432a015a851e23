import Verif.Props.Shift
import Verif.Model.GenericFit

/-!
# C110: additive quantile and generic-loss regression follows shifts of the target
-/

set_option autoImplicit false
set_option linter.unusedSectionVars false

namespace CB
open Finset

/-- What makes an estimator with identity link follow a shift by `c` of the target of the training set. -/
structure FollowsShift (E : Estimator) (D : TrainSet) (c : ℝ) : Prop where
  link : E.link = .identity
  shiftPrior : E.shiftPrior = true
  valid : ∀ y, E.valid (y + c) ↔ E.valid y
  scale : ((E.scale D.n D.y D.w).isFinite = false ∧ (E.scale D.n (fun s => D.y s + c) D.w).isFinite = false) ∨
    ∃ a, E.scale D.n D.y D.w = .fin a ∧ E.scale D.n (fun s => D.y s + c) D.w = .fin (a + c)
  parameters : ∀ it codes (pred pred' : ℕ → ℝ), (∀ i < D.n, pred' i = pred i + c) →
    E.parameters it D.n codes (fun s => D.y s + c) D.w pred' = E.parameters it D.n codes D.y D.w pred
  loss : ∀ pred pred' : ℕ → ℝ, (∀ i < D.n, pred' i = pred i + c) → E.loss D.n pred' (fun s => D.y s + c) D.w = E.loss D.n pred D.y D.w

section
variable {σ : Type*} (S : Setup σ) (D : TrainSet) (c : ℝ) (E : Estimator) (hE : FollowsShift E D c)
include hE

theorem follows_oracle : OracleSim (ShiftSim D.n c) (S.oracle E D) (S.oracle E { D with y := fun s => D.y s + c }) := by
  have hpar : ∀ it codes p p', ShiftSim D.n c p p' →
      E.parameters it D.n codes (fun s => D.y s + c) D.w p'.factors = E.parameters it D.n codes D.y D.w p.factors :=
    fun it codes p p' hp => hE.parameters it codes p.factors p'.factors hp
  refine ⟨?_, ?_, rfl, rfl, ?_⟩
  · intro it i p p' fs hp
    unfold Setup.oracle
    dsimp only
    cases S.features[i]? with
    | none => rfl
    | some f => dsimp only; rw [hpar _ _ p p' hp]
  · intro it i p p' fs u hp
    unfold Setup.oracle
    dsimp only
    cases S.features[i]? with
    | none => rfl
    | some f => dsimp only; rw [hpar _ _ p p' hp]
  · intro p p' hp
    unfold Setup.oracle
    dsimp only
    rw [hE.link]
    exact hE.loss _ _ hp

theorem follows_prior (a : ℝ) (q : Option (ℕ → Flt ℝ)) (hpq : q.isSome = D.prior.isSome) (s : ℕ)
    (hs : E.scale D.n D.y D.w = .fin a) (hs' : E.scale D.n (fun s => D.y s + c) D.w = .fin (a + c)) :
    (priorPrediction .identity (.fin (a + c)) (E.offset { D with y := fun s => D.y s + c }) q s).getFin
      = (priorPrediction .identity (.fin a) (E.offset D) q s).getFin + c := by
  unfold Estimator.offset
  dsimp only
  cases hq : q with
  | none => rfl
  | some q =>
    cases hp : D.prior with
    | none => rw [hq, hp] at hpq; simp at hpq
    | some p =>
      dsimp only
      simp only [hE.shiftPrior, if_true]
      unfold priorOffsetFrom
      rw [hs, hs', hE.link]
      dsimp only
      unfold priorPrediction
      simp only [linkFlt]
      have key : ∀ (y : ℝ), (if ((q s).add (.fin (y + c))).isFinite then (q s).add (.fin (y + c)) else .fin (a + c)).getFin
          = (if ((q s).add (.fin y)).isFinite then (q s).add (.fin y) else .fin a).getFin + c := by
        intro y
        cases q s with
        | fin z => simp only [Flt.add, Flt.isFinite, if_true, Flt.getFin]; ring
        | nan => simp [Flt.add, Flt.isFinite, Flt.getFin]
        | pinf => simp [Flt.add, Flt.isFinite, Flt.getFin]
        | ninf => simp [Flt.add, Flt.isFinite, Flt.getFin]
      cases priorPredMean D.n p D.w with
      | fin x =>
        simp only [show (Flt.fin x : Flt ℝ).isFinite = true from rfl, if_true, Flt.sub]
        rw [show a + c - x = a - x + c by ring]
        exact key (a - x)
      | nan => exact key a
      | pinf => exact key a
      | ninf => exact key a

theorem follows_shift (fuel : ℕ) :
    (S.fit E D fuel = none ↔ S.fit E { D with y := fun s => D.y s + c } fuel = none) ∧
    (∀ e, S.fit E D fuel = some (.error e) → S.fit E { D with y := fun s => D.y s + c } fuel = some (.error e)) ∧
    (∀ m, S.fit E D fuel = some (.ok m) →
      ∃ m', S.fit E { D with y := fun s => D.y s + c } fuel = some (.ok m') ∧
        m'.features = m.features ∧ m'.iterations = m.iterations ∧
        ∀ (prior : Option (ℕ → Flt ℝ)) (X : Table ℝ) (s : ℕ), prior.isSome = D.prior.isSome →
          m'.predict prior X s = m.predict prior X s + c) := by
  by_cases hv : ∀ i < D.n, E.valid (D.y i)
  · have hv' : ∀ i < D.n, E.valid (D.y i + c) := fun i hi => (hE.valid _).mpr (hv i hi)
    rcases hE.scale with ⟨e1, e2⟩ | ⟨a, e1, e2⟩
    · have f1 := S.fit_notFinite D E fuel hv e1
      have f2 := S.fit_notFinite { D with y := fun s => D.y s + c } E fuel hv' e2
      rw [f1, f2]
      exact ⟨by simp, fun e h => h, fun m h => by simp at h⟩
    · have hsim := sim_fitMain (S.paramsFor E) (follows_oracle S D c E hE) (S.cfgs D) (S.cfgs D)
        (by rw [List.forall₂_same]; exact fun x _ => shift_cfg _ _ x)
        (fun s => (priorPrediction E.link (.fin a) (E.offset D) D.prior s).getFin)
        (fun s => (priorPrediction E.link (.fin (a + c)) (E.offset { D with y := fun s => D.y s + c }) D.prior s).getFin)
        (fun s _ => by
          have := follows_prior D c E hE a D.prior rfl s e1 e2
          rw [hE.link]
          exact this) fuel
      have f1 := S.fit_finite D E fuel hv a e1
      have f2 := S.fit_finite { D with y := fun s => D.y s + c } E fuel hv' (a + c) e2
      dsimp only at f2
      rw [show S.cfgs { D with y := fun s => D.y s + c } = S.cfgs D from rfl] at f2
      rw [f1, f2]
      rcases hsim with ⟨g1, g2⟩ | ⟨e, g1, g2⟩ | ⟨r, r', g1, g2, hfac, hit, -⟩
      · rw [g1, g2]; exact ⟨by simp, by simp, by simp⟩
      · rw [g1, g2]; exact ⟨by simp, fun e h => h, by simp⟩
      · rw [g1, g2]
        refine ⟨by simp, by simp, ?_⟩
        intro m hm
        simp only [Option.some.injEq, Except.ok.injEq] at hm
        refine ⟨_, rfl, ?_, ?_, ?_⟩
        · rw [← hm, hfac]
        · rw [← hm, hit]
        · intro prior X s hprior
          rw [← hm]
          unfold FittedModel.predict
          dsimp only
          rw [hfac, hE.link]
          exact predictExtended_shift c _ X s _ _ (follows_prior D c E hE a prior hprior s e1 e2)
  · have hv' : ¬∀ i < D.n, E.valid (D.y i + c) := fun h => hv fun i hi => (hE.valid _).mp (h i hi)
    unfold Setup.fit
    rw [if_neg hv, if_neg hv']
    exact ⟨by simp, fun e h => h, fun m h => by simp at h⟩

end

/-! ### The parts of the additive estimators -/

theorem pinball_shift (q p y c : ℝ) : pinball q (p + c) (y + c) = pinball q p y := by
  unfold pinball
  simp only [add_lt_add_iff_right, ge_iff_le, add_le_add_iff_right, add_sub_add_right_eq_sub]

theorem quantileCosts_shift (q c : ℝ) (l : List (ℝ × ℝ × ℝ)) :
    quantileCostsFlt q (l.map fun s => (s.1 + c, s.2.1 + c, s.2.2)) = quantileCostsFlt q l := by
  unfold quantileCostsFlt
  rw [List.length_map, List.map_map, List.map_map]
  simp only [Function.comp_def, pinball_shift]

theorem uncertaintyGaussian_shift (l : List (ℝ × ℝ)) (c : ℝ) (hw : ∀ s ∈ l, 0 ≤ s.2) :
    uncertaintyGaussian (l.map fun s => (s.1 + c, s.2)) = uncertaintyGaussian l := by
  unfold uncertaintyGaussian
  simp only [List.map_map, Function.comp_def]
  have hres : (l.map fun s => s.2 * (s.1 + c - (l.map fun s => (s.1 + c) * s.2).sum / (l.map fun s => s.2).sum) ^ 2)
      = l.map fun s => s.2 * (s.1 - (l.map fun s => s.1 * s.2).sum / (l.map fun s => s.2).sum) ^ 2 := by
    by_cases h0 : (l.map fun s => s.2).sum = 0
    · have hz : ∀ s ∈ l, s.2 = 0 := by
        intro s hs
        have h1 : s.2 ≤ (l.map fun s => s.2).sum := List.single_le_sum (fun x hx => by
          obtain ⟨t, ht, rfl⟩ := List.mem_map.mp hx
          exact hw t ht) _ (List.mem_map.mpr ⟨s, hs, rfl⟩)
        exact le_antisymm (h0 ▸ h1) (hw s hs)
      exact List.map_congr_left fun s hs => by rw [hz s hs, zero_mul, zero_mul]
    · have e : (l.map fun s => (s.1 + c) * s.2).sum = (l.map fun s => s.1 * s.2).sum + c * (l.map fun s => s.2).sum := by
        rw [← List.sum_map_mul_left, ← List.sum_map_add]
        exact congrArg List.sum (List.map_congr_left fun s _ => by ring)
      refine List.map_congr_left fun s _ => ?_
      rw [e, add_div, mul_div_cancel_right₀ _ h0]
      ring_nf
  rw [hres]

theorem generic_parameters_shift (costs : List (ℝ × ℝ × ℝ) → Flt ℝ) (minimize : (ℝ → Flt ℝ) → ℝ → ℝ) (c : ℝ)
    (hcosts : ∀ l, costs (l.map fun s => (s.1 + c, s.2.1 + c, s.2.2)) = costs l) (n : ℕ) (codes : ℕ → ℕ) (y w pred pred' : ℕ → ℝ)
    (h0 : ∀ i < n, 0 ≤ w i) (hp : ∀ i < n, pred' i = pred i + c) :
    genericParameters costs minimize uncertaintyGaussian LinkKind.identity.toLink false n codes (fun s => y s + c) w pred'
      = genericParameters costs minimize uncertaintyGaussian LinkKind.identity.toLink false n codes y w pred := by
  funext b
  have hmem : ∀ i ∈ binMembers n codes b, i < n := fun i hi => List.mem_range.mp (List.mem_of_mem_filter hi)
  unfold genericParameters
  have e1 : binObjective costs LinkKind.identity.toLink false n codes (fun s => y s + c) w pred' b
      = binObjective costs LinkKind.identity.toLink false n codes y w pred b := by
    funext param
    unfold binObjective
    rw [← hcosts ((binMembers n codes b).map fun i => (genericModel false param (LinkKind.identity.toLink.unlink (pred i)), y i, w i)),
      List.map_map]
    refine congrArg costs (List.map_congr_left fun i hi => ?_)
    simp only [Function.comp_def, genericModel, Bool.false_eq_true, if_false, Prod.mk.injEq, and_true]
    show param + pred' i = param + pred i + c
    rw [hp i (hmem i hi)]
    ring
  have e2 : uncertaintyGaussian ((binMembers n codes b).map fun i => (y i + c, w i))
      = uncertaintyGaussian ((binMembers n codes b).map fun i => (y i, w i)) := by
    rw [← uncertaintyGaussian_shift ((binMembers n codes b).map fun i => (y i, w i)) c, List.map_map]
    · rfl
    · intro s hs
      obtain ⟨i, hi, rfl⟩ := List.mem_map.mp hs
      exact h0 i (hmem i hi)
  rw [e1, e2]

theorem firstReaching_shift (cutoff c : ℝ) (l : List (ℝ × ℝ)) (acc : ℝ) :
    firstReaching cutoff acc (l.map fun s => (s.1 + c, s.2)) = (firstReaching cutoff acc l).map (· + c) := by
  induction l generalizing acc with
  | nil => rfl
  | cons s l ih =>
    rw [List.map_cons]
    unfold firstReaching
    dsimp only
    split_ifs
    · rfl
    · exact ih _

theorem continuousQuantile_shift (q c : ℝ) (l : List (ℝ × ℝ)) :
    continuousQuantile q (l.map fun s => (s.1 + c, s.2)) = (continuousQuantile q l).map (· + c) := by
  unfold continuousQuantile
  have e1 : (l.map fun s => (s.1 + c, s.2)).map Prod.snd = l.map Prod.snd := by rw [List.map_map]; rfl
  have e2 : (l.map fun s => (s.1 + c, s.2)).map Prod.fst = (l.map Prod.fst).map (· + c) := by rw [List.map_map, List.map_map]; rfl
  dsimp only
  rw [e1, e2, firstReaching_shift]
  cases firstReaching ((l.map Prod.snd).sum * q) 0 l with
  | none => rfl
  | some v =>
    simp only [Option.map_some, List.length_map]
    have e3 : ∀ i : ℕ, decide (((l.map Prod.fst).map (· + c))[i]? = some (v + c)) = decide ((l.map Prod.fst)[i]? = some v) := by
      intro i
      rw [List.getElem?_map]
      cases (l.map Prod.fst)[i]? with
      | none => simp
      | some z => simp
    simp only [e3]
    split_ifs
    · simp only [Option.map_some, Option.some.injEq]; ring
    · rfl

theorem quantileScale_shift (q c : ℝ) (n : ℕ) (y w : ℕ → ℝ) :
    ((quantileScale .identity q n y w).isFinite = false ∧ (quantileScale .identity q n (fun s => y s + c) w).isFinite = false) ∨
      ∃ a, quantileScale .identity q n y w = .fin a ∧ quantileScale .identity q n (fun s => y s + c) w = .fin (a + c) := by
  classical
  unfold quantileScale
  have e : ((List.range n).map fun i => (y i + c, w i)).mergeSort (fun a b => decide (a.1 ≤ b.1))
      = (((List.range n).map fun i => (y i, w i)).mergeSort fun a b => decide (a.1 ≤ b.1)).map fun s => (s.1 + c, s.2) := by
    rw [List.map_mergeSort (s := fun a b : ℝ × ℝ => decide (a.1 ≤ b.1)), List.map_map]
    · rfl
    · intro a _ b _
      simp
  rw [e, continuousQuantile_shift]
  cases continuousQuantile q (((List.range n).map fun i => (y i, w i)).mergeSort fun a b => decide (a.1 ≤ b.1)) with
  | none => exact Or.inl ⟨rfl, rfl⟩
  | some v => exact Or.inr ⟨v, rfl, rfl⟩

theorem genericTotal_shift (costs : List (ℝ × ℝ × ℝ) → Flt ℝ) (c : ℝ)
    (hcosts : ∀ l, costs (l.map fun s => (s.1 + c, s.2.1 + c, s.2.2)) = costs l) (n : ℕ) (y w pred pred' : ℕ → ℝ)
    (hp : ∀ i < n, pred' i = pred i + c) :
    genericTotal costs n pred' (fun s => y s + c) w = genericTotal costs n pred y w := by
  unfold genericTotal
  rw [← hcosts ((List.range n).map fun i => (pred i, y i, w i)), List.map_map]
  refine congrArg costs (List.map_congr_left fun i hi => ?_)
  simp only [Function.comp_def]
  rw [hp i (List.mem_range.mp hi)]

section
variable {σ : Type*} (S : Setup σ) (D : TrainSet) (c : ℝ) (h0 : ∀ i < D.n, 0 ≤ D.w i)
include h0

/-- **C110.** `CBAdditiveQuantileRegressor` follows shifts of the target: with `c` added to every target (weights at least 0),
training ends in the same way after the same number of iterations, the factors of all features are the same, and every prediction, on
every table, is larger by exactly `c`. Nothing is assumed of the optimiser, because it is asked the same questions. -/
theorem C110_quantile_shift (q : ℝ) (minimize : (ℝ → Flt ℝ) → ℝ → ℝ) (fuel : ℕ) :
    (S.fit (quantileEstimator false q minimize) D fuel = none ↔
      S.fit (quantileEstimator false q minimize) { D with y := fun s => D.y s + c } fuel = none) ∧
    (∀ e, S.fit (quantileEstimator false q minimize) D fuel = some (.error e) →
      S.fit (quantileEstimator false q minimize) { D with y := fun s => D.y s + c } fuel = some (.error e)) ∧
    (∀ m, S.fit (quantileEstimator false q minimize) D fuel = some (.ok m) →
      ∃ m', S.fit (quantileEstimator false q minimize) { D with y := fun s => D.y s + c } fuel = some (.ok m') ∧
        m'.features = m.features ∧ m'.iterations = m.iterations ∧
        ∀ (prior : Option (ℕ → Flt ℝ)) (X : Table ℝ) (s : ℕ), prior.isSome = D.prior.isSome →
          m'.predict prior X s = m.predict prior X s + c) := by
  refine follows_shift S D c _ ⟨rfl, rfl, fun y => ?_, quantileScale_shift q c D.n D.y D.w, fun it codes pred pred' hp => ?_,
    fun pred pred' hp => genericTotal_shift _ c (quantileCosts_shift q c) D.n D.y D.w pred pred' hp⟩ fuel
  · simp [quantileEstimator]
  · exact generic_parameters_shift _ minimize c (quantileCosts_shift q c) D.n codes D.y D.w pred pred' h0 hp

/-- **C110.** `CBAdditiveGenericCRegressor` with costs that depend on differences of target and prediction only: the same. -/
theorem C110_generic_shift (costs : List (ℝ × ℝ × ℝ) → Flt ℝ) (hcosts : ∀ l, costs (l.map fun s => (s.1 + c, s.2.1 + c, s.2.2)) = costs l)
    (minimize : (ℝ → Flt ℝ) → ℝ → ℝ) (fuel : ℕ) :
    (S.fit (genericEstimator false costs minimize) D fuel = none ↔
      S.fit (genericEstimator false costs minimize) { D with y := fun s => D.y s + c } fuel = none) ∧
    (∀ e, S.fit (genericEstimator false costs minimize) D fuel = some (.error e) →
      S.fit (genericEstimator false costs minimize) { D with y := fun s => D.y s + c } fuel = some (.error e)) ∧
    (∀ m, S.fit (genericEstimator false costs minimize) D fuel = some (.ok m) →
      ∃ m', S.fit (genericEstimator false costs minimize) { D with y := fun s => D.y s + c } fuel = some (.ok m') ∧
        m'.features = m.features ∧ m'.iterations = m.iterations ∧
        ∀ (prior : Option (ℕ → Flt ℝ)) (X : Table ℝ) (s : ℕ), prior.isSome = D.prior.isSome →
          m'.predict prior X s = m.predict prior X s + c) := by
  refine follows_shift S D c _ ⟨rfl, rfl, fun y => ?_, ?_, fun it codes pred pred' hp => ?_,
    fun pred pred' hp => genericTotal_shift _ c hcosts D.n D.y D.w pred pred' hp⟩ fuel
  · simp [genericEstimator]
  · have e1 := location_scale D.n D.y D.w
    have e2 := location_scale D.n (fun s => D.y s + c) D.w
    show (locationEstimator.scale _ _ _).isFinite = false ∧ _ ∨ _
    by_cases hw : ∑ i ∈ range D.n, D.w i = 0
    · rw [if_pos hw] at e1 e2
      left
      exact ⟨by rw [e1]; rfl, by show (locationEstimator.scale _ _ _).isFinite = false; rw [e2]; rfl⟩
    · rw [if_neg hw] at e1 e2
      rw [wmean_shift D.n D.y D.w c hw] at e2
      right
      refine ⟨_, e1, ?_⟩
      show locationEstimator.scale _ _ _ = _
      rw [e2]
      congr 1
      ring
  · exact generic_parameters_shift _ minimize c hcosts D.n codes D.y D.w pred pred' h0 hp

end

/-- **C110.** The multiplicative regressors do not follow a change of the unit of the target in the same way: the uncertainty of a
factor, which decides how much it is smoothed, depends on the sum of the targets. One sample with target 1 and the same sample in
units of one half. -/
theorem C110_multiplicative_depends_on_unit : uncertaintyGamma [(2, 1)] < uncertaintyGamma [(1, 1)] := by
  unfold uncertaintyGamma
  have e1 : Real.log (1 + 4) - Real.log 4 = Real.log (5 / 4) := by rw [← Real.log_div (by norm_num) (by norm_num)]; norm_num
  have e2 : Real.log (1 + 3) - Real.log 3 = Real.log (4 / 3) := by rw [← Real.log_div (by norm_num) (by norm_num)]; norm_num
  simp only [List.map_cons, List.map_nil, List.sum_cons, List.sum_nil]
  norm_num
  rw [show (5 : ℝ) = 1 + 4 by norm_num, e1, show Real.log (4 : ℝ) - Real.log 3 = Real.log (1 + 3) - Real.log 3 by norm_num, e2]
  exact Real.sqrt_lt_sqrt (Real.log_nonneg (by norm_num)) (Real.log_lt_log (by norm_num) (by norm_num))

/-- Witness for C110: three weighted samples, shifted by 100. -/
example {σ : Type*} (S : Setup σ) (X : Table ℝ) (minimize : (ℝ → Flt ℝ) → ℝ → ℝ) (m : FittedModel) (fuel : ℕ)
    (h : S.fit (quantileEstimator false (1 / 4) minimize) ⟨X, 3, fun i => i, fun i => 1 + i, none⟩ fuel = some (.ok m)) :
    ∃ m', S.fit (quantileEstimator false (1 / 4) minimize) ⟨X, 3, fun i => i + 100, fun i => 1 + i, none⟩ fuel = some (.ok m') ∧
      ∀ s, m'.predict none X s = m.predict none X s + 100 := by
  obtain ⟨m', h1, -, -, h2⟩ := (C110_quantile_shift S ⟨X, 3, fun i => i, fun i => 1 + i, none⟩ 100 (fun i _ => by positivity) (1 / 4)
    minimize fuel).2.2 m h
  exact ⟨m', h1, fun s => h2 none X s rfl⟩

/-- Witness for the costs of C110: the pinball costs depend on differences only. -/
example (q c : ℝ) : ∀ l, quantileCostsFlt q (l.map fun s => (s.1 + c, s.2.1 + c, s.2.2)) = quantileCostsFlt q l :=
  quantileCosts_shift q c

end CB
