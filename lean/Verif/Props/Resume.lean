import Verif.Props.SuperpositionExample
import Verif.Props.Convergence

/-!
# C131: training of the background-subtraction regressor can be continued through prior predictions
-/

set_option autoImplicit false
set_option linter.unusedSectionVars false

namespace CB
open Finset Spec

/-- What a feature has added up so far. -/
noncomputable def collected (f : FState ℝ) (b : ℕ) : ℝ :=
  match f.agg with
  | some a => a b
  | none => 0

/-- The third feature has collected what the other two have collected. -/
structure Carry (f₁ f₂ f : FState ℝ) : Prop where
  sum : ∀ b, collected f b = collected f₁ b + collected f₂ b
  fitted₂ : f₂.isFitted = f₂.agg.isSome
  fitted : f.isFitted = f.agg.isSome
  zero₂ : f₂.zeroSmoother = false
  zero : f.zeroSmoother = false

/-- What training calls depends on the predictions for the training samples only, and not on the iteration. -/
structure LocalOracle (n : ℕ) (o : Oracle ℝ) : Prop where
  estimate : ∀ it it' i p p' f f', (∀ s < n, p.factors s = p'.factors s) → o.estimate it i p f = o.estimate it' i p' f'
  smooth : ∀ it it' i p p' f f' v, (∀ s < n, p.factors s = p'.factors s) → o.smooth it i p f v = o.smooth it' i p' f' v
  calibrate : ∀ it i fs, o.calibrate it i fs = fs.factors

section
variable (p p' : Params ℝ) (hp : p.aggregate = true) (hclip : p.clip = false) (hh : p.hierarchical = none)
  (hp' : p'.aggregate = true) (hclip' : p'.clip = false) (hh' : p'.hierarchical = none)
  (o : Oracle ℝ) (n : ℕ) (ho : LocalOracle n o) (hlr : ∀ k, o.learnRate (k + 1) = o.learnRate 1)

include hp hclip hp' hclip' ho hlr in
theorem carry_featureIteration (it it' i : ℕ) (cfg : FeatureCfg) (d d' : ℕ) (b b' : Bool) (l l' : Flt ℝ) (f₁ f₂ f : FState ℝ)
    (hf : Carry f₁ f₂ f) (p₂ pr : Pred ℝ) (h : ∀ s < n, p₂.factors s = pr.factors s) :
    Carry f₁ (featureIteration p o it i cfg d b l f₂ p₂).1 (featureIteration p' o it' i cfg d' b' l' f pr).1 ∧
    ∀ s < n, (featureIteration p o it i cfg d b l f₂ p₂).2.factors s = (featureIteration p' o it' i cfg d' b' l' f pr).2.factors s := by
  rw [featureIteration_plain p hp hclip o it i cfg d b l f₂ p₂ ho.calibrate _ rfl,
    featureIteration_plain p' hp' hclip' o it' i cfg d' b' l' f pr ho.calibrate _ rfl]
  have he := ho.estimate it it' i p₂ pr f₂ f h
  have hg : predictFactors cfg (updateFactors cfg f₂ (o.estimate it i p₂ f₂) (o.learnRate (it + 1)))
        (o.smooth it i p₂ (updateFactors cfg f₂ (o.estimate it i p₂ f₂) (o.learnRate (it + 1))) (o.estimate it i p₂ f₂))
        (o.learnRate (it + 1)) =
      predictFactors cfg (updateFactors cfg f (o.estimate it' i pr f) (o.learnRate (it' + 1)))
        (o.smooth it' i pr (updateFactors cfg f (o.estimate it' i pr f) (o.learnRate (it' + 1))) (o.estimate it' i pr f))
        (o.learnRate (it' + 1)) := by
    rw [hlr it, hlr it', ho.smooth it it' i p₂ pr _ (updateFactors cfg f (o.estimate it' i pr f) (o.learnRate 1)) _ h, he]
    funext b
    unfold predictFactors updateFactors
    dsimp only
    rw [hf.zero₂, hf.zero]
    split_ifs <;> first | rfl | exact absurd rfl ‹¬ cfg.nFinite = cfg.nFinite›
  rw [hg]
  generalize predictFactors cfg (updateFactors cfg f _ _) _ _ = g
  refine ⟨⟨fun b => ?_, rfl, rfl, hf.zero₂, hf.zero⟩, fun s hs => ?_⟩
  · have hs := hf.sum b
    unfold collected at hs ⊢
    dsimp only
    rw [hf.fitted₂, hf.fitted]
    cases h1 : f₂.agg <;> cases h2 : f.agg <;> simp only [h1, h2] at hs ⊢ <;> simp <;> linarith
  · unfold Pred.update
    split_ifs
    · exact h s hs
    · simp only [h s hs]

include hp hclip hh hp' hclip' hh' ho hlr in
theorem carry_pass (it it' d d' : ℕ) (b b' : Bool) (l l' : Flt ℝ) :
    ∀ (cfgs : List FeatureCfg) (i : ℕ) (f₁ f₂ f : List (FState ℝ)), Three Carry f₁ f₂ f → cfgs.length = f.length → ∀ (p₂ pr : Pred ℝ),
      (∀ s < n, p₂.factors s = pr.factors s) →
      Three Carry f₁ (featurePass p o it d b l i cfgs f₂ p₂).1 (featurePass p' o it' d' b' l' i cfgs f pr).1 ∧
      (∀ s < n, (featurePass p o it d b l i cfgs f₂ p₂).2.factors s = (featurePass p' o it' d' b' l' i cfgs f pr).2.factors s) ∧
      (featurePass p' o it' d' b' l' i cfgs f pr).1.length = cfgs.length
  | [], i, _, _, _, .nil, hl, p₂, pr, h => by
    simp only [featurePass]
    exact ⟨.nil, h, rfl⟩
  | cfg :: cfgs, i, _, _, _, .cons (a := f₁) (b := f₂) (c := f) hf hrest, hl, p₂, pr, h => by
    have ih := carry_pass it it' d d' b b' l l' cfgs (i + 1) _ _ _ hrest (by simpa using hl)
    unfold featurePass
    dsimp only
    have hs : skipped p it cfg = false := by simp [skipped, hh]
    have hs' : skipped p' it' cfg = false := by simp [skipped, hh']
    simp only [hs, hs', Bool.false_eq_true, if_false]
    have hf' : Carry f₁ (if it = 0 then { f₂ with factors := fun _ => 0 } else f₂) (if it' = 0 then { f with factors := fun _ => 0 } else f) := by
      split_ifs <;> exact ⟨hf.sum, hf.fitted₂, hf.fitted, hf.zero₂, hf.zero⟩
    have h1 := carry_featureIteration p p' hp hclip hp' hclip' o n ho hlr it it' i cfg d d' b b' l l' f₁ _ _ hf' p₂ pr h
    have := ih _ _ h1.2
    exact ⟨.cons h1.1 this.1, this.2.1, by simp [this.2.2]⟩

include hp hclip hh hp' hclip' hh' ho hlr in
/-- `k` iterations of one training add to a state what `k` further iterations of the other one do. -/
theorem carry_trace (cfgs : List FeatureCfg) (q q' : ℕ → ℝ) (M : ℕ) (base : List (FState ℝ))
    (hd : ∀ past s, Trace p o cfgs (startState o cfgs q) past s → s.diverging = 0)
    (hd' : ∀ past s, Trace p' o cfgs (startState o cfgs q') past s → s.diverging = 0)
    (h0 : ∀ past s, past.length = M → Trace p' o cfgs (startState o cfgs q') past s →
      s.feats.length = cfgs.length ∧ Three Carry base (startState o cfgs q).feats s.feats ∧ ∀ i < n, q i = s.pred.factors i) :
    ∀ (k : ℕ) (t₂ t : List (TState ℝ)) (s₂ s : TState ℝ), t₂.length = k → t.length = M + k →
      Trace p o cfgs (startState o cfgs q) t₂ s₂ → Trace p' o cfgs (startState o cfgs q') t s →
      s.feats.length = cfgs.length ∧ Three Carry base s₂.feats s.feats ∧ ∀ i < n, s₂.pred.factors i = s.pred.factors i := by
  intro k
  induction k with
  | zero =>
    intro t₂ t s₂ s e₂ e h₂ h
    rw [List.length_eq_zero_iff] at e₂
    subst e₂
    cases h₂
    exact h0 t s e h
  | succ k ih =>
    intro t₂ t s₂ s e₂ e h₂ h
    have z₂ := hd _ _ h₂
    have z := hd' _ _ h
    cases h₂ with
    | start => simp at e₂
    | @step t₂ r₂ _ h₂ _ i₂ =>
      cases h with
      | start => simp at e
      | @step t r _ h _ i =>
        simp only [List.length_cons, Nat.add_right_cancel_iff] at e₂
        obtain ⟨hlen, hf, hpr⟩ := ih _ _ _ _ e₂ (by simpa [← Nat.add_assoc] using e) h₂ h
        obtain ⟨a₂, b₂⟩ := iterate_calm p o cfgs _ _ i₂ z₂
        obtain ⟨a₃, b₃⟩ := iterate_calm p' o cfgs _ _ i z
        rw [a₂, b₂, a₃, b₃]
        have := carry_pass p p' hp hclip hh hp' hclip' hh' o n ho hlr r₂.iteration r.iteration r₂.diverging r.diverging r₂.isDiverging
          r.isDiverging r₂.initialLoss r.initialLoss cfgs 0 _ _ _ hf hlen.symm _ _ hpr
        exact ⟨this.2.2, this.1, this.2.1⟩

end

section
variable {σ : Type*} (S : Setup σ) (D : TrainSet) (ra : ℝ)

theorem gbs_local : LocalOracle D.n (S.oracle (gbsEstimator ra) D) := by
  have hs : ∀ (codes : ℕ → ℕ) (p p' : ℕ → ℝ), (∀ s < D.n, p s = p' s) → ∀ b,
      gbsSummand ra D.n codes D.y p D.w b = gbsSummand ra D.n codes D.y p' D.w b ∧
      gbsVariance ra D.n codes D.y p D.w b = gbsVariance ra D.n codes D.y p' D.w b := by
    intro codes p p' h b
    have hb : ∀ (g g' : ℕ → ℝ), (∀ s < D.n, g s = g' s) → binSum D.n codes g b = binSum D.n codes g' b := by
      intro g g' hg
      unfold binSum
      refine Finset.sum_congr rfl fun i hi => ?_
      rw [hg i (Finset.mem_range.mp hi)]
    unfold gbsSummand gbsVariance
    dsimp only
    rw [hb (fun i => (D.y i - p i) * D.w i) (fun i => (D.y i - p' i) * D.w i) (fun i hi => by rw [h i hi]),
      hb (fun i => (D.y i - p i) * D.w i * (D.w i * (1 + ra))) (fun i => (D.y i - p' i) * D.w i * (D.w i * (1 + ra)))
        (fun i hi => by rw [h i hi]),
      hb (fun i => (D.y i - p i) * D.w i * ((D.y i - p i) * D.w i)) (fun i => (D.y i - p' i) * D.w i * ((D.y i - p' i) * D.w i))
        (fun i hi => by rw [h i hi])]
    exact ⟨rfl, rfl⟩
  refine ⟨fun it it' i p p' f f' h => ?_, fun it it' i p p' f f' v h => ?_, fun it i fs => ?_⟩
  · unfold Setup.oracle
    funext b
    dsimp only
    cases S.features[i]? with
    | none => rfl
    | some g => exact (hs _ _ _ h b).1
  · unfold Setup.oracle
    dsimp only
    cases S.features[i]? with
    | none => rfl
    | some g =>
      dsimp only
      congr 1
      funext b
      show Real.sqrt _ = Real.sqrt _
      rw [(hs _ _ _ h b).2]
  · unfold Setup.oracle
    dsimp only
    cases S.features[i]? <;> rfl

theorem init_carry (l : List (FState ℝ)) (hl : ∀ f ∈ l, f.isFitted = f.agg.isSome ∧ f.zeroSmoother = false) (cfgs : List FeatureCfg)
    (h : l.length = cfgs.length) : Three Carry l (cfgs.map fun _ => FState.init) l := by
  induction l generalizing cfgs with
  | nil =>
    cases cfgs with
    | nil => exact .nil
    | cons c cs => simp at h
  | cons f l ih =>
    cases cfgs with
    | nil => simp at h
    | cons c cs =>
      refine .cons ⟨fun b => ?_, rfl, (hl f (by simp)).1, rfl, (hl f (by simp)).2⟩ (ih (fun g hg => hl g (by simp [hg])) cs (by simpa using h))
      show collected f b = collected f b + 0
      ring

theorem carry_zero_left : ∀ (cfgs : List FeatureCfg) (f₁ f : List (FState ℝ)), Three Carry (cfgs.map fun _ => FState.init) f₁ f →
    Three Carry f₁ (cfgs.map fun _ => FState.init) f
  | [], _, _, .nil => .nil
  | c :: cs, _, _, .cons (b := f₁) (c := f) hf hrest =>
    .cons ⟨fun b => by
      have := hf.sum b
      rw [show collected (FState.init : FState ℝ) b = 0 from rfl] at this ⊢
      linarith, rfl, hf.fitted, rfl, hf.zero⟩ (carry_zero_left cs _ _ hrest)

theorem carry_factors : ∀ (f₁ f₂ f : List (FState ℝ)) (l₁ l₂ l : List (ℕ → ℝ)), Three Carry f₁ f₂ f →
    f₁.map (·.agg) = l₁.map some → f₂.map (·.agg) = l₂.map some → f.map (·.agg) = l.map some → Three (Mixed 1 1) l₁ l₂ l := by
  intro f₁ f₂ f l₁ l₂ l h
  induction h generalizing l₁ l₂ l with
  | nil =>
    intro e₁ e₂ e
    simp only [List.map_nil, List.nil_eq, List.map_eq_nil_iff] at e₁ e₂ e
    subst e₁ e₂ e
    exact .nil
  | cons hf _ ih =>
    intro e₁ e₂ e
    cases l₁ with
    | nil => simp at e₁
    | cons g₁ l₁ =>
      cases l₂ with
      | nil => simp at e₂
      | cons g₂ l₂ =>
        cases l with
        | nil => simp at e
        | cons g l =>
          simp only [List.map_cons, List.cons.injEq] at e₁ e₂ e
          refine .cons (fun b => ?_) (ih _ _ _ e₁.2 e₂.2 e.2)
          have := hf.sum b
          unfold collected at this
          rw [e₁.1, e₂.1, e.1] at this
          simpa using this

theorem plainDescent_iterations (h : PlainDescent S D ra) (N : ℕ) : PlainDescent (withMaximalIterations S N) D ra :=
  ⟨h.aggregate, h.noHierarchy, h.regalpha, h.weights, h.learnRate, h.features, h.smoothers⟩

theorem calm (h : PlainDescent S D ra) (N : ℕ) (q : ℕ → ℝ) (past : List (TState ℝ)) (s : TState ℝ)
    (ht : Trace ((withMaximalIterations S N).paramsFor (gbsEstimator ra)) (S.oracle (gbsEstimator ra) D) (S.cfgs D)
      (startState (S.oracle (gbsEstimator ra) D) (S.cfgs D) q) past s) : s.diverging = 0 :=
  (C80_never_increases (withMaximalIterations S N) D ra h.aggregate h.regalpha h.weights h.learnRate (fun f hf => (h.features f hf).1)
    h.smoothers q past s ht).2.2

/-- **C131.** With a constant learning rate and early stopping switched off, training for `M` iterations, handing the predictions of
the resulting model to a second training as prior predictions, and training for another `N` iterations gives the predictions of a single
training of `M + N` iterations, for every table that is predicted (the second model gets the predictions of the first one as prior
predictions there too). -/
theorem C131_continued (h : PlainDescent S D ra) (hlr : ∀ k, 1 ≤ k → S.learnRate k = S.learnRate 1)
    (hint : ∀ f ∈ S.features, ∀ c, f.1.group = [c] → ∀ i < D.n, ∀ x : ℝ, D.X i c = .fin x → ∃ k : ℤ, x = (k : ℝ))
    (hf : S.params.minimalFactorChange < 0) (hl : S.params.minimalLossChange < 0)
    (hsum : ∑ i ∈ range D.n, D.w i ≠ 0) (M N : ℕ) (hM : 1 ≤ M) (hN : 1 ≤ N) (fuel : ℕ) (hfuel : M + N + 4 ≤ fuel) :
    ∃ m₁ m₂ m, (withMaximalIterations S M).fit (gbsEstimator ra) D fuel = some (.ok m₁) ∧
      (withMaximalIterations S N).fit (gbsEstimator ra) { D with prior := some fun i => .fin (m₁.predict D.prior D.X i) } fuel
        = some (.ok m₂) ∧
      (withMaximalIterations S (M + N)).fit (gbsEstimator ra) D fuel = some (.ok m) ∧
      ∀ (prior : Option (ℕ → Flt ℝ)) (X : Table ℝ) (s : ℕ),
        m₂.predict (some fun s => .fin (m₁.predict prior X s)) X s = m.predict prior X s := by
  obtain ⟨m₁, h₁, i₁⟩ := fit_all_iterations (withMaximalIterations S M) D ra (plainDescent_iterations S D ra h M) hf hl hM hsum fuel
    (by show M + 4 ≤ fuel; omega)
  obtain ⟨m, h₃, i₃⟩ := fit_all_iterations (withMaximalIterations S (M + N)) D ra (plainDescent_iterations S D ra h (M + N)) hf hl
    (by show 1 ≤ M + N; omega) hsum fuel hfuel
  set D₂ : TrainSet := { D with prior := some fun i => .fin (m₁.predict D.prior D.X i) } with hD₂
  obtain ⟨m₂, h₂, i₂⟩ := fit_all_iterations (withMaximalIterations S N) D₂ ra
    (plainDescent_iterations S D₂ ra (plainDescent_other S D ra h D₂ rfl rfl rfl) N) hf hl hN hsum fuel (by show N + 4 ≤ fuel; omega)
  refine ⟨m₁, m₂, m, h₁, h₂, h₃, ?_⟩
  obtain ⟨t₁', s₁', tr₁', n₁', hin⟩ := gbs_in_sample (withMaximalIterations S M) D ra h.aggregate (fun f hf => (h.features f hf).1) hint fuel
    m₁ h₁
  obtain ⟨a₁, r₁, -, sc₁, f₁, rfl⟩ := fit_ok (withMaximalIterations S M) _ D fuel m₁ h₁
  obtain ⟨a₂, r₂, -, sc₂, f₂, rfl⟩ := fit_ok (withMaximalIterations S N) _ D₂ fuel m₂ h₂
  obtain ⟨a, r, -, sc, f₃, rfl⟩ := fit_ok (withMaximalIterations S (M + N)) _ D fuel m h₃
  obtain ⟨t₁, s₁, tr₁, -, fac₁, -, n₁⟩ := fitMain_ok _ _ _ _ fuel r₁ f₁
  obtain ⟨t₂, s₂, tr₂, -, fac₂, -, n₂⟩ := fitMain_ok _ _ _ _ fuel r₂ f₂
  obtain ⟨t₃, s₃, tr₃, -, fac₃, -, n₃⟩ := fitMain_ok _ _ _ _ fuel r f₃
  rw [gbs_baseline D ra a₁ sc₁] at tr₁
  rw [gbs_baseline D₂ ra a₂ sc₂] at tr₂
  rw [gbs_baseline D ra a sc] at tr₃
  have l₁' := (trace_iterations _ _ _ _ _ _ tr₁').1
  have l₁ := (trace_iterations _ _ _ _ _ _ tr₁).1
  have l₂ := (trace_iterations _ _ _ _ _ _ tr₂).1
  have l₃ := (trace_iterations _ _ _ _ _ _ tr₃).1
  have e₁ : r₁.iterations = M := i₁
  have e₂ : r₂.iterations = N := i₂
  have e₃ : r.iterations = M + N := i₃
  have n₁'' : s₁'.iteration = M := n₁'.trans e₁
  have hlr' : ∀ k, (S.oracle (gbsEstimator ra) D).learnRate (k + 1) = (S.oracle (gbsEstimator ra) D).learnRate 1 :=
    fun k => hlr (k + 1) (by omega)
  have hcl : ∀ k, ((withMaximalIterations S k).paramsFor (gbsEstimator ra)).clip = false := fun k => by
    simp [Setup.paramsFor, gbsEstimator]
  have first := carry_trace ((withMaximalIterations S M).paramsFor (gbsEstimator ra))
    ((withMaximalIterations S (M + N)).paramsFor (gbsEstimator ra)) h.aggregate (hcl M) h.noHierarchy h.aggregate (hcl (M + N))
    h.noHierarchy (S.oracle (gbsEstimator ra) D) D.n (gbs_local S D ra) hlr' (S.cfgs D) (startingPredictions D) (startingPredictions D) 0
    ((S.cfgs D).map fun _ => FState.init) (calm S D ra h M _) (calm S D ra h (M + N) _)
    (fun past s hp ht => by
      rw [List.length_eq_zero_iff] at hp
      subst hp
      cases ht
      refine ⟨by simp [startState], ?_, fun i _ => rfl⟩
      exact init_carry _ (fun f hf => by
        obtain ⟨c, -, rfl⟩ := List.mem_map.mp hf
        exact ⟨rfl, rfl⟩) _ (by simp)) M
  have second := carry_trace ((withMaximalIterations S N).paramsFor (gbsEstimator ra))
    ((withMaximalIterations S (M + N)).paramsFor (gbsEstimator ra)) h.aggregate (hcl N) h.noHierarchy h.aggregate (hcl (M + N))
    h.noHierarchy (S.oracle (gbsEstimator ra) D) D.n (gbs_local S D ra) hlr' (S.cfgs D) (startingPredictions D₂) (startingPredictions D) M
    s₁.feats (calm S D ra h N _) (calm S D ra h (M + N) _)
    (fun past s hp ht => by
      obtain ⟨g1, g2, -⟩ := first t₁ past s₁ s (by omega) (by omega) tr₁ ht
      obtain ⟨-, -, g3⟩ := first t₁' past s₁' s (by omega) (by omega) tr₁' ht
      exact ⟨g1, carry_zero_left _ _ _ g2, fun i hi => (hin i hi).trans (g3 i hi)⟩) N t₂ t₃ s₂ s₃ (by omega) (by omega) tr₂ tr₃
  have hfac := carry_factors _ _ _ _ _ _ second.2.1 fac₁ fac₂ fac₃
  have ha : a = a₁ := by rw [gbs_scale D ra a sc, gbs_scale D ra a₁ sc₁]
  intro prior X s
  have key := mixed_predictExtended 1 1 X (S.features.map (·.1)) D.n D.X _ _ _ hfac
    (fun s => (priorPrediction .identity (.fin a) (.fin 0) prior s).getFin) (fun _ => 0)
    (fun s => (priorPrediction .identity (.fin a) (.fin 0) prior s).getFin) s (by ring)
  unfold FittedModel.predict
  dsimp only
  rw [gbs_offset, gbs_offset, ← ha]
  show (predictExtended _ (fittedFeatures D.X D.n (S.features.map (·.1)) r₂.factors) X).factors s =
    (predictExtended _ (fittedFeatures D.X D.n (S.features.map (·.1)) r.factors) X).factors s
  refine Eq.trans ?_ key.symm
  rw [one_mul, one_mul]
  refine (predictExtended_shift ((predictExtended (fun s => (priorPrediction .identity (.fin a) (.fin 0) prior s).getFin)
    (fittedFeatures D.X D.n (S.features.map (·.1)) r₁.factors) X).factors s) _ X s (fun _ => 0) _ ?_).trans (add_comm _ _)
  exact (add_zero _).trans (zero_add _).symm

end

/-- Witness for C131: three iterations and four more on the example data. -/
example : ∃ m₁ m₂ m, (withMaximalIterations tenSetup 3).fit (gbsEstimator 0) exData 11 = some (.ok m₁) ∧
    (withMaximalIterations tenSetup 4).fit (gbsEstimator 0) { exData with prior := some fun i => .fin (m₁.predict none exData.X i) } 11
      = some (.ok m₂) ∧
    (withMaximalIterations tenSetup 7).fit (gbsEstimator 0) exData 11 = some (.ok m) ∧
    m₂.predict (some fun s => .fin (m₁.predict none exData.X s)) exData.X 1 = m.predict none exData.X 1 := by
  obtain ⟨m₁, m₂, m, h1, h2, h3, h4⟩ := C131_continued tenSetup exData 0 (tenDescent exData fun _ _ => by simp [exData])
    (fun k _ => rfl)
    (fun f hf c hc i hi x hx => by
      have : x = if i = 0 then 0 else 1 := by simpa [exData] using hx.symm
      exact ⟨if i = 0 then 0 else 1, by rw [this]; split_ifs <;> simp⟩)
    (by norm_num [tenSetup]) (by norm_num [tenSetup]) (by simp [exData]) 3 4 (by norm_num) (by norm_num) 11 (by norm_num)
  exact ⟨m₁, m₂, m, h1, h2, h3, h4 none exData.X 1⟩

end CB
