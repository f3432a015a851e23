import Verif.Spec.Superposition
import Verif.Props.Settling
import Verif.Props.TargetUnits
import Verif.Props.CalibrationExample

/-!
# C122: background subtraction is a subtraction
-/

set_option autoImplicit false
set_option linter.unusedSectionVars false

namespace CB
open Finset Spec

/-- Three lists that agree element by element. -/
inductive Three {A : Type*} (R : A → A → A → Prop) : List A → List A → List A → Prop
  | nil : Three R [] [] []
  | cons {a b c : A} {as bs cs : List A} : R a b c → Three R as bs cs → Three R (a :: as) (b :: bs) (c :: cs)

section
variable (α β : ℝ)

/-- A function that is a combination of two others. -/
def Mixed (g₁ g₂ g : ℕ → ℝ) : Prop := ∀ b, g b = α * g₁ b + β * g₂ b

/-- A state of a feature that is a combination of two others. -/
structure FMixed (f₁ f₂ f : FState ℝ) : Prop where
  factors : Mixed α β f₁.factors f₂.factors f.factors
  agg : (f₁.agg = none ∧ f₂.agg = none ∧ f.agg = none) ∨
    ∃ g₁ g₂ g, f₁.agg = some g₁ ∧ f₂.agg = some g₂ ∧ f.agg = some g ∧ Mixed α β g₁ g₂ g
  fitted₁ : f₁.isFitted = f.isFitted
  fitted₂ : f₂.isFitted = f.isFitted
  zero₁ : f₁.zeroSmoother = false
  zero₂ : f₂.zeroSmoother = false
  zero : f.zeroSmoother = false

/-- Three oracles, the third of which combines the other two. -/
structure OracleMixed (cfgs : List FeatureCfg) (o₁ o₂ o : Oracle ℝ) : Prop where
  estimate : ∀ it i p₁ p₂ p f₁ f₂ f, Mixed α β p₁.factors p₂.factors p.factors →
    Mixed α β (o₁.estimate it i p₁ f₁) (o₂.estimate it i p₂ f₂) (o.estimate it i p f)
  smooth : ∀ it i cfg, cfgs[i]? = some cfg → ∀ p₁ p₂ p f₁ f₂ f v₁ v₂ v, Mixed α β v₁ v₂ v → ∀ b < cfg.nFinite,
    o.smooth it i p f v b = Option.map₂ (fun x z => α * x + β * z) (o₁.smooth it i p₁ f₁ v₁ b) (o₂.smooth it i p₂ f₂ v₂ b)
  seen : ∀ it i cfg, cfgs[i]? = some cfg → ∀ p₁ p₂ f₁ f₂ v₁ v₂, ∀ b < cfg.nFinite,
    (o₁.smooth it i p₁ f₁ v₁ b).isSome = (o₂.smooth it i p₂ f₂ v₂ b).isSome
  learnRate₁ : o₁.learnRate = o.learnRate
  learnRate₂ : o₂.learnRate = o.learnRate
  calibrate₁ : ∀ it i fs, o₁.calibrate it i fs = fs.factors
  calibrate₂ : ∀ it i fs, o₂.calibrate it i fs = fs.factors
  calibrate : ∀ it i fs, o.calibrate it i fs = fs.factors

/-- The update of one feature without clipping. -/
theorem featureIteration_plain (p : Params ℝ) (hp : p.aggregate = true) (hclip : p.clip = false) (o : Oracle ℝ) (it i : ℕ)
    (cfg : FeatureCfg) (dv : ℕ) (isd : Bool) (il : Flt ℝ) (fs : FState ℝ) (pred : Pred ℝ)
    (hcal : ∀ it i fs, o.calibrate it i fs = fs.factors) (g : ℕ → ℝ)
    (hg : g = predictFactors cfg (updateFactors cfg fs (o.estimate it i pred fs) (o.learnRate (it + 1)))
        (o.smooth it i pred (updateFactors cfg fs (o.estimate it i pred fs) (o.learnRate (it + 1))) (o.estimate it i pred fs))
        (o.learnRate (it + 1))) :
    featureIteration p o it i cfg dv isd il fs pred =
      (⟨g, fs.factors, some (match fs.isFitted, fs.agg with
        | true, some agg => fun b => agg b + g b
        | _, _ => g), true, fs.zeroSmoother⟩, pred.update cfg fun s => g (cfg.bin s)) := by
  subst hg
  unfold featureIteration
  simp only [hp, if_true, hcal]
  unfold visitFactors predInSample
  simp only [hclip, Bool.false_and]
  unfold updateFactors
  cases fs.isFitted <;> cases fs.agg <;> simp [hp]

theorem mixed_predictFactors (cfg : FeatureCfg) (f₁ f₂ f : FState ℝ) (h : FMixed α β f₁ f₂ f) (v₁ v₂ v : ℕ → ℝ)
    (hv : Mixed α β v₁ v₂ v) (lr : ℝ) (s₁ s₂ s : ℕ → Option ℝ)
    (hs : ∀ b < cfg.nFinite, s b = Option.map₂ (fun x z => α * x + β * z) (s₁ b) (s₂ b))
    (hn : ∀ b < cfg.nFinite, (s₁ b).isSome = (s₂ b).isSome) :
    Mixed α β (predictFactors cfg (updateFactors cfg f₁ v₁ lr) s₁ lr) (predictFactors cfg (updateFactors cfg f₂ v₂ lr) s₂ lr)
      (predictFactors cfg (updateFactors cfg f v lr) s lr) := by
  intro b
  unfold predictFactors updateFactors
  by_cases hb : b < cfg.nFinite
  · simp only [hb, if_true, h.zero₁, h.zero₂, h.zero, Bool.false_eq_true, if_false, hs b hb]
    have := hn b hb
    cases h1 : s₁ b <;> cases h2 : s₂ b <;> simp_all
    ring
  · simp only [hb, if_false, if_true]
    cases cfg.missingNotLearned
    · simp [hv cfg.nFinite]; ring
    · simp

theorem mixed_update (cfg : FeatureCfg) (p₁ p₂ p : Pred ℝ) (h : Mixed α β p₁.factors p₂.factors p.factors) (g₁ g₂ g : ℕ → ℝ)
    (hg : Mixed α β g₁ g₂ g) :
    Mixed α β (p₁.update cfg fun s => g₁ (cfg.bin s)).factors (p₂.update cfg fun s => g₂ (cfg.bin s)).factors
      (p.update cfg fun s => g (cfg.bin s)).factors := by
  intro s
  unfold Pred.update
  split_ifs
  · exact h s
  · simp only [h s, hg (cfg.bin s)]; ring

theorem mixed_featureIteration (p : Params ℝ) (hp : p.aggregate = true) (hclip : p.clip = false) (cfgs : List FeatureCfg)
    (o₁ o₂ o : Oracle ℝ) (ho : OracleMixed α β cfgs o₁ o₂ o) (it i : ℕ) (cfg : FeatureCfg) (hi : cfgs[i]? = some cfg)
    (d₁ d₂ d : ℕ) (b₁ b₂ b : Bool) (l₁ l₂ l : Flt ℝ) (f₁ f₂ f : FState ℝ) (hf : FMixed α β f₁ f₂ f) (p₁ p₂ pr : Pred ℝ)
    (h : Mixed α β p₁.factors p₂.factors pr.factors) :
    FMixed α β (featureIteration p o₁ it i cfg d₁ b₁ l₁ f₁ p₁).1 (featureIteration p o₂ it i cfg d₂ b₂ l₂ f₂ p₂).1
      (featureIteration p o it i cfg d b l f pr).1 ∧
    Mixed α β (featureIteration p o₁ it i cfg d₁ b₁ l₁ f₁ p₁).2.factors (featureIteration p o₂ it i cfg d₂ b₂ l₂ f₂ p₂).2.factors
      (featureIteration p o it i cfg d b l f pr).2.factors := by
  rw [featureIteration_plain p hp hclip o₁ it i cfg d₁ b₁ l₁ f₁ p₁ ho.calibrate₁ _ rfl,
    featureIteration_plain p hp hclip o₂ it i cfg d₂ b₂ l₂ f₂ p₂ ho.calibrate₂ _ rfl,
    featureIteration_plain p hp hclip o it i cfg d b l f pr ho.calibrate _ rfl]
  have he := ho.estimate it i p₁ p₂ pr f₁ f₂ f h
  have key := mixed_predictFactors α β cfg f₁ f₂ f hf _ _ _ he (o.learnRate (it + 1))
    (o₁.smooth it i p₁ (updateFactors cfg f₁ (o₁.estimate it i p₁ f₁) (o₁.learnRate (it + 1))) (o₁.estimate it i p₁ f₁))
    (o₂.smooth it i p₂ (updateFactors cfg f₂ (o₂.estimate it i p₂ f₂) (o₂.learnRate (it + 1))) (o₂.estimate it i p₂ f₂))
    (o.smooth it i pr (updateFactors cfg f (o.estimate it i pr f) (o.learnRate (it + 1))) (o.estimate it i pr f))
    (fun b hb => ho.smooth it i cfg hi _ _ _ _ _ _ _ _ _ he b hb) (fun b hb => ho.seen it i cfg hi _ _ _ _ _ _ b hb)
  rw [ho.learnRate₁, ho.learnRate₂] at *
  generalize predictFactors cfg (updateFactors cfg f₁ _ _) _ _ = g₁ at *
  generalize predictFactors cfg (updateFactors cfg f₂ _ _) _ _ = g₂ at *
  generalize predictFactors cfg (updateFactors cfg f _ _) _ _ = g at *
  refine ⟨⟨key, Or.inr ⟨_, _, _, rfl, rfl, rfl, ?_⟩, rfl, rfl, hf.zero₁, hf.zero₂, hf.zero⟩, mixed_update α β cfg p₁ p₂ pr h _ _ _ key⟩
  rw [hf.fitted₁, hf.fitted₂]
  rcases hf.agg with ⟨a1, a2, a3⟩ | ⟨a1, a2, a3, e1, e2, e3, ha⟩
  · rw [a1, a2, a3]
    cases f.isFitted <;> exact key
  · rw [e1, e2, e3]
    cases f.isFitted
    · exact key
    · intro b
      simp only [ha b, key b]; ring

theorem mixed_pass (p : Params ℝ) (hp : p.aggregate = true) (hclip : p.clip = false) (all : List FeatureCfg)
    (o₁ o₂ o : Oracle ℝ) (ho : OracleMixed α β all o₁ o₂ o) (it : ℕ) (d₁ d₂ d : ℕ) (b₁ b₂ b : Bool) (l₁ l₂ l : Flt ℝ) :
    ∀ (cfgs : List FeatureCfg) (i : ℕ), (∀ j cfg, cfgs[j]? = some cfg → all[i + j]? = some cfg) →
      ∀ (f₁ f₂ f : List (FState ℝ)), Three (FMixed α β) f₁ f₂ f → ∀ (p₁ p₂ pr : Pred ℝ),
      Mixed α β p₁.factors p₂.factors pr.factors →
      Three (FMixed α β) (featurePass p o₁ it d₁ b₁ l₁ i cfgs f₁ p₁).1 (featurePass p o₂ it d₂ b₂ l₂ i cfgs f₂ p₂).1
        (featurePass p o it d b l i cfgs f pr).1 ∧
      Mixed α β (featurePass p o₁ it d₁ b₁ l₁ i cfgs f₁ p₁).2.factors (featurePass p o₂ it d₂ b₂ l₂ i cfgs f₂ p₂).2.factors
        (featurePass p o it d b l i cfgs f pr).2.factors
  | [], i, _, f₁, f₂, f, _, p₁, p₂, pr, h => by
    simp only [featurePass]
    exact ⟨.nil, h⟩
  | cfg :: cfgs, i, hc, _, _, _, .nil, p₁, p₂, pr, h => by
    simp only [featurePass]
    exact ⟨.nil, h⟩
  | cfg :: cfgs, i, hc, _, _, _, .cons (a := f₁) (b := f₂) (c := f) hf hrest, p₁, p₂, pr, h => by
    have ih := mixed_pass p hp hclip all o₁ o₂ o ho it d₁ d₂ d b₁ b₂ b l₁ l₂ l cfgs (i + 1)
      (fun j c hj => by
        rw [show i + 1 + j = i + (j + 1) by omega]
        exact hc (j + 1) c (by simpa using hj)) _ _ _ hrest
    unfold featurePass
    dsimp only
    have hf' : FMixed α β (if it = 0 then { f₁ with factors := fun _ => 0 } else f₁) (if it = 0 then { f₂ with factors := fun _ => 0 } else f₂)
        (if it = 0 then { f with factors := fun _ => 0 } else f) := by
      split_ifs
      · exact ⟨fun b => by simp, hf.agg, hf.fitted₁, hf.fitted₂, hf.zero₁, hf.zero₂, hf.zero⟩
      · exact hf
    generalize (if it = 0 then { f₁ with factors := fun _ => 0 } else f₁ : FState ℝ) = f₁ at hf'
    generalize (if it = 0 then { f₂ with factors := fun _ => 0 } else f₂ : FState ℝ) = f₂ at hf'
    generalize (if it = 0 then { f with factors := fun _ => 0 } else f : FState ℝ) = f at hf'
    by_cases hs : skipped p it cfg = true
    · simp only [hs, if_true]
      have := ih p₁ p₂ pr h
      exact ⟨.cons ⟨hf'.factors, hf'.agg, hf'.fitted₁, hf'.fitted₂, hf'.zero₁, hf'.zero₂, hf'.zero⟩ this.1, this.2⟩
    · simp only [hs]
      have h1 := mixed_featureIteration α β p hp hclip all o₁ o₂ o ho it i cfg (by simpa using hc 0 cfg (by simp)) d₁ d₂ d b₁ b₂ b l₁ l₂ l
        f₁ f₂ f hf' p₁ p₂ pr h
      have := ih _ _ _ h1.2
      exact ⟨.cons h1.1 this.1, this.2⟩

/-- An iteration of a training that does not diverge. -/
theorem iterate_calm (p : Params ℝ) (o : Oracle ℝ) (cfgs : List FeatureCfg) (s s' : TState ℝ) (h : iterate p o cfgs s = .ok s')
    (h0 : s'.diverging = 0) :
    s'.feats = (featurePass p o s.iteration s.diverging s.isDiverging s.initialLoss 0 cfgs s.feats s.pred).1 ∧
      s'.pred = (featurePass p o s.iteration s.diverging s.isDiverging s.initialLoss 0 cfgs s.feats s.pred).2 := by
  obtain ⟨feats, pred, r, hfp, hcc, hr, hf, hp, -⟩ := iterate_ok p o cfgs s s' h
  have hd : s'.isDiverging = false := by
    unfold checkConvergence at hcc
    split_ifs at hcc
    · simp only [Except.ok.injEq, Prod.mk.injEq] at hcc
      omega
    · simp only [Except.ok.injEq, Prod.mk.injEq] at hcc
      exact hcc.2.symm
  rw [hd] at hr
  simp only [Bool.false_eq_true, if_false, Except.ok.injEq] at hr
  rw [hfp, hf, hp, ← hr]
  exact ⟨rfl, rfl⟩

/-- After the same number of iterations, the state of the third training combines the states of the other two. -/
theorem mixed_trace (p : Params ℝ) (hp : p.aggregate = true) (hclip : p.clip = false) (cfgs : List FeatureCfg)
    (o₁ o₂ o : Oracle ℝ) (ho : OracleMixed α β cfgs o₁ o₂ o) (q₁ q₂ q : ℕ → ℝ) (hq : Mixed α β q₁ q₂ q)
    (hd₁ : ∀ past s, Trace p o₁ cfgs (startState o₁ cfgs q₁) past s → s.diverging = 0)
    (hd₂ : ∀ past s, Trace p o₂ cfgs (startState o₂ cfgs q₂) past s → s.diverging = 0)
    (hd : ∀ past s, Trace p o cfgs (startState o cfgs q) past s → s.diverging = 0) :
    ∀ (k : ℕ) (t₁ t₂ t : List (TState ℝ)) (s₁ s₂ s : TState ℝ), t₁.length = k → t₂.length = k → t.length = k →
      Trace p o₁ cfgs (startState o₁ cfgs q₁) t₁ s₁ → Trace p o₂ cfgs (startState o₂ cfgs q₂) t₂ s₂ →
      Trace p o cfgs (startState o cfgs q) t s →
      s₁.iteration = k ∧ s₂.iteration = k ∧ s.iteration = k ∧
      Three (FMixed α β) s₁.feats s₂.feats s.feats ∧ Mixed α β s₁.pred.factors s₂.pred.factors s.pred.factors := by
  intro k
  induction k with
  | zero =>
    intro t₁ t₂ t s₁ s₂ s e₁ e₂ e h₁ h₂ h
    rw [List.length_eq_zero_iff] at e₁ e₂ e
    subst e₁ e₂ e
    cases h₁; cases h₂; cases h
    refine ⟨rfl, rfl, rfl, ?_, hq⟩
    simp only [startState]
    induction cfgs with
    | nil => exact .nil
    | cons c cs ih =>
      rw [List.map_cons]
      have key : ∀ l : List FeatureCfg, Three (FMixed α β) (l.map fun _ => (FState.init : FState ℝ)) (l.map fun _ => FState.init)
          (l.map fun _ => FState.init) := by
        intro l
        induction l with
        | nil => exact .nil
        | cons c l ih => exact .cons ⟨fun b => by simp [FState.init], Or.inl ⟨rfl, rfl, rfl⟩, rfl, rfl, rfl, rfl, rfl⟩ ih
      exact key (c :: cs)
  | succ k ih =>
    intro t₁ t₂ t s₁ s₂ s e₁ e₂ e h₁ h₂ h
    have z₁ := hd₁ _ _ h₁
    have z₂ := hd₂ _ _ h₂
    have z := hd _ _ h
    cases h₁ with
    | start => simp at e₁
    | step h₁ _ i₁ =>
      cases h₂ with
      | start => simp at e₂
      | step h₂ _ i₂ =>
        cases h with
        | start => simp at e
        | step h _ i =>
          simp only [List.length_cons, Nat.add_right_cancel_iff] at e₁ e₂ e
          obtain ⟨k₁, k₂, k₃, hf, hpr⟩ := ih _ _ _ _ _ _ e₁ e₂ e h₁ h₂ h
          obtain ⟨a₁, b₁⟩ := iterate_calm p o₁ cfgs _ _ i₁ z₁
          obtain ⟨a₂, b₂⟩ := iterate_calm p o₂ cfgs _ _ i₂ z₂
          obtain ⟨a₃, b₃⟩ := iterate_calm p o cfgs _ _ i z
          obtain ⟨_, _, _, -, -, -, -, -, n₁, -⟩ := iterate_ok p o₁ cfgs _ _ i₁
          obtain ⟨_, _, _, -, -, -, -, -, n₂, -⟩ := iterate_ok p o₂ cfgs _ _ i₂
          obtain ⟨_, _, _, -, -, -, -, -, n₃, -⟩ := iterate_ok p o cfgs _ _ i
          rw [k₁] at a₁ b₁ n₁
          rw [k₂] at a₂ b₂ n₂
          rw [k₃] at a₃ b₃ n₃
          rw [a₁, b₁, a₂, b₂, a₃, b₃]
          exact ⟨n₁, n₂, n₃, mixed_pass α β p hp hclip cfgs o₁ o₂ o ho k _ _ _ _ _ _ _ _ _ cfgs 0
            (fun j c hj => by rw [Nat.zero_add]; exact hj) _ _ _ hf _ _ _ hpr⟩

theorem mixed_fittedFeature (g : List String) (e : Bool) (ns : List ℕ) (f₁ f₂ f : ℕ → ℝ) (h : Mixed α β f₁ f₂ f) (row : List (Flt ℝ)) :
    (⟨g, e, ns, f⟩ : FittedFeature ℝ).predict row = α * (⟨g, e, ns, f₁⟩ : FittedFeature ℝ).predict row
      + β * (⟨g, e, ns, f₂⟩ : FittedFeature ℝ).predict row := by
  unfold FittedFeature.predict
  split_ifs
  · unfold FittedFeature.smoother FittedFeature.nFinite
    dsimp only
    by_cases h0 : ns.prod = 0
    · simp [h0]
    · rw [if_neg h0, if_neg h0, if_neg h0]
      by_cases h1 : g.length < 2
      · rw [if_pos h1, if_pos h1, if_pos h1]
        dsimp only
        unfold predictOneDim
        cases row.headD .nan with
        | fin x => dsimp only; split_ifs <;> simp [h _]
        | nan => simp
        | pinf => simp
        | ninf => simp
      · rw [if_neg h1, if_neg h1, if_neg h1]
        dsimp only
        unfold predictMultiDim
        split_ifs <;> simp [h _]
  · exact h _

theorem mixed_predictExtended (X : Table ℝ) (specs : List FeatureSpec) (n : ℕ) (T : Table ℝ) (l₁ l₂ l : List (ℕ → ℝ))
    (hl : Three (Mixed α β) l₁ l₂ l) (q₁ q₂ q : ℕ → ℝ) (s : ℕ) (h : q s = α * q₁ s + β * q₂ s) :
    (predictExtended q (fittedFeatures T n specs l) X).factors s =
      α * (predictExtended q₁ (fittedFeatures T n specs l₁) X).factors s
        + β * (predictExtended q₂ (fittedFeatures T n specs l₂) X).factors s := by
  unfold predictExtended fittedFeatures
  dsimp only
  have h' : (⟨q, fun _ => 0⟩ : Pred ℝ).factors s = α * (⟨q₁, fun _ => 0⟩ : Pred ℝ).factors s + β * (⟨q₂, fun _ => 0⟩ : Pred ℝ).factors s := h
  revert h'
  generalize (⟨q, fun _ => 0⟩ : Pred ℝ) = p
  generalize (⟨q₁, fun _ => 0⟩ : Pred ℝ) = p₁
  generalize (⟨q₂, fun _ => 0⟩ : Pred ℝ) = p₂
  induction hl generalizing specs p p₁ p₂ with
  | nil => intro h; simpa using h
  | cons hg _ ih =>
    intro h
    cases specs with
    | nil => simpa using h
    | cons f specs =>
      simp only [List.zipWith_cons_cons, List.foldl_cons]
      apply ih
      split
      · exact h
      · dsimp only
        rw [h, mixed_fittedFeature α β _ _ _ _ _ _ hg]
        ring

theorem mixed_factors : ∀ (f₁ f₂ f : List (FState ℝ)) (l₁ l₂ l : List (ℕ → ℝ)), Three (FMixed α β) f₁ f₂ f →
    f₁.map (·.agg) = l₁.map some → f₂.map (·.agg) = l₂.map some → f.map (·.agg) = l.map some → Three (Mixed α β) l₁ l₂ l := by
  intro f₁ f₂ f l₁ l₂ l h
  induction h generalizing l₁ l₂ l with
  | nil =>
    intro e₁ e₂ e
    simp only [List.map_nil, List.nil_eq, List.map_eq_nil_iff] at e₁ e₂ e
    subst e₁ e₂ e
    exact .nil
  | cons hf _ ih =>
    intro e₁ e₂ e
    cases l₁ with
    | nil => simp at e₁
    | cons g₁ l₁ =>
      cases l₂ with
      | nil => simp at e₂
      | cons g₂ l₂ =>
        cases l with
        | nil => simp at e
        | cons g l =>
          simp only [List.map_cons, List.cons.injEq] at e₁ e₂ e
          refine .cons ?_ (ih _ _ _ e₁.2 e₂.2 e.2)
          rcases hf.agg with ⟨a, -⟩ | ⟨a₁, a₂, a, x₁, x₂, x, ha⟩
          · rw [a] at e₁; simp at e₁
          · rw [x₁, Option.some.injEq] at e₁
            rw [x₂, Option.some.injEq] at e₂
            rw [x, Option.some.injEq] at e
            rw [← e₁.1, ← e₂.1, ← e.1]
            exact ha

theorem mixed_binSum (n : ℕ) (codes : ℕ → ℕ) (g₁ g₂ g : ℕ → ℝ) (h : ∀ i < n, g i = α * g₁ i + β * g₂ i) (b : ℕ) :
    binSum n codes g b = α * binSum n codes g₁ b + β * binSum n codes g₂ b := by
  unfold binSum
  rw [Finset.mul_sum, Finset.mul_sum, ← Finset.sum_add_distrib]
  refine Finset.sum_congr rfl fun i hi => ?_
  split_ifs
  · exact h i (Finset.mem_range.mp hi)
  · simp

theorem mixed_summand (ra : ℝ) (n : ℕ) (codes : ℕ → ℕ) (y₁ y₂ y w : ℕ → ℝ) (hy : ∀ i < n, y i = α * y₁ i + β * y₂ i) (p₁ p₂ p : ℕ → ℝ)
    (hp : Mixed α β p₁ p₂ p) :
    Mixed α β (gbsSummand ra n codes y₁ p₁ w) (gbsSummand ra n codes y₂ p₂ w) (gbsSummand ra n codes y p w) := by
  intro b
  unfold gbsSummand
  dsimp only
  rw [mixed_binSum α β n codes (fun i => (y₁ i - p₁ i) * w i) (fun i => (y₂ i - p₂ i) * w i) _
    (fun i hi => by rw [hy i hi, hp i]; ring) b]
  ring

section
variable {σ : Type*} (S : Setup σ) (D₁ D₂ D : TrainSet) (ra : ℝ)

theorem gbs_oracle_mixed (hm : Mixture α β D₁ D₂ D) (hs : SuperposingSmoothers S D) :
    OracleMixed α β (S.cfgs D) (S.oracle (gbsEstimator ra) D₁) (S.oracle (gbsEstimator ra) D₂) (S.oracle (gbsEstimator ra) D) := by
  obtain ⟨X, n, y, w, pr⟩ := D
  obtain ⟨X₁, n₁, y₁, w₁, pr₁⟩ := D₁
  obtain ⟨X₂, n₂, y₂, w₂, pr₂⟩ := D₂
  obtain ⟨rfl, rfl, rfl, rfl, rfl, rfl, ht, -⟩ := hm
  dsimp only at ht
  have hcal : ∀ (D : TrainSet) it i fs, (S.oracle (gbsEstimator ra) D).calibrate it i fs = fs.factors := by
    intro D it i fs
    unfold Setup.oracle
    dsimp only
    cases S.features[i]? <;> rfl
  refine ⟨?_, ?_, ?_, rfl, rfl, hcal _, hcal _, hcal _⟩
  · intro it i p₁ p₂ p f₁ f₂ f hp b
    unfold Setup.oracle
    dsimp only
    cases S.features[i]? with
    | none => simp
    | some g => exact mixed_summand α β ra _ _ y₁ y₂ y _ ht _ _ _ hp b
  · intro it i cfg hi p₁ p₂ p f₁ f₂ f v₁ v₂ v hv b hb
    unfold Setup.cfgs at hi
    rw [List.getElem?_map] at hi
    unfold Setup.oracle
    dsimp only
    cases hg : S.features[i]? with
    | none => rw [hg] at hi; simp at hi
    | some g =>
      rw [hg] at hi
      simp only [Option.map_some, Option.some.injEq] at hi
      subst hi
      rw [show v = fun i => α * v₁ i + β * v₂ i from funext hv]
      exact hs g (List.mem_of_getElem? hg) _ _ _ v₁ v₂ α β b hb
  · intro it i cfg hi p₁ p₂ f₁ f₂ v₁ v₂ b hb
    unfold Setup.cfgs at hi
    rw [List.getElem?_map] at hi
    unfold Setup.oracle
    dsimp only
    cases hg : S.features[i]? with
    | none => rfl
    | some g =>
      rw [hg] at hi
      simp only [Option.map_some, Option.some.injEq] at hi
      subst hi
      have key : ∀ u₁ u₂ v₁ v₂, (smoothAtCentres S.base g.2 (bindData X₂ n₂ g.1.group none).2 (binSum n₂ (g.1.cfg X₂ n₂).bin w₂) u₁ v₁ b).isSome
          = true → (smoothAtCentres S.base g.2 (bindData X₂ n₂ g.1.group none).2 (binSum n₂ (g.1.cfg X₂ n₂).bin w₂) u₂ v₂ b).isSome
          = true := by
        intro u₁ u₂ v₁ v₂ h
        have := hs g (List.mem_of_getElem? hg) u₁ u₂ u₁ v₁ v₂ 1 0 b hb
        dsimp only at this
        have e : (fun i => 1 * v₁ i + 0 * v₂ i) = v₁ := funext fun i => by ring
        rw [e] at this
        rw [this] at h
        revert h
        cases smoothAtCentres S.base g.2 (bindData X₂ n₂ g.1.group none).2 (binSum n₂ (g.1.cfg X₂ n₂).bin w₂) u₂ v₂ b <;> simp
      rw [Bool.eq_iff_iff]
      exact ⟨key _ _ _ _, key _ _ _ _⟩

/-- The starting predictions are combined too. -/
theorem mixed_start (hm : Mixture α β D₁ D₂ D) : Mixed α β (startingPredictions D₁) (startingPredictions D₂) (startingPredictions D) := by
  obtain ⟨X, n, y, w, pr⟩ := D
  obtain ⟨X₁, n₁, y₁, w₁, pr₁⟩ := D₁
  obtain ⟨X₂, n₂, y₂, w₂, pr₂⟩ := D₂
  obtain ⟨rfl, rfl, rfl, rfl, rfl, rfl, ht, hp⟩ := hm
  dsimp only at ht hp
  have hmean : (∑ j ∈ range n₂, y j * w₂ j) / ∑ j ∈ range n₂, w₂ j =
      α * ((∑ j ∈ range n₂, y₁ j * w₂ j) / ∑ j ∈ range n₂, w₂ j) + β * ((∑ j ∈ range n₂, y₂ j * w₂ j) / ∑ j ∈ range n₂, w₂ j) := by
    rw [show ∑ j ∈ range n₂, y j * w₂ j = α * (∑ j ∈ range n₂, y₁ j * w₂ j) + β * ∑ j ∈ range n₂, y₂ j * w₂ j by
      rw [Finset.mul_sum, Finset.mul_sum, ← Finset.sum_add_distrib]
      exact Finset.sum_congr rfl fun i hi => by rw [ht i (Finset.mem_range.mp hi)]; ring]
    ring
  intro i
  unfold startingPredictions
  dsimp only
  rcases hp with ⟨rfl, rfl, rfl⟩ | ⟨q₁, q₂, q, rfl, rfl, rfl, hq⟩
  · exact hmean
  · dsimp only
    rcases hq i with ⟨x, z, h1, h2, h3⟩ | ⟨h1, h2, h3⟩
    · rw [h1, h2, h3]
    · cases e1 : q₁ i <;> cases e2 : q₂ i <;> cases e3 : q i <;> rw [e1] at h1 <;> rw [e2] at h2 <;> rw [e3] at h3 <;>
        simp [Flt.isFinite] at h1 h2 h3 <;> exact hmean

/-- The prior part of predictions is combined too. -/
theorem mixed_prior (a₁ a₂ : ℝ) (q₁ q₂ q : Option (ℕ → Flt ℝ)) (hq : MixedPriors α β q₁ q₂ q) (s : ℕ) :
    (priorPrediction .identity (.fin (α * a₁ + β * a₂)) (.fin 0) q s).getFin =
      α * (priorPrediction .identity (.fin a₁) (.fin 0) q₁ s).getFin + β * (priorPrediction .identity (.fin a₂) (.fin 0) q₂ s).getFin := by
  unfold priorPrediction
  rcases hq with ⟨rfl, rfl, rfl⟩ | ⟨p₁, p₂, p, rfl, rfl, rfl, hp⟩
  · rfl
  · dsimp only
    rcases hp s with ⟨x, z, h1, h2, h3⟩ | ⟨h1, h2, h3⟩
    · rw [h1, h2, h3]
      simp [linkFlt, Flt.add, Flt.isFinite, Flt.getFin]
    · cases e1 : p₁ s <;> cases e2 : p₂ s <;> cases e3 : p s <;> rw [e1] at h1 <;> rw [e2] at h2 <;> rw [e3] at h3 <;>
        simp [Flt.isFinite] at h1 h2 h3 <;> simp [linkFlt, Flt.add, Flt.isFinite, Flt.getFin]

theorem gbs_scale (a : ℝ) (h : (gbsEstimator ra).scale D.n D.y D.w = .fin a) :
    a = (∑ j ∈ range D.n, D.y j * D.w j) / ∑ j ∈ range D.n, D.w j := by
  simp only [gbsEstimator, quotientFlt] at h
  split_ifs at h
  exact (Flt.fin.inj h).symm

/-- The conditions on descent do not depend on the target. -/
theorem plainDescent_other (h : PlainDescent S D ra) (D' : TrainSet) (hX : D'.X = D.X) (hn : D'.n = D.n) (hw : D'.w = D.w) :
    PlainDescent S D' ra := by
  obtain ⟨X, n, y, w, pr⟩ := D
  obtain ⟨X', n', y', w', pr'⟩ := D'
  dsimp only at hX hn hw
  subst hX hn hw
  exact ⟨h.aggregate, h.noHierarchy, h.regalpha, h.weights, h.learnRate, h.features, h.smoothers⟩

/-- **C122.** If a target is `α` times one target plus `β` times another one, then after trainings of equally many iterations every
prediction of the model for the combined target is `α` times the prediction of the first model plus `β` times the prediction of the
second. -/
theorem C122_superposition (hm : Mixture α β D₁ D₂ D) (h : PlainDescent S D ra) (hs : SuperposingSmoothers S D) (fuel : ℕ)
    (m₁ m₂ m : FittedModel) (h₁ : S.fit (gbsEstimator ra) D₁ fuel = some (.ok m₁)) (h₂ : S.fit (gbsEstimator ra) D₂ fuel = some (.ok m₂))
    (h₃ : S.fit (gbsEstimator ra) D fuel = some (.ok m)) (hi₁ : m₁.iterations = m.iterations) (hi₂ : m₂.iterations = m.iterations)
    (q₁ q₂ q : Option (ℕ → Flt ℝ)) (hq : MixedPriors α β q₁ q₂ q) (X : Table ℝ) (s : ℕ) :
    m.predict q X s = α * m₁.predict q₁ X s + β * m₂.predict q₂ X s := by
  have g₁ := plainDescent_other S D ra h D₁ hm.table₁ hm.samples₁ hm.weights₁
  have g₂ := plainDescent_other S D ra h D₂ hm.table₂ hm.samples₂ hm.weights₂
  have hcl : ∀ D', PlainDescent S D' ra → ∀ prior past s, Trace (S.paramsFor (gbsEstimator ra)) (S.oracle (gbsEstimator ra) D') (S.cfgs D')
      (startState (S.oracle (gbsEstimator ra) D') (S.cfgs D') prior) past s → s.diverging = 0 := fun D' g prior past s ht =>
    (C80_never_increases S D' ra g.aggregate g.regalpha g.weights g.learnRate (fun f hf => (g.features f hf).1) g.smoothers prior past s
      ht).2.2
  obtain ⟨a₁, r₁, -, sc₁, f₁, rfl⟩ := fit_ok S _ D₁ fuel m₁ h₁
  obtain ⟨a₂, r₂, -, sc₂, f₂, rfl⟩ := fit_ok S _ D₂ fuel m₂ h₂
  obtain ⟨a, r, -, sc, f₃, rfl⟩ := fit_ok S _ D fuel m h₃
  dsimp only at hi₁ hi₂
  obtain ⟨t₁, s₁, tr₁, -, fac₁, -, n₁⟩ := fitMain_ok _ _ _ _ fuel r₁ f₁
  obtain ⟨t₂, s₂, tr₂, -, fac₂, -, n₂⟩ := fitMain_ok _ _ _ _ fuel r₂ f₂
  obtain ⟨t₃, s₃, tr₃, -, fac₃, -, n₃⟩ := fitMain_ok _ _ _ _ fuel r f₃
  have hc₁ : S.cfgs D₁ = S.cfgs D := by unfold Setup.cfgs; rw [hm.table₁, hm.samples₁]
  have hc₂ : S.cfgs D₂ = S.cfgs D := by unfold Setup.cfgs; rw [hm.table₂, hm.samples₂]
  have l₁ := (trace_iterations _ _ _ _ _ _ tr₁).1
  have l₂ := (trace_iterations _ _ _ _ _ _ tr₂).1
  have l₃ := (trace_iterations _ _ _ _ _ _ tr₃).1
  have hd₁ := hcl D₁ g₁
  have hd₂ := hcl D₂ g₂
  have hd₃ := hcl D h
  rw [gbs_baseline D₁ ra a₁ sc₁, hc₁] at tr₁
  rw [gbs_baseline D₂ ra a₂ sc₂, hc₂] at tr₂
  rw [gbs_baseline D ra a sc] at tr₃
  rw [hc₁] at hd₁
  rw [hc₂] at hd₂
  obtain ⟨-, -, -, hfe, -⟩ := mixed_trace α β (S.paramsFor (gbsEstimator ra)) h.aggregate (by simp [Setup.paramsFor, gbsEstimator]) (S.cfgs D)
    _ _ _ (gbs_oracle_mixed α β S D₁ D₂ D ra hm hs) _ _ _ (mixed_start α β D₁ D₂ D hm) (hd₁ _) (hd₂ _) (hd₃ _) r.iterations
    t₁ t₂ t₃ s₁ s₂ s₃ (by omega) (by omega) (by omega) tr₁ tr₂ tr₃
  have hfac := mixed_factors α β _ _ _ _ _ _ hfe fac₁ fac₂ fac₃
  unfold FittedModel.predict
  dsimp only
  rw [hm.table₁, hm.samples₁, hm.table₂, hm.samples₂, gbs_offset, gbs_offset, gbs_offset]
  refine mixed_predictExtended α β X _ _ _ _ _ _ hfac _ _ _ s ?_
  have ha : a = α * a₁ + β * a₂ := by
    have e := gbs_scale D ra a sc
    have e₁ := gbs_scale D₁ ra a₁ sc₁
    have e₂ := gbs_scale D₂ ra a₂ sc₂
    rw [hm.samples₁, hm.weights₁] at e₁
    rw [hm.samples₂, hm.weights₂] at e₂
    rw [e, e₁, e₂, show ∑ j ∈ range D.n, D.y j * D.w j = α * (∑ j ∈ range D.n, D₁.y j * D.w j) + β * ∑ j ∈ range D.n, D₂.y j * D.w j by
      rw [Finset.mul_sum, Finset.mul_sum, ← Finset.sum_add_distrib]
      exact Finset.sum_congr rfl fun i hi => by rw [hm.target i (Finset.mem_range.mp hi)]; ring]
    ring
  rw [ha]
  exact mixed_prior α β a₁ a₂ q₁ q₂ q hq s

theorem factorsDeviation_nonneg (cfgs : List FeatureCfg) (fss : List (FState ℝ)) : 0 ≤ factorsDeviation cfgs fss := by
  unfold factorsDeviation
  refine div_nonneg (List.sum_nonneg fun x hx => ?_) (Nat.cast_nonneg _)
  obtain ⟨i, hi, rfl⟩ := List.getElem_of_mem hx
  rw [List.getElem_zipWith]
  exact factorDeviation_nonneg _ _

/-- A training that never diverges and whose early stop criteria are switched off does exactly `maximal_iterations` iterations. -/
theorem trace_all_iterations (p : Params ℝ) (o : Oracle ℝ) (cfgs : List FeatureCfg) (q : ℕ → ℝ) (hh : p.hierarchical = none)
    (hf : p.minimalFactorChange < 0) (hl : p.minimalLossChange < 0)
    (hd : ∀ past s, Trace p o cfgs (startState o cfgs q) past s → s.diverging = 0)
    (past : List (TState ℝ)) (s : TState ℝ) (h : Trace p o cfgs (startState o cfgs q) past s) :
    s.isDiverging = false ∧ s.iteration ≤ p.maximalIterations ∧ 0 ≤ s.delta ∧
      (continues p s = false → s.iteration = p.maximalIterations) := by
  have hcont : ∀ s : TState ℝ, s.isDiverging = false → 0 ≤ s.delta → (continues p s = true ↔ s.iteration < p.maximalIterations) := by
    intro s h1 h2
    have hlc : s.lossChange.absLe p.minimalLossChange = false := by
      cases s.lossChange with
      | fin a => simp only [Flt.absLe, decide_eq_false_iff_not, not_le]; exact lt_of_lt_of_le hl (abs_nonneg a)
      | nan => rfl
      | pinf => rfl
      | ninf => rfl
    unfold continues checkStop
    simp [h1, hlc, hh, not_le.mpr (lt_of_lt_of_le hf h2)]
  suffices hmain : s.isDiverging = false ∧ s.iteration ≤ p.maximalIterations ∧ 0 ≤ s.delta by
    refine ⟨hmain.1, hmain.2.1, hmain.2.2, fun hc => ?_⟩
    have : ¬ s.iteration < p.maximalIterations := fun hlt => by
      rw [(hcont s hmain.1 hmain.2.2).mpr hlt] at hc
      cases hc
    omega
  induction h with
  | start => exact ⟨rfl, Nat.zero_le _, by norm_num [startState]⟩
  | step ht hc hi ih =>
    have h0 := hd _ _ (.step ht hc hi)
    obtain ⟨feats, pred, r, hfp, hcc, hr, hfe, hp, hn, -, -, -, hdl, -⟩ := iterate_ok p o cfgs _ _ hi
    refine ⟨?_, ?_, ?_⟩
    · unfold checkConvergence at hcc
      split_ifs at hcc
      · simp only [Except.ok.injEq, Prod.mk.injEq] at hcc
        omega
      · simp only [Except.ok.injEq, Prod.mk.injEq] at hcc
        exact hcc.2.symm
    · rw [hn]
      exact (hcont _ ih.1 ih.2.2).mp hc
    · rw [hdl]
      exact factorsDeviation_nonneg _ _

theorem fit_all_iterations (h : PlainDescent S D ra) (hf : S.params.minimalFactorChange < 0) (hl : S.params.minimalLossChange < 0)
    (hmax : 1 ≤ S.params.maximalIterations) (hsum : ∑ i ∈ range D.n, D.w i ≠ 0) (fuel : ℕ) (hfuel : S.params.maximalIterations + 4 ≤ fuel) :
    ∃ m, S.fit (gbsEstimator ra) D fuel = some (.ok m) ∧ m.iterations = S.params.maximalIterations := by
  obtain ⟨-, m, hm⟩ := C80_fit_succeeds S D ra h.aggregate h.regalpha h.weights h.learnRate (fun f hf => (h.features f hf).1) h.smoothers
    hsum hmax h.noHierarchy (by linarith) (by linarith) fuel hfuel
  refine ⟨m, hm, ?_⟩
  obtain ⟨a, r, -, sc, hr, rfl⟩ := fit_ok S _ D fuel m hm
  obtain ⟨t, s, tr, hc, -, -, hn⟩ := fitMain_ok _ _ _ _ fuel r hr
  dsimp only
  rw [hn]
  exact (trace_all_iterations (S.paramsFor (gbsEstimator ra)) _ _ _ h.noHierarchy hf hl (fun past s ht =>
    (C80_never_increases S D ra h.aggregate h.regalpha h.weights h.learnRate (fun f hf => (h.features f hf).1) h.smoothers _ past s
      ht).2.2) t s tr).2.2.2 hc

/-- **C122, fixed number of iterations.** With both early stop criteria switched off (by negative values), the three trainings
succeed, they take the same number of iterations, and the predictions combine as the targets do. -/
theorem C122_fixed_iterations (hm : Mixture α β D₁ D₂ D) (h : PlainDescent S D ra) (hs : SuperposingSmoothers S D)
    (hf : S.params.minimalFactorChange < 0) (hl : S.params.minimalLossChange < 0) (hmax : 1 ≤ S.params.maximalIterations)
    (hsum : ∑ i ∈ range D.n, D.w i ≠ 0) (fuel : ℕ) (hfuel : S.params.maximalIterations + 4 ≤ fuel) :
    ∃ m₁ m₂ m, S.fit (gbsEstimator ra) D₁ fuel = some (.ok m₁) ∧ S.fit (gbsEstimator ra) D₂ fuel = some (.ok m₂) ∧
      S.fit (gbsEstimator ra) D fuel = some (.ok m) ∧
      ∀ (q₁ q₂ q : Option (ℕ → Flt ℝ)), MixedPriors α β q₁ q₂ q → ∀ (X : Table ℝ) (s : ℕ),
        m.predict q X s = α * m₁.predict q₁ X s + β * m₂.predict q₂ X s := by
  obtain ⟨m₁, h₁, i₁⟩ := fit_all_iterations S D₁ ra (plainDescent_other S D ra h D₁ hm.table₁ hm.samples₁ hm.weights₁) hf hl hmax
    (by rw [hm.samples₁, hm.weights₁]; exact hsum) fuel hfuel
  obtain ⟨m₂, h₂, i₂⟩ := fit_all_iterations S D₂ ra (plainDescent_other S D ra h D₂ hm.table₂ hm.samples₂ hm.weights₂) hf hl hmax
    (by rw [hm.samples₂, hm.weights₂]; exact hsum) fuel hfuel
  obtain ⟨m, h₃, i₃⟩ := fit_all_iterations S D ra h hf hl hmax hsum fuel hfuel
  exact ⟨m₁, m₂, m, h₁, h₂, h₃, fun q₁ q₂ q hq X s =>
    C122_superposition α β S D₁ D₂ D ra hm h hs fuel m₁ m₂ m h₁ h₂ h₃ (i₁.trans i₃.symm) (i₂.trans i₃.symm) q₁ q₂ q hq X s⟩

/-- **C122, subtraction.** Training with the targets of one group counted positively and those of the other group counted negatively
gives the model for the first group (targets of the others set to 0) minus the model for the second group. -/
theorem C122_subtraction (inGroup : ℕ → Bool) (hnone : D.prior = none) (h : PlainDescent S D ra) (hs : SuperposingSmoothers S D)
    (hf : S.params.minimalFactorChange < 0) (hl : S.params.minimalLossChange < 0) (hmax : 1 ≤ S.params.maximalIterations)
    (hsum : ∑ i ∈ range D.n, D.w i ≠ 0) (fuel : ℕ) (hfuel : S.params.maximalIterations + 4 ≤ fuel) :
    ∃ mA mB m, S.fit (gbsEstimator ra) (onlyGroup D inGroup) fuel = some (.ok mA) ∧
      S.fit (gbsEstimator ra) (onlyGroup D fun i => !inGroup i) fuel = some (.ok mB) ∧
      S.fit (gbsEstimator ra) (subtractGroup D inGroup) fuel = some (.ok m) ∧
      ∀ (X : Table ℝ) (s : ℕ), m.predict none X s = mA.predict none X s - mB.predict none X s := by
  have hpd := plainDescent_other S D ra h (subtractGroup D inGroup) rfl rfl rfl
  obtain ⟨mA, mB, m, hA, hB, h3, hp⟩ := C122_fixed_iterations 1 (-1) S (onlyGroup D inGroup) (onlyGroup D fun i => !inGroup i)
    (subtractGroup D inGroup) ra ⟨rfl, rfl, rfl, rfl, rfl, rfl, fun i _ => by
      unfold subtractGroup onlyGroup
      dsimp only
      by_cases hi : inGroup i = true <;> simp [hi], Or.inl ⟨hnone, hnone, hnone⟩⟩ hpd hs hf hl hmax hsum fuel hfuel
  refine ⟨mA, mB, m, hA, hB, h3, fun X s => ?_⟩
  rw [hp none none none (Or.inl ⟨rfl, rfl, rfl⟩) X s]
  ring

end
end

section
variable (S : Setup (List (FitRow ℝ) × List ℝ)) (O : OpenSmoothers) (c : Choice) (props : Option (List (String × ℕ)))
  (groups : List (List String))

/-- **C122**, no smoothing: with `NoSmootherChoice` combinations of bin values are smoothed to combinations of smoothed values. -/
theorem C122_no_smoothing (hbase : S.base = packageSmoothers O) (hS : createFeatures c props groups = .ok S.features)
    (hk : c.kind = .noSmoother) (hg : ∀ g ∈ groups, g ≠ []) (D : TrainSet) : SuperposingSmoothers S D := by
  intro f hf u₁ u₂ u v₁ v₂ α β b hb
  obtain ⟨hmem, -, hch⟩ := createFeatures_mem c props groups S.features hS f hf
  have hlen := bindData_length D.X D.n f.1.group
  have hne : (bindData D.X D.n f.1.group none).2 ≠ [] := by
    intro h
    rw [h] at hlen
    exact hg _ hmem (List.length_eq_zero_iff.mp hlen.symm)
  have hb : b < ((bindData D.X D.n f.1.group none).2).prod := hb
  generalize binSum D.n (f.1.cfg D.X D.n).bin D.w = w
  revert hlen hne hb
  generalize (bindData D.X D.n f.1.group none).2 = ns
  intro hlen hne hb
  unfold smootherForGroup Choice.choose at hch
  rw [hk] at hch
  simp only [Choice.wrap, hk, Except.ok.injEq] at hch
  rw [← hch, hbase]
  generalize (if c.useRegressionType = true then _ else none : Option RegType) = t
  by_cases hl : f.1.group.length = 1
  · rw [if_pos hl]
    obtain ⟨n, rfl⟩ := List.length_eq_one_iff.mp (hlen.trans hl)
    have key := fun u v => meta_centre_eq (packageSmoothers O) .binValuesOne (fun _ _ _ => rfl) c.useNormalization
      t [n] hne w u v b hb _
      (by rw [List.prod_singleton] at hb ⊢; exact binValues1_at n w u _ b hb)
    rw [key, key, key]
    split_ifs <;> simp [Flt.toOption]
  · rw [if_neg hl]
    have key := fun u v => meta_centre_eq (packageSmoothers O) .binValuesMany (fun _ _ _ => rfl) c.useNormalization
      t ns hne w u v b hb _ (binValuesMulti_at ns w u _ b hb)
    rw [key, key, key]
    split_ifs <;> simp [Flt.toOption]

end
end CB
