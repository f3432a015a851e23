import Verif.Lemmas.Rounded
import Verif.Props.Training
import Verif.Props.Predict

/-!
# C139: rounding errors do not pile up in the predictions
-/

set_option autoImplicit false
set_option linter.unusedSectionVars false

namespace CB
open Spec

variable {K : Type*} [Field K] [LinearOrder K] [IsStrictOrderedRing K]

/-! ### Exact arithmetic -/

theorem featurePassR_exact (p : Params K) (o : Oracle K) (it dv : ℕ) (isd : Bool) (il : Flt K) :
    ∀ (cfgs : List FeatureCfg) (k : ℕ) (fss : List (FState K)) (pred : Pred K),
      featurePassR Machine.exact p o it dv isd il k cfgs fss pred = featurePass p o it dv isd il k cfgs fss pred := by
  intro cfgs
  induction cfgs with
  | nil => intro k fss pred; simp [featurePassR, featurePass]
  | cons cfg cfgs ih =>
    intro k fss pred
    cases fss with
    | nil => simp [featurePassR, featurePass]
    | cons fs fss =>
      rw [featurePassR, featurePass]
      simp only [ih]
      rfl

theorem removePredsR_exact :
    ∀ (cfgs : List FeatureCfg) (fss : List (FState K)) (pred : Pred K),
      removePredsR Machine.exact cfgs fss pred = removePreds cfgs fss pred := by
  intro cfgs
  induction cfgs with
  | nil => intro fss pred; simp [removePredsR, removePreds]
  | cons cfg cfgs ih =>
    intro fss pred
    cases fss with
    | nil => simp [removePredsR, removePreds]
    | cons fs fss =>
      rw [removePredsR, removePreds]
      simp only [ih]
      rfl

theorem iterateR_exact (p : Params K) (o : Oracle K) (cfgs : List FeatureCfg) (s : TState K) :
    iterateR Machine.exact p o cfgs s = iterate p o cfgs s := by
  unfold iterateR iterate
  simp only [featurePassR_exact, removePredsR_exact]
  rfl

theorem loopR_exact (p : Params K) (o : Oracle K) (cfgs : List FeatureCfg) :
    ∀ (fuel : ℕ) (s : TState K), loopR Machine.exact p o cfgs fuel s = loop p o cfgs fuel s := by
  intro fuel
  induction fuel with
  | zero => intro s; rw [loopR, loop]
  | succ fuel ih =>
    intro s
    rw [loopR, loop]
    simp only [iterateR_exact, ih]
    rfl

/-- **C139, exact arithmetic.** Without rounding, the training with machine arithmetic is the training of C18 to C23, and so is the
prediction. -/
theorem C139_exact [FloorRing K] (p : Params K) (o : Oracle K) (cfgs : List FeatureCfg) (prior : ℕ → K) (fuel : ℕ)
    (features : List (FittedFeature K)) (X : Table K) :
    fitMainR Machine.exact p o cfgs prior fuel = fitMain p o cfgs prior fuel ∧
      predictExtendedR Machine.exact prior features X = predictExtended prior features X := by
  refine ⟨?_, rfl⟩
  unfold fitMainR fitMain
  rw [loopR_exact]
  rfl

/-! ### Histories -/

/-- The ingredients of a successful iteration. -/
theorem iterateR_ok (m : Machine K) (p : Params K) (o : Oracle K) (cfgs : List FeatureCfg) (s s' : TState K)
    (h : iterateR m p o cfgs s = .ok s') :
    ∃ (feats : List (FState K)) (pred : Pred K) (r : List (FState K) × Pred K),
      featurePassR m p o s.iteration s.diverging s.isDiverging s.initialLoss 0 cfgs s.feats s.pred = (feats, pred) ∧
      (if s'.isDiverging then removePredsR m cfgs feats pred else .ok (feats, pred)) = .ok r ∧
      s'.feats = r.1 ∧ s'.pred = r.2 ∧ s'.iteration = s.iteration + 1 ∧ s'.prediction = pred := by
  unfold iterateR at h
  simp only at h
  split at h
  · cases h
  · rename_i dv isd hcc
    split at h
    · cases h
    · rename_i f pr hr
      injection h with h
      subst h
      exact ⟨_, _, (f, pr), rfl, hr, rfl, rfl, rfl, rfl⟩

theorem featurePassR_WF (m : Machine K) (p : Params K) (o : Oracle K) (it dv : ℕ) (isd : Bool) (il : Flt K) :
    ∀ (cfgs : List FeatureCfg) (i : ℕ) (fss : List (FState K)) (pred : Pred K), (∀ fs ∈ fss, fs.WF) →
      ∀ fs ∈ (featurePassR m p o it dv isd il i cfgs fss pred).1, fs.WF := by
  intro cfgs
  induction cfgs with
  | nil => intro i fss pred _; simp [featurePassR]
  | cons cfg cfgs ih =>
    intro i fss pred hw
    cases fss with
    | nil => simp [featurePassR]
    | cons fs fss =>
      rw [featurePassR]
      simp only
      intro g hg
      rcases List.mem_cons.mp hg with rfl | hg
      · have hw0 : fs.WF := hw fs (by simp)
        split
        · split
          · exact hw0
          · exact hw0
        · unfold featureIterationR
          exact (visitFactorsR_WF m p o cfg dv isd il _ _ _).1
      · exact ih _ _ _ (fun g hg => hw g (by simp [hg])) g hg

theorem removePredsR_WF (m : Machine K) :
    ∀ (cfgs : List FeatureCfg) (fss : List (FState K)) (pred : Pred K) (r : List (FState K) × Pred K),
      removePredsR m cfgs fss pred = .ok r → (∀ fs ∈ fss, fs.WF) → ∀ fs ∈ r.1, fs.WF ∧ fs.isFitted = true := by
  intro cfgs
  induction cfgs with
  | nil =>
    intro fss pred r h _
    simp only [removePredsR, Except.ok.injEq] at h
    rw [← h]; simp
  | cons cfg cfgs ih =>
    intro fss pred r h hw
    cases fss with
    | nil =>
      simp only [removePredsR, Except.ok.injEq] at h
      rw [← h]; simp
    | cons fs fss =>
      rw [removePredsR] at h
      split at h
      · cases h
      rename_i agg hag
      dsimp only at h
      split at h
      · cases h
      rename_i rest pred' hrest
      rw [Except.ok.injEq] at h
      subst h
      intro g hg
      rcases List.mem_cons.mp hg with rfl | hg
      · have hw0 := hw fs (by simp)
        unfold FState.WF at hw0 ⊢
        rw [hag] at hw0
        have : fs.isFitted = true := by simpa using hw0
        simp [this]
      · exact ih fss _ _ hrest (fun g hg => hw g (by simp [hg])) g hg

/-- In every state the features are well formed, and while training diverges all of them are fitted. -/
theorem rtrace_WF (m : Machine K) (p : Params K) (o : Oracle K) (cfgs : List FeatureCfg) (prior : ℕ → K) (past : List (TState K))
    (s : TState K) (h : RTrace m p o cfgs (startState o cfgs prior) past s) :
    (∀ fs ∈ s.feats, fs.WF) ∧ (s.isDiverging = true → ∀ fs ∈ s.feats, fs.isFitted = true) := by
  induction h with
  | start => exact ⟨(startState_WF o cfgs prior).2, by simp [startState]⟩
  | @step past s s' ht hc hit ih =>
    obtain ⟨feats, pred, r, hfp, hr, hf, -⟩ := iterateR_ok m p o cfgs _ _ hit
    have h1 := featurePassR_WF m p o s.iteration s.diverging s.isDiverging s.initialLoss cfgs 0 s.feats s.pred ih.1
    rw [hfp] at h1
    rw [hf]
    cases hd : s'.isDiverging with
    | true =>
      rw [hd, if_pos rfl] at hr
      have h2 := removePredsR_WF m cfgs feats pred r hr h1
      exact ⟨fun fs hfs => (h2 fs hfs).1, fun _ fs hfs => (h2 fs hfs).2⟩
    | false =>
      rw [hd] at hr
      simp only [Bool.false_eq_true, if_false, Except.ok.injEq] at hr
      rw [← hr]
      exact ⟨h1, by simp⟩

theorem rtrace_prediction (m : Machine K) (p : Params K) (o : Oracle K) (cfgs : List FeatureCfg) (prior : ℕ → K)
    (past : List (TState K)) (s : TState K) (h : RTrace m p o cfgs (startState o cfgs prior) past s)
    (hd : s.isDiverging = false) : s.prediction = s.pred := by
  cases h with
  | start => rfl
  | step ht hc hit =>
    obtain ⟨feats, pred, r, -, hr, -, hpr, -, hpd⟩ := iterateR_ok m p o cfgs _ _ hit
    rw [hd] at hr
    simp only [Bool.false_eq_true, if_false, Except.ok.injEq] at hr
    rw [hpd, hpr, ← hr]

theorem loopR_done (m : Machine K) (p : Params K) (o : Oracle K) (cfgs : List FeatureCfg) (s0 : TState K) :
    ∀ (fuel : ℕ) (s s' : TState K) (past : List (TState K)), RTrace m p o cfgs s0 past s →
      loopR m p o cfgs fuel s = .done s' →
      ∃ past', RTrace m p o cfgs s0 past' s' ∧ continues p s' = false := by
  intro fuel
  induction fuel with
  | zero =>
    intro s s' past ht h
    rw [loopR] at h
    split at h
    · cases h
    · rename_i hc
      injection h with h
      subst h
      exact ⟨past, ht, by simpa using hc⟩
  | succ fuel ih =>
    intro s s' past ht h
    rw [loopR] at h
    split at h
    · rename_i hc
      split at h
      · cases h
      · rename_i s1 hit
        exact ih s1 s' (s :: past) (.step ht hc hit) h
    · rename_i hc
      injection h with h
      subst h
      exact ⟨past, ht, by simpa using hc⟩

section
variable (m : Machine K) (u : K) (hu : 0 ≤ u) (hu2 : u ≤ 1 / 2) (hm : RoundsWithin m u)
variable (p : Params K) (hp : p.aggregate = true) (o : Oracle K) (cfgs : List FeatureCfg) (prior : ℕ → K) (L : K) (hL : 0 ≤ L)
variable (hc : p.clip = true → ∀ e one, |p.consts.logMin e one| ≤ L ∧ |p.consts.logMax e one| ≤ L)
variable (hst : StaysWithin m p o cfgs prior L)
include hu hu2 hm hp hL hc hst

theorem rtrace_error (past : List (TState K)) (s : TState K) (h : RTrace m p o cfgs (startState o cfgs prior) past s) (e : Bool) (i : ℕ) :
    |prior i| + cfgs.length * (2 * L) + |s.pred.col e i - ((if e then 0 else prior i) + storedSum e cfgs s.feats i)| ≤
      (1 + u) ^ (6 * cfgs.length * s.iteration) * (|prior i| + cfgs.length * (2 * L)) := by
  have hS : |if e then 0 else prior i| + cfgs.length * (2 * L) ≤ |prior i| + cfgs.length * (2 * L) := by
    cases e <;> simp
  generalize |prior i| + cfgs.length * (2 * L) = S at hS ⊢
  have hS0 : 0 ≤ S := by
    have := abs_nonneg (if e then 0 else prior i)
    have : (0 : K) ≤ cfgs.length * (2 * L) := by positivity
    linarith
  have hone : 1 ≤ 1 + u := by linarith
  induction h with
  | start =>
    have h0 : storedSum e cfgs (startState o cfgs prior).feats i = 0 := by
      unfold startState
      simp only
      clear hst hS
      induction cfgs with
      | nil => exact storedSum_nil_left _ _ _
      | cons c cs ih =>
        rw [List.map_cons, storedSum_cons, ih]
        simp [stored, FState.init]
    rw [h0]
    unfold startState Pred.col
    cases e <;> simp
  | @step past s s' ht hcont hit ih =>
    obtain ⟨hw, hdf⟩ := rtrace_WF m p o cfgs prior past s ht
    obtain ⟨hin, hmid⟩ := hst past s ht
    obtain ⟨hout, -⟩ := hst (s :: past) s' (.step ht hcont hit)
    have hmid := hmid hcont
    obtain ⟨feats, pred, r, hfp, hr, hf, hpr, hiter, -⟩ := iterateR_ok m p o cfgs _ _ hit
    have h1 := featurePassR_error m u hu hu2 hm p hp o L hL hc s.iteration s.diverging s.isDiverging s.initialLoss e i S cfgs 0
      s.feats s.pred (if e then 0 else prior i) hw hdf hin hmid hS
    rw [hfp] at h1 hmid
    dsimp only at h1 hmid
    have h2 : S + |s'.pred.col e i - ((if e then 0 else prior i) + storedSum e cfgs s'.feats i)| ≤
        (1 + u) ^ (2 * cfgs.length) * (S + |pred.col e i - ((if e then 0 else prior i) + storedSum e cfgs feats i)|) := by
      rw [hf] at hout
      rw [hf, hpr]
      split at hr
      · exact removePredsR_error m u hu hu2 hm L hL e i S cfgs feats pred r _ hr hmid hout hS
      · rw [Except.ok.injEq] at hr
        rw [← hr]
        exact le_mul_of_one_le_left (by positivity) (one_le_pow₀ hone)
    rw [hiter]
    calc _ ≤ (1 + u) ^ (2 * cfgs.length) * ((1 + u) ^ (4 * cfgs.length) *
          ((1 + u) ^ (6 * cfgs.length * s.iteration) * S)) :=
          h2.trans (mul_le_mul_of_nonneg_left (h1.trans (mul_le_mul_of_nonneg_left ih (by positivity))) (by positivity))
      _ = _ := by
        rw [← mul_assoc, ← mul_assoc, ← pow_add, ← pow_add]
        congr 2
        ring

/-- **C139, during training.** In floating-point arithmetic with relative errors of at most `u`, after any number of iterations
the running prediction of every sample in link space differs from the prior prediction plus the sum of the stored factors by at most
`(1 + u) ^ (6 F n) - 1` times the largest possible size of this sum; `F` is the number of features, `n` the number of iterations,
and `2 L` bounds a contribution. This holds for any estimates, smoothers, losses and learning rates, also if training diverges. -/
theorem C139_bookkeeping (past : List (TState K)) (s : TState K) (h : RTrace m p o cfgs (startState o cfgs prior) past s) (i : ℕ) :
    |s.pred.factors i - (prior i + storedSum false cfgs s.feats i)| ≤
        ((1 + u) ^ (6 * cfgs.length * s.iteration) - 1) * (|prior i| + cfgs.length * (2 * L)) ∧
      |s.pred.exponents i - storedSum true cfgs s.feats i| ≤
        ((1 + u) ^ (6 * cfgs.length * s.iteration) - 1) * (|prior i| + cfgs.length * (2 * L)) := by
  have h0 := rtrace_error m u hu hu2 hm p hp o cfgs prior L hL hc hst past s h false i
  have h1 := rtrace_error m u hu hu2 hm p hp o cfgs prior L hL hc hst past s h true i
  simp only [Pred.col, if_true, Bool.false_eq_true, if_false, zero_add] at h0 h1
  rw [sub_mul, one_mul]
  exact ⟨by linarith, by linarith⟩

end

/-! ### Prediction -/

section
variable [FloorRing K]

theorem predictR_fold (m : Machine K) (u : K) (hu : 0 ≤ u) (hm : RoundsWithin m u) (L : K) (X : Table K) (s : ℕ) (S : K) :
    ∀ (features : List (FittedFeature K)) (pred : Pred K) (ef ee : K), (∀ f ∈ features, |f.predict (X.row f.group s)| ≤ L) →
      |ef| + features.length * L ≤ S → |ee| + features.length * L ≤ S →
      let r := features.foldl (fun pred f =>
        let v : ℕ → K := fun s => f.predict (X.row f.group s)
        if f.external then { pred with exponents := fun s => m.add (pred.exponents s) (v s) }
        else { pred with factors := fun s => m.add (pred.factors s) (v s) }) pred
      S + |r.factors s - (ef + contributionSum false features X s)| ≤
          (1 + u) ^ features.length * (S + |pred.factors s - ef|) ∧
        S + |r.exponents s - (ee + contributionSum true features X s)| ≤
          (1 + u) ^ features.length * (S + |pred.exponents s - ee|) := by
  have hone : 1 ≤ 1 + u := by linarith
  -- one addition
  have one : ∀ a e v : K, |e + v| ≤ S → S + |m.add a v - (e + v)| ≤ (1 + u) * (S + |a - e|) := by
    intro a e v h
    have h1 := (hm a v).1
    have h2 : |a + v| ≤ |a - e| + |e + v| := by
      have := abs_add_le (a - e) (e + v)
      rwa [show a - e + (e + v) = a + v by ring] at this
    have h3 : |m.add a v - (e + v)| ≤ |m.add a v - (a + v)| + |a - e| := by
      have := abs_add_le (m.add a v - (a + v)) (a - e)
      rwa [show m.add a v - (a + v) + (a - e) = m.add a v - (e + v) by ring] at this
    have h4 : u * |a + v| ≤ u * (|a - e| + S) := mul_le_mul_of_nonneg_left (by linarith) hu
    linarith
  intro features
  induction features with
  | nil => intro pred ef ee _ _ _; simp [contributionSum]
  | cons f fs ih =>
    intro pred ef ee hv hf he
    have hvf := hv f (by simp)
    have hL0 : 0 ≤ L := (abs_nonneg _).trans hvf
    rw [List.length_cons] at hf he
    push_cast at hf he
    have hn0 : (0 : K) ≤ fs.length * L := by positivity
    have hS0 : 0 ≤ S := by have := abs_nonneg ef; linarith
    have hvs : ∀ g ∈ fs, |g.predict (X.row g.group s)| ≤ L := fun g hg => hv g (by simp [hg])
    have ha1 := abs_add_le ef (f.predict (X.row f.group s))
    have ha2 := abs_add_le ee (f.predict (X.row f.group s))
    have stay : ∀ t : K, 0 ≤ t → S + t ≤ (1 + u) * (S + t) := fun t ht => le_mul_of_one_le_left (by linarith) hone
    have chain : ∀ a b c : K, a ≤ (1 + u) ^ fs.length * b → b ≤ (1 + u) * c → a ≤ (1 + u) ^ (f :: fs).length * c := by
      intro a b c h1 h2
      rw [List.length_cons, pow_succ, mul_assoc]
      exact h1.trans (mul_le_mul_of_nonneg_left h2 (by positivity))
    rw [List.foldl_cons]
    dsimp only
    cases hx : f.external with
    | true =>
      have h1 := ih { pred with exponents := fun s => m.add (pred.exponents s) (f.predict (X.row f.group s)) } ef
        (ee + f.predict (X.row f.group s)) hvs (by linarith) (by linarith)
      dsimp only at h1
      rw [if_pos rfl]
      refine ⟨?_, ?_⟩
      · have hcs : contributionSum false (f :: fs) X s = contributionSum false fs X s := by
          unfold contributionSum; simp [hx]
        rw [hcs]
        exact chain _ _ _ h1.1 (stay _ (abs_nonneg _))
      · have hcs : contributionSum true (f :: fs) X s = f.predict (X.row f.group s) + contributionSum true fs X s := by
          unfold contributionSum; simp [hx]
        rw [hcs, ← add_assoc]
        exact chain _ _ _ h1.2 (one _ _ _ (by linarith))
    | false =>
      have h1 := ih { pred with factors := fun s => m.add (pred.factors s) (f.predict (X.row f.group s)) }
        (ef + f.predict (X.row f.group s)) ee hvs (by linarith) (by linarith)
      dsimp only at h1
      rw [if_neg (by simp)]
      refine ⟨?_, ?_⟩
      · have hcs : contributionSum false (f :: fs) X s = f.predict (X.row f.group s) + contributionSum false fs X s := by
          unfold contributionSum; simp [hx]
        rw [hcs, ← add_assoc]
        exact chain _ _ _ h1.1 (one _ _ _ (by linarith))
      · have hcs : contributionSum true (f :: fs) X s = contributionSum true fs X s := by
          unfold contributionSum; simp [hx]
        rw [hcs]
        exact chain _ _ _ h1.2 (stay _ (abs_nonneg _))

theorem fitted_within (L : K) (X : Table K) (n t : ℕ) (ht : t < n) :
    ∀ (specs : List FeatureSpec) (factors : List (ℕ → K)), (∀ fac ∈ factors, ∀ b, |fac b| ≤ L) → (∀ f ∈ specs, f.group ≠ []) →
      (∀ f ∈ specs, ∀ c, f.group = [c] → ∀ x : K, X t c = .fin x → ∃ k : ℤ, x = (k : K)) →
      ∀ f ∈ fittedFeatures X n specs factors, |f.predict (X.row f.group t)| ≤ L := by
  intro specs
  induction specs with
  | nil => intro factors _ _ _ f hf; simp [fittedFeatures] at hf
  | cons g specs ih =>
    intro factors hfac hg hint f hf
    cases factors with
    | nil => simp [fittedFeatures] at hf
    | cons fac factors =>
      rcases List.mem_cons.mp (show f ∈ (⟨g.group, g.external, (bindData X n g.group none).2, fac⟩ : FittedFeature K) ::
        fittedFeatures X n specs factors from hf) with rfl | hf
      · have := predict_train X n g (hg g (by simp)) fac t ht (hint g (by simp))
        dsimp only at this ⊢
        rw [this]
        exact hfac fac (by simp) _
      · exact ih factors (fun fac hf => hfac fac (by simp [hf])) (fun f hf => hg f (by simp [hf]))
          (fun f hf => hint f (by simp [hf])) f hf

/-- **C139.** Training and predicting in floating-point arithmetic with relative errors of at most `u`: `predict` on the training table
reproduces the in-sample prediction of `fit` in link space, up to `(1 + u) ^ (F (6 n + 1)) - 1` times the largest possible size of the
prediction. `F` is the number of features, `n` the number of iterations, and no stored factor ever exceeds `L`. For which features a
single column must hold integers is explained at `C19_predict_train`. -/
theorem C139_predict (m : Machine K) (u : K) (hu : 0 ≤ u) (hu2 : u ≤ 1 / 2) (hm : RoundsWithin m u)
    (p : Params K) (hp : p.aggregate = true) (o : Oracle K) (X : Table K) (n : ℕ) (specs : List FeatureSpec) (prior : ℕ → K)
    (L : K) (hL : 0 ≤ L) (hc : p.clip = true → ∀ e one, |p.consts.logMin e one| ≤ L ∧ |p.consts.logMax e one| ≤ L)
    (hst : StaysWithin m p o (specs.map (fun f => f.cfg X n)) prior L) (fuel : ℕ) (r : FitResult K)
    (h : fitMainR m p o (specs.map (fun f => f.cfg X n)) prior fuel = some (.ok r)) (t : ℕ) (ht : t < n)
    (hg : ∀ f ∈ specs, f.group ≠ [])
    (hint : ∀ f ∈ specs, ∀ c, f.group = [c] → ∀ x : K, X t c = .fin x → ∃ k : ℤ, x = (k : K)) :
    |(predictExtendedR m prior (fittedFeatures X n specs r.factors) X).factors t - r.prediction.factors t| ≤
        ((1 + u) ^ (specs.length * (6 * r.iterations + 1)) - 1) * (|prior t| + specs.length * (2 * L)) ∧
      |(predictExtendedR m prior (fittedFeatures X n specs r.factors) X).exponents t - r.prediction.exponents t| ≤
        ((1 + u) ^ (specs.length * (6 * r.iterations + 1)) - 1) * (|prior t| + specs.length * (2 * L)) := by
  obtain ⟨past, s, htr, hcont, hf, hpred, hit⟩ : ∃ (past : List (TState K)) (s : TState K),
      RTrace m p o (specs.map (fun f => f.cfg X n)) (startState o (specs.map (fun f => f.cfg X n)) prior) past s ∧
      continues p s = false ∧ s.feats.map (fun fs => fs.agg) = r.factors.map some ∧ r.prediction = s.prediction ∧
      r.iterations = s.iteration := by
    unfold fitMainR at h
    split at h
    · cases h
    · cases h
    · rename_i s hl
      obtain ⟨past, ht, hc⟩ := loopR_done m p o _ _ fuel _ s [] .start hl
      refine ⟨past, s, ht, hc, ?_⟩
      split at h
      · cases h
      · rename_i factors hpf
        split at h
        · cases h
        · injection h with h
          injection h with h
          subst h
          exact ⟨prepareFeatures_spec _ _ hpf, rfl, rfl⟩
  have hd : s.isDiverging = false := by
    unfold continues at hcont
    rw [Bool.or_eq_false_iff] at hcont
    exact hcont.2
  have hone : 1 ≤ 1 + u := by linarith
  have hin := (hst past s htr).1
  have hfac : ∀ fac ∈ r.factors, ∀ b, |fac b| ≤ L := by
    intro fac hfac b
    have h1 : some fac ∈ s.feats.map (fun fs => fs.agg) := by rw [hf]; exact List.mem_map_of_mem hfac
    obtain ⟨fs, hfs, hag⟩ := List.mem_map.mp h1
    have := hin fs hfs b
    unfold stored at this
    rw [hag] at this
    exact this
  obtain ⟨h1, h2⟩ := C139_bookkeeping m u hu hu2 hm p hp o _ prior L hL hc hst past s htr t
  rw [← factorSum_eq false t _ _ _ hf, ← contributionSum_train X n t ht false specs _ hg hint] at h1
  rw [← factorSum_eq true t _ _ _ hf, ← contributionSum_train X n t ht true specs _ hg hint] at h2
  rw [← rtrace_prediction m p o _ prior past s htr hd, ← hpred, ← hit] at h1 h2
  rw [List.length_map] at h1 h2
  have hlen : (fittedFeatures X n specs r.factors).length ≤ specs.length := by
    unfold fittedFeatures
    rw [List.length_zipWith]
    exact min_le_left _ _
  have hlenK : ((fittedFeatures X n specs r.factors).length : K) * L ≤ specs.length * (2 * L) := by
    have : ((fittedFeatures X n specs r.factors).length : K) ≤ specs.length := by exact_mod_cast hlen
    nlinarith [mul_le_mul_of_nonneg_right this hL, mul_nonneg (Nat.cast_nonneg (α := K) specs.length) hL]
  have h3 := predictR_fold m u hu hm L X t (|prior t| + specs.length * (2 * L)) (fittedFeatures X n specs r.factors)
    ⟨prior, fun _ => 0⟩ (prior t) 0 (fitted_within L X n t ht specs r.factors hfac hg hint) (by linarith)
    (by rw [abs_zero]; have := abs_nonneg (prior t); linarith)
  dsimp only at h3
  rw [sub_self, sub_self, abs_zero, add_zero, zero_add] at h3
  have hS0 : 0 ≤ |prior t| + specs.length * (2 * L) := by positivity
  generalize |prior t| + specs.length * (2 * L) = S at h1 h2 h3 hS0 ⊢
  have hpow : (1 + u) ^ (fittedFeatures X n specs r.factors).length ≤ (1 + u) ^ specs.length := pow_le_pow_right₀ hone hlen
  have hexp : (1 + u) ^ (specs.length * (6 * r.iterations + 1)) =
      (1 + u) ^ (6 * specs.length * r.iterations) * (1 + u) ^ specs.length := by
    rw [← pow_add]; congr 1; ring
  have hA : 1 ≤ (1 + u) ^ (6 * specs.length * r.iterations) := one_le_pow₀ hone
  have hB : 1 ≤ (1 + u) ^ specs.length := one_le_pow₀ hone
  rw [hexp]
  have hbS := mul_le_mul_of_nonneg_right hpow hS0
  generalize (1 + u) ^ (fittedFeatures X n specs r.factors).length = b at hbS h3
  generalize (1 + u) ^ (6 * specs.length * r.iterations) = A at hA h1 h2 ⊢
  generalize (1 + u) ^ specs.length = B at hB hbS ⊢
  have hAB : (A - 1) * S + (B - 1) * S ≤ (A * B - 1) * S := by
    nlinarith [mul_nonneg (mul_nonneg (sub_nonneg.mpr hA) (sub_nonneg.mpr hB)) hS0]
  unfold predictExtendedR
  constructor
  · refine le_trans ?_ hAB
    refine (abs_sub_le _ (prior t + contributionSum false (fittedFeatures X n specs r.factors) X t) _).trans ?_
    rw [abs_sub_comm _ (r.prediction.factors t)]
    linarith [h3.1]
  · refine le_trans ?_ hAB
    refine (abs_sub_le _ (contributionSum true (fittedFeatures X n specs r.factors) X t) _).trans ?_
    rw [abs_sub_comm _ (r.prediction.exponents t)]
    linarith [h3.2]

end

/-- **C139, size of the bound.** As long as the number `N` of roundings is below `1 / (2 u)` (about `4.5 * 10 ^ 15` for double
precision), the relative bound is at most `2 N u`: rounding errors grow linearly with the number of features and iterations. -/
theorem C139_linear (u : K) (hu : 0 ≤ u) (N : ℕ) (hN : N * u ≤ 1 / 2) : (1 + u) ^ N - 1 ≤ 2 * N * u := by
  by_cases hN0 : N = 0
  · subst hN0; simp
  have hu1 : u ≤ 1 / 2 := by
    have : (1 : K) ≤ N := by exact_mod_cast Nat.one_le_iff_ne_zero.mpr hN0
    nlinarith
  have h1 : 1 + (N : K) * (-u) ≤ (1 + -u) ^ N := one_add_mul_le_pow (by linarith) N
  have h2 : (1 + u) ^ N * (1 + -u) ^ N ≤ 1 := by
    rw [← mul_pow]
    exact pow_le_one₀ (by nlinarith) (by nlinarith)
  have hx : 1 ≤ (1 + u) ^ N := one_le_pow₀ (by linarith)
  have h3 : (1 + u) ^ N * (1 - N * u) ≤ 1 := by
    refine le_trans (mul_le_mul_of_nonneg_left ?_ (by linarith)) h2
    linarith
  have hNu : 0 ≤ N * u := by positivity
  generalize (1 + u) ^ N = x at *
  by_contra hcon
  push Not at hcon
  have h4 : (1 + 2 * (N * u)) * (1 - N * u) < x * (1 - N * u) := mul_lt_mul_of_pos_right (by linarith) (by linarith)
  nlinarith

/-! ### Estimators with logarithmic link -/

section
variable (m : Machine K) (u : K) (hu : 0 ≤ u) (hu8 : u ≤ 1 / 8) (hm : RoundsWithin m u)
variable (p : Params K) (hp : p.aggregate = true) (hcl : p.clip = true) (o : Oracle K) (ℓ : K)
variable (h2 : |p.consts.logHalf| ≤ ℓ ∧ |p.consts.logTwo| ≤ ℓ)
variable (hc : ∀ e one, |p.consts.logMin e one| ≤ ℓ ∧ |p.consts.logMax e one| ≤ ℓ)
include hu hu8 hm hp hcl h2 hc

theorem visitFactorsR_within (cfg : FeatureCfg) (dv : ℕ) (il : Flt K) (un : ℕ → K) (fs : FState K) (pred : Pred K) (hw : fs.WF)
    (ha : ∀ b, |stored fs b| ≤ 2 * ℓ) (b : ℕ) :
    |stored (visitFactorsR m p o cfg dv false il un fs pred).1 b| ≤ 2 * ℓ := by
  have hl0 : 0 ≤ ℓ := (abs_nonneg _).trans h2.1
  unfold visitFactorsR
  simp only [hcl, hp, Bool.and_self, if_true, Bool.false_eq_true, if_false]
  unfold FState.WF at hw
  unfold stored at ha ⊢
  dsimp only
  cases hf : fs.isFitted with
  | false =>
    dsimp only
    unfold clipUpdateR
    rw [hf]
    dsimp only
    obtain ⟨d1, d2⟩ := abs_le.mp h2.1
    obtain ⟨d3, d4⟩ := abs_le.mp h2.2
    unfold clipTo
    rw [abs_le]
    constructor
    · rcases min_choice (max (fs.factors b) p.consts.logHalf) p.consts.logTwo with h | h
      · rw [h]
        have := le_max_right (fs.factors b) p.consts.logHalf
        linarith
      · rw [h]; linarith
    · have := min_le_right (max (fs.factors b) p.consts.logHalf) p.consts.logTwo
      linarith
  | true =>
    cases hag : fs.agg with
    | none => rw [hf, hag] at hw; simp at hw
    | some agg =>
      rw [hag] at ha
      have ha := ha b
      dsimp only at ha ⊢
      unfold clipUpdateR
      rw [hf, hag]
      dsimp only
      generalize clipTo (fs.factors b) p.consts.logHalf p.consts.logTwo = v
      obtain ⟨hlo, hhi⟩ := hc cfg.external (cfg.group.length == 1)
      generalize p.consts.logMin cfg.external (cfg.group.length == 1) = lo at hlo ⊢
      generalize p.consts.logMax cfg.external (cfg.group.length == 1) = hi at hhi ⊢
      have h1 := (hm lo (agg b)).2
      have h3 := (hm hi (agg b)).2
      have b1 : u * |lo - agg b| ≤ 3 / 8 * ℓ := by
        have := abs_sub lo (agg b)
        nlinarith [abs_nonneg (lo - agg b)]
      have b2 : u * |hi - agg b| ≤ 3 / 8 * ℓ := by
        have := abs_sub hi (agg b)
        nlinarith [abs_nonneg (hi - agg b)]
      obtain ⟨c1, c2⟩ := abs_le.mp (h1.trans b1)
      obtain ⟨c3, c4⟩ := abs_le.mp (h3.trans b2)
      obtain ⟨d1, d2⟩ := abs_le.mp hlo
      obtain ⟨d3, d4⟩ := abs_le.mp hhi
      have hsum : |agg b + clipTo v (m.sub lo (agg b)) (m.sub hi (agg b))| ≤ 11 / 8 * ℓ := by
        unfold clipTo
        rw [abs_le]
        constructor
        · rcases min_choice (max v (m.sub lo (agg b))) (m.sub hi (agg b)) with h | h
          · rw [h]
            have := le_max_right v (m.sub lo (agg b))
            linarith
          · rw [h]; linarith
        · have := min_le_right (max v (m.sub lo (agg b))) (m.sub hi (agg b))
          linarith
      generalize clipTo v (m.sub lo (agg b)) (m.sub hi (agg b)) = f at hsum ⊢
      have h4 := (hm (agg b) f).1
      have h5 : |m.add (agg b) f| ≤ |agg b + f| + u * |agg b + f| := by
        have := abs_add_le (agg b + f) (m.add (agg b) f - (agg b + f))
        rw [show agg b + f + (m.add (agg b) f - (agg b + f)) = m.add (agg b) f by ring] at this
        linarith
      nlinarith [abs_nonneg (agg b + f)]

theorem featurePassR_within (it dv : ℕ) (il : Flt K) :
    ∀ (cfgs : List FeatureCfg) (k : ℕ) (fss : List (FState K)) (pred : Pred K), (∀ fs ∈ fss, fs.WF) → FactorsWithin (2 * ℓ) fss →
      FactorsWithin (2 * ℓ) (featurePassR m p o it dv false il k cfgs fss pred).1 := by
  intro cfgs
  induction cfgs with
  | nil => intro k fss pred _ _ fs hfs; simp [featurePassR] at hfs
  | cons cfg cfgs ih =>
    intro k fss pred hw hin
    cases fss with
    | nil => intro fs hfs; simp [featurePassR] at hfs
    | cons fs fss =>
      rw [featurePassR]
      simp only
      generalize hfs0 : (if it = 0 then { fs with factors := fun _ => 0 } else fs : FState K) = fs0
      have hs0 : stored fs0 = stored fs := by rw [← hfs0]; split <;> rfl
      have hw1 : fs0.WF := by rw [← hfs0]; split <;> exact hw fs (by simp)
      intro g hg b
      rcases List.mem_cons.mp hg with rfl | hg
      · split
        · show |stored fs0 b| ≤ 2 * ℓ
          rw [hs0]
          exact hin fs (by simp) b
        · obtain ⟨g, un, h3, h4, h5, hF⟩ := featureIterationR_form m p hp o it k cfg dv false il fs0 pred
          rw [hF]
          refine visitFactorsR_within m u hu hu8 hm p hp hcl o ℓ h2 hc cfg dv il un g pred ?_ ?_ b
          · unfold FState.WF at hw1 ⊢; rw [h4, h5]; exact hw1
          · intro b
            rw [h3, hs0]
            exact hin fs (by simp) b
      · exact ih _ _ _ (fun g hg => hw g (by simp [hg])) (fun g hg => hin g (by simp [hg])) g hg b

/-- **C139, multiplicative models.** For an estimator with logarithmic link (whose updates are clipped) whose training does not diverge,
the stored factors stay within twice the limits of the clipping in link space, rounding included, whatever the estimates and
smoothers are. So the bound of `C139_predict` is known before training. -/
theorem C139_clipped (cfgs : List FeatureCfg) (prior : ℕ → K)
    (hnd : ∀ past s, RTrace m p o cfgs (startState o cfgs prior) past s → s.isDiverging = false) :
    StaysWithin m p o cfgs prior (2 * ℓ) := by
  have hl0 : 0 ≤ ℓ := (abs_nonneg _).trans h2.1
  have key : ∀ past s, RTrace m p o cfgs (startState o cfgs prior) past s → FactorsWithin (2 * ℓ) s.feats := by
    intro past s h
    induction h with
    | start =>
      intro fs hfs b
      unfold startState at hfs
      simp only [List.mem_map] at hfs
      obtain ⟨_, _, rfl⟩ := hfs
      unfold stored FState.init
      simp only [abs_zero]
      linarith
    | @step past s s' ht hcont hit ih =>
      obtain ⟨feats, pred, r, hfp, hr, hf, -⟩ := iterateR_ok m p o cfgs _ _ hit
      rw [hnd _ _ (.step ht hcont hit)] at hr
      simp only [Bool.false_eq_true, if_false, Except.ok.injEq] at hr
      have h3 := featurePassR_within m u hu hu8 hm p hp hcl o ℓ h2 hc s.iteration s.diverging s.initialLoss cfgs 0 s.feats s.pred
        (rtrace_WF m p o cfgs prior past s ht).1 ih
      rw [hnd _ _ ht] at hfp
      rw [hfp] at h3
      rw [hf, ← hr]
      exact h3
  intro past s h
  refine ⟨key past s h, fun _ => ?_⟩
  rw [hnd _ _ h]
  exact featurePassR_within m u hu hu8 hm p hp hcl o ℓ h2 hc s.iteration s.diverging s.initialLoss cfgs 0 s.feats s.pred
    (rtrace_WF m p o cfgs prior past s h).1 (key past s h)

end

end CB
