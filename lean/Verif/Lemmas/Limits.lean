import Verif.Spec.Limits
import Verif.Lemmas.Training

/-!
# Training with other stopping criteria makes the same steps
-/

set_option autoImplicit false
set_option linter.unusedSectionVars false

namespace CB
open Spec

theorem featurePass_limits (p : Params ℝ) (L : Limits) (o : Oracle ℝ) (it dv : ℕ) (isd : Bool) (il : Flt ℝ) :
    ∀ (cfgs : List FeatureCfg) (k : ℕ) (fss : List (FState ℝ)) (pred : Pred ℝ),
      featurePass (paramsWith p L) o it dv isd il k cfgs fss pred = featurePass p o it dv isd il k cfgs fss pred
  | [], k, fss, pred => by simp [featurePass]
  | cfg :: cfgs, k, [], pred => by simp [featurePass]
  | cfg :: cfgs, k, fs :: fss, pred => by
    have hs : skipped (paramsWith p L) it cfg = skipped p it cfg := rfl
    have hf : ∀ fs pred, featureIteration (paramsWith p L) o it k cfg dv isd il fs pred
        = featureIteration p o it k cfg dv isd il fs pred := fun _ _ => rfl
    unfold featurePass
    simp only [hs, hf, featurePass_limits p L o it dv isd il cfgs (k + 1) fss]

/-- An iteration does not depend on the stopping criteria. -/
theorem iterate_limits (p : Params ℝ) (L : Limits) (o : Oracle ℝ) (cfgs : List FeatureCfg) (s : TState ℝ) :
    iterate (paramsWith p L) o cfgs s = iterate p o cfgs s := by
  unfold iterate
  rw [featurePass_limits]

theorem absLe_looser (x : Flt ℝ) {a b : ℝ} (h : a ≤ b) : x.absLe a = true → x.absLe b = true := by
  cases x <;> simp only [Flt.absLe, decide_eq_true_eq, Bool.false_eq_true, false_imp_iff]
  exact fun g => g.trans h

theorem checkStop_with (p : Params ℝ) (L : Limits) (it : ℕ) (delta : ℝ) (lc : Flt ℝ) :
    checkStop (paramsWith p L) it delta lc = true ↔
      ((L.iterations ≤ it ∨ delta ≤ L.factorChange) ∨ lc.absLe L.lossChange = true) ∧
        (!(decide (it ≤ p.hierarchicalIterations) && p.hierarchical.isSome)) = true := by
  unfold checkStop
  dsimp only
  rw [Bool.and_eq_true, Bool.or_eq_true, Bool.or_eq_true, decide_eq_true_eq, decide_eq_true_eq]
  exact Iff.rfl

/-- Looser criteria stop whenever stricter ones do. -/
theorem continues_looser (p : Params ℝ) (L L' : Limits) (h : Looser L L') (s : TState ℝ) :
    continues (paramsWith p L) s = true → continues (paramsWith p L') s = true := by
  obtain ⟨h1, h2, h3⟩ := h
  intro hc
  by_contra hn
  unfold continues at hc hn
  simp only [Bool.or_eq_true, Bool.not_eq_true', not_or, Bool.not_eq_false, Bool.not_eq_true] at hc hn
  obtain ⟨hs, hd⟩ := hn
  rcases hc with hc | hc
  · have : checkStop (paramsWith p L) s.iteration s.delta s.lossChange = true := by
      rw [checkStop_with] at hs ⊢
      refine ⟨?_, hs.2⟩
      rcases hs.1 with (g | g) | g
      · exact .inl (.inl (h1.trans g))
      · exact .inl (.inr (g.trans h2))
      · exact .inr (absLe_looser _ h3 g)
    rw [hc] at this; cases this
  · rw [hd] at hc; cases hc

section
variable (p : Params ℝ) (L L' : Limits) (o : Oracle ℝ) (cfgs : List FeatureCfg)

theorem loop_iteration_le (q : Params ℝ) : ∀ (fuel : ℕ) (s t : TState ℝ), loop q o cfgs fuel s = .done t →
    s.iteration ≤ t.iteration := by
  intro fuel
  induction fuel with
  | zero =>
    intro s t h
    unfold loop at h
    by_cases hc : continues q s = true
    · rw [if_pos hc] at h; cases h
    · rw [if_neg hc] at h; cases h; exact le_rfl
  | succ fuel ih =>
    intro s t h
    unfold loop at h
    by_cases hc : continues q s = true
    · rw [if_pos hc] at h
      dsimp only at h
      cases hi : iterate q o cfgs s with
      | error e => rw [hi] at h; cases h
      | ok s' =>
        rw [hi] at h
        obtain ⟨_, _, _, _, _, _, _, _, hit, _⟩ := iterate_ok q o cfgs s s' hi
        have := ih s' t h
        omega
    · rw [if_neg hc] at h; cases h; exact le_rfl

/-- With looser criteria the loop ends earlier or at the same state. -/
theorem loop_looser (h : Looser L L') : ∀ (fuel fuel' : ℕ) (s t t' : TState ℝ),
    loop (paramsWith p L') o cfgs fuel s = .done t → loop (paramsWith p L) o cfgs fuel' s = .done t' →
    t'.iteration ≤ t.iteration := by
  intro fuel
  induction fuel with
  | zero =>
    intro fuel' s t t' ht ht'
    have hle := loop_iteration_le o cfgs _ _ _ _ ht
    unfold loop at ht ht'
    by_cases hc : continues (paramsWith p L') s = true
    · rw [if_pos hc] at ht; cases ht
    · rw [if_neg fun g => hc (continues_looser p L L' h s g)] at ht'
      cases ht'
      exact hle
  | succ fuel ih =>
    intro fuel' s t t' ht ht'
    have hle := loop_iteration_le o cfgs _ _ _ _ ht
    unfold loop at ht ht'
    by_cases hc : continues (paramsWith p L) s = true
    · rw [if_pos (continues_looser p L L' h s hc)] at ht
      rw [if_pos hc] at ht'
      cases fuel' with
      | zero => cases ht'
      | succ fuel' =>
        dsimp only at ht ht'
        rw [iterate_limits] at ht ht'
        cases hi : iterate p o cfgs s with
        | error e => rw [hi] at ht; cases ht
        | ok s' => rw [hi] at ht ht'; exact ih fuel' s' t t' ht ht'
    · rw [if_neg hc] at ht'
      cases ht'
      exact hle

/-- A failure of the loop is not avoided by stricter criteria. -/
theorem loop_stillFailed (h : Looser L L') (e : TErr) : ∀ (fuel : ℕ) (s : TState ℝ), loop (paramsWith p L) o cfgs fuel s = .failed e →
    loop (paramsWith p L') o cfgs fuel s = .failed e := by
  intro fuel
  induction fuel with
  | zero =>
    intro s ht
    unfold loop at ht
    split at ht <;> cases ht
  | succ fuel ih =>
    intro s ht
    unfold loop at ht ⊢
    by_cases hc : continues (paramsWith p L) s = true
    · rw [if_pos hc] at ht
      rw [if_pos (continues_looser p L L' h s hc)]
      dsimp only at ht ⊢
      rw [iterate_limits] at ht ⊢
      cases hi : iterate p o cfgs s with
      | error e => rw [hi] at ht; exact ht
      | ok s' => rw [hi] at ht; exact ih s' ht
    · rw [if_neg hc] at ht; cases ht

/-- Two trainings that end after the same number of iterations end in the same state. -/
theorem loop_sameState : ∀ (fuel fuel' : ℕ) (s t t' : TState ℝ), loop (paramsWith p L) o cfgs fuel s = .done t →
    loop (paramsWith p L') o cfgs fuel' s = .done t' → t.iteration = t'.iteration → t = t' := by
  intro fuel
  induction fuel with
  | zero =>
    intro fuel' s t t' ht ht' heq
    unfold loop at ht
    by_cases hc : continues (paramsWith p L) s = true
    · rw [if_pos hc] at ht; cases ht
    · rw [if_neg hc] at ht
      cases ht
      unfold loop at ht'
      by_cases hc' : continues (paramsWith p L') s = true
      · rw [if_pos hc'] at ht'
        cases fuel' with
        | zero => cases ht'
        | succ fuel' =>
          dsimp only at ht'
          cases hi : iterate (paramsWith p L') o cfgs s with
          | error e => rw [hi] at ht'; cases ht'
          | ok s' =>
            rw [hi] at ht'
            obtain ⟨_, _, _, _, _, _, _, _, hit, _⟩ := iterate_ok _ o cfgs s s' hi
            have := loop_iteration_le o cfgs _ _ _ _ ht'
            omega
      · rw [if_neg hc'] at ht'; cases ht'; rfl
  | succ fuel ih =>
    intro fuel' s t t' ht ht' heq
    unfold loop at ht ht'
    by_cases hc : continues (paramsWith p L) s = true
    · rw [if_pos hc] at ht
      dsimp only at ht
      rw [iterate_limits] at ht
      cases hi : iterate p o cfgs s with
      | error e => rw [hi] at ht; cases ht
      | ok s' =>
        rw [hi] at ht
        obtain ⟨_, _, _, _, _, _, _, _, hit, _⟩ := iterate_ok _ o cfgs s s' hi
        have hle := loop_iteration_le o cfgs _ _ _ _ ht
        by_cases hc' : continues (paramsWith p L') s = true
        · rw [if_pos hc'] at ht'
          cases fuel' with
          | zero => cases ht'
          | succ fuel' =>
            dsimp only at ht'
            rw [iterate_limits, hi] at ht'
            exact ih fuel' s' t t' ht ht' heq
        · rw [if_neg hc'] at ht'; cases ht'; omega
    · rw [if_neg hc] at ht
      cases ht
      by_cases hc' : continues (paramsWith p L') s = true
      · rw [if_pos hc'] at ht'
        cases fuel' with
        | zero => cases ht'
        | succ fuel' =>
          dsimp only at ht'
          cases hi : iterate (paramsWith p L') o cfgs s with
          | error e => rw [hi] at ht'; cases ht'
          | ok s' =>
            rw [hi] at ht'
            obtain ⟨_, _, _, _, _, _, _, _, hit, _⟩ := iterate_ok _ o cfgs s s' hi
            have := loop_iteration_le o cfgs _ _ _ _ ht'
            omega
      · rw [if_neg hc'] at ht'; cases ht'; rfl

/-- Another `maximal_iterations` that is not reached makes no difference. -/
theorem loop_limit (hf : L'.factorChange = L.factorChange) (hl : L'.lossChange = L.lossChange) :
    ∀ (fuel : ℕ) (s t : TState ℝ), loop (paramsWith p L) o cfgs fuel s = .done t → t.iteration < L.iterations →
      t.iteration ≤ L'.iterations → loop (paramsWith p L') o cfgs fuel s = .done t := by
  have stop : ∀ s : TState ℝ, s.iteration < L.iterations → ¬ continues (paramsWith p L) s = true →
      ¬ continues (paramsWith p L') s = true := by
    intro s h1 h2 h3
    unfold continues at h2 h3
    simp only [Bool.or_eq_true, Bool.not_eq_true', not_or, Bool.not_eq_false, Bool.not_eq_true] at h2 h3
    rcases h3 with h3 | h3
    · have : checkStop (paramsWith p L') s.iteration s.delta s.lossChange = true := by
        have h4 := h2.1
        rw [checkStop_with] at h4 ⊢
        rw [hf, hl]
        refine ⟨?_, h4.2⟩
        rcases h4.1 with (g | g) | g
        · omega
        · exact .inl (.inr g)
        · exact .inr g
      rw [h3] at this; cases this
    · rw [h2.2] at h3; cases h3
  have go : ∀ s : TState ℝ, s.iteration < L'.iterations → continues (paramsWith p L) s = true →
      continues (paramsWith p L') s = true := by
    intro s h1 h2
    by_contra h3
    unfold continues at h2 h3
    simp only [Bool.or_eq_true, Bool.not_eq_true', not_or, Bool.not_eq_false, Bool.not_eq_true] at h2 h3
    rcases h2 with h2 | h2
    · have : checkStop (paramsWith p L) s.iteration s.delta s.lossChange = true := by
        have h4 := h3.1
        rw [checkStop_with] at h4 ⊢
        rw [hf, hl] at h4
        refine ⟨?_, h4.2⟩
        rcases h4.1 with (g | g) | g
        · omega
        · exact .inl (.inr g)
        · exact .inr g
      rw [h2] at this; cases this
    · rw [h3.2] at h2; cases h2
  intro fuel
  induction fuel with
  | zero =>
    intro s t ht h1 h2
    unfold loop at ht ⊢
    by_cases hc : continues (paramsWith p L) s = true
    · rw [if_pos hc] at ht; cases ht
    · rw [if_neg hc] at ht
      cases ht
      rw [if_neg (stop s h1 hc)]
  | succ fuel ih =>
    intro s t ht h1 h2
    unfold loop at ht ⊢
    by_cases hc : continues (paramsWith p L) s = true
    · rw [if_pos hc] at ht
      dsimp only at ht ⊢
      rw [iterate_limits] at ht ⊢
      cases hi : iterate p o cfgs s with
      | error e => rw [hi] at ht; cases ht
      | ok s' =>
        rw [hi] at ht
        obtain ⟨_, _, _, _, _, _, _, _, hit, _⟩ := iterate_ok _ o cfgs s s' hi
        have hle := loop_iteration_le o cfgs _ _ _ _ ht
        rw [if_pos (go s (by omega) hc)]
        exact ih s' t ht h1 h2
    · rw [if_neg hc] at ht
      cases ht
      rw [if_neg (stop s h1 hc)]

/-- The check for divergence after the loop never raises. -/
theorem loop_checked (q : Params ℝ) : ∀ (fuel : ℕ) (s t : TState ℝ), loop q o cfgs fuel s = .done t →
    (s.isDiverging = false → checkConvergence s.initialLoss s.loss s.diverging ≠ .error .convergenceError) →
    checkConvergence t.initialLoss t.loss t.diverging ≠ .error .convergenceError := by
  have last : ∀ s : TState ℝ, ¬ continues q s = true → s.isDiverging = false := by
    intro s h
    unfold continues at h
    simp only [Bool.or_eq_true, not_or, Bool.not_eq_true] at h
    exact h.2
  intro fuel
  induction fuel with
  | zero =>
    intro s t h h0
    unfold loop at h
    by_cases hc : continues q s = true
    · rw [if_pos hc] at h; cases h
    · rw [if_neg hc] at h; cases h; exact h0 (last _ hc)
  | succ fuel ih =>
    intro s t h h0
    unfold loop at h
    by_cases hc : continues q s = true
    · rw [if_pos hc] at h
      dsimp only at h
      cases hi : iterate q o cfgs s with
      | error e => rw [hi] at h; cases h
      | ok s' =>
        rw [hi] at h
        refine ih s' t h fun hd => ?_
        obtain ⟨feats, pred, _, _, hcc, _, _, _, _, hil, hlo, _⟩ := iterate_ok q o cfgs s s' hi
        rw [hd] at hcc
        rw [hil, hlo]
        unfold checkConvergence at hcc ⊢
        by_cases hdv : isDiverged s.initialLoss (o.loss pred) = true
        · rw [if_pos hdv] at hcc
          split at hcc <;> simp at hcc
        · rw [if_neg hdv]
          simp
    · rw [if_neg hc] at h; cases h; exact h0 (last _ hc)

theorem start_checked (prior : ℕ → ℝ) : checkConvergence (startState o cfgs prior).initialLoss (startState o cfgs prior).loss
    (startState o cfgs prior).diverging ≠ .error .convergenceError := by
  unfold checkConvergence startState
  dsimp only
  split
  · rw [if_neg (by omega)]; simp
  · simp

/-! ### `_fit_main` -/

variable (prior : ℕ → ℝ) (fuel fuel' : ℕ)

/-- The parts of a successful training. -/
theorem fitMain_endState (q : Params ℝ) (r : FitResult ℝ) (h : fitMain q o cfgs prior fuel = some (.ok r)) :
    ∃ t, loop q o cfgs fuel (startState o cfgs prior) = .done t ∧ t.iteration = r.iterations := by
  unfold fitMain at h
  cases hl : loop q o cfgs fuel (startState o cfgs prior) with
  | outOfFuel => rw [hl] at h; cases h
  | failed e => rw [hl] at h; simp at h
  | done t =>
    refine ⟨t, rfl, ?_⟩
    rw [hl] at h
    dsimp only at h
    split at h
    · simp at h
    · split at h
      · simp at h
      · simp only [Option.some.injEq, Except.ok.injEq] at h
        rw [← h]

theorem fitMain_sameState (q q' : Params ℝ) (t : TState ℝ) (h : loop q o cfgs fuel (startState o cfgs prior) = .done t)
    (h' : loop q' o cfgs fuel' (startState o cfgs prior) = .done t) :
    fitMain q o cfgs prior fuel = fitMain q' o cfgs prior fuel' := by
  unfold fitMain
  rw [h, h']

theorem fitMain_limit (hf : L'.factorChange = L.factorChange) (hl : L'.lossChange = L.lossChange) (r : FitResult ℝ)
    (h : fitMain (paramsWith p L) o cfgs prior fuel = some (.ok r)) (h1 : r.iterations < L.iterations)
    (h2 : r.iterations ≤ L'.iterations) : fitMain (paramsWith p L') o cfgs prior fuel = some (.ok r) := by
  obtain ⟨t, ht, hit⟩ := fitMain_endState o cfgs prior fuel _ r h
  rw [← h]
  exact fitMain_sameState o cfgs prior fuel fuel _ _ t
    (loop_limit p L L' o cfgs hf hl fuel _ t ht (by omega) (by omega)) ht

theorem prepareFeatures_not_convergence : ∀ fss : List (FState ℝ), prepareFeatures fss ≠ .error .convergenceError
  | [] => by simp [prepareFeatures]
  | fs :: fss => by
    have ih := prepareFeatures_not_convergence fss
    unfold prepareFeatures
    split
    · simp
    · cases h : prepareFeatures fss with
      | error e => intro h'; rw [h] at ih; exact ih h'
      | ok r => simp

theorem fitMain_failed (hL : Looser L L')
    (h : fitMain (paramsWith p L) o cfgs prior fuel = some (.error .convergenceError)) :
    fitMain (paramsWith p L') o cfgs prior fuel = some (.error .convergenceError) := by
  unfold fitMain at h
  cases hl : loop (paramsWith p L) o cfgs fuel (startState o cfgs prior) with
  | outOfFuel => rw [hl] at h; cases h
  | failed e =>
    rw [hl] at h
    simp only [Option.some.injEq, Except.error.injEq] at h
    subst h
    unfold fitMain
    rw [loop_stillFailed p L L' o cfgs hL _ fuel _ hl]
  | done t =>
    have hck := loop_checked o cfgs _ fuel _ t hl fun _ => start_checked o cfgs prior
    rw [hl] at h
    dsimp only at h
    cases hp : prepareFeatures t.feats with
    | error e =>
      rw [hp] at h
      simp only [Option.some.injEq, Except.error.injEq] at h
      subst h
      exact absurd hp (prepareFeatures_not_convergence _)
    | ok fs =>
      rw [hp] at h
      dsimp only at h
      cases hcc : checkConvergence t.initialLoss t.loss t.diverging with
      | error e =>
        rw [hcc] at h
        simp only [Option.some.injEq, Except.error.injEq] at h
        subst h
        exact absurd hcc hck
      | ok x => rw [hcc] at h; simp at h

theorem fitMain_looser (hL : Looser L L') (r r' : FitResult ℝ) (h : fitMain (paramsWith p L) o cfgs prior fuel = some (.ok r))
    (h' : fitMain (paramsWith p L') o cfgs prior fuel' = some (.ok r')) : r.iterations ≤ r'.iterations := by
  obtain ⟨t, ht, e⟩ := fitMain_endState o cfgs prior fuel _ r h
  obtain ⟨t', ht', e'⟩ := fitMain_endState o cfgs prior fuel' _ r' h'
  rw [← e, ← e']
  exact loop_looser p L L' o cfgs hL fuel' fuel _ t' t ht' ht

theorem fitMain_same (r r' : FitResult ℝ) (h : fitMain (paramsWith p L) o cfgs prior fuel = some (.ok r))
    (h' : fitMain (paramsWith p L') o cfgs prior fuel' = some (.ok r')) (hit : r.iterations = r'.iterations) : r = r' := by
  obtain ⟨t, ht, e⟩ := fitMain_endState o cfgs prior fuel _ r h
  obtain ⟨t', ht', e'⟩ := fitMain_endState o cfgs prior fuel' _ r' h'
  have := loop_sameState p L L' o cfgs fuel fuel' _ t t' ht ht' (by omega)
  subst this
  rw [fitMain_sameState o cfgs prior fuel fuel' _ _ t ht ht', h'] at h
  simp only [Option.some.injEq, Except.ok.injEq] at h
  exact h.symm

end

end CB
