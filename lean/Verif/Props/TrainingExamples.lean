import Verif.Props.Training

set_option autoImplicit false
set_option linter.unusedSectionVars false

/-!
Concrete training runs: non-trivial instances of the hypotheses of C18 - C23, and the counterexample to C20.
-/
namespace CB

open Spec

section
variable {K : Type*} [Field K] [LinearOrder K] [IsStrictOrderedRing K]

/-- Run exactly `n` iterations of the loop. -/
def runN (p : Params K) (o : Oracle K) (cfgs : List FeatureCfg) : ℕ → TState K → Option (TState K)
  | 0, s => some s
  | n + 1, s =>
    match runN p o cfgs n s with
    | none => none
    | some s' =>
      if continues p s' then
        match iterate p o cfgs s' with
        | .ok s'' => some s''
        | .error _ => none
      else none

theorem runN_trace (p : Params K) (o : Oracle K) (cfgs : List FeatureCfg) (s0 : TState K) (n : ℕ) (s : TState K)
    (h : runN p o cfgs n s0 = some s) : ∃ past, Trace p o cfgs s0 past s ∧ past.length = n := by
  induction n generalizing s with
  | zero =>
    rw [runN, Option.some.injEq] at h
    subst h
    exact ⟨[], .start, rfl⟩
  | succ n ih =>
    rw [runN] at h
    split at h
    · cases h
    · rename_i s' hs'
      obtain ⟨past, ht, hl⟩ := ih s' hs'
      split at h
      · rename_i hc
        split at h
        · rename_i s'' hit
          rw [Option.some.injEq] at h
          subst h
          exact ⟨s' :: past, .step ht hc hit, by simp [hl]⟩
        · cases h
      · cases h

end

/-- Rational stand-ins for the clipping constants. -/
def toyConsts : ClipConsts ℚ := ⟨-7/10, 7/10, fun _ _ => -4, fun _ _ => 6, -2/10, 2/10⟩

def toyParams (aggregate : Bool) (hierarchical : Option (List (List String))) : Params ℚ :=
  { aggregate := aggregate
    clip := aggregate
    consts := toyConsts
    maximalIterations := 3
    minimalFactorChange := 1/1000
    minimalLossChange := 1/1000
    hierarchical := hierarchical
    hierarchicalIterations := 1 }

/-- Two features: "a" with two bins and "b" with one bin; samples with even number are in bin 0 of "a", the others in bin 1;
sample 2 has a missing "b". -/
def toyFeatures : List FeatureCfg :=
  [⟨["a"], false, 2, fun s => s % 2, false⟩, ⟨["b"], false, 1, fun s => if s = 2 then 1 else 0, true⟩]

/-- Estimates `value it` in every bin, no smoothing, learning rate 1, loss `loss`. -/
def toyOracle (value : ℕ → ℚ) (loss : Pred ℚ → Flt ℚ) : Oracle ℚ :=
  { estimate := fun it i _ _ b => value it + i + b
    smooth := fun _ _ _ _ unfitted b => some (unfitted b)
    learnRate := fun _ => 1
    calibrate := fun _ _ fs => fs.factors
    loss := loss }

/-- Squared distance of the prediction of sample 1 from 2. -/
def toyLoss (pred : Pred ℚ) : Flt ℚ := .fin ((pred.factors 1 - 2) * (pred.factors 1 - 2))

/-- A successful training run in aggregate mode (C18, C19, C21): five iterations, some of them
rolled back; the in-sample predictions of samples 1 and 2
are the prior plus the final factors. -/
example : (fitMain (toyParams true none) (toyOracle (fun it => 1 / (it + 1)) toyLoss) toyFeatures (fun _ => 1/2) 7).map
    (fun r => r.toOption.map (fun r => (r.iterations, r.prediction.factors 1, r.prediction.factors 2,
      1/2 + factorSum false toyFeatures r.factors 1, 1/2 + factorSum false toyFeatures r.factors 2)))
    = some (some (5, 13/5, 19/10, 13/5, 19/10)) := by decide +kernel

/-- A run in aggregate mode with a diverging and rolled back iteration (C18): after it the prediction is the prior again. -/
example : (runN (toyParams true none) (toyOracle (fun _ => 2) (fun pred => .fin (pred.factors 0 * pred.factors 0)))
      toyFeatures 1 (startState (toyOracle (fun _ => 2) (fun pred => .fin (pred.factors 0 * pred.factors 0))) toyFeatures
      (fun _ => 1/2))).map (fun s => (s.diverging, s.isDiverging, s.pred.factors 0, storedSum false toyFeatures s.feats 0))
    = some (1, true, 1/2, 0) := by decide +kernel

/-- A training that ends with `ConvergenceError` (C21). -/
example : (fitMain (toyParams false none) (toyOracle (fun it => 2 + it) (fun pred => .fin (pred.factors 0 * pred.factors 0)))
      toyFeatures (fun _ => 1/2) 7).map (fun r => match r with | .error e => some e | .ok _ => none)
    = some (some .convergenceError) := by decide +kernel

/-- Hierarchical training (C22): after the first iteration only "a" has factors; training runs through. -/
example : (runN (toyParams true (some [["a"]])) (toyOracle (fun it => 1 / (it + 1)) toyLoss) toyFeatures 1
      (startState (toyOracle (fun it => 1 / (it + 1)) toyLoss) toyFeatures (fun _ => 1/2))).map
      (fun s => s.feats.map (fun fs => (fs.agg.map (fun f => f 0)))) = some [some (7/10), none]
    ∧ (fitMain (toyParams true (some [["a"]])) (toyOracle (fun it => 1 / (it + 1)) toyLoss) toyFeatures (fun _ => 1/2) 7).map
      (fun r => r.toOption.map (fun r => r.iterations)) = some (some 3) := by decide +kernel

/-- Hierarchical training that diverges in the first iteration fails with a `TypeError` (C22). -/
example : (fitMain (toyParams true (some [["a"]])) (toyOracle (fun _ => 2) (fun pred => .fin (pred.factors 0 * pred.factors 0)))
      toyFeatures (fun _ => 1/2) 7).map (fun r => match r with | .error e => some e | .ok _ => none)
    = some (some .typeError) := by decide +kernel

/-- The loss of the counterexample: large for a prediction above 5. -/
def jumpLoss (pred : Pred ℚ) : Flt ℚ := .fin (if 5 < pred.factors 0 then 100 else 1)

/-- **C20** fails with divergence: a non-aggregate training whose first iteration diverges. After the second iteration the
prediction of sample 0 is not the prior plus the stored factors, because the contribution of the rolled back iteration has
been removed twice. -/
theorem C20_divergence_counterexample :
    ∃ (o : Oracle ℚ) (past : List (TState ℚ)) (s : TState ℚ),
      Trace (toyParams false none) o toyFeatures (startState o toyFeatures (fun _ => 0)) past s ∧ past.length = 2 ∧
        s.pred.factors 0 ≠ 0 + storedSum false toyFeatures s.feats 0 := by
  have h : (runN (toyParams false none) (toyOracle (fun it => if it = 0 then 10 else 1) jumpLoss) toyFeatures 2
      (startState (toyOracle (fun it => if it = 0 then 10 else 1) jumpLoss) toyFeatures (fun _ => 0))).map
      (fun s => (s.pred.factors 0, storedSum false toyFeatures s.feats 0)) = some (-18, 3) := by decide +kernel
  rw [Option.map_eq_some_iff] at h
  obtain ⟨s, hs, hv⟩ := h
  obtain ⟨past, ht, hl⟩ := runN_trace _ _ _ _ _ _ hs
  refine ⟨_, past, s, ht, hl, ?_⟩
  obtain ⟨h1, h2⟩ := Prod.mk.inj hv
  rw [h1, h2]
  norm_num

/-- A non-aggregate run without divergence (C20). -/
example : (runN (toyParams false none) (toyOracle (fun it => 1 / (it + 1)) toyLoss) toyFeatures 2
      (startState (toyOracle (fun it => 1 / (it + 1)) toyLoss) toyFeatures (fun _ => -1))).map
      (fun s => (s.diverging, s.pred.factors 0, -1 + storedSum false toyFeatures s.feats 0)) = some (0, 1, 1) := by
  decide +kernel

end CB
