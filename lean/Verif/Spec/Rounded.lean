import Verif.Model.Rounded
import Verif.Spec.Training

/-!
# Specification: floating-point arithmetic and histories of a training with rounding
-/

set_option autoImplicit false

namespace CB.Spec

variable {K : Type*} [Field K] [LinearOrder K]

/-- The standard model of floating-point arithmetic: every sum and every difference has a relative error of at most `u`
(`u = 2 ^ (-53)` for double precision). -/
def RoundsWithin (m : Machine K) (u : K) : Prop :=
  ∀ a b, |m.add a b - (a + b)| ≤ u * |a + b| ∧ |m.sub a b - (a - b)| ≤ u * |a - b|

/-- Training histories with rounding: starting from `s0`, the iterations went through the states `past` (latest first) to `s`. -/
inductive RTrace (m : Machine K) (p : Params K) (o : Oracle K) (cfgs : List FeatureCfg) (s0 : TState K) :
    List (TState K) → TState K → Prop
  | start : RTrace m p o cfgs s0 [] s0
  | step {past : List (TState K)} {s s' : TState K} : RTrace m p o cfgs s0 past s → continues p s = true →
      iterateR m p o cfgs s = .ok s' → RTrace m p o cfgs s0 (s :: past) s'

/-- All stored factors of the features are at most `L` in absolute value. -/
def FactorsWithin (L : K) (fss : List (FState K)) : Prop := ∀ fs ∈ fss, ∀ b, |stored fs b| ≤ L

/-- During the whole training, at the end of every iteration and before a diverging iteration is rolled back, all stored factors
are at most `L` in absolute value. -/
def StaysWithin (m : Machine K) (p : Params K) (o : Oracle K) (cfgs : List FeatureCfg) (prior : ℕ → K) (L : K) : Prop :=
  ∀ past s, RTrace m p o cfgs (startState o cfgs prior) past s → FactorsWithin L s.feats ∧
    (continues p s = true → FactorsWithin L
      (featurePassR m p o s.iteration s.diverging s.isDiverging s.initialLoss 0 cfgs s.feats s.pred).1)

end CB.Spec
