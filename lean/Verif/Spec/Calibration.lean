import Verif.Spec.Fit
import Verif.Props.Bounds

/-!
# What it means that training has settled, and sums over the samples of a bin
-/

set_option autoImplicit false

namespace CB.Spec
open Finset

/-- The last iteration of the training changed the parameter (in link space) of no bin of any feature by more than `ε`. -/
def SettledWithin {σ : Type*} (ε : ℝ) (S : Setup σ) (E : Estimator) (D : TrainSet) (prior : ℕ → ℝ) : Prop :=
  ∀ (past : List (TState ℝ)) (s s' : TState ℝ),
    Trace (S.paramsFor E) (S.oracle E D) (S.cfgs D) (startState (S.oracle E D) (S.cfgs D) prior) (s :: past) s' →
    continues (S.paramsFor E) s' = false →
    ∀ (j : ℕ) (cfg : FeatureCfg) (before after : FState ℝ), (S.cfgs D)[j]? = some cfg → s.feats[j]? = some before →
      s'.feats[j]? = some after → ∀ b ≤ cfg.nFinite, |stored after b - stored before b| ≤ ε

/-- `m` is the model fitted with the setup `S` and the estimator `E` on the training set `D`; training, in aggregate mode and with the
limits of the code, never diverged and settled within `ε`, and the learning rate of the last iteration was positive. Features made of a single column hold
integers or special values there, as bin numbers do. -/
structure SettledModel {σ : Type*} (S : Setup σ) (E : Estimator) (D : TrainSet) (m : FittedModel) (ε : ℝ) : Prop where
  fitted : ∃ fuel, S.fit E D fuel = some (.ok m)
  aggregate : S.params.aggregate = true
  limits : S.params.consts = realConsts
  columns : ∀ f ∈ S.features, f.1.group ≠ []
  binNumbers : ∀ f ∈ S.features, ∀ c, f.1.group = [c] → ∀ i < D.n, ∀ x : ℝ, D.X i c = .fin x → ∃ k : ℤ, x = (k : ℝ)
  weights : ∀ i < D.n, 0 ≤ D.w i
  nonneg : 0 ≤ ε
  converging : NeverDiverges S E D
  settled : ∀ a, E.scale D.n D.y D.w = .fin a → SettledWithin ε S E D (baseline E D a)
  learning : 0 < S.learnRate m.iterations

/-- For multiplicative models: the factor of bin `b` of feature number `j` is strictly between the limits for factors (0.01 and 1000
for a feature of one column, 0.1 and 100 for more), and `ε` is less than the limit of log 2 for one update. -/
def InsideLimits (m : FittedModel) (ε : ℝ) (j : ℕ) (f : FeatureSpec × SmootherKind) (b : ℕ) : Prop :=
  ε < Real.log 2 ∧ ∀ g, m.features[j]? = some g →
    Real.log (minFactor f.1.external (f.1.group.length == 1)) < g.factors b ∧
      g.factors b < Real.log (maxFactor f.1.external (f.1.group.length == 1))

/-- The optimiser finds a smallest value of every function that has one. -/
def FindsMinimum (minimize : (ℝ → Flt ℝ) → ℝ → ℝ) : Prop :=
  ∀ (f : ℝ → Flt ℝ) (start x a : ℝ), f x = .fin a → (∀ z c, f z = .fin c → a ≤ c) →
    ∃ c, f (minimize f start) = .fin c ∧ c ≤ a

/-- The bin `b` of the feature `f` is not smoothed: the smoother returns the value of the bin at its center, or `b` is the bin of
missing values, which no smoother touches, and missing values are learned. -/
def Unsmoothed {σ : Type*} (S : Setup σ) (D : TrainSet) (f : FeatureSpec × SmootherKind) (b : ℕ) : Prop :=
  (b < (f.1.cfg D.X D.n).nFinite ∧ ∀ uncertainties values : ℕ → ℝ,
    smoothAtCentres S.base f.2 (bindData D.X D.n f.1.group none).2 (binSum D.n (f.1.cfg D.X D.n).bin D.w) uncertainties values b
      = some (values b)) ∨
  (b = (f.1.cfg D.X D.n).nFinite ∧ f.1.missingNotLearned = false)

/-- The sum of `x` over the training samples in bin `b` of the feature `f`. -/
noncomputable def sumInBin (D : TrainSet) (f : FeatureSpec × SmootherKind) (b : ℕ) (x : ℕ → ℝ) : ℝ :=
  ∑ i ∈ (range D.n).filter (fun i => (f.1.cfg D.X D.n).bin i = b), x i

end CB.Spec
