import Verif.Spec.Calibration
import Verif.Spec.Descent

/-!
# Models with a single feature
-/

set_option autoImplicit false

namespace CB.Spec

/-- `m` is the model fitted with the setup `S`, which has the single feature `f` (of the usual type), and the estimator `E` on the
training set `D`, without prior predictions; training, in aggregate mode and with the limits of the code and learning rates between 0 and
1, never diverged. A feature made of a single column holds integers or special values there, as bin numbers do. -/
structure OneFeatureModel {σ : Type*} (S : Setup σ) (E : Estimator) (D : TrainSet) (m : FittedModel) (f : FeatureSpec × SmootherKind) :
    Prop where
  fitted : ∃ fuel, S.fit E D fuel = some (.ok m)
  single : S.features = [f]
  standard : f.1.external = false
  aggregate : S.params.aggregate = true
  limits : S.params.consts = realConsts
  columns : f.1.group ≠ []
  binNumbers : ∀ c, f.1.group = [c] → ∀ i < D.n, ∀ x : ℝ, D.X i c = .fin x → ∃ k : ℤ, x = (k : ℝ)
  weights : ∀ i < D.n, 0 ≤ D.w i
  noPrior : D.prior = none
  converging : NeverDiverges S E D
  rates : ∀ k, 0 ≤ S.learnRate k ∧ S.learnRate k ≤ 1

/-- The smoother shrinks the difference of the values of two bins (or leaves it), or both bins are not smoothed at all. -/
def SmoothedAlike {σ : Type*} (S : Setup σ) (D : TrainSet) (f : FeatureSpec × SmootherKind) (b b' : ℕ) : Prop :=
  (b < (f.1.cfg D.X D.n).nFinite ∧ b' < (f.1.cfg D.X D.n).nFinite ∧ ∀ uncertainties values : ℕ → ℝ,
    let smoothed := smoothAtCentres S.base f.2 (bindData D.X D.n f.1.group none).2 (binSum D.n (f.1.cfg D.X D.n).bin D.w) uncertainties values
    ∃ u v t : ℝ, smoothed b = some u ∧ smoothed b' = some v ∧ 0 ≤ t ∧ t ≤ 1 ∧ u - v = t * (values b - values b')) ∨
  (Unsmoothed S D f b ∧ Unsmoothed S D f b')

/-- `x` is a quantile of the targets in bin `b`: targets less than `x` have at most the share `q` of the weight of the bin, targets of at
most `x` at least that share. -/
def IsBinQuantile (D : TrainSet) (f : FeatureSpec × SmootherKind) (b : ℕ) (q x : ℝ) : Prop :=
  sumInBin D f b (fun i => if D.y i < x then D.w i else 0) ≤ q * sumInBin D f b D.w ∧
    q * sumInBin D f b D.w ≤ sumInBin D f b fun i => if D.y i ≤ x then D.w i else 0

/-- The weighted sum of the losses of the training samples in bin `b` if all of them get the prediction `x`. -/
noncomputable def binCost (D : TrainSet) (f : FeatureSpec × SmootherKind) (b : ℕ) (loss : ℝ → ℝ → ℝ) (x : ℝ) : ℝ :=
  sumInBin D f b fun i => D.w i * loss x (D.y i)

end CB.Spec
