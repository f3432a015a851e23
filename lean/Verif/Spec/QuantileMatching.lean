import Verif.Model.QuantileMatching

/-!
# What the quantile-matching properties mean

A base distribution as scipy documents it, and what it means for a pair of a
quantile function and a cumulative distribution function to honour a triplet.
-/

set_option autoImplicit false

namespace CB.Spec

/-- A symmetric continuous distribution on the whole real line with strictly
increasing quantile function: what `norm()`, `logistic()` and `SinhLogistic`
are documented to be. -/
structure SymmetricBase (phi : Base) : Prop where
  cdf_ppf : ∀ p, 0 < p → p < 1 → phi.cdf (phi.ppf p) = p
  ppf_cdf : ∀ x, phi.ppf (phi.cdf x) = x
  cdf_pos : ∀ x, 0 < phi.cdf x
  cdf_lt_one : ∀ x, phi.cdf x < 1
  mono : ∀ p q, 0 < p → p < q → q < 1 → phi.ppf p < phi.ppf q
  symm : ∀ p, 0 < p → p < 1 → phi.ppf (1 - p) = -phi.ppf p

/-- `quantile` (a partial function: `none` is `nan`) takes the three given
values at `alpha`, `1/2` and `1 - alpha`. -/
def HitsTriplet (quantile : ℝ → Option ℝ) (alpha low med high : ℝ) : Prop :=
  quantile alpha = some low ∧ quantile (1 / 2) = some med ∧ quantile (1 - alpha) = some high

/-- `quantile` is defined on `(0,1)`, strictly increasing there, has values in
the set `inside`, and `prob` inverts it. -/
def QuantileFunction (quantile prob : ℝ → Option ℝ) (inside : ℝ → Prop) : Prop :=
  (∀ p, 0 < p → p < 1 → ∃ x, quantile p = some x ∧ inside x ∧ prob x = some p) ∧
  (∀ p q x y, 0 < p → p < q → q < 1 → quantile p = some x → quantile q = some y → x < y)

end CB.Spec

namespace CB.Spec

/-- Strictly inside the supported range. -/
def Inside : Range → ℝ → Prop
  | .U, _ => True
  | .S l, x => l < x
  | .B l u, x => l < x ∧ x < u

end CB.Spec
