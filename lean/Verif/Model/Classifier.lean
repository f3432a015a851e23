import Verif.Model.Estimators
import Verif.Model.Link

set_option autoImplicit false

/-!
Model of `cyclic_boosting/classification.py` and of `gaussian_matching_by_quantiles` (`base.py`).
-/
namespace CB

/-- `get_beta_priors`, `classification.py` lines 23-35. -/
noncomputable def betaPriors : ℝ × ℝ := (1.001, 1.001)

open Classical in
/-- `boost_weights` for one sample, `classification.py` lines 38-56 (`y` is used as a truth value). -/
noncomputable def boostWeight (y prediction : ℝ) : ℝ :=
  let epsilon : ℝ := 1e-12
  let p1 := if prediction = 0 then epsilon else prediction
  let p2 := if p1 = 1 then 1 - epsilon else p1
  if y ≠ 0 then 1 - p2 else p2

/-- `CBClassifier._check_y`, `classification.py` lines 66-72 (without NaN). -/
def classifierCheckY (n : ℕ) (y : ℕ → ℝ) : Prop := ∀ i < n, y i = 0 ∨ y i = 1

/-- `_get_percentiles_from_distribution_parameters`, `classification.py` lines 90-103. -/
noncomputable def percentiles (alpha beta : ℝ) : ℝ × ℝ :=
  let shift := 0.4 * (alpha / (alpha + beta) - 0.5)
  (0.75 - shift, 0.25 - shift)

/-- `gaussian_matching_by_quantiles`, `base.py` lines 1101-1187. `ppf` is the quantile function of the distribution, `coef`
stands for `_coefficient_for_gaussian_matching_by_quantiles` (lines 1089-1098), the quantile function of the standard normal
distribution. Returns `mu`, `sigma`. -/
noncomputable def gaussianMatching (ppf link coef : ℝ → ℝ) (perc1 perc2 : ℝ) : ℝ × ℝ :=
  let q1 := link (ppf perc1)
  let q2 := link (ppf perc2)
  let a1 := coef perc1
  let a2 := coef perc2
  let sigma := (q1 - q2) / (a1 - a2)
  let mu := q1 - sigma * a1
  (mu, sigma)

/-- The posterior parameters of `CBClassifier.calc_parameters` for bin `b`, `classification.py` lines 105-124 and 77-88
(`weight_factor` is 1). -/
noncomputable def classifierPosterior (n : ℕ) (codes : ℕ → ℕ) (y weights predLink : ℕ → ℝ) (b : ℕ) : ℝ × ℝ :=
  let w : ℕ → ℝ := fun i => weights i * boostWeight (y i) (logitLink.unlink (predLink i))
  let alpha := binSum n codes (fun i => w i * y i) b
  let beta := binSum n codes (fun i => w i * (1 - y i)) b
  let alpha := if alpha < 0 then 0 else alpha
  let beta := if beta < 0 then 0 else beta
  (alpha + betaPriors.1, beta + betaPriors.2)

/-- `CBClassifier.calc_parameters` for bin `b`, `classification.py` lines 105-138. `betaPpf alpha beta` is the quantile
function of the beta distribution. -/
noncomputable def classifierCalcParameters (betaPpf : ℝ → ℝ → ℝ → ℝ) (coef : ℝ → ℝ) (n : ℕ) (codes : ℕ → ℕ)
    (y weights predLink : ℕ → ℝ) (b : ℕ) : ℝ × ℝ :=
  let post := classifierPosterior n codes y weights predLink b
  let perc := percentiles post.1 post.2
  gaussianMatching (betaPpf post.1 post.2) logitLink.link coef perc.1 perc.2

/-- `CBClassifier.predict_proba` for one row, `classification.py` lines 140-142. -/
noncomputable def predictProba (predLink : ℝ) : ℝ × ℝ := (1 - logitLink.unlink predLink, logitLink.unlink predLink)

open Classical in
/-- `CBClassifier.predict` for one row, `classification.py` lines 144-146. -/
noncomputable def predictClass (predLink : ℝ) : ℝ := if logitLink.unlink predLink > 0.5 then 1 else 0

end CB
