import Mathlib.Data.Real.Basic

set_option autoImplicit false

/-!
Model of the smeared values of a discrete cumulative distribution function, `cyclic_boosting/utils.py`.

The random number `np.random.uniform(0, 1)` is an argument `u`.
-/
namespace CB

/-- `smear_discrete_cdftruth(cdf_func, y)` with the random number `u`.
Models: cyclic_boosting/utils.py:1084-1108. -/
noncomputable def smearDiscreteCdftruth (cdf : ℤ → ℝ) (y : ℤ) (u : ℝ) : ℝ :=
  let cdfHigh := cdf y
  let cdfLow := if y ≥ 1 then cdf (y - 1) else 0
  cdfLow + u * (cdfHigh - cdfLow)

/-- `smear_discrete_cdftruth_qpd(qpds, y)` for sample `s`, with the random numbers `u`; `cdf s x` is the value of the cumulative
distribution function of the distribution of sample `s`.
Models: cyclic_boosting/utils.py:1111-1132. -/
noncomputable def smearDiscreteCdftruthQpd (cdf : ℕ → ℝ → ℝ) (y u : ℕ → ℝ) (s : ℕ) : ℝ :=
  let cdfHigh := cdf s (y s)
  let cdfLow := if y s ≥ 1 then cdf s (y s - 1) else 0
  cdfLow + u s * (cdfHigh - cdfLow)

end CB
