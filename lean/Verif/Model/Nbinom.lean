import Verif.Model.Flt
import Verif.Model.Estimators
import Mathlib.Analysis.SpecialFunctions.Pow.Real
import Mathlib.Analysis.SpecialFunctions.Gamma.Basic

/-!
# Model of `cyclic_boosting/nbinom.py`

The dispersion model of the negative binomial distribution.  In the loss functions the log of the
probability mass function (numba code built on `lgamma`) is a parameter that may
return any float, including NaN and infinities; `nbinomLogPmf` is its value on real numbers.
-/

set_option autoImplicit false

namespace CB

open Finset

noncomputable section

/-- `np.logspace(-3, stop, m)`: for one point it is the start value.
Models: cyclic_boosting/nbinom.py:163,165 (numpy's definition). -/
def logspace (stop : ℝ) (m : ℕ) : List ℝ :=
  (List.range m).map fun (i : ℕ) => (10 : ℝ) ^ (-3 + (i : ℝ) * ((stop + 3) / ((m : ℝ) - 1)))

/-- `get_new_c_link_for_iteration`.
Models: cyclic_boosting/nbinom.py:161-167. -/
def newCLink (iteration nSteps : ℕ) : List ℝ :=
  let ls := logspace (1 / iteration) (nSteps / iteration)
  (ls.map fun x => -x).reverse ++ [0] ++ ls

/-- `1/(1 + exp(-x))`.  Models: cyclic_boosting/nbinom.py:211. -/
def sigmoid (x : ℝ) : ℝ := 1 / (1 + Real.exp (-x))

/-- `p = minimum(1/(1 + c*mu), 1 - 1e-8)`.
Models: cyclic_boosting/nbinom.py:186,212. -/
def nbinomP (c mu : ℝ) : ℝ := min (1 / (1 + c * mu)) (1 - 1e-8)

/-- `n = mu*p/(1 - p)`.
Models: cyclic_boosting/nbinom.py:187,213. -/
def nbinomN (c mu : ℝ) : ℝ := mu * nbinomP c mu / (1 - nbinomP c mu)

/-- `nbinom_log_pmf` on real numbers; `lgamma` is the logarithm of the gamma function. For `n = 0` (a mean of 0) the code gets
minus infinity or NaN. Simplification: NaN also for negative `n` (a negative mean).
Models: cyclic_boosting/nbinom.py:170-176. -/
def nbinomLogPmf (x n p : ℝ) : Flt ℝ :=
  if 0 < n then
    .fin (Real.log (Real.Gamma (n + x)) - Real.log (Real.Gamma (x + 1)) - Real.log (Real.Gamma n) + n * Real.log p
      + x * Real.log (1 - p))
  else .nan

/-- `-x` if it is finite, 400 otherwise.
Models: cyclic_boosting/nbinom.py:191-193,218-222. -/
def negOr400 : Flt ℝ → ℝ
  | .fin x => -x
  | _ => 400

/-- Loss of one sample at dispersion `c`.  The code tests the sum with
`gamma*|c|` for finiteness, which is the same because that summand is finite.
Models: cyclic_boosting/nbinom.py:191-194,218-222. -/
def sampleLoss (logpmf : ℝ → ℝ → ℝ → Flt ℝ) (gamma y mu c : ℝ) : ℝ :=
  negOr400 (logpmf y (nbinomN c mu) (nbinomP c mu)) + gamma * |c|

/-- `loss_nbinom_c`: the mean loss, used as training loss.
Models: cyclic_boosting/nbinom.py:179-196. -/
def lossNbinomC (logpmf : ℝ → ℝ → ℝ → Flt ℝ) (gamma : ℝ) (n : ℕ) (y mu c : ℕ → ℝ) : ℝ :=
  (∑ i ∈ range n, sampleLoss logpmf gamma (y i) (mu i) (c i)) / n

/-- `binned_loss_nbinom_c`: the loss of each bin if `newC` is added to the
dispersion of all its samples in link space.
Models: cyclic_boosting/nbinom.py:199-246. -/
def binnedLoss (logpmf : ℝ → ℝ → ℝ → Flt ℝ) (gamma : ℝ) (n : ℕ) (codes : ℕ → ℕ)
    (y mu cLink : ℕ → ℝ) (newC : ℝ) (b : ℕ) : ℝ :=
  binSum n codes (fun i => sampleLoss logpmf gamma (y i) (mu i) (sigmoid (newC + cLink i))) b

/-- `np.argmin` of a list of finite numbers: the first position of the minimum
(`best` so far at position `bi`, next position `i`).
Models: cyclic_boosting/nbinom.py:271 (numpy's `argmin`). -/
def argminFrom (best : ℝ) (bi i : ℕ) : List ℝ → ℕ
  | [] => bi
  | x :: xs => if x < best then argminFrom x i (i + 1) xs else argminFrom best bi (i + 1) xs

/-- `np.argmin`; an empty list (an error in numpy) gives 0.
Models: cyclic_boosting/nbinom.py:271. -/
def argmin : List ℝ → ℕ
  | [] => 0
  | x :: xs => argminFrom x 0 1 xs

/-- The mode without Bayesian averaging.
Models: cyclic_boosting/nbinom.py:264-273. -/
def bestOffset (loss : ℝ → ℝ) (cands : List ℝ) : ℝ :=
  cands.getD (argmin (cands.map loss)) 0

/-- `bayes_result` for one bin: average of the candidates, weighted with the
exponential of the negative loss.
Models: cyclic_boosting/nbinom.py:249-261.  (All losses are finite, so the
replacement of non-finite weights does nothing.) -/
def bayesOffset (loss : ℝ → ℝ) (cands : List ℝ) : ℝ :=
  let l := cands.map fun c => -loss c
  let m := l.foldl max (l.headD 0)
  let w := l.map fun x => Real.exp (x - m)
  (List.zipWith (fun x c => x / w.sum * c) w cands).sum

/-- `calc_parameters_nbinom_c` for bin `b`.
Models: cyclic_boosting/nbinom.py:264-273. -/
def calcParametersNbinomC (logpmf : ℝ → ℝ → ℝ → Flt ℝ) (gamma : ℝ) (bayes : Bool) (n : ℕ)
    (codes : ℕ → ℕ) (y mu cLink : ℕ → ℝ) (cands : List ℝ) (b : ℕ) : ℝ :=
  let loss := fun c => binnedLoss logpmf gamma n codes y mu cLink c b
  if bayes then bayesOffset loss cands else bestOffset loss cands

/-- `CBNBinomC.calc_parameters` for bin `b`: the offset and its uncertainty.
Models: cyclic_boosting/nbinom.py:111-130 (weights are not used). -/
def nbinomCCalcParameters (logpmf : ℝ → ℝ → ℝ → Flt ℝ) (gamma : ℝ) (bayes : Bool)
    (nSteps iteration : ℕ) (n : ℕ) (codes : ℕ → ℕ) (y mu cLink : ℕ → ℝ) (b : ℕ) : ℝ × ℝ :=
  let cands := newCLink (iteration + 1) nSteps
  let count : ℝ := binSum n codes (fun _ => 1) b
  (calcParametersNbinomC logpmf gamma bayes n codes y mu cLink cands b,
    1 / Real.sqrt (if count < 1 then 1 else count))

end

end CB
