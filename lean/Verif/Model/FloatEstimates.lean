import Verif.Model.Fit

/-!
# Model of the estimates as floats

The parameters that the estimators compute for a bin, with the special values of floats: what divisions by zero, logarithms of
0 and square roots of negative numbers give, and what is computed from that. Simplification: exact numbers, no overflow, no signed zero
(a quotient with denominator 0 has the sign of the numerator).
-/

set_option autoImplicit false

namespace CB
open Finset

noncomputable section

open Classical in
/-- `a * b`.
Models: cyclic_boosting/location.py:111-127 (numpy's definition). -/
def Flt.mul : Flt ℝ → Flt ℝ → Flt ℝ
  | .fin a, .fin b => .fin (a * b)
  | .nan, _ => .nan
  | _, .nan => .nan
  | .fin a, .pinf => if a = 0 then .nan else if 0 < a then .pinf else .ninf
  | .pinf, .fin a => if a = 0 then .nan else if 0 < a then .pinf else .ninf
  | .fin a, .ninf => if a = 0 then .nan else if 0 < a then .ninf else .pinf
  | .ninf, .fin a => if a = 0 then .nan else if 0 < a then .ninf else .pinf
  | .pinf, .pinf => .pinf
  | .ninf, .ninf => .pinf
  | _, _ => .ninf

open Classical in
/-- `a / b`, also for `b = 0`.
Models: cyclic_boosting/location.py:36-49, 111-127 (numpy's definition). -/
def Flt.over : Flt ℝ → Flt ℝ → Flt ℝ
  | .fin a, .fin b => if b ≠ 0 then .fin (a / b) else if a = 0 then .nan else if 0 < a then .pinf else .ninf
  | .nan, _ => .nan
  | _, .nan => .nan
  | .fin _, _ => .fin 0
  | .pinf, .fin b => if 0 ≤ b then .pinf else .ninf
  | .ninf, .fin b => if 0 ≤ b then .ninf else .pinf
  | _, _ => .nan

open Classical in
/-- `np.sqrt(a)`.
Models: cyclic_boosting/GBSregression.py:91 (numpy's definition). -/
def Flt.sqrt : Flt ℝ → Flt ℝ
  | .fin a => if 0 ≤ a then .fin (Real.sqrt a) else .nan
  | .pinf => .pinf
  | _ => .nan

open Classical in
/-- `a <= c` for a finite `c`; false for NaN.
Models: cyclic_boosting/regression.py:30, location.py:113. -/
def Flt.leFin : Flt ℝ → ℝ → Bool
  | .fin x, c => decide (x ≤ c)
  | .ninf, _ => true
  | _, _ => false

open Classical in
/-- `a > 0`; false for NaN.
Models: cyclic_boosting/location.py:69, 72. -/
def Flt.gtZero : Flt ℝ → Bool
  | .fin x => decide (0 < x)
  | .pinf => true
  | _ => false

/-- `np.sum`.
Models: cyclic_boosting/location.py:111-112. -/
def fltSum (n : ℕ) (x : ℕ → Flt ℝ) : Flt ℝ :=
  match n with
  | 0 => .fin 0
  | n + 1 => (fltSum n x).add (x n)

/-- `np.bincount` with weights, for bin `b`.
Models: cyclic_boosting/location.py:116-121. -/
def fltBinSum (n : ℕ) (codes : ℕ → ℕ) (x : ℕ → Flt ℝ) (b : ℕ) : Flt ℝ := fltSum n fun i => if codes i = b then x i else .fin 0

/-! ### Poisson and negative binomial regression -/

open Classical in
/-- `_calc_factors_from_posterior` for one bin. `scipy.special.gammaincinv` gives NaN for negative shapes; shape 0 gives 0.
Models: cyclic_boosting/regression.py:21-38. -/
def calcFactorFromPosteriorFlt (gammaincinv : ℝ → ℝ) (alpha beta : Flt ℝ) : Flt ℝ :=
  let median : Flt ℝ → Flt ℝ
    | .fin a => if 0 < a then .fin (gammaincinv a) else if a = 0 then .fin 0 else .nan
    | _ => .nan
  linkFlt .log (if alpha.leFin 1e12 && beta.leFin 1e12 then (median alpha).over beta else alpha.over beta)

/-- `_calc_factors_and_uncertainties` for one bin.
Models: cyclic_boosting/regression.py:41-52. -/
def calcFactorsAndUncertaintiesFlt (gammaincinv : ℝ → ℝ) (alpha beta : Flt ℝ) : Flt ℝ × Flt ℝ :=
  let ap := alpha.add (.fin gammaPriors.1)
  let bp := beta.add (.fin gammaPriors.2)
  (calcFactorFromPosteriorFlt gammaincinv ap bp, ((linkFlt .log ((Flt.fin 1).add ap)).sub (linkFlt .log ap)).sqrt)

/-- `CBNBinomRegressor.calc_parameters` for bin `b`.
Models: cyclic_boosting/regression.py:146-163. -/
def nbinomParametersFlt (gammaincinv : ℝ → ℝ) (a c : ℝ) (n : ℕ) (codes : ℕ → ℕ) (y w pred : ℕ → ℝ) (b : ℕ) : Flt ℝ × Flt ℝ :=
  let prediction : ℕ → ℝ := fun i => Real.exp (pred i)
  let alpha := fltBinSum n codes (fun i => (Flt.fin (w i * y i)).over (.fin (a + c * prediction i))) b
  let beta := fltBinSum n codes (fun i => (Flt.fin (w i * prediction i)).over (.fin (a + c * prediction i))) b
  calcFactorsAndUncertaintiesFlt gammaincinv alpha beta

/-- `CBPoissonRegressor.calc_parameters` for bin `b`.
Models: cyclic_boosting/regression.py:175-187. -/
def poissonParametersFlt (gammaincinv : ℝ → ℝ) (n : ℕ) (codes : ℕ → ℕ) (y w pred : ℕ → ℝ) (b : ℕ) : Flt ℝ × Flt ℝ :=
  calcFactorsAndUncertaintiesFlt gammaincinv (.fin (binSum n codes (fun i => y i * w i) b))
    (.fin (binSum n codes (fun i => w i * Real.exp (pred i)) b))

/-! ### Classification -/

/-- `CBClassifier.calc_parameters` for bin `b`; `betaPpf` and `coef` as in `classifierCalcParameters`.
Models: cyclic_boosting/classification.py:90-138, base.py:1101-1187. -/
def classifierParametersFlt (betaPpf : ℝ → ℝ → ℝ → ℝ) (coef : ℝ → ℝ) (n : ℕ) (codes : ℕ → ℕ) (y w pred : ℕ → ℝ) (b : ℕ) :
    Flt ℝ × Flt ℝ :=
  let post := classifierPosterior n codes y w pred b
  let share := (Flt.fin post.1).over (.fin (post.1 + post.2))
  let shift := (Flt.fin 0.4).mul (share.sub (.fin 0.5))
  let perc1 := (Flt.fin 0.75).sub shift
  let perc2 := (Flt.fin 0.25).sub shift
  match perc1, perc2 with
  | .fin p1, .fin p2 =>
    let q1 := linkFlt .logit (.fin (betaPpf post.1 post.2 p1))
    let q2 := linkFlt .logit (.fin (betaPpf post.1 post.2 p2))
    let sigma := (q1.sub q2).over (.fin (coef p1 - coef p2))
    (q1.sub (sigma.mul (.fin (coef p1))), sigma)
  | _, _ => (.nan, .nan)

/-! ### Location -/

open Classical in
/-- `precalc_variance_y` with `n_prior = 1`, for bin `b`.
Models: cyclic_boosting/location.py:82-127. -/
def precalcVarianceYFlt (n : ℕ) (codes : ℕ → ℕ) (y w : ℕ → ℝ) (b : ℕ) : Flt ℝ :=
  let sum := Flt.fin (∑ i ∈ range n, w i)
  let mean := (Flt.fin (∑ i ∈ range n, y i * w i)).over sum
  let dev := fun i => (Flt.fin (y i)).sub mean
  let v := (fltSum n fun i => ((dev i).mul (dev i)).mul (.fin (w i))).over sum
  let prior := if v.leFin (1 / 10 ^ 9) then .fin 1 else v
  let sumY := binSum n codes fun i => w i * y i
  let sumW := binSum n codes w
  let meanY := fun i => (Flt.fin (sumY (codes i))).over (.fin (sumW (codes i)))
  let res := fun i => (Flt.fin (y i)).sub (meanY i)
  let squares := fltBinSum n codes (fun i => (Flt.fin (w i)).mul ((res i).mul (res i))) b
  (((Flt.fin (1 / 2)).mul prior).add ((Flt.fin (1 / 2)).mul squares)).over (.fin (1 / 2 + 1 / 2 * sumW b))

/-- `CBLocationRegressor.calc_parameters` for bin `b`, by `calc_parameters_intercept` and `calc_factors_generic`.
Models: cyclic_boosting/location.py:130-160, 187-216, base.py:1368-1380. -/
def locationParametersFlt (n : ℕ) (codes : ℕ → ℕ) (y w pred : ℕ → ℝ) (b : ℕ) : Flt ℝ × Flt ℝ :=
  let variance := precalcVarianceYFlt n codes y w
  let w' := fun i => (Flt.fin (w i)).over (variance (codes i))
  let sumWX := (fltBinSum n codes (fun i => (w' i).mul (.fin (y i - pred i))) b).add (.fin (1 / 100 * 0))
  let sumW := (fltBinSum n codes w' b).add (.fin (1 / 100))
  let sumVW := (fltBinSum n codes (fun i => (Flt.fin (w i)).mul (w' i)) b).add (.fin (1 / 100))
  (sumWX.over sumW, (sumVW.over (sumW.mul sumW)).sqrt)

/-- The mean that `CBLocationRegressor.calibrate_to_weighted_mean` subtracts from the factors of the first `k` bins.
Models: cyclic_boosting/location.py:218-230. -/
def calibrationMeanFlt (k : ℕ) (bw factors : ℕ → ℝ) : Flt ℝ :=
  (Flt.fin (∑ c ∈ range k, factors c * bw c)).over (.fin (∑ c ∈ range k, bw c))

/-- `weighted_stddev`.
Models: cyclic_boosting/utils.py:650-668. -/
def weightedStddevFlt (n : ℕ) (x w : ℕ → ℝ) : Flt ℝ :=
  let sum := Flt.fin (∑ i ∈ range n, w i)
  let mean := (Flt.fin (∑ i ∈ range n, w i * x i)).over sum
  let dev := fun i => (Flt.fin (x i)).sub mean
  ((fltSum n fun i => (Flt.fin (w i)).mul ((dev i).mul (dev i))).over sum).sqrt

/-- `_regularize_summands` for one bin.
Models: cyclic_boosting/location.py:36-49. -/
def regularizeSummandFlt (bincount summand : ℝ) (unc std : Flt ℝ) : Flt ℝ :=
  ((Flt.fin 1).over (((Flt.fin bincount).over (unc.mul unc)).add ((Flt.fin 1).over (std.mul std)))).mul
    (((Flt.fin (bincount * summand)).over (unc.mul unc)).add ((Flt.fin 0).over (std.mul std)))

open Classical in
/-- `CBLocPoissonRegressor.calc_parameters` for bin `b`.
Models: cyclic_boosting/location.py:21-29, 51-75. -/
def locPoissonParametersFlt (n : ℕ) (codes : ℕ → ℕ) (y w pred : ℕ → ℝ) (b : ℕ) : Flt ℝ × Flt ℝ :=
  let prediction := fun i => if 0 < pred i then pred i else 0
  let std := weightedStddevFlt n y w
  let bincount := binSum n codes w b
  let variance := fun i => if prediction i ≤ 0 then 1 else prediction i
  let numerator := fltBinSum n codes (fun i => (Flt.fin (w i * (y i - prediction i))).over (.fin (variance i))) b
  let denominator := fltBinSum n codes (fun i => (Flt.fin (w i)).over (.fin (variance i))) b
  let uncNumerator := fltBinSum n codes (fun i => (Flt.fin (w i ^ 2)).over (.fin (variance i))) b
  let denominator := if denominator.gtZero then denominator else .fin 1
  let summand := numerator.over denominator
  let unc := uncNumerator.over denominator
  let unc := if unc.gtZero then unc else std
  match summand with
  | .fin s => (regularizeSummandFlt bincount s unc std, unc)
  | _ => (.nan, unc)

/-! ### Background subtraction -/

/-- `CBGBSRegressor.calc_parameters` for bin `b`.
Models: cyclic_boosting/GBSregression.py:71-91. -/
def gbsParametersFlt (regalpha : ℝ) (n : ℕ) (codes : ℕ → ℕ) (y w pred : ℕ → ℝ) (b : ℕ) : Flt ℝ × Flt ℝ :=
  let nn := fun i => (y i - pred i) * w i
  let d := fun i => w i * (1 + regalpha)
  let sumN := binSum n codes nn b
  let sumD := binSum n codes d b + 1
  let sumND := binSum n codes (fun i => nn i * d i) b
  let sumN2 := binSum n codes (fun i => nn i * nn i) b
  let sumD2 := binSum n codes (fun i => d i * d i) b + 1 ^ 2
  ((Flt.fin sumN).over (.fin sumD),
    ((Flt.fin (sumD ^ 2 * sumN2 - 2 * sumN * sumD * sumND + sumN ^ 2 * sumD2)).over (.fin (sumD ^ 4))).sqrt)

/-! ### Quantile regression and other losses -/

/-- `np.sum` of a list.
Models: cyclic_boosting/generic_loss.py:549-573. -/
def fltListSum (l : List (Flt ℝ)) : Flt ℝ := l.foldr Flt.add (.fin 0)

/-- `uncertainty_gaussian` on samples (target, weight).
Models: cyclic_boosting/generic_loss.py:549-573. -/
def uncertaintyGaussianFlt (l : List (ℝ × ℝ)) : Flt ℝ :=
  let sumWeights := Flt.fin (l.map fun s => s.2).sum
  let mean := (Flt.fin (l.map fun s => s.1 * s.2).sum).over sumWeights
  let dev := fun s : ℝ × ℝ => (Flt.fin s.1).sub mean
  let residuals := fltListSum (l.map fun s => (Flt.fin s.2).mul ((dev s).mul (dev s)))
  let quotient := residuals.over sumWeights
  let prior := if quotient.leFin (1 / 10 ^ 9) then .fin 1 else quotient
  let a := Flt.fin (1 / 2 + 1 / 2 * (l.map fun s => s.2).sum)
  let b := ((Flt.fin (1 / 2)).mul prior).add ((Flt.fin (1 / 2)).mul residuals)
  let variance := b.over a
  let sumW := (fltListSum (l.map fun s => (Flt.fin s.2).over variance)).add (.fin (1 / 100))
  let sumVW := (fltListSum (l.map fun s => (Flt.fin s.2).mul ((Flt.fin s.2).over variance))).add (.fin (1 / 100))
  (sumVW.over (sumW.mul sumW)).sqrt

end

end CB
