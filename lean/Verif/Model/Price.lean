import Verif.Model.Predict
import Verif.Model.Estimators
import Mathlib.Analysis.SpecialFunctions.Log.Basic

/-!
# Model of `cyclic_boosting/price.py`

The bracketed Newton iteration, the Newton step of the exponent fit, the
prediction `log p = factors + base * exponents` and the combination of feature
lists.
-/

set_option autoImplicit false

namespace CB

section
variable {K : Type*} [Field K] [LinearOrder K]

/-- What `newton_step(l, *args)` returns: new parameters, Jacobian and Hessian
per bin.
Models: cyclic_boosting/price.py:214. -/
structure NewtonOut (K : Type*) where
  lnew : ℕ → Flt K
  jac : ℕ → Flt K
  hess : ℕ → Flt K

/-- `f < 0` on floats (false for NaN).
Models: cyclic_boosting/price.py:146. -/
def Flt.ltZero : Flt K → Bool
  | .fin x => decide (x < 0)
  | .ninf => true
  | _ => false

/-- The finite value, arbitrary otherwise (only used behind `isfinite`).
Models: cyclic_boosting/price.py:141-153. -/
def Flt.val : Flt K → K
  | .fin x => x
  | _ => 0

/-- The loop of `_set_right_bound` with `k` iterations left.
Models: cyclic_boosting/price.py:63-76. -/
def setRightBoundLoop (n : ℕ) (jac : (ℕ → K) → ℕ → Flt K) (valid : ℕ → Bool) :
    ℕ → (ℕ → K) → (ℕ → K)
  | 0, x => x
  | k + 1, x =>
    let index := fun b => valid b && (jac x b).ltZero
    if (List.range n).any index then
      setRightBoundLoop n jac valid k (fun b => if index b then x b * 2 else x b)
    else x

/-- `_set_right_bound`.  (It calls the module's own `newton_step` with
`only_jac=True`, whatever function was passed to `newton_bisect`, so its Jacobian
is a separate argument.)
Models: cyclic_boosting/price.py:63-76. -/
def setRightBound (n : ℕ) (jac : (ℕ → K) → ℕ → Flt K) (valid : ℕ → Bool) (x : ℕ → K) : ℕ → K :=
  setRightBoundLoop n jac valid 10 x

/-- Local variables of the loop in `newton_bisect`.
Models: cyclic_boosting/price.py:136-157. -/
structure BisectState (K : Type*) where
  l : ℕ → K
  xl : ℕ → K
  xr : ℕ → K
  valid : ℕ → Bool
  hess : ℕ → Flt K

/-- `np.abs(x) < epsilon` on floats (false for NaN and infinities).
Models: cyclic_boosting/price.py:145. -/
def Flt.absLt (x : Flt K) (eps : K) : Bool :=
  match x with
  | .fin a => decide (|a| < eps)
  | _ => false

/-- The loop of `newton_bisect` with `k` iterations left; `true` means that it was
left by `break`.
Models: cyclic_boosting/price.py:141-157. -/
def bisectLoop (n : ℕ) (step : (ℕ → K) → NewtonOut K) (eps : K) :
    ℕ → BisectState K → BisectState K × Bool
  | 0, s => (s, false)
  | k + 1, s =>
    let r := step s.l
    let valid := fun b => s.valid b &&
      ((r.jac b).isFinite && (r.hess b).isFinite && (r.lnew b).isFinite)
    let converged := fun b => (r.jac b).absLt eps || decide (|s.l b - s.xl b| < eps)
      || decide (|s.xr b - s.l b| < eps) || !valid b
    if (List.range n).all converged then ({ s with valid := valid, hess := r.hess }, true)
    else
      let xl := fun b => if valid b && (r.jac b).ltZero then s.l b else s.xl b
      let xr := fun b => if valid b && !(r.jac b).ltZero then s.l b else s.xr b
      let l := fun b =>
        if valid b then
          if (r.lnew b).val > xr b ∨ (r.lnew b).val < xl b then (xl b + xr b) / 2
          else (r.lnew b).val
        else 1
      let hess := fun b => if valid b then r.hess b else .fin 1
      bisectLoop n step eps k { l, xl, xr, valid, hess }

/-- The inverse Hessian with the replacement of non-positive values.
Models: cyclic_boosting/price.py:160-165. -/
def hessInv : Flt K → Flt K
  | .fin h => if h = 0 then .pinf else if 1 / h ≤ 0 then .fin 1 else .fin (1 / h)
  | .nan => .nan
  | .pinf => .fin 1
  | .ninf => .fin 1

/-- Result of `newton_bisect`.
Models: cyclic_boosting/price.py:79-168. -/
structure BisectResult (K : Type*) where
  l : ℕ → K
  hessInv : ℕ → Flt K
  xl : ℕ → K
  xr : ℕ → K

/-- Start values: the given ones unless one of them lies outside its bracket.
Models: cyclic_boosting/price.py:136-139. -/
def bisectStart (n : ℕ) (xl xr : ℕ → K) (start : Option (ℕ → K)) : ℕ → K :=
  match start with
  | none => fun b => (xr b + xl b) / 2
  | some s =>
    if (List.range n).any (fun b => decide (s b < xl b)) ||
        (List.range n).any (fun b => decide (s b > xr b)) then
      fun b => (xr b + xl b) / 2
    else s

/-- `newton_bisect`; `none` is the `UnboundLocalError` for zero iterations.
Models: cyclic_boosting/price.py:79-167. -/
def newtonBisect (n : ℕ) (jac0 : (ℕ → K) → ℕ → Flt K) (step : (ℕ → K) → NewtonOut K)
    (valid : ℕ → Bool) (xl xr : ℕ → K) (eps : K) (maxIter : ℕ) (start : Option (ℕ → K)) :
    Option (BisectResult K) :=
  if maxIter = 0 then none
  else
    let xr := setRightBound n jac0 valid xr
    let l := bisectStart n xl xr start
    let s := (bisectLoop n step eps maxIter { l, xl, xr, valid, hess := fun _ => .nan }).1
    some { l := s.l, hessInv := fun b => hessInv (s.hess b), xl := xl, xr := xr }

/-- The call in `_calc_parameters_exponent`: brackets `[0, 2]`, start value 1, ten
iterations, epsilon 0.01, bins with positive weight are valid.
Models: cyclic_boosting/price.py:266-267,368-398. -/
def exponentBisect (n : ℕ) (step : (ℕ → K) → NewtonOut K) (binWeights : ℕ → K) :
    Option (BisectResult K) :=
  newtonBisect n (fun x => (step x).jac) step (fun b => decide (binWeights b > 0))
    (fun _ => 0) (fun _ => 2 * 1) (1 / 100) 10 (some fun _ => 1)

end

/-! ### The Newton step of the exponent fit -/

section
open Real

/-- Inputs of `newton_step` besides the parameters `l`.
Models: cyclic_boosting/price.py:170-183. -/
structure ExpoData where
  n : ℕ
  y : ℕ → ℝ
  p : ℕ → ℝ
  logX : ℕ → ℝ
  k : ℕ → ℝ
  prior : ℕ → ℝ
  s : ℕ → ℝ
  logKPrior : ℕ → ℝ
  varL : ℝ
  codes : ℕ → ℕ

/-- `bin_counts` of the bin of a sample.
Models: cyclic_boosting/price.py:192. -/
noncomputable def ExpoData.count (d : ExpoData) (i : ℕ) : ℝ :=
  binSum d.n d.codes (fun _ => 1) (d.codes i)

/-- `mu = p*exp((k*l1)*log_x)`.
Models: cyclic_boosting/price.py:189. -/
noncomputable def ExpoData.mu (d : ExpoData) (t : ℝ) (i : ℕ) : ℝ :=
  d.p i * exp (d.k i * t * d.logX i)

/-- `jac_prior` of a sample at the parameter `t` of its bin.
Models: cyclic_boosting/price.py:195. -/
noncomputable def ExpoData.jacPrior (d : ExpoData) (t : ℝ) (i : ℕ) : ℝ :=
  2 * (d.k i * (d.k i * t - d.prior i) + t - 1 + (d.logKPrior i + 2 * log t) / t)
    / d.varL / d.count i

/-- `jac_data` of a sample.
Models: cyclic_boosting/price.py:190,197. -/
noncomputable def ExpoData.jacData (d : ExpoData) (t : ℝ) (i : ℕ) : ℝ :=
  -(2 * (d.k i * d.logX i) * d.mu t i * (d.y i - d.mu t i)) * d.s i

/-- The Jacobian of bin `b`.
Models: cyclic_boosting/price.py:184-198. -/
noncomputable def ExpoData.jac (d : ExpoData) (l : ℕ → ℝ) (b : ℕ) : ℝ :=
  binSum d.n d.codes (fun i => d.jacData (l (d.codes i)) i + d.jacPrior (l (d.codes i)) i) b

/-- `hess_prior` of a sample.
Models: cyclic_boosting/price.py:205. -/
noncomputable def ExpoData.hessPrior (d : ExpoData) (t : ℝ) (i : ℕ) : ℝ :=
  2 * (d.k i * d.k i + 1 + (2 - (d.logKPrior i + 2 * log t)) / t / t) / d.varL / d.count i

/-- `hess_data` of a sample.
Models: cyclic_boosting/price.py:207. -/
noncomputable def ExpoData.hessData (d : ExpoData) (t : ℝ) (i : ℕ) : ℝ :=
  2 * (d.k i * d.logX i) * (d.k i * d.logX i) * d.mu t i * d.mu t i * d.s i
    + d.k i * d.logX i * d.jacData t i

/-- The Hessian of bin `b`.
Models: cyclic_boosting/price.py:203-208. -/
noncomputable def ExpoData.hess (d : ExpoData) (l : ℕ → ℝ) (b : ℕ) : ℝ :=
  binSum d.n d.codes (fun i => d.hessData (l (d.codes i)) i + d.hessPrior (l (d.codes i)) i) b

open Classical in
/-- `newton_step`: where the Hessian is zero the new parameter is NaN. For a parameter 0 of a bin with samples, the terms with
`log(l)` are infinite. (Parameters below 0 do not occur, see C44; the logarithm of 0 is `-inf` in numpy.)
Models: cyclic_boosting/price.py:170-214. -/
noncomputable def ExpoData.step (d : ExpoData) (l : ℕ → ℝ) : NewtonOut ℝ :=
  let infinite : ℕ → Prop := fun b => l b ≤ 0 ∧ ∃ i < d.n, d.codes i = b
  { lnew := fun b => if infinite b then .nan
      else if d.hess l b ≠ 0 then .fin (l b - d.jac l b / d.hess l b) else .nan
    jac := fun b => if infinite b then .ninf else .fin (d.jac l b)
    hess := fun b => if infinite b then .pinf else .fin (d.hess l b) }

/-- `gamma_momemt_matching` up to the call of `_calc_factors_and_uncertainties`:
`alpha` and `beta` of a bin, both 0 if one of them is not finite.
Models: cyclic_boosting/price.py:431-445.  (The variances that occur are
positive, infinite or NaN, see `hessInv`.) -/
noncomputable def gammaMoments (factor : ℝ) (variance : Flt ℝ) : ℝ × ℝ :=
  match variance with
  | .fin v => (factor / v * factor, factor / v)
  | _ => (0, 0)

/-- The external column: price ratio minus one, 0 where it is missing.
Models: cyclic_boosting/price.py:276-296. -/
def externalBase (ratio : Flt ℝ) : ℝ :=
  match ratio with
  | .fin x => x - 1
  | _ => 0

/-- `CBLinkPredictions.exponents`: `prior_exponents * exp(exponents)`.
Models: cyclic_boosting/price.py:467-469. -/
noncomputable def priceExponent (priorExponent x : ℝ) : ℝ := priorExponent * exp x

/-- `CBLinkPredictions.predict_link`.
Models: cyclic_boosting/price.py:461-462. -/
noncomputable def priceLinkOf (factors priorExponent x base : ℝ) : ℝ :=
  factors + priceExponent priorExponent x * base

/-- `CBExponential.predict` for one sample, given the sum `factors` of the demand
features (prior prediction included) and the sum `x` of the external features.
Models: cyclic_boosting/price.py:401-415 (unlink is `exp`). -/
noncomputable def pricePredict (factors priorExponent x : ℝ) (ratio : Flt ℝ) : ℝ :=
  exp (priceLinkOf factors priorExponent x (externalBase ratio))

/-- `CBExponential.predict(X)` for sample `s` of a table, with the price ratios of the
external column and the prior exponents given per sample.
Models: cyclic_boosting/price.py:401-415. -/
noncomputable def priceModelPredict (prior priorExponents : ℕ → ℝ) (ratio : ℕ → Flt ℝ)
    (features : List (FittedFeature ℝ)) (X : Table ℝ) (s : ℕ) : ℝ :=
  let pred := predictExtended prior features X
  pricePredict (pred.factors s) (priorExponents s) (pred.exponents s) (ratio s)

end

/-! ### Feature lists -/

/-- Type of a feature id: `None` (standard), "external" or anything else.
Models: cyclic_boosting/features.py:19-24. -/
inductive FType where
  | standard
  | external
  | other (s : String)
deriving DecidableEq, Repr

/-- `FeatureID`. Models: cyclic_boosting/features.py:19. -/
structure FeatureId where
  group : List String
  ftype : FType
deriving DecidableEq, Repr

/-- What a user may pass as a feature group: a name, a tuple of names, or an id.
Models: cyclic_boosting/features.py:282-292. -/
inductive GroupArg where
  | name (s : String)
  | tuple (g : List String)
  | id (f : FeatureId)

/-- `create_feature_id`.
Models: cyclic_boosting/features.py:282-292. -/
def createFeatureId (default : FType) : GroupArg → FeatureId
  | .name s => ⟨[s], default⟩
  | .tuple g => ⟨g, default⟩
  | .id f => f

/-- `combine_lists_of_feature_groups` with `_check_feature_groups`; errors are the
three `ValueError`s.
Models: cyclic_boosting/price.py:23-60. -/
def combineFeatureGroups (standard external : Option (List GroupArg)) :
    Except String (List FeatureId) :=
  match standard with
  | none => .error "Pass at least one feature in `standard_feature_groups`."
  | some sf =>
    let sf := sf.map (createFeatureId .standard)
    let ef := external.map (fun e => e.map (createFeatureId .external))
    if sf.any (fun f => f.ftype ≠ .standard) then
      .error "There are none standard features in the ``standard_feature_groups`` present."
    else
      match ef with
      | none => .ok sf
      | some ef =>
        if ef.any (fun f => f.ftype ≠ .external) then
          .error "There are standard features in the ``external_feature_groups`` present."
        else .ok (sf ++ ef)

end CB
