import Verif.Model.Training
import Verif.Model.Estimators
import Verif.Model.Link

/-!
# Model of the global scale and the prior prediction

Covers `_init_weight_column`, `_init_global_scale`, `_get_prior_predictions` and `loss` of cyclic_boosting/base.py.
-/

set_option autoImplicit false

namespace CB
open Finset

/-- The three link functions.
Models: cyclic_boosting/link.py:36-104. -/
inductive LinkKind
  | log | logit | identity
  deriving DecidableEq, Repr

/-- The link on finite values.
Models: cyclic_boosting/link.py:36-104. -/
noncomputable def LinkKind.toLink : LinkKind → Link
  | .log => logLink
  | .logit => logitLink
  | .identity => identityLink

open Classical in
/-- `link_func` for a float: the logarithm of 0 is -inf, of negative numbers NaN; `1 / 0` is inf.
Models: cyclic_boosting/link.py:53-61, 74-81, 98-100. -/
noncomputable def linkFlt : LinkKind → Flt ℝ → Flt ℝ
  | .log, .fin m => if 0 < m then .fin (Real.log m) else if m = 0 then .ninf else .nan
  | .log, .pinf => .pinf
  | .log, _ => .nan
  | .logit, .fin p =>
    if p = 1 then .pinf
    else if 0 < p / (1 - p) then .fin (Real.log (p / (1 - p)))
    else if p / (1 - p) = 0 then .ninf else .nan
  | .logit, _ => .nan
  | .identity, x => x

/-- `a + b` for a finite `b` or a special value.
Models: cyclic_boosting/base.py:450. -/
def Flt.add {K : Type*} [Add K] : Flt K → Flt K → Flt K
  | .fin a, .fin b => .fin (a + b)
  | .nan, _ => .nan
  | _, .nan => .nan
  | .pinf, .ninf => .nan
  | .ninf, .pinf => .nan
  | .pinf, _ => .pinf
  | _, .pinf => .pinf
  | .ninf, _ => .ninf
  | _, .ninf => .ninf

/-- `_init_weight_column`: all ones without weight column.
Models: cyclic_boosting/base.py:352-367. -/
def initWeights {K : Type*} [One K] (weightColumn : Option (ℕ → K)) : ℕ → K :=
  match weightColumn with
  | none => fun _ => 1
  | some w => w

open Classical in
/-- A quotient of sums; a zero denominator gives NaN (simplification: never an infinity).
Models: cyclic_boosting/base.py:408, 421. -/
noncomputable def quotientFlt (a b : ℝ) : Flt ℝ := if b = 0 then .nan else .fin (a / b)

/-- `global_scale_link_`.
Models: cyclic_boosting/base.py:395-408. -/
noncomputable def globalScaleLink (kind : LinkKind) (n : ℕ) (y w : ℕ → ℝ) : Flt ℝ :=
  linkFlt kind ((quotientFlt (∑ i ∈ range n, y i * w i) (∑ i ∈ range n, w i)).addFin (1 / 1000))

/-- A prior prediction where it is finite.
Models: cyclic_boosting/base.py:411-421. -/
def Flt.getFin {K : Type*} [Zero K] : Flt K → K
  | .fin x => x
  | _ => 0

/-- The weighted mean of the finite prior predictions.
Models: cyclic_boosting/base.py:411-421. -/
noncomputable def priorPredMean (n : ℕ) (prior : ℕ → Flt ℝ) (w : ℕ → ℝ) : Flt ℝ :=
  quotientFlt (∑ i ∈ range n, if (prior i).isFinite then (prior i).getFin * w i else 0)
    (∑ i ∈ range n, if (prior i).isFinite then w i else 0)

/-- `prior_pred_link_offset_` for a prior prediction column and the global scale `scale`.
Models: cyclic_boosting/base.py:410-433, generic_loss.py:384-407. -/
noncomputable def priorOffsetFrom (kind : LinkKind) (scale : Flt ℝ) (n : ℕ) (prior : ℕ → Flt ℝ) (w : ℕ → ℝ) : Flt ℝ :=
  let mean := linkFlt kind (priorPredMean n prior w)
  if mean.isFinite then scale.sub mean else scale

/-- `prior_pred_link_offset_` for the global scale of the base class.
Models: cyclic_boosting/base.py:395-433. -/
noncomputable def priorOffset (kind : LinkKind) (n : ℕ) (prior : ℕ → Flt ℝ) (y w : ℕ → ℝ) : Flt ℝ :=
  priorOffsetFrom kind (globalScaleLink kind n y w) n prior w

/-- `_get_prior_predictions` for the sample `i` of a table with the prior prediction column `prior`, given the global scale
and offset of the training.
Models: cyclic_boosting/base.py:446-455. -/
noncomputable def priorPrediction (kind : LinkKind) (scale offset : Flt ℝ) (prior : Option (ℕ → Flt ℝ)) (i : ℕ) : Flt ℝ :=
  match prior with
  | none => scale
  | some prior =>
    let link := (linkFlt kind (prior i)).add offset
    if link.isFinite then link else scale

end CB
