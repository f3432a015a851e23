import Mathlib.Data.List.Basic
import Mathlib.Data.List.Range

/-!
# Model of the data an estimator keeps

Which attributes of an estimator refer to arrays with one entry per sample, and to the samples of which table. Tables are numbered. A call
is a list of steps, and may raise between any two of them. Simplifications: only the attributes for samples are modelled; an attribute that
is `None` and one that is deleted are the same; there is no observer or one
`PlottingObserver` for the end of the training; the importances of all features are one step.
-/

set_option autoImplicit false

namespace CB

/-- The kinds of estimators, by the attributes they use.
Models: cyclic_boosting/base.py:818-829, cyclic_boosting/nbinom.py:136-140, cyclic_boosting/price.py:417-428. -/
inductive KeeperKind where
  | plain
  | dispersion
  | price
deriving DecidableEq, Repr

/-- The attributes with one entry per sample: `weights`, `mu`, `external_col`, `weights_external` and `lex_binned_data` of every feature.
`older` are the features of earlier fits that `feature_importances` still refers to, `ranked` says whether the features are in there,
`observed` are the copies of features in the observer, which belongs to the estimator.
Models: cyclic_boosting/base.py:296-307,439-444,971-974, cyclic_boosting/features.py:165-168, cyclic_boosting/nbinom.py:137,
cyclic_boosting/price.py:294-299, cyclic_boosting/observers.py:150-157. -/
structure KeptData where
  weights : Option ℕ := none
  mu : Option ℕ := none
  externalCol : Option ℕ := none
  weightsExternal : Option ℕ := none
  features : List (Option ℕ) := []
  ranked : Bool := false
  older : List (Option ℕ) := []
  observed : List (Option ℕ) := []
deriving DecidableEq, Repr

/-- Steps that set or clear such attributes.
Models: cyclic_boosting/base.py:363-367,444,684-690,971-974, cyclic_boosting/features.py:150-183. -/
inductive KeepStep where
  | setWeights (data : ℕ)
  | dropWeights
  | setMu (data : ℕ)
  | dropMu
  | setExternal (data : ℕ)
  | dropExternal
  | setWeightsExternal (data : ℕ)
  | dropWeightsExternal
  | createFeatures (n : ℕ)
  | bind (i data : ℕ)
  | unbind (i : ℕ)
  | rank
  | observe
deriving DecidableEq, Repr

/-- The effect of a step.
Models: cyclic_boosting/base.py:363-367,444,827,971-974, cyclic_boosting/features.py:165-168,181-183, cyclic_boosting/nbinom.py:137-139,
cyclic_boosting/price.py:294-299,425-426, cyclic_boosting/observers.py:150-157. -/
def KeepStep.run (s : KeptData) : KeepStep → KeptData
  | .setWeights d => { s with weights := some d }
  | .dropWeights => { s with weights := none }
  | .setMu d => { s with mu := some d }
  | .dropMu => { s with mu := none }
  | .setExternal d => { s with externalCol := some d }
  | .dropExternal => { s with externalCol := none }
  | .setWeightsExternal d => { s with weightsExternal := some d }
  | .dropWeightsExternal => { s with weightsExternal := none }
  | .createFeatures n =>
    { s with features := List.replicate n none, ranked := false, older := if s.ranked then s.older ++ s.features else s.older }
  | .bind i d => { s with features := s.features.set i (some d) }
  | .unbind i => { s with features := s.features.set i none }
  | .rank => { s with ranked := true }
  | .observe => { s with observed := s.features }

/-- The iterations: all features are bound; if training diverges, they are bound and unbound once more.
Models: cyclic_boosting/base.py:556-570,677-692,733-760. -/
def iterationSteps (data n : ℕ) (diverging : Bool) : List KeepStep :=
  (List.range n).map (fun i => .bind i data) ++
    if diverging then (List.range n).flatMap fun i => [.bind i data, .unbind i] else []

/-- The steps of `_fit_main`: iterations, importances, with an observer the preparation of plots and the copying of the features, and the
clearing of the features.
Models: cyclic_boosting/base.py:713-776, cyclic_boosting/observers.py:150-157. -/
def fitMainSteps (observer : Bool) (data n : ℕ) (iterations : List Bool) : List KeepStep :=
  iterations.flatMap (iterationSteps data n) ++ [.rank] ++
    (if observer then ((List.range n).map fun i => .bind i data) ++ [.observe] else []) ++ (List.range n).map fun i => .unbind i

/-- The steps of `fit`. `n` is the number of features, `iterations` says for every iteration whether training diverged.
Models: cyclic_boosting/base.py:700-711,818-829, cyclic_boosting/nbinom.py:136-140, cyclic_boosting/price.py:294-299,417-428. -/
def fitSteps (kind : KeeperKind) (observer : Bool) (data n : ℕ) (iterations : List Bool) : List KeepStep :=
  match kind with
  | .plain => [.setWeights data, .createFeatures n] ++ fitMainSteps observer data n iterations ++ [.dropWeights]
  | .dispersion =>
    [.setMu data, .setWeights data, .createFeatures n] ++ fitMainSteps observer data n iterations ++ [.dropWeights, .dropMu]
  | .price =>
    [.setWeights data, .setExternal data, .setWeightsExternal data, .createFeatures n] ++ fitMainSteps observer data n iterations ++
      [.dropExternal, .dropWeightsExternal]

/-- The steps of `predict`.
Models: cyclic_boosting/base.py:369-379,839-858, cyclic_boosting/price.py:401-415. -/
def predictSteps (kind : KeeperKind) (data : ℕ) : List KeepStep :=
  match kind with
  | .price => [.setExternal data]
  | _ => []

/-- A call by the user. `stop` is the number of steps after which it raises, `none` if it does not raise.
Models: cyclic_boosting/base.py:694-699,839-841. -/
inductive KeeperCall where
  | fit (data n : ℕ) (iterations : List Bool) (stop : Option ℕ)
  | predict (data : ℕ) (stop : Option ℕ)
deriving DecidableEq, Repr

/-- The steps of a call that are reached.
Models: cyclic_boosting/base.py:694-699,839-841. -/
def KeeperCall.steps (kind : KeeperKind) (observer : Bool) : KeeperCall → List KeepStep
  | .fit d n its none => fitSteps kind observer d n its
  | .fit d n its (some k) => (fitSteps kind observer d n its).take k
  | .predict d none => predictSteps kind d
  | .predict d (some k) => (predictSteps kind d).take k

/-- The attributes after a history of calls, from the constructor on.
Models: cyclic_boosting/base.py:296-307,694-699,839-841. -/
def keptAfter (kind : KeeperKind) (observer : Bool) (history : List KeeperCall) : KeptData :=
  (history.flatMap (KeeperCall.steps kind observer)).foldl KeepStep.run {}

end CB
