import Verif.Model.Training

set_option autoImplicit false

/-!
Specification vocabulary for the training loop.
-/
namespace CB.Spec

variable {K : Type*} [Field K] [LinearOrder K]

/-- The factor stored for bin `b` of a feature: the aggregated factor, nothing (0 in link space) if never fitted. -/
def stored (fs : FState K) (b : ℕ) : K :=
  match fs.agg with
  | some agg => agg b
  | none => 0

/-- Sum, over the features of one type (standard or external), of the stored factor of the bin of sample `s`. -/
def storedSum (external : Bool) (cfgs : List FeatureCfg) (fss : List (FState K)) (s : ℕ) : K :=
  (((cfgs.zip fss).filter (fun q => q.1.external == external)).map (fun q => stored q.2 (q.1.bin s))).sum

/-- The same sum for plain factor arrays. -/
def factorSum (external : Bool) (cfgs : List FeatureCfg) (factors : List (ℕ → K)) (s : ℕ) : K :=
  (((cfgs.zip factors).filter (fun q => q.1.external == external)).map (fun q => q.2 (q.1.bin s))).sum

/-- Training histories: `Trace p o cfgs s0 past s` says that, starting from `s0`, the iterations of the `while` loop went
through the states `past` (latest first) and arrived at `s`. -/
inductive Trace (p : Params K) (o : Oracle K) (cfgs : List FeatureCfg) (s0 : TState K) :
    List (TState K) → TState K → Prop
  | start : Trace p o cfgs s0 [] s0
  | step {past : List (TState K)} {s s' : TState K} : Trace p o cfgs s0 past s → continues p s = true →
      iterate p o cfgs s = .ok s' → Trace p o cfgs s0 (s :: past) s'

/-- The loss `loss` is more than twice the loss `initial`, in the sense of IEEE comparisons (NaN is never larger). -/
def LossDoubled : Flt K → Flt K → Prop
  | .fin initial, .fin loss => 2 * initial < loss
  | .fin _, .pinf => True
  | .ninf, .fin _ => True
  | .ninf, .pinf => True
  | _, _ => False

open Classical in
/-- Number of states in a history whose loss exceeds twice the initial loss. -/
noncomputable def divergedCount (initialLoss : Flt K) (states : List (TState K)) : ℕ :=
  (states.filter (fun s => decide (LossDoubled initialLoss s.loss))).length

/-- Mean absolute difference of two factor arrays over the `nFinite` finite bins and the missing bin. -/
def meanAbsDiff (nFinite : ℕ) (old new : ℕ → K) : K :=
  ((List.range (nFinite + 1)).map (fun b => |new b - old b|)).sum / ((nFinite + 1 : ℕ) : K)

/-- Mean over all features of the mean absolute difference of two factor arrays per feature. -/
def meanChange (cfgs : List FeatureCfg) (old new : List (ℕ → K)) : K :=
  ((cfgs.zip (old.zip new)).map (fun q => meanAbsDiff q.1.nFinite q.2.1 q.2.2)).sum / (cfgs.length : K)

/-- The last update of each feature, as it is used for `minimal_factor_change`. -/
def updates (s : TState K) : List (ℕ → K) := s.feats.map (fun fs => fs.factors)

/-- Change of the loss relative to the previous loss (absolute if the previous loss is zero). -/
def relativeLossChange (old new : K) : K := if old = 0 then -new else (old - new) / old

/-- The value of `x` brought into the interval from `lo` to `hi`. -/
def IsClip (x lo hi y : K) : Prop := (x < lo → y = lo) ∧ (hi < x → y = hi) ∧ (lo ≤ x → x ≤ hi → y = x)

/-- The update before clipping, from the values the smoother predicts at the bin centers and the estimate for the missing bin. -/
def IsRawUpdate (cfg : FeatureCfg) (lr : K) (zero : Bool) (smoothed : ℕ → Option K) (estimate : ℕ → K) (raw : ℕ → K) : Prop :=
  (∀ b, b < cfg.nFinite → zero = true → raw b = 0) ∧
  (∀ b v, b < cfg.nFinite → zero = false → smoothed b = some v → raw b = lr * v) ∧
  (∀ b, b < cfg.nFinite → zero = false → smoothed b = none → raw b = 0) ∧
  (cfg.missingNotLearned = true → raw cfg.nFinite = 0) ∧
  (cfg.missingNotLearned = false → raw cfg.nFinite = lr * estimate cfg.nFinite)

end CB.Spec
