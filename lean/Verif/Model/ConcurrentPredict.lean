import Verif.Model.KeptData
import Verif.Model.Price
import Verif.Model.Baseline

/-!
# Model of predictions in several threads

Threads that call `predict` of the same fitted estimator, each with a table of its own. Between any two steps of a thread others may run. The
only attribute of the estimator that `predict` writes is the external column of the price model; everything else a prediction does is local to
its thread and one step. Simplification: each thread makes one prediction.
-/

set_option autoImplicit false

namespace CB

/-- The price minus one.
Models: cyclic_boosting/price.py:294. -/
noncomputable def rawPrices (prices : List (Flt ℝ)) : List (Flt ℝ) := prices.map fun x => x.addFin (-1)

/-- `external_col[~is_finite] = 0`.
Models: cyclic_boosting/price.py:296. -/
def repairWith (mask : List Bool) (xs : List (Flt ℝ)) : List (Flt ℝ) := List.zipWith (fun ok x => if ok then x else .fin 0) mask xs

/-- A thread: how far it is, the mask of finite prices it has computed, and its result (`none` inside: it raised).
Models: cyclic_boosting/price.py:401-415. -/
structure PredictThread (R : Type*) where
  pc : ℕ := 0
  mask : List Bool := []
  result : Option (Option R) := none

/-- The estimator's `external_col`, and the threads.
Models: cyclic_boosting/price.py:294-296. -/
structure ThreadPool (R : Type*) where
  external : List (Flt ℝ)
  threads : ℕ → PredictThread R

/-- One step of a thread. Price model: the column is set, the mask is computed from it, the missing prices are replaced in it, and the
predictions are made from it, or one of the last two raises because the lengths do not fit. Other estimators: the predictions are made.
Models: cyclic_boosting/base.py:839-858, cyclic_boosting/price.py:276-299,401-415. -/
noncomputable def threadStep {R : Type*} (kind : KeeperKind) (prices : List (Flt ℝ)) (finish : Option (List (Flt ℝ)) → R)
    (external : List (Flt ℝ)) (t : PredictThread R) : List (Flt ℝ) × PredictThread R :=
  match kind with
  | .price =>
    match t.pc with
    | 0 => (rawPrices prices, { t with pc := 1 })
    | 1 => (external, { t with pc := 2, mask := external.map Flt.isFinite })
    | 2 =>
      if t.mask.length = external.length then (repairWith t.mask external, { t with pc := 3 })
      else (external, { t with pc := 4, result := some none })
    | 3 =>
      if external.length = prices.length then (external, { t with pc := 4, result := some (some (finish (some external))) })
      else (external, { t with pc := 4, result := some none })
    | _ => (external, t)
  | _ =>
    if t.pc < 4 then (external, { t with pc := 4, result := some (some (finish none)) })
    else (external, t)

/-- The threads run in the order of the schedule, one step each time.
Models: cyclic_boosting/base.py:839-858, cyclic_boosting/price.py:401-415. -/
noncomputable def runSchedule {R : Type*} (kind : KeeperKind) (prices : ℕ → List (Flt ℝ)) (finish : ℕ → Option (List (Flt ℝ)) → R)
    (schedule : List ℕ) (pool : ThreadPool R) : ThreadPool R :=
  schedule.foldl (fun p i =>
    let r := threadStep kind (prices i) (finish i) p.external (p.threads i)
    ⟨r.1, fun j => if j = i then r.2 else p.threads j⟩) pool

end CB
