import Verif.Props.Observers
import Verif.Props.TrainingExamples

set_option autoImplicit false

/-!
C101: a training run with observers.
-/
namespace CB
open Spec

/-- A training run of five iterations with observers. -/
def observedToy : Option (Except TErr (FitResult ℚ)) × List (ObserverCall ℚ) :=
  observedFit (toyParams true none) (toyOracle (fun it => 1 / (10 * (it + 1))) toyLoss) toyFeatures (fun _ => 1/2) 7

/-- A plotting observer for iteration `k` after that run. -/
def observerToy (k : ℤ) : Option (PlottingObserver ℚ) := (PlottingObserver.new k).map (fun obs => obs.afterCalls observedToy.2)

/-- The hypotheses of the theorems on observers are met: the run is successful and has five iterations; the default observer has six
losses and five changes of factors; observers for iterations 1 to 4 are filled, an observer for iteration 5 is not. -/
example : observedToy.1.map (fun r => r.toOption.map (fun r => r.iterations)) = some (some 5) ∧
    (observerToy (-1)).map (fun obs => (obs.checkFitted, obs.loss, obs.factorChange.length))
      = some (true, [.fin (9/4), .fin (1/100), .fin (169/100), .fin (729/100), .fin (12769/1600), .fin (9/25)], 5) ∧
    ([1, 2, 3, 4, 5, 6].map (fun k => (observerToy k).map (fun obs => obs.checkFitted)))
      = [some true, some true, some true, some true, some false, some false] ∧
    observerToy 0 = none := by
  refine ⟨?_, ?_, ?_, rfl⟩ <;> decide +kernel

/-- **C101** fails for the factors: after two iterations the model has the factor 3/20 in bin 0 of the first feature, but the observer
of iteration 2 shows 1/20, the last update. -/
theorem C101_updates :
    (observerToy 2).map (fun obs => obs.snapshot.map (fun sn => sn.factors.map (fun f => f 0))) = some (some [1/20, 7/10]) ∧
    (runN (toyParams true none) (toyOracle (fun it => 1 / (10 * (it + 1))) toyLoss) toyFeatures 2
      (startState (toyOracle (fun it => 1 / (10 * (it + 1))) toyLoss) toyFeatures (fun _ => 1/2))).map
        (fun s => s.feats.map (fun fs => fs.agg.map (fun f => f 0))) = some [some (3/20), some (7/5)] := by
  constructor <;> decide +kernel

end CB
