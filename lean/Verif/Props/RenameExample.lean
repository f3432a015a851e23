import Verif.Props.RenamePrice
import Verif.Props.LimitsExample

/-!
# Witness for C137
-/

set_option autoImplicit false

namespace CB
open Spec

/-- Witness for C137: an estimator with the feature `a`, fitted successfully; with the names `a` and `b` exchanged it has the feature `b`. -/
example : ∃ o r r', limNew.fit (configWith limConfig limLimits) (gbsEstimator 0) limFrame (fun s => 2 * s) 406 = some (o, .ok ()) ∧
    (renameConfig (Equiv.swap "a" "b") (configWith limConfig limLimits)).construct = .ok r ∧ r.groups = some [["b"]] ∧
    (renameFrame (Equiv.swap "a" "b") limFrame).columns = ["b"] ∧
    r.fit (renameConfig (Equiv.swap "a" "b") (configWith limConfig limLimits)) (gbsEstimator 0) (renameFrame (Equiv.swap "a" "b") limFrame)
      (fun s => 2 * s) 406 = some (r', .ok ()) ∧
    r'.predict (renameConfig (Equiv.swap "a" "b") (configWith limConfig limLimits)) (renameFrame (Equiv.swap "a" "b") limFrame)
      = o.predict (configWith limConfig limLimits) limFrame := by
  obtain ⟨o, m, hf, _, _⟩ := limFit
  have hc : (configWith limConfig limLimits).construct = .ok limNew := by
    unfold Config.construct
    rw [if_neg (by simp [configWith, limConfig])]
    rfl
  obtain ⟨r, r', hr, hfit, hpred, _⟩ := C137_names (Equiv.swap "a" "b") (configWith limConfig limLimits) (gbsEstimator 0) (.inl (.gbs 0))
    limFrame (fun s => 2 * s) 406 limNew o hc hf
  refine ⟨o, r, r', hf, hr, ?_, by decide, hfit, hpred limFrame⟩
  rw [C137_construct, hc] at hr
  cases hr
  decide

/-- Witness: exchanging two column names leaves the empty name alone. -/
example : (Equiv.swap "a" "b") "" = "" := by decide

/-- Witness for C137 with a price model: demand feature `a`, price feature `b`, price ratios in `b`; all three places get the new names. -/
example : ∃ o r, PriceConfig.construct ⟨some [.name "a"], some [.tuple ["b"]], ⟨"b", none, 1, 1, 0, id⟩, limConfig⟩ = .ok o ∧
    (renamePrice (Equiv.swap "a" "b") ⟨some [.name "a"], some [.tuple ["b"]], ⟨"b", none, 1, 1, 0, id⟩, limConfig⟩).construct = .ok r ∧
    o.ids = [⟨["a"], .standard⟩, ⟨["b"], .external⟩] ∧ r.ids = [⟨["b"], .standard⟩, ⟨["a"], .external⟩] := by
  have hc : PriceConfig.construct ⟨some [.name "a"], some [.tuple ["b"]], ⟨"b", none, 1, 1, 0, id⟩, limConfig⟩
      = .ok ⟨[⟨["a"], .standard⟩, ⟨["b"], .external⟩], _, .unfitted, []⟩ := rfl
  refine ⟨_, _, hc, by rw [C137_price_construct, hc]; rfl, rfl, ?_⟩
  decide

end CB
