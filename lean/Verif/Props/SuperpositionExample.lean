import Verif.Props.Superposition
import Verif.Props.SettlingExample

/-!
# Witnesses for C122
-/

set_option autoImplicit false

namespace CB
open Finset Spec

/-- One feature without smoothing, always ten iterations. -/
noncomputable def tenSetup : Setup (List (FitRow ℝ) × List ℝ) :=
  { plainSetup with params := { plainSetup.params with maximalIterations := 10, minimalFactorChange := -1, minimalLossChange := -1 } }

theorem tenDescent (D : TrainSet) (hw : ∀ i < D.n, 0 ≤ D.w i) : PlainDescent tenSetup D 0 :=
  ⟨rfl, rfl, le_rfl, hw, fun k => by simp [tenSetup, plainSetup], by simp [tenSetup, plainSetup],
    C80_no_smoothing tenSetup noOpen plainChoice none [["a"]] rfl plainFeatures rfl D⟩

/-- Witness for C122: the hypotheses hold for the example data, in which the first sample has the target 0 and the second one the
target 2. The first group consists of the second sample only. -/
example : ∃ mA mB m, tenSetup.fit (gbsEstimator 0) (onlyGroup exData fun i => i = 1) 14 = some (.ok mA) ∧
    tenSetup.fit (gbsEstimator 0) (onlyGroup exData fun i => !(i = 1)) 14 = some (.ok mB) ∧
    tenSetup.fit (gbsEstimator 0) (subtractGroup exData fun i => i = 1) 14 = some (.ok m) ∧
    (subtractGroup exData fun i => i = 1).y 1 = 2 ∧
    ∀ (X : Table ℝ) (s : ℕ), m.predict none X s = mA.predict none X s - mB.predict none X s := by
  obtain ⟨mA, mB, m, h1, h2, h3, h4⟩ := C122_subtraction tenSetup exData 0 (fun i => i = 1) rfl
    (tenDescent exData fun _ _ => by simp [exData])
    (C122_no_smoothing tenSetup noOpen plainChoice none [["a"]] rfl plainFeatures rfl (by simp) exData)
    (by norm_num [tenSetup]) (by norm_num [tenSetup]) (by norm_num [tenSetup]) (by simp [exData]) 14 (by norm_num [tenSetup])
  exact ⟨mA, mB, m, h1, by simpa using h2, h3, by norm_num [subtractGroup, exData], h4⟩

/-- Witness for C122 with prior predictions: three times the first target minus twice the second one. -/
example : ∃ D₁ D₂ D : TrainSet, Mixture 3 (-2) D₁ D₂ D ∧ D.y 1 = 4 ∧ D.prior ≠ none ∧
    ∃ m₁ m₂ m, tenSetup.fit (gbsEstimator 0) D₁ 14 = some (.ok m₁) ∧ tenSetup.fit (gbsEstimator 0) D₂ 14 = some (.ok m₂) ∧
      tenSetup.fit (gbsEstimator 0) D 14 = some (.ok m) ∧
      m.predict (some fun _ => .fin 5) exData.X 1 = 3 * m₁.predict (some fun _ => .fin 1) exData.X 1
        + -2 * m₂.predict (some fun _ => .fin (-1)) exData.X 1 := by
  refine ⟨{ exData with prior := some fun i => if i = 0 then .nan else .fin 1 },
    { exData with y := fun _ => 1, prior := some fun i => if i = 0 then .pinf else .fin 2 },
    { exData with y := fun i => 3 * exData.y i - 2, prior := some fun i => if i = 0 then .nan else .fin (-1) }, ?_⟩
  have hm : Mixture 3 (-2) { exData with prior := some fun i => if i = 0 then .nan else .fin 1 }
    { exData with y := fun _ => 1, prior := some fun i => if i = 0 then .pinf else .fin 2 }
    { exData with y := fun i => 3 * exData.y i - 2, prior := some fun i => if i = 0 then .nan else .fin (-1) } := by
    refine ⟨rfl, rfl, rfl, rfl, rfl, rfl, fun i _ => by ring, Or.inr ⟨_, _, _, rfl, rfl, rfl, fun i => ?_⟩⟩
    by_cases hi : i = 0
    · right; simp [hi, Flt.isFinite]
    · left; exact ⟨1, 2, by simp [hi], by simp [hi], by simp [hi]; norm_num⟩
  refine ⟨hm, by norm_num [exData], by simp, ?_⟩
  obtain ⟨m₁, m₂, m, h1, h2, h3, h4⟩ := C122_fixed_iterations 3 (-2) tenSetup _ _ _ 0 hm (tenDescent _ fun _ _ => by simp [exData])
    (C122_no_smoothing tenSetup noOpen plainChoice none [["a"]] rfl plainFeatures rfl (by simp) _)
    (by norm_num [tenSetup]) (by norm_num [tenSetup]) (by norm_num [tenSetup]) (by simp [exData]) 14 (by norm_num [tenSetup])
  refine ⟨m₁, m₂, m, h1, h2, h3, h4 _ _ _ (Or.inr ⟨_, _, _, rfl, rfl, rfl, fun i => Or.inl ⟨1, -1, rfl, rfl, ?_⟩⟩) _ _⟩
  norm_num

end CB
