import Verif.Props.FloatEstimates
import Verif.Props.ClassifierQuantiles
import Verif.Lemmas.GammaMedian

/-!
# Witnesses for C157 with the actual quantiles
-/

set_option autoImplicit false

namespace CB
open Spec

noncomputable section

/-- The weights 2, 1 and 0. -/
def fewWeights (i : ℕ) : ℝ := 2 - i

theorem fewWeights_nonneg : ∀ i < 3, 0 ≤ fewWeights i := fun i hi => by
  have : (i : ℝ) ≤ 2 := by exact_mod_cast Nat.le_of_lt_succ hi
  unfold fewWeights
  linarith

/-- The targets 0, 1 and 0. -/
def fewTargets (i : ℕ) : ℝ := if i = 1 then 1 else 0

theorem fewTargets_binary : ∀ i < 3, fewTargets i = 0 ∨ fewTargets i = 1 := fun i _ => by
  unfold fewTargets
  split_ifs
  · exact .inr rfl
  · exact .inl rfl

theorem fewTargets_nonneg : ∀ i < 3, 0 ≤ fewTargets i := fun i hi => by
  rcases fewTargets_binary i hi with h | h <;> rw [h]
  exact zero_le_one

/-- Three samples in two bins, the last sample without weight and alone in its bin. -/
example (pred : ℕ → ℝ) (b : ℕ) :
    (∃ p, poissonParametersFlt trueMedian 3 (fun i => i / 2) fewTargets fewWeights pred b = finPair p) ∧
    (∃ p, nbinomParametersFlt trueMedian 1 2 3 (fun i => i / 2) fewTargets fewWeights pred b = finPair p) ∧
    (∃ p, classifierParametersFlt actualBetaPpf normalBase.ppf 3 (fun i => i / 2) fewTargets fewWeights pred b = finPair p) ∧
    ∃ p, gbsParametersFlt (-1) 3 (fun i => i / 2) fewTargets fewWeights pred b = finPair p :=
  ⟨⟨_, C157_poisson trueMedian trueMedian_ok 3 _ _ _ pred fewTargets_nonneg fewWeights_nonneg 2 b⟩,
    ⟨_, C157_nbinom trueMedian trueMedian_ok 1 2 one_pos zero_le_two 3 _ _ _ pred fewTargets_nonneg fewWeights_nonneg 2 b⟩,
    ⟨_, C157_classifier _ _ actualQuantiles 3 _ _ _ pred fewTargets_binary fewWeights_nonneg 2 b⟩,
    ⟨_, C157_gbs 3 _ _ _ pred fewWeights_nonneg (-1) le_rfl 2 b⟩⟩

end

end CB
