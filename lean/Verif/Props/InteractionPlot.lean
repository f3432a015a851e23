import Verif.Model.InteractionPlot
import Verif.Spec.InteractionPlot
import Mathlib.Algebra.Order.BigOperators.Group.Finset
import Mathlib.Algebra.BigOperators.Ring.Finset
import Mathlib.Data.List.GetD
import Mathlib.Tactic.Linarith
import Mathlib.Tactic.Positivity
import Mathlib.Tactic.NormNum

/-!
# C170: plots of interactions
-/

set_option autoImplicit false
set_option linter.unusedSectionVars false

open Finset

namespace CB
open Spec

theorem fillEmpty_length (ws : List ℝ) : (fillEmpty ws).length = ws.length := by
  simp [fillEmpty]

theorem fillEmpty_get (ws : List ℝ) (k : ℕ) :
    (fillEmpty ws).getD k 0 = if k + 1 < ws.length ∧ ws.getD k 0 = 0 then 1 else ws.getD k 0 := by
  unfold fillEmpty
  by_cases hk : k + 1 < ws.length
  · have h1 : k < ws.dropLast.length := by simp; omega
    rw [List.getD_append _ _ _ _ (by simpa using h1)]
    rw [List.getD_eq_getElem _ _ (by simpa using h1), List.getD_eq_getElem ws 0 (by omega)]
    simp [hk]
  · have h2 : (ws.dropLast.map (fun w => if w = 0 then (1:ℝ) else w)).length ≤ k := by simp; omega
    rw [List.getD_append_right _ _ _ _ h2, if_neg (by tauto)]
    simp only [List.length_map, List.length_dropLast, List.getD_eq_getElem?_getD, List.getElem?_drop]
    rcases ws with _ | ⟨w, ws⟩
    · simp
    · congr 2
      simp at hk ⊢
      omega

theorem fillEmpty_twice (ws : List ℝ) : fillEmpty (fillEmpty ws) = fillEmpty ws := by
  refine List.ext_getElem (by simp [fillEmpty_length]) fun k h1 h2 => ?_
  have := fillEmpty_get (fillEmpty ws) k
  rw [List.getD_eq_getElem _ _ h1, List.getD_eq_getElem _ _ h2, fillEmpty_length] at this
  rw [this]
  split_ifs with h
  · have h3 := fillEmpty_get ws k
    rw [List.getD_eq_getElem _ _ h2, h.2] at h3
    split_ifs at h3 with h4
    · exact absurd h3 (by norm_num)
    · exact absurd ⟨h.1, h3.symm⟩ h4
  · rfl

theorem logMeanExp_of (k : ℕ) (hk : 0 < k) (ws full xs : ℕ → ℝ) (hw : ∀ j < k, 0 ≤ ws j)
    (hf : ∀ j < k, full j = if ws j = 0 then 1 else ws j) :
    IsLogMeanExp k ws xs (Real.log ((∑ j ∈ range k, full j * Real.exp (xs j)) / ∑ j ∈ range k, full j)) := by
  have hpos : ∀ j < k, 0 < full j := by
    intro j hj
    rw [hf j hj]
    split_ifs with h
    · exact one_pos
    · exact lt_of_le_of_ne (hw j hj) (Ne.symm h)
  have hne : (range k).Nonempty := ⟨0, by simpa using hk⟩
  have h1 : 0 < ∑ j ∈ range k, full j := Finset.sum_pos (fun j hj => hpos j (by simpa using hj)) hne
  have h2 : 0 < ∑ j ∈ range k, full j * Real.exp (xs j) :=
    Finset.sum_pos (fun j hj => mul_pos (hpos j (by simpa using hj)) (Real.exp_pos _)) hne
  unfold IsLogMeanExp
  rw [Real.exp_log (div_pos h2 h1)]
  rw [← Finset.sum_congr rfl fun j hj => hf j (by simpa using hj)]
  rw [div_mul_cancel₀ _ h1.ne']
  exact Finset.sum_congr rfl fun j hj => by rw [hf j (by simpa using hj)]

theorem logMeanExp_between (k : ℕ) (hk : 0 < k) (ws xs : ℕ → ℝ) (hw : ∀ j < k, 0 ≤ ws j) (v : ℝ) (hv : IsLogMeanExp k ws xs v) :
    (∃ j < k, xs j ≤ v) ∧ ∃ j < k, v ≤ xs j := by
  have hpos : ∀ j < k, 0 < (if ws j = 0 then (1:ℝ) else ws j) := by
    intro j hj
    split_ifs with h
    · exact one_pos
    · exact lt_of_le_of_ne (hw j hj) (Ne.symm h)
  have hne : (range k).Nonempty := ⟨0, by simpa using hk⟩
  unfold IsLogMeanExp at hv
  rw [Finset.mul_sum] at hv
  constructor
  · by_contra hcon
    have hlt : ∀ j < k, v < xs j := fun j hj => lt_of_not_ge fun hle => hcon ⟨j, hj, hle⟩
    refine absurd hv (ne_of_lt (Finset.sum_lt_sum_of_nonempty hne fun j hj => ?_))
    rw [mul_comm]
    exact mul_lt_mul_of_pos_left (Real.exp_lt_exp.mpr (hlt j (by simpa using hj))) (hpos j (by simpa using hj))
  · by_contra hcon
    have hlt : ∀ j < k, xs j < v := fun j hj => lt_of_not_ge fun hle => hcon ⟨j, hj, hle⟩
    refine absurd hv (ne_of_gt (Finset.sum_lt_sum_of_nonempty hne fun j hj => ?_))
    rw [mul_comm (Real.exp v)]
    exact mul_lt_mul_of_pos_left (Real.exp_lt_exp.mpr (hlt j (by simpa using hj))) (hpos j (by simpa using hj))

theorem cell_lt {n m i j : ℕ} (hi : i < n) (hj : j < m) : i * m + j < n * m := by
  have : (i + 1) * m ≤ n * m := Nat.mul_le_mul_right m hi
  rw [Nat.succ_mul] at this
  omega

theorem drawInteraction_eq {n m : ℕ} {weights factors : List ℝ} {p : InteractionPlot} (hn : 0 < n)
    (h : drawInteraction n m weights factors = some p) :
    weights.dropLast.length = n * m ∧ factors.dropLast.length = n * m ∧ p.colorLimit = extremalFactor factors ∧
    p.first = firstMarginal n m (fillEmpty weights) factors ∧ p.second = secondMarginal n m (fillEmpty weights) factors ∧
    p.weightsAfter = fillEmpty weights := by
  unfold drawInteraction at h
  rw [if_neg (show ¬ n = 0 by omega)] at h
  split_ifs at h with h1 h2
  simp only [Option.some.injEq, fillEmpty_twice] at h
  subst h
  exact ⟨h2, h1, rfl, rfl, rfl, rfl⟩

theorem fillEmpty_cell (n m : ℕ) (weights : List ℝ) (hl : weights.dropLast.length = n * m) {i j : ℕ} (hi : i < n) (hj : j < m) :
    gridAt m (fillEmpty weights) i j = if weights.getD (i * m + j) 0 = 0 then 1 else weights.getD (i * m + j) 0 := by
  unfold gridAt
  rw [fillEmpty_get]
  have := cell_lt hi hj
  rw [List.length_dropLast] at hl
  have h2 : i * m + j + 1 < weights.length := by omega
  simp [h2]

/-- **C170**: the first marginal distribution has one value for every bin of the first column: the logarithm of the weighted mean of the
exponentials of the factors of the bins with this first number. It lies between two of these factors. -/
theorem C170_first (n m : ℕ) (hn : 0 < n) (hm : 0 < m) (weights factors : List ℝ) (hw : ∀ w ∈ weights, 0 ≤ w) (p : InteractionPlot)
    (h : drawInteraction n m weights factors = some p) :
    p.first.length = n ∧ ∀ i < n, ∃ v, p.first[i]? = some v ∧
      IsLogMeanExp m (fun j => weights.getD (i * m + j) 0) (fun j => factors.getD (i * m + j) 0) v ∧
      (∃ j < m, factors.getD (i * m + j) 0 ≤ v) ∧ ∃ j < m, v ≤ factors.getD (i * m + j) 0 := by
  obtain ⟨hl, -, -, hf, -, -⟩ := drawInteraction_eq hn h
  rw [hf]
  refine ⟨by simp [firstMarginal], fun i hi => ?_⟩
  have hnn : ∀ k, 0 ≤ weights.getD k 0 := by
    intro k
    rw [List.getD_eq_getElem?_getD]
    rcases hg : weights[k]? with _ | w
    · simp
    · simpa using hw w (List.mem_of_getElem? hg)
  have hv := logMeanExp_of m hm (fun j => weights.getD (i * m + j) 0) (fun j => gridAt m (fillEmpty weights) i j)
    (fun j => factors.getD (i * m + j) 0) (fun j _ => hnn _) (fun j hj => fillEmpty_cell n m weights hl hi hj)
  exact ⟨_, by simp [firstMarginal, hi, gridAt], hv, logMeanExp_between m hm _ _ (fun j _ => hnn _) _ hv⟩

/-- **C170**: the second marginal distribution in the same way, with the weights as they were before the plot. -/
theorem C170_second (n m : ℕ) (hn : 0 < n) (weights factors : List ℝ) (hw : ∀ w ∈ weights, 0 ≤ w) (p : InteractionPlot)
    (h : drawInteraction n m weights factors = some p) :
    p.second.length = m ∧ ∀ j < m, ∃ v, p.second[j]? = some v ∧
      IsLogMeanExp n (fun i => weights.getD (i * m + j) 0) (fun i => factors.getD (i * m + j) 0) v ∧
      (∃ i < n, factors.getD (i * m + j) 0 ≤ v) ∧ ∃ i < n, v ≤ factors.getD (i * m + j) 0 := by
  obtain ⟨hl, -, -, -, hf, -⟩ := drawInteraction_eq hn h
  rw [hf]
  refine ⟨by simp [secondMarginal], fun j hj => ?_⟩
  have hnn : ∀ k, 0 ≤ weights.getD k 0 := by
    intro k
    rw [List.getD_eq_getElem?_getD]
    rcases hg : weights[k]? with _ | w
    · simp
    · simpa using hw w (List.mem_of_getElem? hg)
  have hv := logMeanExp_of n hn (fun i => weights.getD (i * m + j) 0) (fun i => gridAt m (fillEmpty weights) i j)
    (fun i => factors.getD (i * m + j) 0) (fun i _ => hnn _) (fun i hi => fillEmpty_cell n m weights hl hi hj)
  exact ⟨_, by simp [secondMarginal, hj, gridAt], hv, logMeanExp_between n hn _ _ (fun i _ => hnn _) _ hv⟩

/-- **C170**: the colours cover the factors: no factor of a finite bin is beyond the limits, and one is at a limit. -/
theorem C170_colors (n m : ℕ) (hn : 0 < n) (hm : 0 < m) (weights factors : List ℝ) (p : InteractionPlot)
    (h : drawInteraction n m weights factors = some p) :
    (∀ x ∈ factors.dropLast, |x| ≤ p.colorLimit) ∧ ∃ x ∈ factors.dropLast, |x| = p.colorLimit := by
  obtain ⟨-, hl, hc, -, -, -⟩ := drawInteraction_eq hn h
  rw [hc]
  unfold extremalFactor
  have hne : factors.dropLast ≠ [] := by
    intro e
    rw [e] at hl
    have := Nat.mul_pos hn hm
    simp at hl
    omega
  rcases h1 : factors.dropLast.max? with _ | top
  · exact absurd (List.max?_eq_none_iff.mp h1) hne
  rcases h2 : factors.dropLast.min? with _ | bottom
  · exact absurd (List.min?_eq_none_iff.mp h2) hne
  obtain ⟨t1, t2⟩ := List.max?_eq_some_iff.mp h1
  obtain ⟨b1, b2⟩ := List.min?_eq_some_iff.mp h2
  refine ⟨fun x hx => ?_, ?_⟩
  · exact abs_le_max_abs_abs (b2 x hx) (t2 x hx) |>.trans (le_of_eq (max_comm _ _))
  · rcases le_total |bottom| |top| with hle | hle
    · exact ⟨top, t1, (max_eq_left hle).symm⟩
    · exact ⟨bottom, b1, (max_eq_right hle).symm⟩

/-- **C170 (partial).** The plot leaves the weights of the bins that have some, and that of the bin of missing values, as they were; so it
changes nothing if no bin is empty. Missing for the full claim: the weights of empty bins (`C170_weights_counterexample`). -/
theorem C170_unchanged_partial (n m : ℕ) (weights factors : List ℝ) (p : InteractionPlot) (h : drawInteraction n m weights factors = some p) :
    p.weightsAfter.length = weights.length ∧
    (∀ k, weights.getD k 0 ≠ 0 ∨ weights.length ≤ k + 1 → p.weightsAfter.getD k 0 = weights.getD k 0) ∧
    ((∀ w ∈ weights.dropLast, w ≠ 0) → p.weightsAfter = weights) := by
  rcases Nat.eq_zero_or_pos n with rfl | hn
  · simp only [drawInteraction, if_true] at h
    split_ifs at h
    simp only [Option.some.injEq] at h
    subst h
    exact ⟨rfl, fun _ _ => rfl, fun _ => rfl⟩
  · obtain ⟨-, -, -, -, -, ha⟩ := drawInteraction_eq hn h
    rw [ha]
    refine ⟨fillEmpty_length _, fun k hk => ?_, fun hall => ?_⟩
    · rw [fillEmpty_get, if_neg]
      rintro ⟨h1, h2⟩
      rcases hk with hk | hk
      · exact hk h2
      · omega
    · unfold fillEmpty
      rw [List.map_congr_left (g := id) fun w hw => by simp [hall w hw], List.map_id, List.dropLast_eq_take, List.take_append_drop]

/-- **C170**: drawing again shows the same and changes nothing more. -/
theorem C170_again (n m : ℕ) (weights factors : List ℝ) (p : InteractionPlot) (h : drawInteraction n m weights factors = some p) :
    drawInteraction n m p.weightsAfter factors = some p := by
  rcases Nat.eq_zero_or_pos n with rfl | hn
  · simp only [drawInteraction, if_true] at h ⊢
    split_ifs at h ⊢
    simp only [Option.some.injEq] at h
    subst h
    rfl
  · obtain ⟨h1, h2, h3, h4, h5, h6⟩ := drawInteraction_eq hn h
    unfold drawInteraction
    rw [if_pos h2, if_neg (by omega), if_pos (by rw [h6, List.length_dropLast, fillEmpty_length, ← List.length_dropLast, h1])]
    simp only [h6, fillEmpty_twice]
    rw [← h3, ← h4, ← h5, ← h6]

/-- **C170**, what does not hold: the plot of a feature with four bins, one of them empty, changes the weights of the feature, so that its bins
have more weight than the samples. -/
theorem C170_weights_counterexample : ∃ p, drawInteraction 2 2 [3, 0, 2, 1, 0] [1, 0, -1, 2, 0] = some p ∧ p.weightsAfter = [3, 1, 2, 1, 0] ∧
    p.weightsAfter.sum = 7 ∧ ([3, 0, 2, 1, 0] : List ℝ).sum = 6 := by
  have h : (fillEmpty (fillEmpty [3, 0, 2, 1, 0])) = [3, 1, 2, 1, 0] := by simp [fillEmpty]
  have hd : drawInteraction 2 2 [3, 0, 2, 1, 0] [1, 0, -1, 2, 0] = some ⟨extremalFactor [1, 0, -1, 2, 0],
      firstMarginal 2 2 (fillEmpty [3, 0, 2, 1, 0]) [1, 0, -1, 2, 0],
      secondMarginal 2 2 (fillEmpty (fillEmpty [3, 0, 2, 1, 0])) [1, 0, -1, 2, 0], fillEmpty (fillEmpty [3, 0, 2, 1, 0])⟩ := by
    unfold drawInteraction
    rw [if_pos (by simp), if_neg (by norm_num), if_pos (by simp)]
  refine ⟨_, hd, h, ?_, by norm_num⟩
  dsimp only
  rw [h]
  norm_num

end CB
