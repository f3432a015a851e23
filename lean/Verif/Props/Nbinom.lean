import Verif.Model.Nbinom
import Mathlib.Data.List.GetD
import Mathlib.Algebra.Order.BigOperators.Group.List
import Mathlib.Algebra.BigOperators.Ring.List
import Mathlib.Tactic.Linarith
import Mathlib.Tactic.Ring
import Mathlib.Tactic.FieldSimp
import Mathlib.Tactic.NormNum
import Mathlib.Tactic.Positivity

/-!
# C45, C62: the dispersion model of the negative binomial distribution
-/

set_option autoImplicit false
set_option linter.unusedSectionVars false

namespace CB

open Finset

/-! ### `argmin` -/

theorem argminFrom_spec (full : List ℝ) : ∀ (xs pre : List ℝ) (best : ℝ) (bi : ℕ),
    full = pre ++ xs → bi < pre.length → full.getD bi 0 = best →
    (∀ j, j < pre.length → best ≤ full.getD j 0) → (∀ j, j < bi → best < full.getD j 0) →
    argminFrom best bi pre.length xs < full.length ∧
    (∀ j, j < full.length → full.getD (argminFrom best bi pre.length xs) 0 ≤ full.getD j 0) ∧
    (∀ j, j < argminFrom best bi pre.length xs →
      full.getD (argminFrom best bi pre.length xs) 0 < full.getD j 0)
  | [], pre, best, bi, hf, hb, he, hm, hs => by
    simp only [argminFrom]
    subst he
    rw [List.append_nil] at hf
    subst hf
    exact ⟨hb, hm, hs⟩
  | x :: xs, pre, best, bi, hf, hb, he, hm, hs => by
    have hf' : full = (pre ++ [x]) ++ xs := by rw [hf]; simp
    have hx : full.getD pre.length 0 = x := by rw [hf]; simp
    have hlen : (pre ++ [x]).length = pre.length + 1 := by simp
    unfold argminFrom
    split_ifs with hlt
    · have := argminFrom_spec full xs (pre ++ [x]) x pre.length hf' (by simp) hx
        (fun j hj => by
          rw [hlen] at hj
          rcases Nat.lt_succ_iff_lt_or_eq.mp hj with h | h
          · exact le_trans hlt.le (hm j h)
          · rw [h, hx])
        (fun j hj => lt_of_lt_of_le hlt (hm j hj))
      rwa [hlen] at this
    · have := argminFrom_spec full xs (pre ++ [x]) best bi hf' (by rw [hlen]; omega) he
        (fun j hj => by
          rw [hlen] at hj
          rcases Nat.lt_succ_iff_lt_or_eq.mp hj with h | h
          · exact hm j h
          · rw [h, hx]; exact not_lt.mp hlt)
        hs
      rwa [hlen] at this

/-- `argmin` is the first position of the minimum. -/
theorem argmin_spec (l : List ℝ) (hl : l ≠ []) :
    argmin l < l.length ∧ (∀ j, j < l.length → l.getD (argmin l) 0 ≤ l.getD j 0) ∧
      ∀ j, j < argmin l → l.getD (argmin l) 0 < l.getD j 0 := by
  cases l with
  | nil => exact absurd rfl hl
  | cons x xs =>
    have := argminFrom_spec (x :: xs) xs [x] x 0 rfl (by simp) (by simp)
      (fun j hj => by
        have : j = 0 := by simpa using hj
        subst this; simp)
      (fun j hj => by omega)
    exact this

theorem bestOffset_spec (loss : ℝ → ℝ) (cands : List ℝ) (hc : cands ≠ []) :
    bestOffset loss cands ∈ cands ∧ ∀ c ∈ cands, loss (bestOffset loss cands) ≤ loss c := by
  have hne : cands.map loss ≠ [] := by simpa using hc
  obtain ⟨h1, h2, -⟩ := argmin_spec (cands.map loss) hne
  rw [List.length_map] at h1
  have e : bestOffset loss cands = cands[argmin (cands.map loss)] := by
    unfold bestOffset
    rw [List.getD_eq_getElem _ _ h1]
  refine ⟨by rw [e]; exact List.getElem_mem h1, fun c hcm => ?_⟩
  obtain ⟨j, hj, rfl⟩ := List.getElem_of_mem hcm
  have := h2 j (by simpa using hj)
  rw [List.getD_eq_getElem _ _ (by simpa using h1),
    List.getD_eq_getElem _ _ (by simpa using hj), List.getElem_map, List.getElem_map] at this
  rw [e]
  exact this

/-! ### The candidates -/

theorem newCLink_zero_mem (iteration nSteps : ℕ) : (0 : ℝ) ∈ newCLink iteration nSteps := by
  simp [newCLink]

/-- **C45, candidates.**  In every iteration and for every number of steps the
candidate offsets contain 0, and with every offset its negative; there are
`2*(n_steps // iteration) + 1` of them. -/
theorem C45_candidates (iteration nSteps : ℕ) :
    (0 : ℝ) ∈ newCLink iteration nSteps ∧
    (∀ c ∈ newCLink iteration nSteps, -c ∈ newCLink iteration nSteps) ∧
    (newCLink iteration nSteps).length = 2 * (nSteps / iteration) + 1 := by
  refine ⟨newCLink_zero_mem _ _, fun c hc => ?_, ?_⟩
  · simp only [newCLink, List.mem_append, List.mem_reverse, List.mem_map, List.mem_singleton]
      at hc ⊢
    rcases hc with (⟨a, ha, rfl⟩ | rfl) | h
    · right; simpa using ha
    · left; right; simp
    · left; left; exact ⟨c, h, rfl⟩
  · simp [newCLink, logspace]; omega

/-- The candidates are bounded by `10^(1/iteration)`. -/
theorem C45_candidates_bounded (iteration nSteps : ℕ) (c : ℝ)
    (hc : c ∈ newCLink iteration nSteps) : |c| ≤ (10 : ℝ) ^ (1 / (iteration : ℝ)) := by
  have hst : (0 : ℝ) ≤ 1 / (iteration : ℝ) := by positivity
  have key : ∀ a ∈ logspace (1 / (iteration : ℝ)) (nSteps / iteration),
      0 < a ∧ a ≤ (10 : ℝ) ^ (1 / (iteration : ℝ)) := by
    intro a ha
    simp only [logspace, List.mem_map, List.mem_range] at ha
    obtain ⟨i, hi, rfl⟩ := ha
    refine ⟨by positivity, ?_⟩
    apply Real.rpow_le_rpow_of_exponent_le (by norm_num)
    set m := nSteps / iteration
    rcases Nat.lt_or_ge 1 m with hm | hm
    · have hm' : (0 : ℝ) < (m : ℝ) - 1 := by
        have : (1 : ℝ) < m := by exact_mod_cast hm
        linarith
      have hi' : (i : ℝ) ≤ (m : ℝ) - 1 := by
        have : (i : ℝ) + 1 ≤ m := by exact_mod_cast hi
        linarith
      have : (i : ℝ) * ((1 / (iteration : ℝ) + 3) / ((m : ℝ) - 1)) ≤ 1 / (iteration : ℝ) + 3 := by
        rw [mul_div_assoc', div_le_iff₀ hm', mul_comm]
        exact mul_le_mul_of_nonneg_left hi' (by linarith)
      linarith
    · have : i = 0 := by omega
      subst this
      simp only [Nat.cast_zero, zero_mul, add_zero]
      linarith
  simp only [newCLink, List.mem_append, List.mem_reverse, List.mem_map, List.mem_singleton] at hc
  rcases hc with (⟨a, ha, rfl⟩ | rfl) | h
  · rw [abs_neg, abs_of_pos (key a ha).1]; exact (key a ha).2
  · rw [abs_zero]; positivity
  · rw [abs_of_pos (key c h).1]; exact (key c h).2

/-! ### The search never worsens the loss -/

theorem sum_binSum (n nb : ℕ) (codes : ℕ → ℕ) (w : ℕ → ℝ) (h : ∀ i, i < n → codes i < nb) :
    ∑ b ∈ range nb, binSum n codes w b = ∑ i ∈ range n, w i := by
  unfold binSum
  rw [sum_comm]
  apply sum_congr rfl
  intro i hi
  rw [sum_ite_eq]
  rw [if_pos (mem_range.mpr (h i (mem_range.mp hi)))]

/-- **C45, per bin.**  The chosen offset of every bin is one of the candidates and
its binned loss is minimal among all candidates; in particular it is not larger
than without an update. -/
theorem C45_minimal (logpmf : ℝ → ℝ → ℝ → Flt ℝ) (gamma : ℝ) (nSteps iteration n : ℕ)
    (codes : ℕ → ℕ) (y mu cLink : ℕ → ℝ) (b : ℕ) :
    let c := (nbinomCCalcParameters logpmf gamma false nSteps iteration n codes y mu cLink b).1
    c ∈ newCLink (iteration + 1) nSteps ∧
    (∀ d ∈ newCLink (iteration + 1) nSteps,
      binnedLoss logpmf gamma n codes y mu cLink c b
        ≤ binnedLoss logpmf gamma n codes y mu cLink d b) ∧
    binnedLoss logpmf gamma n codes y mu cLink c b
      ≤ binnedLoss logpmf gamma n codes y mu cLink 0 b := by
  intro c
  have hne : newCLink (iteration + 1) nSteps ≠ [] :=
    List.ne_nil_of_mem (newCLink_zero_mem _ _)
  obtain ⟨h1, h2⟩ := bestOffset_spec
    (fun c => binnedLoss logpmf gamma n codes y mu cLink c b) _ hne
  exact ⟨h1, h2, h2 0 (newCLink_zero_mem _ _)⟩

/-- **C45, training loss.**  Adding the chosen offset of its bin to the dispersion
of every sample (in link space) never increases the training loss, for every
probability function, data set, binning and regularisation strength. -/
theorem C45_never_worse (logpmf : ℝ → ℝ → ℝ → Flt ℝ) (gamma : ℝ) (nSteps iteration n nb : ℕ)
    (codes : ℕ → ℕ) (y mu cLink : ℕ → ℝ) (hcodes : ∀ i, i < n → codes i < nb) :
    lossNbinomC logpmf gamma n y mu (fun i => sigmoid (cLink i
        + (nbinomCCalcParameters logpmf gamma false nSteps iteration n codes y mu cLink
            (codes i)).1))
      ≤ lossNbinomC logpmf gamma n y mu (fun i => sigmoid (cLink i)) := by
  unfold lossNbinomC
  apply div_le_div_of_nonneg_right _ (Nat.cast_nonneg n)
  rw [← sum_binSum n nb codes _ hcodes, ← sum_binSum n nb codes _ hcodes]
  apply sum_le_sum
  intro b _
  have hmin := (C45_minimal logpmf gamma nSteps iteration n codes y mu cLink b).2.2
  have e1 : binSum n codes (fun i => sampleLoss logpmf gamma (y i) (mu i) (sigmoid (cLink i
        + (nbinomCCalcParameters logpmf gamma false nSteps iteration n codes y mu cLink
            (codes i)).1))) b
      = binnedLoss logpmf gamma n codes y mu cLink
        (nbinomCCalcParameters logpmf gamma false nSteps iteration n codes y mu cLink b).1 b := by
    unfold binnedLoss binSum
    apply sum_congr rfl
    intro i _
    by_cases hc : codes i = b
    · simp only [hc, if_true, add_comm (cLink i)]
    · simp [hc]
  have e2 : binSum n codes (fun i => sampleLoss logpmf gamma (y i) (mu i) (sigmoid (cLink i))) b
      = binnedLoss logpmf gamma n codes y mu cLink 0 b := by
    unfold binnedLoss
    simp only [zero_add]
  rw [e1, e2]
  exact hmin

/-! ### Bayesian averaging -/

theorem list_sum_zipWith_map (f g : ℝ → ℝ) (l : List ℝ) (h : ℝ → ℝ → ℝ) :
    (List.zipWith h (l.map f) (l.map g)).sum = (l.map fun c => h (f c) (g c)).sum := by
  rw [List.zipWith_map, List.zipWith_self]

/-- The Bayesian average is the average of the candidates weighted with the
exponential of the negative loss; subtracting the maximum does not matter. -/
theorem C45_bayes_softmax (loss : ℝ → ℝ) (cands : List ℝ) :
    bayesOffset loss cands
      = (cands.map fun c => Real.exp (-loss c) * c).sum
        / (cands.map fun c => Real.exp (-loss c)).sum := by
  unfold bayesOffset
  dsimp only
  set m := (cands.map fun c => -loss c).foldl max ((cands.map fun c => -loss c).headD 0)
  have hw : List.map (fun x => Real.exp (x - m)) (cands.map fun c => -loss c)
      = cands.map fun c => Real.exp (-loss c) * Real.exp (-m) := by
    rw [List.map_map]
    apply List.map_congr_left
    intro c _
    simp only [Function.comp, ← Real.exp_add, sub_eq_add_neg]
  have hs : (cands.map fun c => Real.exp (-loss c) * Real.exp (-m)).sum
      = (cands.map fun c => Real.exp (-loss c)).sum * Real.exp (-m) := by
    rw [List.sum_map_mul_right]
  rw [hw, hs]
  have e := list_sum_zipWith_map (fun c => Real.exp (-loss c) * Real.exp (-m)) id cands
    (fun x c => x / ((cands.map fun c => Real.exp (-loss c)).sum * Real.exp (-m)) * c)
  rw [List.map_id] at e
  rw [e]
  have hm : Real.exp (-m) ≠ 0 := (Real.exp_pos _).ne'
  have e2 : (cands.map fun c => Real.exp (-loss c) * Real.exp (-m)
      / ((cands.map fun c => Real.exp (-loss c)).sum * Real.exp (-m)) * id c)
      = cands.map fun c => Real.exp (-loss c) * c
          * ((cands.map fun c => Real.exp (-loss c)).sum)⁻¹ := by
    apply List.map_congr_left
    intro c _
    rw [mul_div_mul_right _ _ hm, id]
    ring
  rw [e2, List.sum_map_mul_right, div_eq_mul_inv]

theorem sum_exp_pos (loss : ℝ → ℝ) (cands : List ℝ) (hc : cands ≠ []) :
    0 < (cands.map fun c => Real.exp (-loss c)).sum := by
  apply List.sum_pos
  · intro x hx
    simp only [List.mem_map] at hx
    obtain ⟨c, -, rfl⟩ := hx
    exact Real.exp_pos _
  · simpa using hc

/-- **C45, Bayesian mode.**  The average lies between the smallest and the largest
candidate. -/
theorem C45_bayes_between (loss : ℝ → ℝ) (cands : List ℝ) (hc : cands ≠ []) (lo hi : ℝ)
    (h : ∀ c ∈ cands, lo ≤ c ∧ c ≤ hi) :
    lo ≤ bayesOffset loss cands ∧ bayesOffset loss cands ≤ hi := by
  have hpos := sum_exp_pos loss cands hc
  rw [C45_bayes_softmax, le_div_iff₀ hpos, div_le_iff₀ hpos, ← List.sum_map_mul_left,
    ← List.sum_map_mul_left]
  constructor
  · apply List.sum_le_sum
    intro c hcm
    rw [mul_comm lo]
    exact mul_le_mul_of_nonneg_left (h c hcm).1 (Real.exp_pos _).le
  · apply List.sum_le_sum
    intro c hcm
    rw [mul_comm hi]
    exact mul_le_mul_of_nonneg_left (h c hcm).2 (Real.exp_pos _).le

/-- In both modes the update of a bin is bounded by `10^(1/(iteration+1))`. -/
theorem C45_update_bounded (logpmf : ℝ → ℝ → ℝ → Flt ℝ) (gamma : ℝ) (bayes : Bool)
    (nSteps iteration n : ℕ) (codes : ℕ → ℕ) (y mu cLink : ℕ → ℝ) (b : ℕ) :
    |(nbinomCCalcParameters logpmf gamma bayes nSteps iteration n codes y mu cLink b).1|
      ≤ (10 : ℝ) ^ (1 / ((iteration + 1 : ℕ) : ℝ)) := by
  cases bayes with
  | false =>
    exact C45_candidates_bounded _ _ _
      (C45_minimal logpmf gamma nSteps iteration n codes y mu cLink b).1
  | true =>
    have hne : newCLink (iteration + 1) nSteps ≠ [] :=
      List.ne_nil_of_mem (newCLink_zero_mem _ _)
    exact abs_le.mpr (C45_bayes_between _ _ hne _ _
      fun c hc => abs_le.mp (C45_candidates_bounded _ _ c hc))

/-- The uncertainty of a bin is in `(0, 1]`, and 1 for a bin without samples. -/
theorem C45_uncertainty (logpmf : ℝ → ℝ → ℝ → Flt ℝ) (gamma : ℝ) (bayes : Bool)
    (nSteps iteration n : ℕ) (codes : ℕ → ℕ) (y mu cLink : ℕ → ℝ) (b : ℕ) :
    let u := (nbinomCCalcParameters logpmf gamma bayes nSteps iteration n codes y mu cLink b).2
    0 < u ∧ u ≤ 1 ∧ ((∀ i, i < n → codes i ≠ b) → u = 1) := by
  intro u
  have hu : u = 1 / Real.sqrt (if binSum n codes (fun _ => (1 : ℝ)) b < 1 then 1
      else binSum n codes (fun _ => (1 : ℝ)) b) := rfl
  have hge : (1 : ℝ) ≤ (if binSum n codes (fun _ => (1 : ℝ)) b < 1 then 1
      else binSum n codes (fun _ => (1 : ℝ)) b) := by
    split_ifs with h
    · exact le_refl _
    · exact not_lt.mp h
  have hs : (1 : ℝ) ≤ Real.sqrt (if binSum n codes (fun _ => (1 : ℝ)) b < 1 then 1
      else binSum n codes (fun _ => (1 : ℝ)) b) := by
    have := Real.sqrt_le_sqrt hge
    rwa [Real.sqrt_one] at this
  refine ⟨by rw [hu]; positivity, ?_, fun hemp => ?_⟩
  · rw [hu, div_le_one (by linarith)]; exact hs
  · have : binSum n codes (fun _ => (1 : ℝ)) b = 0 := by
      unfold binSum
      apply sum_eq_zero
      intro i hi
      rw [if_neg (hemp i (mem_range.mp hi))]
    rw [hu, this]
    norm_num

/-! ## C62: bins without samples -/

theorem binnedLoss_empty (logpmf : ℝ → ℝ → ℝ → Flt ℝ) (gamma : ℝ) (n : ℕ) (codes : ℕ → ℕ)
    (y mu cLink : ℕ → ℝ) (c : ℝ) (b : ℕ) (hemp : ∀ i, i < n → codes i ≠ b) :
    binnedLoss logpmf gamma n codes y mu cLink c b = 0 := by
  unfold binnedLoss binSum
  apply sum_eq_zero
  intro i hi
  rw [if_neg (hemp i (mem_range.mp hi))]

/-- **C62 (partial).**  With Bayesian averaging a bin without samples stays exactly
neutral.

Missing: the default mode, for which the claim is false of the code, see
`C62_default_mode_not_neutral`. -/
theorem C62_bayes_neutral_partial (logpmf : ℝ → ℝ → ℝ → Flt ℝ) (gamma : ℝ)
    (nSteps iteration n : ℕ) (codes : ℕ → ℕ) (y mu cLink : ℕ → ℝ) (b : ℕ)
    (hemp : ∀ i, i < n → codes i ≠ b) :
    (nbinomCCalcParameters logpmf gamma true nSteps iteration n codes y mu cLink b).1 = 0 := by
  have hc : (nbinomCCalcParameters logpmf gamma true nSteps iteration n codes y mu cLink b).1
      = bayesOffset (fun c => binnedLoss logpmf gamma n codes y mu cLink c b)
          (newCLink (iteration + 1) nSteps) := rfl
  rw [hc, C45_bayes_softmax]
  simp only [binnedLoss_empty logpmf gamma n codes y mu cLink _ b hemp, neg_zero, Real.exp_zero,
    one_mul]
  have hs : ((newCLink (iteration + 1) nSteps).map fun c => c).sum = 0 := by
    rw [List.map_id']
    simp only [newCLink, List.sum_append, List.sum_reverse, List.sum_singleton, add_zero]
    rw [show (fun c : ℝ => -c) = fun c => (-1) * c by funext c; ring, List.sum_map_mul_left]
    simp
  rw [hs, zero_div]

theorem argminFrom_const (best : ℝ) (bi : ℕ) : ∀ (xs : List ℝ) (i : ℕ), (∀ x ∈ xs, best ≤ x) →
    argminFrom best bi i xs = bi
  | [], _, _ => rfl
  | x :: xs, i, h => by
    unfold argminFrom
    rw [if_neg (not_lt.mpr (h x (by simp)))]
    exact argminFrom_const best bi xs (i + 1) (fun y hy => h y (by simp [hy]))

/-- **C62, counterexample.**  In the default mode a bin without samples, for example
the bin for missing values when the training data have none, gets the most
negative candidate: -10 in the first iteration with the default of 15 steps. -/
theorem C62_default_mode_not_neutral (logpmf : ℝ → ℝ → ℝ → Flt ℝ) (gamma : ℝ)
    (nSteps iteration n : ℕ) (hsteps : 2 * (iteration + 1) ≤ nSteps)
    (codes : ℕ → ℕ) (y mu cLink : ℕ → ℝ) (b : ℕ) (hemp : ∀ i, i < n → codes i ≠ b) :
    (nbinomCCalcParameters logpmf gamma false nSteps iteration n codes y mu cLink b).1
      = -(10 : ℝ) ^ (1 / ((iteration + 1 : ℕ) : ℝ)) := by
  have hc : (nbinomCCalcParameters logpmf gamma false nSteps iteration n codes y mu cLink b).1
      = bestOffset (fun c => binnedLoss logpmf gamma n codes y mu cLink c b)
          (newCLink (iteration + 1) nSteps) := rfl
  rw [hc]
  unfold bestOffset
  simp only [binnedLoss_empty logpmf gamma n codes y mu cLink _ b hemp]
  have harg : argmin ((newCLink (iteration + 1) nSteps).map fun _ => (0 : ℝ)) = 0 := by
    cases newCLink (iteration + 1) nSteps with
    | nil => rfl
    | cons x xs =>
      simp only [List.map_cons, argmin]
      apply argminFrom_const
      intro z hz
      simp only [List.mem_map] at hz
      obtain ⟨_, _, rfl⟩ := hz
      exact le_refl _
  rw [harg]
  set m := nSteps / (iteration + 1) with hm
  have hm2 : 2 ≤ m := by
    rw [hm, Nat.le_div_iff_mul_le (by omega)]; omega
  obtain ⟨k, hk⟩ : ∃ k, m = k + 1 := ⟨m - 1, by omega⟩
  have hfirst : (newCLink (iteration + 1) nSteps).getD 0 0
      = -(10 : ℝ) ^ (-3 + (k : ℝ) * ((1 / ((iteration + 1 : ℕ) : ℝ) + 3) / ((m : ℝ) - 1))) := by
    unfold newCLink logspace
    rw [← hm]
    dsimp only
    rw [hk, List.range_succ]
    simp
  rw [hfirst]
  have hk0 : (m : ℝ) - 1 = k := by rw [hk]; push_cast; ring
  have hkpos : (0 : ℝ) < k := by
    have : 1 ≤ k := by omega
    exact_mod_cast this
  rw [hk0]
  congr 2
  field_simp
  ring

/-- Witness: first iteration, 15 steps, one sample in bin 0; bin 1 gets -10. -/
example (logpmf : ℝ → ℝ → ℝ → Flt ℝ) :
    (nbinomCCalcParameters logpmf 0 false 15 0 1 (fun _ => 0) (fun _ => 2) (fun _ => 1)
      (fun _ => 0) 1).1 = -10 := by
  rw [C62_default_mode_not_neutral logpmf 0 15 0 1 (by norm_num) _ _ _ _ 1
    (fun i _ => by norm_num)]
  norm_num

/-- Witness for C45: an offset that is really better is taken.  With a probability
function that prefers small dispersions, one sample and one step, the offset is
-0.001. -/
example : (nbinomCCalcParameters (fun _ _ p => .fin p) 0 false 1 0 1 (fun _ => 0) (fun _ => 2)
    (fun _ => 1) (fun _ => 0) 0).1 ∈ newCLink 1 1 :=
  (C45_minimal _ _ _ _ _ _ _ _ _ _).1

end CB
