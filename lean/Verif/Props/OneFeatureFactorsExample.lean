import Verif.Props.OneFeatureFactors
import Verif.Props.OneFeatureCostsExample

/-! Witnesses for C156. -/

set_option autoImplicit false
set_option linter.unusedSectionVars false

namespace CB
open Finset Spec

/-- Samples 0 and 1 in bins 0 and 1, with targets 1 and 2. -/
noncomputable def facData : TrainSet := { exData with y := fun s => 1 + s }

/-- An optimiser that finds minima finds no negative factors if the loss of negative predictions exceeds that of the prediction 0. -/
theorem bestMinimize_positive (loss : ℝ → ℝ → ℝ) (hl : ∀ p y, p < 0 → 1 ≤ y → loss 0 y < loss p y) :
    NoNegativeParameters bestMinimize true loss facData := by
  intro _ codes prediction b
  set l := (List.range facData.n).filter fun i => decide (codes i = b) with hldef
  set g : ℝ → Flt ℝ := fun param => meanCosts loss (l.map fun i => (param * Real.exp (prediction i), facData.y i, facData.w i)) with hg
  show -1e-5 < bestMinimize g 1
  by_cases hnil : l = []
  · have : ∀ z, g z = .fin 0 := fun z => by simp [hg, hnil, meanCosts]
    unfold bestMinimize
    rw [if_pos ⟨0, this 1, fun z c hz => by rw [this z, Flt.fin.injEq] at hz; exact hz.le⟩]
    norm_num
  · have hlen : 0 < (l.length : ℝ) := by
      have := List.length_pos_of_ne_nil hnil
      exact_mod_cast this
    have hval : ∀ z, g z = .fin ((l.map fun i => loss (z * Real.exp (prediction i)) (facData.y i)).sum / l.length) := by
      intro z
      have hw : ((l.map fun i => (z * Real.exp (prediction i), facData.y i, facData.w i)).map fun s => s.2.2).sum = l.length := by
        rw [List.map_map]
        have : (l.map ((fun s : ℝ × ℝ × ℝ => s.2.2) ∘ fun i => (z * Real.exp (prediction i), facData.y i, facData.w i))) = l.map fun _ => 1 :=
          List.map_congr_left fun i _ => rfl
        rw [this]
        simp
      simp only [hg, meanCosts]
      rw [if_neg (by simpa using hnil), hw, if_neg hlen.ne', List.map_map]
      congr 3
      refine List.map_congr_left fun i _ => ?_
      show (1 : ℝ) * _ = _
      rw [one_mul]
    unfold bestMinimize
    split_ifs with h1 h2
    · norm_num
    · obtain ⟨a, e1, e2⟩ := h2.choose_spec
      set p := h2.choose with hp
      by_contra hn
      push Not at hn
      have hneg : p < 0 := lt_of_le_of_lt hn (by norm_num)
      have := e2 0 _ (hval 0)
      rw [hval p, Flt.fin.injEq] at e1
      rw [← e1, div_le_div_iff_of_pos_right hlen] at this
      refine absurd this (not_le.mpr ?_)
      obtain ⟨i, hi⟩ := List.exists_mem_of_ne_nil l hnil
      have hy : ∀ i, 1 ≤ facData.y i := fun i => by
        show (1 : ℝ) ≤ 1 + i
        have : (0 : ℝ) ≤ i := Nat.cast_nonneg i
        linarith
      have hlt : ∀ i, loss (0 * Real.exp (prediction i)) (facData.y i) < loss (p * Real.exp (prediction i)) (facData.y i) := fun i => by
        rw [zero_mul]
        exact hl _ _ (mul_neg_of_neg_of_pos hneg (Real.exp_pos _)) (hy i)
      exact List.sum_lt_sum _ _ (fun i _ => (hlt i).le) ⟨i, hi, hlt i⟩
    · norm_num

/-- Training with factors on the targets 1 and 2, in one iteration. -/
theorem facModel {E : Estimator} {loss : ℝ → ℝ → ℝ} (hE : CostEstimator bestMinimize true E loss)
    (hl : ∀ p y, p < 0 → 1 ≤ y → loss 0 y < loss p y) (a : ℝ) (hs : E.scale facData.n facData.y facData.w = .fin a) :
    ∃ m, OneFeatureModel plainSetup E facData m calFeature ∧ 1 ≤ m.iterations := by
  have hsm := C80_no_smoothing plainSetup noOpen plainChoice none [["a"]] rfl plainFeatures rfl facData
  have hw : ∀ i < facData.n, 0 ≤ facData.w i := fun _ _ => by simp [facData, exData]
  have hlr : ∀ k, 0 ≤ plainSetup.learnRate k ∧ plainSetup.learnRate k ≤ 1 := fun k => by simp [plainSetup]
  have hne : ∀ f ∈ plainSetup.features, f.1.group ≠ [] := by simp [plainSetup]
  obtain ⟨hnd, m, hm⟩ := C84_fit_succeeds plainSetup facData hE bestMinimize_notWorse (bestMinimize_positive _ hl) rfl rfl hw hlr hne hsm
    (fun _ i _ => by show (0 : ℝ) ≤ 1 + i; positivity) a hs le_rfl rfl (by norm_num [plainSetup, exSetup])
    (by norm_num [plainSetup, exSetup]) 5 le_rfl
  exact ⟨m, ⟨⟨5, hm⟩, rfl, rfl, rfl, rfl, by simp [calFeature], oneInts, hw, rfl, hnd, hlr⟩,
    (fit_iterations_pos plainSetup _ facData le_rfl (by norm_num [plainSetup, exSetup]) (by norm_num [plainSetup, exSetup]) 5 m hm).1⟩

theorem facBin : ∀ b < 2, (calFeature.1.cfg facData.X facData.n).bin b = b := by
  intro b hb
  show (calFeature.1.cfg exData.X exData.n).bin b = b
  rw [oneCfg]
  interval_cases b <;> rfl

theorem facSum (x : ℕ → ℝ) (b : ℕ) (hb : b < 2) : sumInBin facData calFeature b x = x b := by
  show sumInBin exData calFeature b x = x b
  rw [oneSum]
  interval_cases b <;> simp

/-- C156: training starts with 1 for both; the medians of the bins are learned exactly. -/
example : ∃ m, OneFeatureModel plainSetup (quantileEstimator true (1 / 2) bestMinimize) facData m calFeature ∧
    quantileScale .log (1 / 2) facData.n facData.y facData.w = .fin 0 ∧ m.predict none facData.X 0 = 1 ∧ m.predict none facData.X 1 = 2 := by
  have hs : quantileScale .log (1 / 2) facData.n facData.y facData.w = .fin 0 := by
    have : (([(1, 1), (1 + 1, 1)] : List (ℝ × ℝ)).mergeSort fun a b => decide (a.1 ≤ b.1)) = [(1, 1), (1 + 1, 1)] :=
      List.mergeSort_of_pairwise (by simp)
    simp [quantileScale, facData, exData, List.range_succ, this, continuousQuantile, firstReaching, linkFlt]
    norm_num
  obtain ⟨m, h, hit⟩ := facModel (.quantile true (1 / 2) (by norm_num) (by norm_num)) (fun p y hp hy => by
    unfold Spec.pinball
    rw [max_eq_left (by linarith), max_eq_left (by linarith)]
    linarith) 0 hs
  have htwo : (2 : ℝ) ≤ 2 ^ m.iterations := by
    calc (2 : ℝ) = 2 ^ 1 := (pow_one 2).symm
      _ ≤ 2 ^ m.iterations := pow_le_pow_right₀ (by norm_num) hit
  have key : ∀ b < 2, m.predict none facData.X b = 1 + b := by
    intro b hb
    have q := C156_quantile (1 / 2) (by norm_num) (by norm_num) bestMinimize_finds h rfl b hb
      (by rw [facBin b hb]; exact oneUnsmoothed facData.y facData.w (fun _ => one_ne_zero) b hb)
      (by rw [facBin b hb, facSum _ b hb]; exact one_pos) 1 2 one_pos
      (fun k hk _ => by
        have hk' : k < 2 := hk
        show (1 : ℝ) ≤ 1 + k ∧ (1 + k : ℝ) ≤ 2
        interval_cases k <;> norm_num) 0 hs
      (by rw [show calFeature.1.group.length = 1 from rfl]; norm_num [minFactor])
      (by rw [show calFeature.1.group.length = 1 from rfl]; norm_num [maxFactor])
      (fun _ _ => rfl) (by rw [Real.exp_zero]; linarith) (by rw [Real.exp_zero]; linarith)
    rw [facBin b hb] at q
    obtain ⟨q1, q2⟩ := q
    rw [facSum _ b hb, facSum _ b hb] at q1 q2
    have hp : facData.prior = none := rfl
    rw [hp] at q1 q2
    have hwb : facData.w b = 1 := rfl
    have hyb : facData.y b = 1 + b := rfl
    rw [hwb, hyb] at q1 q2
    refine le_antisymm ?_ ?_
    · by_contra hn
      rw [if_pos (not_le.mp hn)] at q1
      norm_num at q1
    · by_contra hn
      rw [if_neg hn] at q2
      norm_num at q2
  refine ⟨m, h, hs, ?_, ?_⟩
  · simpa using key 0 (by omega)
  · have := key 1 (by omega)
    rw [this]
    norm_num

/-- C156, with the squared error: training starts with 1.501 for both; the targets are learned exactly. -/
example : ∃ m, OneFeatureModel plainSetup (genericEstimator true (meanCosts fun p y => (p - y) ^ 2) bestMinimize) facData m calFeature ∧
    m.predict none facData.X 0 = 1 ∧ m.predict none facData.X 1 = 2 := by
  have hE : CostEstimator bestMinimize true (genericEstimator true (meanCosts fun p y => (p - y) ^ 2) bestMinimize)
      fun p y => (p - y) ^ 2 := .generic true _ squareLoss_convex
  have hs : (genericEstimator true (meanCosts fun p y => (p - y) ^ 2) bestMinimize).scale facData.n facData.y facData.w =
      .fin (Real.log 1.501) := by
    simp [genericEstimator, globalScaleLink, facData, exData, sum_range_succ, quotientFlt, Flt.addFin]
    norm_num [linkFlt]
  obtain ⟨m, h, hit⟩ := facModel hE (fun p y hp hy => by nlinarith) _ hs
  have hexp : Real.exp (Real.log 1.501) = 1.501 := Real.exp_log (by norm_num)
  have hcost : ∀ b < 2, ∀ x, binCost facData calFeature b (fun p y => (p - y) ^ 2) x = (x - (1 + b)) ^ 2 := by
    intro b hb x
    unfold binCost
    rw [facSum _ b hb]
    show (1 : ℝ) * _ = _
    rw [one_mul]
    rfl
  have key : ∀ b < 2, m.predict none facData.X b = 1 + b := by
    intro b hb
    have hb0 : (0 : ℝ) ≤ b := Nat.cast_nonneg b
    have hb1 : (b : ℝ) ≤ 1 := by have : b ≤ 1 := by omega
                                 exact_mod_cast this
    have hsq : ∀ x : ℝ, (x - (1 + b)) ^ 2 ≤ (1 + b - (1 + b)) ^ 2 → x = 1 + b := fun x hx => by
      rw [sub_self, zero_pow two_ne_zero] at hx
      have := pow_eq_zero_iff two_ne_zero |>.mp (le_antisymm hx (sq_nonneg _))
      linarith
    have hL : 0 < Real.log 2 := Real.log_pos (by norm_num)
    have q := C156_optimal hE bestMinimize_finds h rfl b hb
      (by rw [facBin b hb]; exact oneUnsmoothed facData.y facData.w (fun _ => one_ne_zero) b hb)
      (by rw [facBin b hb, facSum _ b hb]; exact one_pos) 1 2 (1 + b) one_pos
      (fun z => by rw [facBin b hb, hcost b hb, hcost b hb, sub_self, zero_pow two_ne_zero]; exact sq_nonneg _)
      (fun x hx => by
        have := hx (1 + b)
        rw [facBin b hb, hcost b hb, hcost b hb] at this
        rw [hsq x this]
        constructor <;> linarith) _ hs
      (by rw [show calFeature.1.group.length = 1 from rfl, hexp]; norm_num [minFactor])
      (by rw [show calFeature.1.group.length = 1 from rfl, hexp]; norm_num [maxFactor])
      (fun _ _ => rfl) (by
        have hk : (1 : ℝ) ≤ m.iterations := by exact_mod_cast hit
        refine le_trans ?_ (le_mul_of_one_le_left hL.le hk)
        have h1 : Real.log (1 + b) ≤ Real.log 2 := Real.log_le_log (by linarith) (by linarith)
        have h2 : 0 ≤ Real.log (1 + b) := Real.log_nonneg (by linarith)
        have h3 : Real.log 1.501 ≤ Real.log 2 := Real.log_le_log (by norm_num) (by norm_num)
        have h4 : 0 ≤ Real.log 1.501 := Real.log_nonneg (by norm_num)
        rw [abs_le]
        constructor <;> linarith) (1 + b)
    rw [facBin b hb, hcost b hb, hcost b hb] at q
    exact hsq _ q
  refine ⟨m, h, ?_, ?_⟩
  · simpa using key 0 (by omega)
  · have := key 1 (by omega)
    rw [this]
    norm_num

end CB
