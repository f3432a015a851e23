import Verif.Props.BinnedFit
import Verif.Props.Units
import Verif.Props.WholeFitExample

/-!
# A concrete fit of a pipeline

Two samples with the raw values 10 and 30 of a continuous column, which the binner turns into the bins 0 and 1 of `exData`.
-/

set_option autoImplicit false

namespace CB
open Finset Spec

noncomputable section

/-- Two bins for the column of `exProps`. -/
def exBinner : Binner := ⟨fun _ => 2, exProps, 1 / 1000, 1 / 100⟩

/-- The raw data of `exData`. -/
def exRaw : TrainSet := { exData with X := fun s c => if c = "a" then .fin (if s = 0 then 10 else 30) else exData.X s c }

theorem exColumn : exRaw.X.column 2 "a" = [some 10, some 30] := by
  simp [Table.column, exRaw, List.range_succ]

theorem exCdf : calcCdf [some (10 : ℝ), some 30] [1, 1] = .ok ([10, 30], [1 / 2, 1]) := by
  have h1 : npUnique [(10 : ℝ), 30] = [10, 30] := by
    have : (10 : ℝ) ≤ 30 := by norm_num
    simp [npUnique, List.insertionSort, List.orderedInsert, this]
  simp only [calcCdf, validSamples, List.zip_cons_cons, List.zip_nil_right, List.filterMap_cons, List.filterMap_nil, Option.map_some,
    List.map_cons, List.map_nil, h1]
  norm_num [weightOf, cumsumFrom]

theorem exReduce : reduceCdf [(10 : ℝ), 30] [1 / 2, 1] 2 (1 / 1000) (1 / 100) = .ok ([10, 10, 30], [0, 1 / 2, 1]) := by
  have g1 : geLim [(1 / 2 : ℝ), 1] (.fin (1 / 2 - 1 / 1000)) true 0 2 = some 0 := by
    unfold geLim
    rw [geLoop]
    norm_num [pyGet, Flt.geOf]
    rw [geLoop]
    norm_num
  have g2 : geLim [(1 / 2 : ℝ), 1] (.fin (1 - 1 / 1000)) true 0 2 = some 1 := by
    unfold geLim
    rw [geLoop]
    norm_num [pyGet, Flt.geOf]
    rw [geLoop]
    norm_num
  have m0 : pyMod (0 : ℝ) (1 / 2) = 0 := by simp [pyMod]
  have m1 : pyMod (1 / 2 : ℝ) (1 / 2) = 0 := by norm_num [pyMod]
  unfold reduceCdf
  rw [if_neg (by norm_num)]
  dsimp only
  rw [reduceLoop]
  simp only [Nat.cast_ofNat, m0]
  rw [if_pos (by norm_num), if_pos (by norm_num)]
  rw [show (0 : ℝ) + 1 / 2 - 0 - 1 / 1000 = 1 / 2 - 1 / 1000 by norm_num]
  simp only [List.length_cons, List.length_nil, Nat.zero_add, Nat.reduceAdd, Nat.cast_ofNat]
  rw [g1]
  simp only [pyGet]
  norm_num
  rw [reduceLoop]
  simp only [m1]
  norm_num
  rw [show (999 / 1000 : ℝ) = 1 - 1 / 1000 by norm_num, g2]
  norm_num [pyGet, reduceLoop]

theorem exBins : exBinner.fit ["a"] exRaw.X 2 = .ok [("a", ⟨1 / 1000 * 20, some ([10, 10, 30], [0, 1 / 2, 1])⟩)] := by
  have hmd : minimalDifference [(10 : ℝ), 10, 30] = 20 := by norm_num [minimalDifference]
  have hd : (Flags.isSet (Flags.IS_MONOTONIC ||| Flags.INCREASING) Flags.IS_ORDERED ||
    Flags.isSet (Flags.IS_MONOTONIC ||| Flags.INCREASING) Flags.IS_UNORDERED) = false := by decide
  have hc : Flags.checkConsistency (Flags.IS_MONOTONIC ||| Flags.INCREASING) = .ok () := by decide
  have hl : exProps.lookup "a" = some (Flags.IS_MONOTONIC ||| Flags.INCREASING) := by decide
  have hf : fitColumn false [some (10 : ℝ), some 30] [1, 1] 2 (1 / 1000) (1 / 100) =
      .ok ⟨1 / 1000 * 20, some ([10, 10, 30], [0, 1 / 2, 1])⟩ := by
    unfold fitColumn
    rw [exCdf]
    dsimp only
    rw [if_neg (by simp)]
    simp only [Bool.false_eq_true, if_false, exReduce, hmd]
    simp
  simp only [Binner.fit, Binner.fitColumns, Binner.fitOne, exBinner, hl, hc, hd, exColumn]
  rw [show List.replicate 2 (1 : ℝ) = [1, 1] from rfl, hf]
  rfl

theorem exTransform : exBinner.transform [("a", ⟨1 / 1000 * 20, some ([10, 10, 30], [0, 1 / 2, 1])⟩)] exRaw.X 2 = .ok exData.X := by
  have hl : exProps.lookup "a" = some (Flags.IS_MONOTONIC ||| Flags.INCREASING) := by decide
  have hm : Flags.isSet (Flags.IS_MONOTONIC ||| Flags.INCREASING) Flags.HAS_MAGIC_INT_MISSING = false := by decide
  have hc : Flags.isSet (Flags.IS_MONOTONIC ||| Flags.INCREASING) Flags.IS_CONTINUOUS = true := by decide
  have hs : Spec.Sorted [(10 : ℝ), 30] := by norm_num [Spec.Sorted]
  have hcell : ∀ s c, exBinner.cell [("a", ⟨1 / 1000 * 20, some ([10, 10, 30], [0, 1 / 2, 1])⟩)] c (exRaw.X s c) =
      .ok (exData.X s c) := by
    intro s c
    by_cases hca : c = "a"
    · subst hca
      simp only [Binner.cell, List.lookup, exBinner, hl, hm, hc, beq_self_eq_true, exRaw, if_true, Option.map_some]
      by_cases h0 : s = 0
      · subst h0
        obtain ⟨k, hk, hin⟩ := C01_continuous_bin (10 : ℝ) [10, 30] hs (by simp) false (1 / 1000 * 20) 10 (by simp)
        have := C01_bin_unique _ _ _ 0 hin (by simp [Spec.InBin])
        subst this
        rw [if_pos rfl, hk]
        simp [exData]
      · obtain ⟨k, hk, hin⟩ := C01_continuous_bin (10 : ℝ) [10, 30] hs (by simp) false (1 / 1000 * 20) 30 (by simp)
        have := C01_bin_unique _ _ _ 1 hin (by
          refine ⟨by simp, fun j hj => ?_, ?_⟩
          · have : j = 0 := by omega
            subst this
            norm_num
          · right; rfl)
        subst this
        rw [if_neg h0, hk]
        simp [exData, h0]
    · have hb : (c == "a") = false := by simpa using hca
      simp only [Binner.cell, List.lookup, hb, exRaw, hca, if_false]
  unfold Binner.transform
  rw [if_pos (fun s _ c => ⟨_, hcell s c⟩)]
  simp only [hcell]

/-- The pipeline can be fitted, and the fit does not diverge. -/
theorem exPipeline : ∃ P, pipelineFit exBinner ["a"] exSetup (gbsEstimator 0) exRaw 1 = some (.ok P) ∧
    P.bins = [("a", ⟨1 / 1000 * 20, some ([10, 10, 30], [0, 1 / 2, 1])⟩)] ∧
    NeverDiverges exSetup (gbsEstimator 0) exData := by
  obtain ⟨hnd, m, hm, -⟩ := exFit
  refine ⟨⟨_, m⟩, ?_, rfl, hnd⟩
  unfold pipelineFit
  rw [show exRaw.n = 2 from rfl, exBins]
  dsimp only
  rw [exTransform]
  dsimp only
  rw [show (⟨exData.X, 2, exRaw.y, exRaw.w, exRaw.prior⟩ : TrainSet) = exData from rfl, hm]

/-- C85 applies: the predictions for the raw values 15 and 1000 are ordered. -/
example : ∃ P p1 p2, pipelineFit exBinner ["a"] exSetup (gbsEstimator 0) exRaw 1 = some (.ok P) ∧
    P.predict exBinner none (fun _ _ => .fin 15) 1 = .ok p1 ∧ P.predict exBinner none (fun _ c => if c = "a" then .fin 1000 else .fin 15) 1 = .ok p2 ∧
    p1 0 ≤ p2 0 := by
  obtain ⟨P, hP, hbins, hnd⟩ := exPipeline
  obtain ⟨p1, h1⟩ := C85_predict_succeeds exBinner (by norm_num [exBinner]) _ _ _ _ _ P hP none (fun _ _ => .fin 15) 1
  obtain ⟨p2, h2⟩ := C85_predict_succeeds exBinner (by norm_num [exBinner]) _ _ _ _ _ P hP none
    (fun _ c => if c = "a" then .fin 1000 else .fin 15) 1
  refine ⟨P, p1, p2, hP, h1, h2, ?_⟩
  exact C85_monotone exBinner ["a"] exSetup defaultChoice [["a"]] exFeatures rfl realConsts_ok (fun _ => by norm_num [exSetup])
    (gbsEstimator 0) (noCalibration_of_modelled _ (.inr (.inr (.inr (.inr ⟨0, rfl⟩))))) true (cumulativeRegression true)
    (fun data _ x x' h => cumulative_mono true data x x' h) rfl (by decide) "a" (by simp) (noExplicit_iff.mp rfl)
    (Flags.IS_MONOTONIC ||| Flags.INCREASING) (by unfold AsksDirection; decide) rfl 0 rfl (by
      intro i g hg hc
      cases i with
      | zero => rfl
      | succ i => simp at hg) (by norm_num [exBinner]) (by norm_num [exBinner]) (by norm_num [exBinner])
    (by norm_num [exBinner]) (by norm_num [exBinner]) exRaw (by intro h; exact absurd h (by decide)) 1 P hP (by
      intro Xt hXt
      rw [hbins, show exRaw.n = 2 from rfl, exTransform, Except.ok.injEq] at hXt
      rw [← hXt]
      exact hnd) _ _ 1 0 (by norm_num) (fun c' hc' => by simp [hc']) 15 1000 (by norm_num) rfl (by simp)
    (by intro h; exact absurd h (by decide)) none p1 p2 h1 h2

/-- C86 applies: Fahrenheit for Celsius. -/
example : ∃ P P', pipelineFit exBinner ["a"] exSetup (gbsEstimator 0) exRaw 1 = some (.ok P) ∧
    pipelineFit exBinner ["a"] exSetup (gbsEstimator 0)
      { exRaw with X := rescale (fun c => if c = "a" then 9 / 5 else 1) (fun c => if c = "a" then 32 else 0) exRaw.X } 1 =
      some (.ok P') ∧ P'.model = P.model := by
  obtain ⟨P, hP, -, -⟩ := exPipeline
  obtain ⟨P', h1, h2, -⟩ := (C86_units exBinner ["a"] exSetup (gbsEstimator 0) (fun c => if c = "a" then 9 / 5 else 1)
    (fun c => if c = "a" then 32 else 0) (by
      intro c
      by_cases hc : c = "a"
      · right
        subst hc
        exact ⟨by norm_num, by simp, Flags.IS_MONOTONIC ||| Flags.INCREASING, rfl, by decide, by decide⟩
      · left
        simp [hc]) (by norm_num [exBinner]) (by norm_num [exBinner]) (by norm_num [exBinner])
    (by norm_num [exBinner]) (by intro c _; norm_num [exBinner]) exRaw 1).1 P hP
  exact ⟨P, P', hP, h1, h2⟩

end

end CB
