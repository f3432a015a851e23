import Verif.Props.SmootherCentres
import Verif.Props.WeightedMean
import Verif.Props.GroupBy
import Verif.Props.WholeFitExample
import Mathlib.Tactic.IntervalCases

/-!
# Concrete fits with the smoothers of the package (witnesses for C80 to C82)
-/

set_option autoImplicit false

namespace CB
open Finset Spec

noncomputable section

/-- Open smoothers that return nothing. -/
def noOpen : OpenSmoothers := ⟨fun _ _ _ _ _ => [], fun _ _ _ _ => [], fun _ _ _ => 0⟩

/-- One feature, no smoothing. -/
def plainChoice : Choice := ⟨.noSmoother, true, true, []⟩

def plainSetup : Setup (List (FitRow ℝ) × List ℝ) :=
  ⟨[(⟨["a"], false, false⟩, .normalizationRegressionType .binValuesOne .discontinuous)], packageSmoothers noOpen, fun _ => 1,
    exSetup.params⟩

theorem plainFeatures : createFeatures plainChoice none [["a"]] = .ok plainSetup.features := by rfl

/-- One feature, weighted mean, no normalization. -/
def meanChoice : Choice := ⟨.weightedMean, true, false, []⟩

def meanSetup : Setup (List (FitRow ℝ) × List ℝ) :=
  ⟨[(⟨["a"], false, false⟩, .regressionType .weightedMean .discontinuous)], packageSmoothers noOpen, fun _ => 1, exSetup.params⟩

theorem meanFeatures : createFeatures meanChoice (some catProps) [["a"]] = .ok meanSetup.features := by rfl

/-- Both fits of the two samples succeed, and the error is at most the 2 of the constant prediction 1. -/
theorem descentExample (S : Setup (List (FitRow ℝ) × List ℝ)) (hS : S = plainSetup ∨ S = meanSetup) :
    ∃ m, S.fit (gbsEstimator 0) exData 5 = some (.ok m) ∧ m.scale = .fin 1 ∧ trainingError exData (m.predict none exData.X) ≤ 2 := by
  have hsm : ShrinkingSmoothers S exData := by
    rcases hS with rfl | rfl
    · exact C80_no_smoothing plainSetup noOpen plainChoice none [["a"]] rfl plainFeatures rfl exData
    · refine C80_weighted_mean meanSetup noOpen meanChoice (some catProps) [["a"]] rfl meanFeatures rfl rfl rfl ?_ exData
      intro name hn fp hfp
      simp only [List.mem_singleton, List.cons.injEq, and_true] at hn
      subst hn
      simp only [readFeatureProperty, catProps, List.map_cons, List.map_nil, List.lookup_cons, beq_self_eq_true,
        Option.getD_some, List.mem_singleton] at hfp
      subst hfp
      decide
  have hp : S.params = exSetup.params := by rcases hS with rfl | rfl <;> rfl
  have hlr : ∀ k, S.learnRate k = 1 := by rcases hS with rfl | rfl <;> intro k <;> rfl
  have hg : ∀ f ∈ S.features, f.1.group = ["a"] := by
    rcases hS with rfl | rfl <;> intro f hf <;> simp only [plainSetup, meanSetup, List.mem_singleton] at hf <;> rw [hf]
  have hw : ∀ i < exData.n, 0 ≤ exData.w i := fun _ _ => by simp [exData]
  have hagg : S.params.aggregate = true := by rw [hp]; rfl
  have hlr' : ∀ k, 0 ≤ S.learnRate k ∧ S.learnRate k ≤ 1 := fun k => by rw [hlr]; norm_num
  have hne : ∀ f ∈ S.features, f.1.group ≠ [] := fun f hf => by rw [hg f hf]; simp
  obtain ⟨-, m, hm⟩ := C80_fit_succeeds S exData 0 hagg le_rfl hw hlr' hne hsm (by simp [exData]) (by rw [hp]; exact le_rfl)
    (by rw [hp]; rfl) (by rw [hp]; norm_num [exSetup]) (by rw [hp]; norm_num [exSetup]) 5 (by rw [hp]; exact le_rfl)
  have hsc : m.scale = .fin 1 := by
    obtain ⟨a, r, -, hs, -, rfl⟩ := fit_ok S _ exData 5 m hm
    rw [exScale] at hs
    rw [hs]
  refine ⟨m, hm, hsc, ?_⟩
  have := C80_training_error S exData 0 hagg le_rfl hw hlr' hne hsm (by
    intro f hf c hc i hi x hx
    simp only [exData, Flt.fin.injEq] at hx
    refine ⟨if i = 0 then 0 else 1, ?_⟩
    rw [← hx]
    split_ifs <;> simp) 5 m hm
  refine le_trans this (le_of_eq ?_)
  rw [hsc]
  simp only [trainingError, priorPrediction, exData, sum_range_succ, range_zero, sum_empty, Flt.getFin]
  norm_num

example : ∃ m, plainSetup.fit (gbsEstimator 0) exData 5 = some (.ok m) ∧ m.scale = .fin 1 ∧
    trainingError exData (m.predict none exData.X) ≤ 2 := descentExample _ (Or.inl rfl)

example : ∃ m, meanSetup.fit (gbsEstimator 0) exData 5 = some (.ok m) ∧ m.scale = .fin 1 ∧
    trainingError exData (m.predict none exData.X) ≤ 2 := descentExample _ (Or.inr rfl)

/-- Witness for C81: three bins with estimates 1, 1, 4, uncertainties 1 and weights 1, pulled to their mean 2; the second smoothed
value lies strictly between 1 and 2. -/
theorem meanExample (O : OpenSmoothers) : ∃ x, smoothAtCentres (packageSmoothers O) (metaSmoother .weightedMean true (some .discontinuous)) [3] (fun _ => 1)
    (fun _ => 1) (fun b => if b = 2 then 4 else 1) 1 = some x ∧ 1 < x ∧ x < 2 := by
  rw [weightedMean_eq O _ [3] (.one 3) true (some .discontinuous) _ _ _ 1 (by simp)]
  have hc : pullTarget true 3 (fun _ => (1 : ℝ)) (fun b => if b = 2 then 4 else 1) = 2 := by
    simp [pullTarget, sum_range_succ]
    norm_num
  simp only [List.prod_singleton, hc]
  have hr : regularizeToMeanFlt 3 (fun i => (if i = 2 then (4 : ℝ) else 1) - 2) (fun _ => 1) (some 0) 1 = .fin (-2 / 3) := by
    simp [regularizeToMeanFlt, regularizeToMean, regMeanTarget, allclose, List.range_succ, sum_range_succ]
    norm_num
  rw [hr]
  refine ⟨-2 / 3 + 2, by simp [Flt.toOption], by norm_num, by norm_num⟩

/-- Witness for the failing part of C81: targets 0 and 2 in bins 0 and 2, bin 1 empty. The feature is not learned, although
training succeeds. -/
example : ∃ m, meanSetup.fit (gbsEstimator 0) catData 5 = some (.ok m) ∧
    ∀ (past : List (TState ℝ)) (st : TState ℝ),
      Trace (meanSetup.paramsFor (gbsEstimator 0)) (meanSetup.oracle (gbsEstimator 0) catData) (meanSetup.cfgs catData)
        (startState (meanSetup.oracle (gbsEstimator 0) catData) (meanSetup.cfgs catData) (fun _ => 1)) past st →
      ∀ b < 3, ∃ fs, st.feats[0]? = some fs ∧ |stored fs b| ≤ (past.length : ℝ) * (2 / 10 ^ 8) := by
  have hsm : ShrinkingSmoothers meanSetup catData := by
    refine C80_weighted_mean meanSetup noOpen meanChoice (some catProps) [["a"]] rfl meanFeatures rfl rfl rfl ?_ catData
    intro name hn fp hfp
    simp only [List.mem_singleton, List.cons.injEq, and_true] at hn
    subst hn
    simp only [readFeatureProperty, catProps, List.map_cons, List.map_nil, List.lookup_cons, beq_self_eq_true,
      Option.getD_some, List.mem_singleton] at hfp
    subst hfp
    decide
  have hw : ∀ i < catData.n, 0 ≤ catData.w i := fun _ _ => by simp [catData]
  have hlr : ∀ k, 0 ≤ meanSetup.learnRate k ∧ meanSetup.learnRate k ≤ 1 := fun k => by simp [meanSetup]
  have hne : ∀ f ∈ meanSetup.features, f.1.group ≠ [] := by simp [meanSetup]
  obtain ⟨-, m, hm⟩ := C80_fit_succeeds meanSetup catData 0 rfl le_rfl hw hlr hne hsm (by simp [catData]) le_rfl
    rfl (by norm_num [meanSetup, exSetup]) (by norm_num [meanSetup, exSetup]) 5 le_rfl
  refine ⟨m, hm, fun past st ht b hb => ?_⟩
  have hnd := (C80_never_increases meanSetup catData 0 rfl le_rfl hw hlr hne hsm _ past st ht).2.2
  have hbind : bindData catData.X catData.n ["a"] none = ([0, 2], [3]) := catBind
  have hcfg : (FeatureSpec.mk ["a"] false false).cfg catData.X catData.n
      = ⟨["a"], false, 3, fun s => [0, 2].getD s 0, false⟩ := by
    simp only [FeatureSpec.cfg, hbind]
    rfl
  refine C81_gbs_not_learned noOpen 0 meanSetup rfl rfl realConsts_ok hlr catData 0 ⟨["a"], false, false⟩ .weightedMean false
    (some .discontinuous) rfl (by rw [hbind]; exact .one 3) 1 (by rw [hcfg]; decide) ?_ b (by rw [hcfg]; exact hb) _ past st ht hnd
  intro i hi
  rw [hcfg]
  have hi : i < 2 := hi
  interval_cases i <;> simp

/-- Open smoothers that are NaN everywhere. -/
def nanOpen : OpenSmoothers := ⟨fun _ _ _ _ rows => rows.map fun _ => .nan, fun _ _ _ rows => rows.map fun _ => .nan, fun _ _ _ => 0⟩

/-- Group-by smoothing with everything else at its default. -/
def groupChoice : Choice := ⟨.groupBy, true, true, []⟩

/-- Witness for C82: an interaction of a column with 2 and a column with 3 bins. All weights are in the second group, where the
estimates are 1, 1, 4. The value in the middle of this group lies strictly between 1 and 2, and the bins of the first group get none. -/
example : ∃ k, smootherForGroup groupChoice (some [("a", Flags.IS_UNORDERED), ("b", Flags.IS_UNORDERED)]) ["b", "a"] = .ok k ∧
    (∃ x, smoothAtCentres (packageSmoothers nanOpen) k [2, 3] (fun b => if b < 3 then 0 else 1) (fun _ => 1)
      (fun b => if b = 5 then 4 else 1) 4 = some x ∧ 1 < x ∧ x < 2) ∧
    smoothAtCentres (packageSmoothers nanOpen) k [2, 3] (fun b => if b < 3 then 0 else 1) (fun _ => 1)
      (fun b => if b = 5 then 4 else 1) 1 = none := by
  have ha : arangeMulti [2, 3] = [[0, 0], [0, 1], [0, 2], [1, 0], [1, 1], [1, 2]] := by decide
  have hslice : ∀ (g : ℕ) (f f' : ℕ → ℝ), g < 2 → (∀ k < 3, f' k = f (g * 3 + k)) → IsSlice ([2] ++ [3]) [g] f f' := by
    intro g f f' hg h k b hb
    rw [show [2] ++ [3] = [2, 3] from rfl, ha] at hb
    have hb6 : b < 6 := (List.getElem?_eq_some_iff.mp hb).1
    have h0 := h 0 (by omega)
    have h1 := h 1 (by omega)
    have h2 := h 2 (by omega)
    clear ha h
    interval_cases b <;> interval_cases g <;> simp at hb <;> subst hb <;> assumption
  obtain ⟨k₁, h1, h2⟩ := C82_interaction nanOpen ⟨fun _ _ _ _ => ⟨_, fun _ => rfl⟩, fun _ _ _ => ⟨_, fun _ => rfl⟩⟩ groupChoice rfl
    (some [("a", Flags.IS_UNORDERED), ("b", Flags.IS_UNORDERED)]) ["b"] (by simp) "a" (noExplicit_iff.mp rfl)
    (.groupByCB (metaSmoother .weightedMean true (some .discontinuous)) 2) rfl
  have hk₁ : k₁ = metaSmoother .weightedMean true (some .discontinuous) := by
    have : smootherForGroup groupChoice (some [("a", Flags.IS_UNORDERED), ("b", Flags.IS_UNORDERED)]) ["a"]
      = .ok (metaSmoother .weightedMean true (some .discontinuous)) := by rfl
    rw [this] at h1
    exact (Except.ok.inj h1).symm
  subst hk₁
  refine ⟨.groupByCB (metaSmoother .weightedMean true (some .discontinuous)) 2, rfl, ?_, ?_⟩
  · rw [show ([2, 3] : List ℕ) = [2] ++ [3] from rfl]
    rw [h2 [2] rfl 3 _ _ _ (fun _ => 1) (fun _ => 1) (fun b => if b = 2 then 4 else 1) [1] 1 4 (by decide)
      (hslice 1 _ _ (by omega) (fun k hk => by interval_cases k <;> norm_num))
      (hslice 1 _ _ (by omega) (fun k hk => by interval_cases k <;> norm_num))
      (hslice 1 _ _ (by omega) (fun k hk => by interval_cases k <;> norm_num)), if_pos (by simp)]
    exact meanExample nanOpen
  · rw [show ([2, 3] : List ℕ) = [2] ++ [3] from rfl]
    rw [h2 [2] rfl 3 _ _ _ (fun _ => 0) (fun _ => 1) (fun _ => 1) [0] 1 1 (by decide)
      (hslice 0 _ _ (by omega) (fun k hk => by interval_cases k <;> norm_num))
      (hslice 0 _ _ (by omega) (fun k hk => by interval_cases k <;> norm_num))
      (hslice 0 _ _ (by omega) (fun k hk => by interval_cases k <;> norm_num)), if_neg (by simp)]

end

end CB
