import Verif.Model.Normal
import Verif.Props.QpdBase
import Verif.Props.QpdExtended
import Verif.Props.QpdSemibounded
import Verif.Props.QpdBounded
import Mathlib.Probability.Distributions.Gaussian.Real
import Mathlib.Probability.CDF

/-!
# C58 for the default version "normal"

The classes take the normal distribution by default.  Here the standard normal distribution, defined by its density, is
shown to be a symmetric base distribution, so the statements about the classes hold for it.
-/

set_option autoImplicit false
set_option linter.unusedSectionVars false

namespace CB

open Spec ProbabilityTheory MeasureTheory Filter Topology

/-- A continuous, strictly increasing, symmetric distribution function together with its quantile function is a symmetric
base distribution. -/
theorem symmetricBase_of_cdf (F : ℝ → ℝ) (hc : Continuous F) (hm : StrictMono F)
    (h0 : Tendsto F atBot (𝓝 0)) (h1 : Tendsto F atTop (𝓝 1)) (hs : ∀ x, F (-x) = 1 - F x) :
    SymmetricBase { ppf := fun p => sInf {x | p ≤ F x}, cdf := F } := by
  have hinv : ∀ x, sInf {y | F x ≤ F y} = x := by
    intro x
    have : {y | F x ≤ F y} = Set.Ici x := by
      ext y; simp [hm.le_iff_le]
    rw [this, csInf_Ici]
  have hsurj : ∀ p, 0 < p → p < 1 → ∃ x, F x = p := by
    intro p hp0 hp1
    obtain ⟨a, ha⟩ := ((h0.eventually_lt_const hp0)).exists
    obtain ⟨b, hb⟩ := ((h1.eventually_const_lt hp1)).exists
    exact mem_range_of_exists_le_of_exists_ge hc ⟨a, ha.le⟩ ⟨b, hb.le⟩
  have hpos : ∀ x, 0 < F x := by
    intro x
    have h : 0 ≤ F (x - 1) := hm.monotone.le_of_tendsto h0 _
    exact lt_of_le_of_lt h (hm (by linarith))
  have hlt : ∀ x, F x < 1 := by
    intro x
    have h : F (x + 1) ≤ 1 := hm.monotone.ge_of_tendsto h1 _
    exact lt_of_lt_of_le (hm (by linarith)) h
  refine ⟨?_, ?_, hpos, hlt, ?_, ?_⟩
  · intro p hp0 hp1
    obtain ⟨x, rfl⟩ := hsurj p hp0 hp1
    show F (sInf {y | F x ≤ F y}) = F x
    rw [hinv]
  · intro x
    exact hinv x
  · intro p q hp0 hpq hq1
    obtain ⟨x, rfl⟩ := hsurj p hp0 (hpq.trans hq1)
    obtain ⟨y, rfl⟩ := hsurj q (hp0.trans hpq) hq1
    show sInf {z | F x ≤ F z} < sInf {z | F y ≤ F z}
    rw [hinv, hinv]
    exact hm.lt_iff_lt.mp hpq
  · intro p hp0 hp1
    obtain ⟨x, rfl⟩ := hsurj p hp0 hp1
    show sInf {z | 1 - F x ≤ F z} = -sInf {z | F x ≤ F z}
    rw [← hs, hinv, hinv]

theorem normalPdf_eq (x : ℝ) : normalPdf x = gaussianPDFReal 0 1 x := by
  unfold normalPdf gaussianPDFReal
  simp only [NNReal.coe_one, mul_one, sub_zero]
  rw [div_eq_inv_mul]

theorem normal_cdf_eq (x : ℝ) : ∫ t in Set.Iic x, normalPdf t = (gaussianReal 0 1).real (Set.Iic x) := by
  have h : (1 : NNReal) ≠ 0 := one_ne_zero
  rw [measureReal_def, gaussianReal_apply_eq_integral 0 h, ENNReal.toReal_ofReal]
  · simp only [normalPdf_eq]
  · exact setIntegral_nonneg measurableSet_Iic fun t _ => gaussianPDFReal_nonneg 0 1 t

/-- **C58.** The standard normal distribution, defined by its density, is a symmetric base distribution: its quantile
function is strictly increasing and odd around 1/2, and its distribution function inverts it on both sides. -/
theorem C58_normal : SymmetricBase normalBase := by
  have hv : (1 : NNReal) ≠ 0 := one_ne_zero
  have hF : ∀ x, ∫ t in Set.Iic x, normalPdf t = cdf (gaussianReal 0 1) x := by
    intro x; rw [normal_cdf_eq, cdf_eq_real]
  have : NullSingletonClass (gaussianReal 0 1) := nullSingletonClass_gaussianReal hv
  have hgap : ∀ x y, x < y → (gaussianReal 0 1).real (Set.Iic x) < (gaussianReal 0 1).real (Set.Iic y) := by
    intro x y hxy
    have hu : Set.Iic y = Set.Iic x ∪ Set.Ioc x y := (Set.Iic_union_Ioc_eq_Iic hxy.le).symm
    have hd : Disjoint (Set.Iic x) (Set.Ioc x y) := Set.Iic_disjoint_Ioc le_rfl
    rw [hu, measureReal_union hd measurableSet_Ioc]
    have hne : (gaussianReal 0 1) (Set.Ioc x y) ≠ 0 := by
      intro h
      have := gaussianReal_absolutelyContinuous' 0 hv h
      rw [Real.volume_Ioc] at this
      simp at this
      linarith
    have hp : 0 < (gaussianReal 0 1).real (Set.Ioc x y) := by
      rw [measureReal_def]
      exact ENNReal.toReal_pos hne (measure_ne_top _ _)
    linarith
  refine symmetricBase_of_cdf _ ?_ ?_ ?_ ?_ ?_
  · -- continuity
    have hi : Integrable normalPdf := by
      have : normalPdf = gaussianPDFReal 0 1 := funext normalPdf_eq
      rw [this]; exact integrable_gaussianPDFReal 0 1
    have e : ∀ x, ∫ t in Set.Iic x, normalPdf t = (∫ t in Set.Iic (0 : ℝ), normalPdf t) + ∫ t in (0 : ℝ)..x, normalPdf t := by
      intro x
      have := intervalIntegral.integral_Iic_sub_Iic (μ := volume) (f := normalPdf) (a := 0) (b := x) hi.integrableOn hi.integrableOn
      linarith
    have e' : (fun x => ∫ t in Set.Iic x, normalPdf t) = fun x => (∫ t in Set.Iic (0 : ℝ), normalPdf t) + ∫ t in (0 : ℝ)..x, normalPdf t := funext e
    rw [e']
    exact continuous_const.add (intervalIntegral.continuous_primitive (fun a b => hi.intervalIntegrable) 0)
  · intro x y hxy
    show ∫ t in Set.Iic x, normalPdf t < ∫ t in Set.Iic y, normalPdf t
    rw [normal_cdf_eq, normal_cdf_eq]
    exact hgap x y hxy
  · simp only [hF]; exact tendsto_cdf_atBot _
  · simp only [hF]; exact tendsto_cdf_atTop _
  · intro x
    simp only [normal_cdf_eq]
    have hmap : (gaussianReal 0 1).map (fun x : ℝ => -x) = gaussianReal 0 1 := by
      rw [gaussianReal_map_neg, neg_zero]
    have h1 : (gaussianReal 0 1) (Set.Iic (-x)) = (gaussianReal 0 1) (Set.Ici x) := by
      conv_lhs => rw [← hmap]
      rw [Measure.map_apply measurable_neg measurableSet_Iic]
      congr 1
      ext t; simp
    have h2 : (gaussianReal 0 1).real (Set.Ici x) = (gaussianReal 0 1).real (Set.Ioi x) := by
      rw [measureReal_def, measureReal_def, measure_congr Ioi_ae_eq_Ici]
    rw [measureReal_def, h1, ← measureReal_def, h2, ← Set.compl_Iic, probReal_compl_eq_one_sub measurableSet_Iic]

/-- Each accepted name of a version stands for a symmetric base distribution. -/
theorem C58_versions (version : String) (phi : Base) (h : selectPhi normalBase version = some phi) : SymmetricBase phi := by
  unfold selectPhi at h
  split_ifs at h
  · cases h; exact C58_normal
  · cases h; exact C58_logistic

/-- The same for the extended classes, with every shape. -/
theorem C58_versions_extended (version : String) (shape : ℝ) (phi : Base)
    (h : selectPhiExt normalBase version shape = some phi) : SymmetricBase phi :=
  C40_versions normalBase C58_normal version shape phi h

/-- The median of the standard normal distribution is 0, half of the probability lies below it. -/
theorem C58_normal_median : normalBase.cdf 0 = 1 / 2 ∧ normalBase.ppf (1 / 2) = 0 := by
  have h := C58_normal.symm (1 / 2) (by norm_num) (by norm_num)
  have h0 : normalBase.ppf (1 / 2) = 0 := by
    rw [show (1 : ℝ) - 1 / 2 = 1 / 2 by norm_num] at h; linarith
  exact ⟨by rw [← h0]; exact C58_normal.cdf_ppf _ (by norm_num) (by norm_num), h0⟩

end CB
