import Mathlib.Analysis.InnerProductSpace.PiL2
import Mathlib.Topology.Algebra.Module.FiniteDimension
import Mathlib.Topology.MetricSpace.HausdorffDistance
import Mathlib.RingTheory.RootsOfUnity.Complex
import Mathlib.Algebra.Field.GeomSum

/-!
# Least squares: existence and uniqueness of the fitted values; sums of sines and cosines over a period
-/

set_option autoImplicit false

namespace CB
open Finset

/-- There are coefficients with the smallest squared error. -/
theorem exists_leastSquares (n k : ℕ) (φ : Fin k → Fin n → ℝ) (t : Fin n → ℝ) :
    ∃ p : Fin k → ℝ, ∀ q : Fin k → ℝ, ∑ i, (∑ j, p j * φ j i - t i) ^ 2 ≤ ∑ i, (∑ j, q j * φ j i - t i) ^ 2 := by
  let L : (Fin k → ℝ) →ₗ[ℝ] EuclideanSpace ℝ (Fin n) :=
    { toFun := fun p => WithLp.toLp 2 fun i => ∑ j, p j * φ j i
      map_add' := fun p q => by ext i; simp [add_mul, sum_add_distrib]
      map_smul' := fun c p => by ext i; simp [mul_sum, mul_assoc] }
  let T : EuclideanSpace ℝ (Fin n) := WithLp.toLp 2 t
  have hcl : IsClosed (LinearMap.range L : Set (EuclideanSpace ℝ (Fin n))) := Submodule.closed_of_finiteDimensional _
  obtain ⟨z, ⟨p, rfl⟩, hz⟩ := hcl.exists_infDist_eq_dist ⟨L 0, 0, rfl⟩ T
  have hd : ∀ q, dist T (L q) ^ 2 = ∑ i, (∑ j, q j * φ j i - t i) ^ 2 := by
    intro q
    rw [EuclideanSpace.dist_eq, Real.sq_sqrt (sum_nonneg fun i _ => sq_nonneg _)]
    refine sum_congr rfl fun i _ => ?_
    rw [Real.dist_eq, sq_abs]
    show (t i - ∑ j, q j * φ j i) ^ 2 = _
    ring
  refine ⟨p, fun q => ?_⟩
  rw [← hd, ← hd]
  have h1 : dist T (L p) ≤ dist T (L q) := by
    rw [← hz]
    exact Metric.infDist_le_dist_of_mem ⟨q, rfl⟩
  exact pow_le_pow_left₀ dist_nonneg h1 2

/-- Two curves of a set that is closed under taking the middle, both with the smallest squared error, agree at all points. -/
theorem leastSquares_unique {n : ℕ} {w g h v : ℕ → ℝ} (hw : ∀ j < n, 0 < w j)
    (hg : ∑ j ∈ range n, (w j * (g j - v j)) ^ 2 ≤ ∑ j ∈ range n, (w j * ((g j + h j) / 2 - v j)) ^ 2)
    (hh : ∑ j ∈ range n, (w j * (h j - v j)) ^ 2 ≤ ∑ j ∈ range n, (w j * ((g j + h j) / 2 - v j)) ^ 2) (j : ℕ) (hj : j < n) :
    g j = h j := by
  have e : ∑ j ∈ range n, (w j * ((g j + h j) / 2 - v j)) ^ 2
      = (∑ j ∈ range n, (w j * (g j - v j)) ^ 2 + ∑ j ∈ range n, (w j * (h j - v j)) ^ 2) / 2
        - ∑ j ∈ range n, (w j * (g j - h j) / 2) ^ 2 := by
    rw [← sum_add_distrib, sum_div, ← sum_sub_distrib]
    exact sum_congr rfl fun i _ => by ring
  have h0 : ∑ j ∈ range n, (w j * (g j - h j) / 2) ^ 2 ≤ 0 := by linarith
  have h1 := (sum_eq_zero_iff_of_nonneg fun i _ => sq_nonneg (w i * (g i - h i) / 2)).mp
    (le_antisymm h0 (sum_nonneg fun i _ => sq_nonneg _)) j (mem_range.mpr hj)
  have h2 := pow_eq_zero_iff (two_ne_zero) |>.mp h1
  have h3 : w j * (g j - h j) = 0 := by linarith
  rcases mul_eq_zero.mp h3 with h3 | h3
  · exact absurd h3 (hw j hj).ne'
  · linarith

/-- The cosines and the sines of the multiples of `2 π m / n` add up to zero over a period. -/
theorem sum_trig (n m : ℕ) (hm : 0 < m) (hmn : m < n) :
    ∑ j ∈ range n, Real.cos (m * (2 * Real.pi * j / n)) = 0 ∧ ∑ j ∈ range n, Real.sin (m * (2 * Real.pi * j / n)) = 0 := by
  have hn : n ≠ 0 := by omega
  have hn' : (n : ℂ) ≠ 0 := Nat.cast_ne_zero.mpr hn
  have hζ := Complex.isPrimitiveRoot_exp n hn
  set ζ := Complex.exp (2 * Real.pi * Complex.I / n) with hζd
  have h1 : ζ ^ m ≠ 1 := fun h => by
    have := Nat.le_of_dvd hm (hζ.dvd_of_pow_eq_one m h)
    omega
  have h2 : ∑ j ∈ range n, (ζ ^ m) ^ j = 0 := by
    rw [geom_sum_eq h1, ← pow_mul, mul_comm m n, pow_mul, hζ.pow_eq_one, one_pow, sub_self, zero_div]
  have h3 : ∀ j : ℕ, (ζ ^ m) ^ j = Complex.exp (((m * (2 * Real.pi * j / n) : ℝ) : ℂ) * Complex.I) := by
    intro j
    rw [hζd, ← pow_mul, ← Complex.exp_nat_mul]
    congr 1
    push_cast
    field_simp
  simp only [h3] at h2
  constructor
  · have := congrArg Complex.re h2
    rw [Complex.re_sum] at this
    simpa only [Complex.exp_ofReal_mul_I_re, Complex.zero_re] using this
  · have := congrArg Complex.im h2
    rw [Complex.im_sum] at this
    simpa only [Complex.exp_ofReal_mul_I_im, Complex.zero_im] using this

end CB
