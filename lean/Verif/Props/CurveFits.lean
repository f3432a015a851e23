import Verif.Props.Seasonal
import Verif.Props.LinearFeature

/-!
# C105, C106: polynomial, linear and Lasso smoothing

`PolynomialSmoother` and `LinearSmoother` give the best polynomial, but with one over the fourth power of the uncertainties as
weights. `SeasonalLassoSmoother` gives a wave whose period is the number of the last bin.
-/

set_option autoImplicit false
set_option linter.unusedSectionVars false

namespace CB
open Finset Spec

/-! ### Polynomials -/

/-- The coefficients of a polynomial as a list, highest power first. -/
def polyList (degree : ℕ) (c : ℕ → ℝ) : List ℝ := (List.range (degree + 1)).map fun i => c (degree - i)

theorem polyList_length (degree : ℕ) (c : ℕ → ℝ) : (polyList degree c).length = degree + 1 := by simp [polyList]

theorem polyval_append (l : List ℝ) (a x : ℝ) : polyval (l ++ [a]) x = polyval l x * x + a := by
  unfold polyval
  rw [List.foldl_append]
  rfl

/-- Horner's scheme gives the polynomial. -/
theorem polyval_eq (degree : ℕ) (l : List ℝ) (hl : l.length = degree + 1) (x : ℝ) :
    polyval l x = polynomialCurve degree (fun k => l.getD (degree - k) 0) x := by
  unfold polynomialCurve
  induction degree generalizing l with
  | zero =>
    obtain ⟨a, rfl⟩ := List.length_eq_one_iff.mp hl
    simp [polyval]
  | succ d ih =>
    have hne : l ≠ [] := fun h => by simp [h] at hl
    have hsplit := List.dropLast_append_getLast hne
    have hlen : l.dropLast.length = d + 1 := by rw [List.length_dropLast, hl]; omega
    rw [← hsplit, polyval_append, ih _ hlen, sum_range_succ' _ (d + 1), sum_mul]
    congr 1
    · refine sum_congr rfl fun k hk => ?_
      have hk := mem_range.mp hk
      dsimp only
      rw [List.getD_append _ _ _ _ (by rw [hlen]; omega), show d + 1 - (k + 1) = d - k by omega, pow_succ]
      ring
    · dsimp only
      rw [List.getD_append_right _ _ _ _ (by rw [hlen]; omega), hlen]
      simp

theorem polyval_polyList (degree : ℕ) (c : ℕ → ℝ) (x : ℝ) : polyval (polyList degree c) x = polynomialCurve degree c x := by
  rw [polyval_eq degree _ (polyList_length degree c)]
  unfold polynomialCurve polyList
  refine sum_congr rfl fun k hk => ?_
  have hk := mem_range.mp hk
  dsimp only
  rw [List.getD_eq_getElem?_getD, List.getElem?_map, List.getElem?_range (by omega)]
  simp only [Option.map_some, Option.getD_some]
  rw [show degree - (degree - k) = k by omega]

section
variable (polyfit : PolyFit) (hpf : IsPolyFit polyfit) (n : ℕ) (w u v : ℕ → ℝ)

theorem polyPoints_eq : polyPoints (smootherTable [n] w u) ((List.range n).map v)
    = (List.range n).map fun j : ℕ => ((j : ℝ), v j, 1 / (u j * u j)) := by
  have hlen : (smootherTable [n] w u).length = n := by rw [table_length, List.prod_singleton]
  unfold polyPoints
  rw [hlen]
  refine List.map_congr_left fun j hj => ?_
  have hj := List.mem_range.mp hj
  rw [table_x_column n w u j hj, table_unc_column [n] w u j (by simpa using hj), column_map_range n v j hj]

theorem polyPoints_sum (g : ℝ → ℝ) :
    (((List.range n).map fun j : ℕ => ((j : ℝ), v j, 1 / (u j * u j))).map fun d => (d.2.2 * (g d.1 - d.2.1)) ^ 2).sum
      = fourthPowerError n v u fun j => g j := by
  unfold fourthPowerError
  rw [List.map_map]
  show ∑ j ∈ range n, (1 / (u j * u j) * (g j - v j)) ^ 2 = _
  refine sum_congr rfl fun j _ => ?_
  rw [mul_pow, div_pow, one_pow, one_div, div_eq_inv_mul, show (u j * u j) ^ 2 = u j ^ 4 by ring]

include hpf in
theorem polyfit_best (hn : 0 < n) (k : ℕ) : ∃ c : ℕ → ℝ,
    (∀ x, polyval (polyfit k (polyPoints (smootherTable [n] w u) ((List.range n).map v))) x = polynomialCurve k c x) ∧
    (∀ i, c i = (polyfit k (polyPoints (smootherTable [n] w u) ((List.range n).map v))).getD (k - i) 0) ∧
    ∀ c', fourthPowerError n v u (fun j => polynomialCurve k c j) ≤ fourthPowerError n v u fun j => polynomialCurve k c' j := by
  have hne : ((List.range n).map fun j : ℕ => ((j : ℝ), v j, 1 / (u j * u j))) ≠ [] := by
    intro h
    have := congrArg List.length h
    simp at this
    omega
  rw [polyPoints_eq]
  have hv := fun x => polyval_eq k _ (hpf.length k _ hne) x
  refine ⟨_, hv, fun _ => rfl, fun c' => ?_⟩
  have h := hpf.best k _ (polyList k c') hne (polyList_length k c')
  rw [polyPoints_sum, polyPoints_sum] at h
  simpa only [hv, polyval_polyList] using h

include hpf in
/-- **C105.** `PolynomialSmoother` predicts a polynomial of its degree, inside and outside the range of the bins, and no other
polynomial of the degree has a smaller squared error on the bins. But the weight of a bin is one over the fourth power of its
uncertainty. -/
theorem C105_best (hn : 0 < n) (k : ℕ) : ∃ c : ℕ → ℝ,
    (∀ x : ℝ, (polynomialSmoother polyfit k).after (smootherTable [n] w u) ((List.range n).map v) [[.fin x]]
      = [.fin (polynomialCurve k c x)]) ∧
    ∀ c', fourthPowerError n v u (fun j => polynomialCurve k c j) ≤ fourthPowerError n v u fun j => polynomialCurve k c' j := by
  obtain ⟨c, h1, -, h2⟩ := polyfit_best polyfit hpf n w u v hn k
  exact ⟨c, fun x => by rw [← h1]; rfl, h2⟩

/-- **C105.** Missing values get no value from the polynomial. -/
theorem C105_missing (k : ℕ) (fallback : Bool) :
    (polynomialSmoother polyfit k).after (smootherTable [n] w u) ((List.range n).map v) [[.nan]] = [.nan] ∧
    (linearSmoother polyfit fallback).after (smootherTable [n] w u) ((List.range n).map v) [[.nan]] = [.nan] := ⟨rfl, rfl⟩

include hpf in
/-- **C105.** Bin values that lie on a polynomial of the degree are not changed. -/
theorem C105_exact (hu : ∀ j < n, u j ≠ 0) (k : ℕ) (c : ℕ → ℝ) (hv : ∀ j < n, v j = polynomialCurve k c j) (j : ℕ) (hj : j < n) :
    (polynomialSmoother polyfit k).after (smootherTable [n] w u) ((List.range n).map v) [[.fin (j : ℝ)]] = [.fin (v j)] := by
  obtain ⟨c', h1, h2⟩ := C105_best polyfit hpf n w u v (by omega) k
  have h0 : fourthPowerError n v u (fun j => polynomialCurve k c j) = 0 :=
    sum_eq_zero fun i hi => by rw [hv i (mem_range.mp hi), sub_self]; simp
  have h3 := h2 c
  rw [h0] at h3
  have hnn : ∀ i ∈ range n, 0 ≤ (polynomialCurve k c' i - v i) ^ 2 / u i ^ 4 := fun i _ =>
    div_nonneg (sq_nonneg _) (by positivity)
  have h4 := (sum_eq_zero_iff_of_nonneg hnn).mp (le_antisymm h3 (sum_nonneg hnn)) j (mem_range.mpr hj)
  rcases div_eq_zero_iff.mp h4 with h5 | h5
  · have := pow_eq_zero_iff two_ne_zero |>.mp h5
    rw [h1, show polynomialCurve k c' j = v j by linarith]
  · exact absurd (pow_eq_zero_iff (by norm_num) |>.mp h5) (hu j hj)

theorem polynomialCurve_one (c : ℕ → ℝ) (x : ℝ) : polynomialCurve 1 c x = c 0 + c 1 * x := by
  simp [polynomialCurve, sum_range_succ]

theorem polynomialCurve_zero (c : ℕ → ℝ) (x : ℝ) : polynomialCurve 0 c x = c 0 := by simp [polynomialCurve]

include hpf in
/-- **C105.** `LinearSmoother` with at least two bins predicts the line with the smallest such error. -/
theorem C105_line (hn : 2 ≤ n) : ∃ a s : ℝ,
    (∀ x : ℝ, (linearSmoother polyfit false).after (smootherTable [n] w u) ((List.range n).map v) [[.fin x]] = [.fin (a + s * x)]) ∧
    ∀ a' s', fourthPowerError n v u (fun j => a + s * j) ≤ fourthPowerError n v u fun j => a' + s' * j := by
  have hlen : (smootherTable [n] w u).length = n := by rw [table_length, List.prod_singleton]
  obtain ⟨c, h1, -, h2⟩ := polyfit_best polyfit hpf n w u v (by omega) 1
  refine ⟨c 0, c 1, fun x => ?_, fun a' s' => ?_⟩
  · rw [← polynomialCurve_one, ← h1]
    simp [Smoother.after, linearSmoother, polyPredict, hlen, show ¬ n ≤ 1 by omega]
  · have := h2 fun i => if i = 0 then a' else s'
    simpa [polynomialCurve_one] using this

/-- The error is convex. -/
theorem fourthPowerError_convex (f g : ℕ → ℝ) (t : ℝ) (h0 : 0 ≤ t) (h1 : t ≤ 1) :
    fourthPowerError n v u (fun j => t * f j + (1 - t) * g j)
      ≤ t * fourthPowerError n v u f + (1 - t) * fourthPowerError n v u g := by
  unfold fourthPowerError
  rw [mul_sum, mul_sum, ← sum_add_distrib]
  refine sum_le_sum fun j _ => ?_
  rw [← mul_div_assoc, ← mul_div_assoc, ← add_div]
  refine div_le_div_of_nonneg_right ?_ (by positivity)
  nlinarith [mul_nonneg (mul_nonneg h0 (sub_nonneg.mpr h1)) (sq_nonneg (f j - g j))]

include hpf in
/-- **C105.** With `fallback_when_negative_slope` it is the best of the lines that do not fall, even though only a constant is fitted
again; so the smoothed values never decrease. -/
theorem C105_increasing (hn : 2 ≤ n) : ∃ a s : ℝ, 0 ≤ s ∧
    (∀ x : ℝ, (linearSmoother polyfit true).after (smootherTable [n] w u) ((List.range n).map v) [[.fin x]] = [.fin (a + s * x)]) ∧
    ∀ a' s', 0 ≤ s' → fourthPowerError n v u (fun j => a + s * j) ≤ fourthPowerError n v u fun j => a' + s' * j := by
  have hlen : (smootherTable [n] w u).length = n := by rw [table_length, List.prod_singleton]
  obtain ⟨c, h1, hc, h2⟩ := polyfit_best polyfit hpf n w u v (by omega) 1
  obtain ⟨d, g1, -, g2⟩ := polyfit_best polyfit hpf n w u v (by omega) 0
  have h2' : ∀ a' s', fourthPowerError n v u (fun j => c 0 + c 1 * j) ≤ fourthPowerError n v u fun j => a' + s' * j := by
    intro a' s'
    have := h2 fun i => if i = 0 then a' else s'
    simpa [polynomialCurve_one] using this
  have g2' : ∀ a', fourthPowerError n v u (fun _ => d 0) ≤ fourthPowerError n v u fun _ => a' := by
    intro a'
    have := g2 fun _ => a'
    simpa [polynomialCurve_zero] using this
  have hslope := hc 1
  rw [Nat.sub_self] at hslope
  by_cases hneg : c 1 < 0
  · refine ⟨d 0, 0, le_rfl, fun x => ?_, fun a' s' hs' => ?_⟩
    · rw [zero_mul, add_zero, ← polynomialCurve_zero d x, ← g1]
      rw [hslope] at hneg
      simp only [Smoother.after, linearSmoother, polyPredict, hlen, if_neg (show ¬ n ≤ 1 by omega), true_and, if_pos hneg,
        List.map_cons, List.map_nil, List.headD_cons]
    · have hd : 0 < s' - c 1 := by linarith
      have ht0 : 0 ≤ s' / (s' - c 1) := div_nonneg hs' hd.le
      have ht1 : s' / (s' - c 1) ≤ 1 := (div_le_one hd).mpr (by linarith)
      have hconv := fourthPowerError_convex n u v (fun j => c 0 + c 1 * j) (fun j => a' + s' * j) _ ht0 ht1
      have hflat : (fun j : ℕ => s' / (s' - c 1) * (c 0 + c 1 * j) + (1 - s' / (s' - c 1)) * (a' + s' * j))
          = fun _ => s' / (s' - c 1) * c 0 + (1 - s' / (s' - c 1)) * a' := by
        funext j
        field_simp
        ring
      rw [hflat] at hconv
      have hb := g2' (s' / (s' - c 1) * c 0 + (1 - s' / (s' - c 1)) * a')
      have hbest := h2' a' s'
      have h5 := mul_le_mul_of_nonneg_left hbest ht0
      simp only [zero_mul, add_zero]
      linarith
  · refine ⟨c 0, c 1, not_lt.mp hneg, fun x => ?_, fun a' s' _ => h2' a' s'⟩
    rw [← polynomialCurve_one, ← h1]
    rw [hslope] at hneg
    simp only [Smoother.after, linearSmoother, polyPredict, hlen, if_neg (show ¬ n ≤ 1 by omega), true_and, if_neg hneg,
      List.map_cons, List.map_nil, List.headD_cons]

include hpf in
/-- **C105.** A single bin keeps its value, and every position gets it. -/
theorem C105_single (hu : u 0 ≠ 0) (fallback : Bool) (x : ℝ) :
    (linearSmoother polyfit fallback).after (smootherTable [1] w u) ((List.range 1).map v) [[.fin x]] = [.fin (v 0)] := by
  have hlen : (smootherTable [1] w u).length = 1 := by rw [table_length, List.prod_singleton]
  obtain ⟨d, g1, -, g2⟩ := polyfit_best polyfit hpf 1 w u v (by omega) 0
  have h := g2 fun _ => v 0
  simp only [fourthPowerError, sum_range_one, polynomialCurve_zero, sub_self, ne_eq, OfNat.ofNat_ne_zero, not_false_eq_true,
    zero_pow, zero_div] at h
  have h4 : (0 : ℝ) < u 0 ^ 4 := by positivity
  have h5 : (d 0 - v 0) ^ 2 ≤ 0 := by
    by_contra hc
    exact absurd h (not_le.mpr (div_pos (not_le.mp hc) h4))
  have h6 : d 0 = v 0 := by
    have := pow_eq_zero_iff two_ne_zero |>.mp (le_antisymm h5 (sq_nonneg _))
    linarith
  have h7 : ∀ x, polyval (polyfit 0 (polyPoints (smootherTable [1] w u) ((List.range 1).map v))) x = v 0 := fun x => by
    rw [g1, polynomialCurve_zero, h6]
  simp only [Smoother.after, linearSmoother, polyPredict, hlen, le_refl, if_true, ite_self, List.map_cons, List.map_nil,
    List.headD_cons, h7]

end

/-- A fit that satisfies what is assumed of `polyfit` exists. -/
theorem exists_isPolyFit : ∃ polyfit, IsPolyFit polyfit := by
  have key : ∀ degree (data : List (ℝ × ℝ × ℝ)), ∃ p : List ℝ, p.length = degree + 1 ∧ ∀ q : List ℝ, q.length = degree + 1 →
      (data.map fun d => (d.2.2 * (polyval p d.1 - d.2.1)) ^ 2).sum
        ≤ (data.map fun d => (d.2.2 * (polyval q d.1 - d.2.1)) ^ 2).sum := by
    intro degree data
    obtain ⟨p, hp⟩ := exists_leastSquares data.length (degree + 1)
      (fun k i => data[i].2.2 * data[i].1 ^ (k : ℕ)) (fun i => data[i].2.2 * data[i].2.1)
    have e : ∀ c : ℕ → ℝ, (data.map fun d => (d.2.2 * (polynomialCurve degree c d.1 - d.2.1)) ^ 2).sum
        = ∑ i : Fin data.length, (∑ k : Fin (degree + 1), c k * (data[i].2.2 * data[i].1 ^ (k : ℕ))
          - data[i].2.2 * data[i].2.1) ^ 2 := by
      intro c
      rw [list_sum_fin]
      refine sum_congr rfl fun i _ => ?_
      unfold polynomialCurve
      rw [mul_sub, mul_sum, ← Fin.sum_univ_eq_sum_range fun k => data[i].2.2 * (c k * data[i].1 ^ k)]
      congr 2
      exact sum_congr rfl fun k _ => by ring
    refine ⟨polyList degree fun k => if h : k < degree + 1 then p ⟨k, h⟩ else 0, polyList_length _ _, fun q hq => ?_⟩
    simp only [polyval_polyList, polyval_eq degree q hq]
    rw [e, e]
    simp only [Fin.is_lt, dif_pos, Fin.eta]
    exact hp fun k => q.getD (degree - k) 0
  classical
  exact ⟨fun degree data => Classical.choose (key degree data), ⟨fun degree data _ => (Classical.choose_spec (key degree data)).1,
    fun degree data q _ hq => (Classical.choose_spec (key degree data)).2 q hq⟩⟩

/-- **C105 fails with the usual weights.** Two bins with the values 0 and 1 and the uncertainties 1 and 2: the constant closest to
them in units of the uncertainties is 1/5, but the smoothed value is 1/17. -/
theorem C105_not_usual_weights (polyfit : PolyFit) (hpf : IsPolyFit polyfit) (w : ℕ → ℝ) (x : ℝ) :
    (polynomialSmoother polyfit 0).after (smootherTable [2] w fun j => (j : ℝ) + 1) ((List.range 2).map fun j : ℕ => (j : ℝ)) [[.fin x]]
        = [.fin (1 / 17)] ∧
      chiSquare 2 (fun j => (j : ℝ)) (fun j => (j : ℝ) + 1) (fun _ => 1 / 5)
        < chiSquare 2 (fun j => (j : ℝ)) (fun j => (j : ℝ) + 1) fun _ => 1 / 17 := by
  constructor
  · obtain ⟨c, h1, h2⟩ := C105_best polyfit hpf 2 w (fun j => (j : ℝ) + 1) (fun j => (j : ℝ)) (by omega) 0
    have h := h2 fun _ => 1 / 17
    simp only [fourthPowerError, polynomialCurve_zero, sum_range_succ, sum_range_zero] at h
    norm_num at h
    have : c 0 = 1 / 17 := by nlinarith [sq_nonneg (c 0 - 1 / 17)]
    rw [h1, polynomialCurve_zero, this]
  · simp only [chiSquare, sum_range_succ, sum_range_zero]
    norm_num

/-- Witness for C105: falling values 2, 1 with uncertainties 1; the line through them, and its replacement by their mean. -/
example : ∃ polyfit, IsPolyFit polyfit ∧ ∀ (w : ℕ → ℝ),
    (linearSmoother polyfit false).after (smootherTable [2] w fun _ => 1) ((List.range 2).map fun j : ℕ => 2 - (j : ℝ)) [[.fin 3]]
        = [.fin (-1)] ∧
    (linearSmoother polyfit true).after (smootherTable [2] w fun _ => 1) ((List.range 2).map fun j : ℕ => 2 - (j : ℝ)) [[.fin 3]]
        = [.fin (3 / 2)] := by
  obtain ⟨polyfit, hpf⟩ := exists_isPolyFit
  refine ⟨polyfit, hpf, fun w => ⟨?_, ?_⟩⟩
  · obtain ⟨a, s, h1, h2⟩ := C105_line polyfit hpf 2 w (fun _ => 1) (fun j => 2 - (j : ℝ)) le_rfl
    have h := h2 2 (-1)
    simp only [fourthPowerError, sum_range_succ, sum_range_zero] at h
    norm_num at h
    have ha : a = 2 := by nlinarith [sq_nonneg (a - 2), sq_nonneg (a + s - 1)]
    have hs : s = -1 := by subst ha; nlinarith [sq_nonneg (2 + s - 1)]
    rw [h1, ha, hs]
    norm_num
  · obtain ⟨a, s, h0, h1, h2⟩ := C105_increasing polyfit hpf 2 w (fun _ => 1) (fun j => 2 - (j : ℝ)) le_rfl
    have h := h2 (3 / 2) 0 le_rfl
    simp only [fourthPowerError, sum_range_succ, sum_range_zero] at h
    norm_num at h
    have hs : s = 0 := by nlinarith [sq_nonneg (a - 3 / 2), sq_nonneg (a + s / 2 - 3 / 2)]
    have ha : a = 3 / 2 := by subst hs; nlinarith [sq_nonneg (a - 3 / 2)]
    rw [h1, ha, hs]
    norm_num

/-- **C105.** `LSQUnivariateSpline` refuses exactly the degrees above five and those for which there are not more bins than the
degree. -/
theorem C105_spline {σ : Type*} (spline : List ℝ → ℕ → List (ℝ × ℝ × ℝ) → σ) (knots : List ℝ) (degree n : ℕ) (w u v : ℕ → ℝ) :
    (∃ s, lsqSplineFit spline knots degree (smootherTable [n] w u) ((List.range n).map v) = .ok s) ↔ degree ≤ 5 ∧ degree < n := by
  have hlen : (smootherTable [n] w u).length = n := by rw [table_length, List.prod_singleton]
  unfold lsqSplineFit
  rw [hlen]
  by_cases h : degree ≤ 5 ∧ degree < n
  · simp [if_pos h, h]
  · simp [if_neg h, h]

/-! ### The Lasso fit -/

section
variable (lasso : List (List ℝ) → List ℝ → List ℝ) (minDays n : ℕ) (w u v : ℕ → ℝ)

theorem table_zip : (smootherTable [n] w u).zip ((List.range n).map v)
    = (List.range n).map fun j => ((⟨[j], w j, u j⟩ : FitRow ℝ), v j) := by
  refine List.ext_getElem? fun j => ?_
  by_cases hj : j < n
  · have h1 := smootherTable_getElem? [n] w u j (by simpa using hj)
    rw [digits_one n j hj] at h1
    have h2 : ((List.range n).map v)[j]? = some (v j) := by rw [List.getElem?_map, List.getElem?_range hj]; rfl
    have h3 : ((smootherTable [n] w u).zip ((List.range n).map v))[j]? = some ((⟨[j], w j, u j⟩ : FitRow ℝ), v j) :=
      List.getElem?_zip_eq_some.mpr ⟨h1, h2⟩
    rw [h3, List.getElem?_map, List.getElem?_range hj]
    rfl
  · rw [List.getElem?_eq_none (by simp; right; omega), List.getElem?_eq_none (by simp; omega)]

/-- What a fit on the bins `0, …, n - 1` uses: the positions and the values of the bins with weight. -/
theorem lasso_fit (hn : 0 < n) :
    (seasonalLassoSmoother lasso minDays).fit (smootherTable [n] w u) ((List.range n).map v)
      = ⟨((n - 1 : ℕ) : ℝ), if ((range n).filter fun j => 0 < w j).card < minDays then none
          else some (lasso (((List.range n).filter fun j => decide (0 < w j)).map fun j : ℕ => lassoColumns ((n - 1 : ℕ) : ℝ) j)
            (((List.range n).filter fun j => decide (0 < w j)).map v))⟩ := by
  have hlen : (smootherTable [n] w u).length = n := by rw [table_length, List.prod_singleton]
  unfold seasonalLassoSmoother
  dsimp only
  rw [List.getLast?_eq_getElem?, hlen, smootherTable_getElem? [n] w u (n - 1) (by simp; omega), digits_one n (n - 1) (by omega),
    table_zip, List.filter_map, List.length_map, List.map_map, List.map_map]
  rfl

theorem lasso_maxBin (hn : 0 < n) :
    ((seasonalLassoSmoother lasso minDays).fit (smootherTable [n] w u) ((List.range n).map v)).maxBin = ((n - 1 : ℕ) : ℝ) := by
  rw [lasso_fit lasso minDays n w u v hn]

/-- **C106.** `SeasonalLassoSmoother` predicts a wave around zero with the number of the last bin as period (or zero
everywhere). -/
theorem C106_wave (hn : 0 < n) : ∃ A B : ℝ, ∀ x : ℝ,
    (seasonalLassoSmoother lasso minDays).after (smootherTable [n] w u) ((List.range n).map v) [[.fin x]]
      = [.fin (A * Real.sin (2 * Real.pi * x / (n - 1 : ℕ)) + B * Real.cos (2 * Real.pi * x / (n - 1 : ℕ)))] := by
  have hm := lasso_maxBin lasso minDays n w u v hn
  unfold Smoother.after
  set st := (seasonalLassoSmoother lasso minDays).fit (smootherTable [n] w u) ((List.range n).map v)
  cases hc : st.coef with
  | none =>
    refine ⟨0, 0, fun x => ?_⟩
    simp [seasonalLassoSmoother, hc]
  | some coef =>
    refine ⟨coef.getD 0 0 - coef.getD 2 0, coef.getD 1 0 - coef.getD 3 0, fun x => ?_⟩
    simp only [seasonalLassoSmoother, hc, List.map_cons, List.map_nil, List.headD_cons, hm, lassoColumns, List.cons.injEq,
      Flt.fin.injEq, and_true]
    rcases coef with _ | ⟨a, _ | ⟨b, _ | ⟨c, _ | ⟨d, l⟩⟩⟩⟩ <;> simp <;> ring

/-- **C106.** So the first and the last bin always get the same value: they are taken to be the same time of the year. -/
theorem C106_ends (hn : 2 ≤ n) :
    (seasonalLassoSmoother lasso minDays).after (smootherTable [n] w u) ((List.range n).map v) [[.fin ((n - 1 : ℕ) : ℝ)]]
      = (seasonalLassoSmoother lasso minDays).after (smootherTable [n] w u) ((List.range n).map v) [[.fin 0]] := by
  obtain ⟨A, B, h⟩ := C106_wave lasso minDays n w u v (by omega)
  have hne : ((n - 1 : ℕ) : ℝ) ≠ 0 := Nat.cast_ne_zero.mpr (by omega)
  rw [h, h, mul_div_assoc, div_self hne]
  simp

/-- **C106.** The values of the bins up to the last but one have mean zero. -/
theorem C106_mean (hn : 3 ≤ n) : ∃ g : ℕ → ℝ, (∀ j : ℕ,
      (seasonalLassoSmoother lasso minDays).after (smootherTable [n] w u) ((List.range n).map v) [[.fin (j : ℝ)]] = [.fin (g j)]) ∧
    ∑ j ∈ range (n - 1), g j = 0 := by
  obtain ⟨A, B, h⟩ := C106_wave lasso minDays n w u v (by omega)
  refine ⟨_, fun j => h j, ?_⟩
  have h2 := sum_trig (n - 1) 1 (by omega) (by omega)
  simp only [Nat.cast_one, one_mul] at h2
  rw [sum_add_distrib, ← mul_sum, ← mul_sum, h2.1, h2.2]
  ring

/-- **C106.** With weight in fewer bins than `min_days`, all predictions are zero. -/
theorem C106_few (hn : 0 < n) (hd : ((range n).filter fun j => 0 < w j).card < minDays) (r : List (Flt ℝ)) :
    (seasonalLassoSmoother lasso minDays).after (smootherTable [n] w u) ((List.range n).map v) [r] = [.fin 0] := by
  unfold Smoother.after
  rw [lasso_fit lasso minDays n w u v hn, if_pos hd]
  rfl

/-- **C106.** The uncertainties play no role, and neither do the values of bins without weight. -/
theorem C106_used (hn : 0 < n) (u' v' : ℕ → ℝ) (hv : ∀ j < n, 0 < w j → v j = v' j) (rows : List (List (Flt ℝ))) :
    (seasonalLassoSmoother lasso minDays).after (smootherTable [n] w u) ((List.range n).map v) rows
      = (seasonalLassoSmoother lasso minDays).after (smootherTable [n] w u') ((List.range n).map v') rows := by
  unfold Smoother.after
  rw [lasso_fit lasso minDays n w u v hn, lasso_fit lasso minDays n w u' v' hn]
  have : ((List.range n).filter fun j => decide (0 < w j)).map v = ((List.range n).filter fun j => decide (0 < w j)).map v' := by
    refine List.map_congr_left fun j hj => ?_
    obtain ⟨h1, h2⟩ := List.mem_filter.mp hj
    exact hv j (List.mem_range.mp h1) (by simpa using h2)
  rw [this]

/-- **C106 fails for a year as long as the bins.** A wave with one turn for all bins, as `SeasonalSmoother` assumes, is never
reproduced, whatever the Lasso fit finds. -/
theorem C106_not_the_year (hn : 2 ≤ n) (hv : ∀ j < n, v j = Real.cos (2 * Real.pi * j / n)) : ∃ j < n,
    (seasonalLassoSmoother lasso minDays).after (smootherTable [n] w u) ((List.range n).map v) [[.fin (j : ℝ)]] ≠ [.fin (v j)] := by
  by_contra hcon
  push Not at hcon
  have h0 := hcon 0 (by omega)
  have h1 := hcon (n - 1) (by omega)
  rw [C106_ends lasso minDays n w u v hn, ← Nat.cast_zero, h0, hv 0 (by omega), hv (n - 1) (by omega)] at h1
  simp only [Nat.cast_zero, mul_zero, zero_div, Real.cos_zero, List.cons.injEq, Flt.fin.injEq, and_true] at h1
  have hnpos : (0 : ℝ) < n := Nat.cast_pos.mpr (by omega)
  have hlt : 2 * Real.pi * ((n - 1 : ℕ) : ℝ) / n < 2 * Real.pi := by
    rw [div_lt_iff₀ hnpos]
    refine mul_lt_mul_of_pos_left ?_ (by positivity)
    exact_mod_cast (by omega : n - 1 < n)
  have hpos : 0 < 2 * Real.pi * ((n - 1 : ℕ) : ℝ) / n := by
    have : (0 : ℝ) < ((n - 1 : ℕ) : ℝ) := Nat.cast_pos.mpr (by omega)
    positivity
  have := (Real.cos_eq_one_iff_of_lt_of_lt (by linarith [Real.pi_pos]) hlt).mp h1.symm
  exact hpos.ne' this

/-- Witness for C106: a Lasso fit that finds the coefficients 0, 2, 0, 1 for the four bins of a year with `min_days = 3`; bin 2 has
no weight. The smoothed values are those of the cosine with period 3. -/
example : (seasonalLassoSmoother (fun _ _ => [0, 2, 0, 1]) 3).after (smootherTable [4] (fun j => if j = 2 then 0 else 1) fun _ => 1)
      ((List.range 4).map fun _ => 7) [[.fin 0], [.fin 3], [.fin (3 / 2)]] = [.fin 1, .fin 1, .fin (-1)] ∧
    (seasonalLassoSmoother (fun _ _ => [0, 2, 0, 1]) 4).after (smootherTable [4] (fun j => if j = 2 then 0 else 1) fun _ => 1)
      ((List.range 4).map fun _ => 7) [[.fin 0]] = [.fin 0] := by
  have hcard : ((range 4).filter fun j : ℕ => (0 : ℝ) < if j = 2 then 0 else 1).card = 3 := by
    rw [show ((range 4).filter fun j : ℕ => (0 : ℝ) < if j = 2 then 0 else 1) = {0, 1, 3} by
      ext j
      simp only [mem_filter, mem_range, mem_insert, mem_singleton]
      by_cases h : j = 2
      · simp [h]
      · simp [h]; omega]
    rfl
  constructor
  · unfold Smoother.after
    rw [lasso_fit _ _ _ _ _ _ (by omega), hcard]
    have e : 2 * Real.pi * (3 / 2) / 3 = Real.pi := by ring
    have e3 : 2 * Real.pi * 3 / 3 = 2 * Real.pi := by ring
    simp [seasonalLassoSmoother, lassoColumns, e, e3]
    norm_num
  · exact C106_few _ _ _ _ _ _ (by omega) (by rw [hcard]; omega) _

end

end CB
