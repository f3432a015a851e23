import Verif.Lemmas.LeastSquares
import Verif.Spec.Curves
import Verif.Props.LinearFeature

/-!
# C104: seasonal smoothing

`SeasonalSmoother` continues with the period of the number of bins; its curve is the best one of its family; with `offset_tozero`
it is moved so that it has mean zero over the year; and a column declared IS_SEASONAL is smoothed this way.
-/

set_option autoImplicit false
set_option linter.unusedSectionVars false

namespace CB
open Finset Spec

/-! ### The fit functions -/

/-- The curve for a list of parameters. -/
noncomputable def listCurve (order : ℕ) (par : List ℝ) : ℝ → ℝ :=
  seasonalCurve order (par.getD 0 0) (fun k => par.getD (2 * k + 1) 0) (fun k => par.getD (2 * k + 2) 0)

theorem chooseFitFunction_spec (order : ℕ) (f : FitFunction) (h : chooseFitFunction order = .ok f) :
    (1 ≤ order ∧ order ≤ 3) ∧ f.parameters = 2 * order + 1 ∧ ∀ par x, f.value par x = listCurve order par x := by
  unfold chooseFitFunction at h
  unfold listCurve seasonalCurve
  split_ifs at h with h1 h2 h3
  · injection h with h
    subst h h1
    refine ⟨by omega, rfl, fun par x => ?_⟩
    simp [seasonalityFirst, sum_range_succ]
    ring
  · injection h with h
    subst h h2
    refine ⟨by omega, rfl, fun par x => ?_⟩
    simp [seasonalitySecond, sum_range_succ]
    norm_num
    ring
  · injection h with h
    subst h h3
    refine ⟨by omega, rfl, fun par x => ?_⟩
    simp [seasonalityThird, sum_range_succ]
    norm_num
    ring

/-- The parameters of a curve as a list. -/
noncomputable def curveList (order : ℕ) (c : ℝ) (a b : ℕ → ℝ) : List ℝ :=
  (List.range (2 * order + 1)).map fun i => if i = 0 then c else if i % 2 = 1 then a ((i - 1) / 2) else b ((i - 2) / 2)

theorem curveList_length (order : ℕ) (c : ℝ) (a b : ℕ → ℝ) : (curveList order c a b).length = 2 * order + 1 := by
  simp [curveList]

theorem curveList_getD (order : ℕ) (c : ℝ) (a b : ℕ → ℝ) (i : ℕ) (hi : i < 2 * order + 1) :
    (curveList order c a b).getD i 0 = if i = 0 then c else if i % 2 = 1 then a ((i - 1) / 2) else b ((i - 2) / 2) := by
  unfold curveList
  rw [List.getD_eq_getElem?_getD, List.getElem?_map, List.getElem?_range hi]
  rfl

theorem curveList_curve (order : ℕ) (c : ℝ) (a b : ℕ → ℝ) (x : ℝ) :
    listCurve order (curveList order c a b) x = seasonalCurve order c a b x := by
  unfold listCurve seasonalCurve
  rw [curveList_getD _ _ _ _ 0 (by omega), if_pos rfl]
  congr 1
  refine sum_congr rfl fun k hk => ?_
  have hk := mem_range.mp hk
  dsimp only
  rw [curveList_getD _ _ _ _ (2 * k + 1) (by omega), curveList_getD _ _ _ _ (2 * k + 2) (by omega), if_neg (by omega),
    if_pos (by omega), if_neg (by omega), if_neg (by omega), show (2 * k + 1 - 1) / 2 = k by omega,
    show (2 * k + 2 - 2) / 2 = k by omega]

/-- Seasonal curves over the angle repeat after a full turn. -/
theorem seasonalCurve_periodic (order : ℕ) (c : ℝ) (a b : ℕ → ℝ) (x : ℝ) :
    seasonalCurve order c a b (x + 2 * Real.pi) = seasonalCurve order c a b x := by
  unfold seasonalCurve
  congr 1
  refine sum_congr rfl fun k _ => ?_
  rw [mul_add, Real.sin_add_nat_mul_two_pi, Real.cos_add_nat_mul_two_pi]

/-- A seasonal curve has its constant as mean over the year. -/
theorem yearCurve_sum (n order : ℕ) (hn : order < n) (c : ℝ) (a b : ℕ → ℝ) :
    ∑ j ∈ range n, yearCurve n order c a b j = n * c := by
  unfold yearCurve seasonalCurve
  rw [sum_add_distrib, sum_const, card_range, nsmul_eq_mul, sum_comm]
  have : ∀ k ∈ range order, ∑ j ∈ range n, (a k * Real.sin ((k + 1 : ℕ) * (2 * Real.pi * j / n))
      + b k * Real.cos ((k + 1 : ℕ) * (2 * Real.pi * j / n))) = 0 := by
    intro k hk
    have h := sum_trig n (k + 1) (by omega) (by have := mem_range.mp hk; omega)
    rw [sum_add_distrib, ← mul_sum, ← mul_sum, h.1, h.2]
    ring
  rw [sum_eq_zero this, add_zero]

/-! ### The smoother -/

section
variable (curveFit : CurveFit) (order : ℕ) (f : FitFunction) (hf : chooseFitFunction order = .ok f) (offsetToZero : Bool)
  (fallback : ℝ)

include hf in
/-- **C104.** What lies a full year later gets the same value, however far outside the bins of the fit it is, and whatever the
fit has found. -/
theorem C104_periodic (X : List (FitRow ℝ)) (hX : X ≠ []) (y : List ℝ) (x : ℝ) :
    (seasonalSmoother curveFit f offsetToZero fallback).after X y [[.fin (x + X.length)]]
      = (seasonalSmoother curveFit f offsetToZero fallback).after X y [[.fin x]] := by
  have hn : (X.length : ℝ) ≠ 0 := Nat.cast_ne_zero.mpr fun h => hX (List.length_eq_zero_iff.mp h)
  have hs := (chooseFitFunction_spec order f hf).2.2
  unfold Smoother.after seasonalSmoother
  dsimp only
  simp only [List.map_cons, List.map_nil, List.headD_cons]
  split
  · rfl
  · rw [hs, hs]
    have : seasonalAngle (1 / (X.length : ℝ)) (x + X.length) = seasonalAngle (1 / (X.length : ℝ)) x + 2 * Real.pi := by
      unfold seasonalAngle
      field_simp
    rw [this]
    unfold listCurve
    rw [seasonalCurve_periodic]

include hf in
/-- **C104.** Only orders one to three exist. -/
theorem C104_order : 1 ≤ order ∧ order ≤ 3 := (chooseFitFunction_spec order f hf).1

/-- The points for the fit of the bins `0, …, n - 1`. -/
noncomputable def yearPoints (n : ℕ) (u v : ℕ → ℝ) : List (ℝ × ℝ × ℝ) :=
  (List.range n).map fun j : ℕ => (2 * Real.pi * j / n, v j, u j)

theorem yearPoints_sum (n : ℕ) (u v : ℕ → ℝ) (g : ℝ → ℝ) :
    ((yearPoints n u v).map fun d => ((g d.1 - d.2.1) / d.2.2) ^ 2).sum
      = chiSquare n v u fun j => g (2 * Real.pi * j / n) := by
  unfold yearPoints chiSquare
  rw [List.map_map]
  rfl

/-- The state after a fit on the bins `0, …, n - 1`. -/
theorem seasonal_fit (n : ℕ) (w u v : ℕ → ℝ) :
    (seasonalSmoother curveFit f offsetToZero fallback).fit (smootherTable [n] w u) ((List.range n).map v)
      = ⟨1 / n, (curveFit f (yearPoints n u v)).map fun par => if offsetToZero then par.set 0 0 else par⟩ := by
  have hlen : (smootherTable [n] w u).length = n := by rw [table_length, List.prod_singleton]
  unfold seasonalSmoother
  dsimp only
  rw [hlen]
  congr 3
  unfold yearPoints
  refine List.map_congr_left fun j hj => ?_
  have hj := List.mem_range.mp hj
  rw [table_x_column n w u j hj, table_unc_column [n] w u j (by simpa using hj)]
  unfold seasonalAngle column
  rw [List.getD_eq_getElem?_getD, List.getElem?_map, List.getElem?_range hj]
  simp only [Option.map_some, Option.getD_some]
  congr 1
  ring


/-- The prediction for a bin after a converged fit. -/
theorem seasonal_value (hf : chooseFitFunction order = .ok f) (n : ℕ) (w u v : ℕ → ℝ) (par : List ℝ)
    (hpar : curveFit f (yearPoints n u v) = some par) (j : ℕ) :
    (seasonalSmoother curveFit f offsetToZero fallback).after (smootherTable [n] w u) ((List.range n).map v) [[.fin (j : ℝ)]]
      = [.fin (yearCurve n order (if offsetToZero then 0 else par.getD 0 0) (fun k => par.getD (2 * k + 1) 0)
          (fun k => par.getD (2 * k + 2) 0) j)] := by
  unfold Smoother.after
  rw [seasonal_fit, hpar]
  unfold seasonalSmoother
  simp only [Option.map_some, List.map_cons, List.map_nil, List.headD_cons, List.cons.injEq, Flt.fin.injEq, and_true]
  rw [(chooseFitFunction_spec order f hf).2.2]
  have hang : seasonalAngle (1 / (n : ℝ)) j = 2 * Real.pi * j / n := by unfold seasonalAngle; ring
  rw [hang]
  unfold yearCurve listCurve
  cases offsetToZero with
  | false => rfl
  | true =>
    have h0 : (par.set 0 0).getD 0 0 = 0 := by cases par <;> rfl
    have h1 : ∀ k, (par.set 0 0).getD (k + 1) 0 = par.getD (k + 1) 0 := by intro k; cases par <;> rfl
    simp only [if_true, h0]
    congr 1
    · funext k; exact h1 (2 * k)
    · funext k; exact h1 (2 * k + 1)

theorem yearPoints_length (n : ℕ) (u v : ℕ → ℝ) : (yearPoints n u v).length = n := by simp [yearPoints]

section
variable (hcf : IsCurveFit curveFit) (n : ℕ) (w u v : ℕ → ℝ) (hu : ∀ j < n, 0 < u j)

include hf hcf hu in
/-- The parameters that the fit finds, and why they are the best. -/
theorem seasonal_par (hn : 2 * order + 1 ≤ n) : ∃ par, curveFit f (yearPoints n u v) = some par ∧
    ∀ c a b, chiSquare n v u (yearCurve n order (par.getD 0 0) (fun k => par.getD (2 * k + 1) 0) fun k => par.getD (2 * k + 2) 0)
      ≤ chiSquare n v u (yearCurve n order c a b) := by
  obtain ⟨-, hk, hv⟩ := chooseFitFunction_spec order f hf
  obtain ⟨par, h1, h2, h3⟩ := hcf.best order f hf (yearPoints n u v) (by rw [yearPoints_length, hk]; exact hn) (by
    intro d hd
    obtain ⟨j, hj, rfl⟩ := List.mem_map.mp hd
    exact hu j (List.mem_range.mp hj))
  refine ⟨par, h1, fun c a b => ?_⟩
  have h := h3 (curveList order c a b) (by rw [curveList_length, hk])
  rw [yearPoints_sum, yearPoints_sum] at h
  simp only [hv, curveList_curve] at h
  exact h

include hf hcf hu in
/-- **C104.** With enough bins the smoothed values lie on a seasonal curve, and no other curve of the order is closer to the bin
values in units of their uncertainties. -/
theorem C104_best (hn : 2 * order + 1 ≤ n) : ∃ c a b,
    (∀ j : ℕ, (seasonalSmoother curveFit f false fallback).after (smootherTable [n] w u) ((List.range n).map v) [[.fin (j : ℝ)]]
      = [.fin (yearCurve n order c a b j)]) ∧
    ∀ c' a' b', chiSquare n v u (yearCurve n order c a b) ≤ chiSquare n v u (yearCurve n order c' a' b') := by
  obtain ⟨par, h1, h2⟩ := seasonal_par curveFit order f hf hcf n u v hu hn
  exact ⟨_, _, _, fun j => seasonal_value curveFit order f false fallback hf n w u v par h1 j, h2⟩

include hf hcf hu in
/-- **C104.** `offset_tozero` subtracts from the curve its mean over the bins. -/
theorem C104_offset (hn : 2 * order + 1 ≤ n) : ∃ g : ℕ → ℝ,
    (∀ j : ℕ, (seasonalSmoother curveFit f false fallback).after (smootherTable [n] w u) ((List.range n).map v) [[.fin (j : ℝ)]]
      = [.fin (g j)]) ∧
    ∀ j : ℕ, (seasonalSmoother curveFit f true fallback).after (smootherTable [n] w u) ((List.range n).map v) [[.fin (j : ℝ)]]
      = [.fin (g j - (∑ i ∈ range n, g i) / n)] := by
  obtain ⟨par, h1, -⟩ := seasonal_par curveFit order f hf hcf n u v hu hn
  refine ⟨_, fun j => seasonal_value curveFit order f false fallback hf n w u v par h1 j, fun j => ?_⟩
  rw [seasonal_value curveFit order f true fallback hf n w u v par h1 j]
  simp only [Bool.false_eq_true, if_false, if_true]
  rw [yearCurve_sum n order (by omega), mul_div_cancel_left₀ _ (Nat.cast_ne_zero.mpr (by omega))]
  unfold yearCurve seasonalCurve
  congr 2
  ring

include hf hcf in
/-- **C104.** With too few bins every entry gets the fallback value. -/
theorem C104_few (hn : n < 2 * order + 1) (r : List (Flt ℝ)) :
    (seasonalSmoother curveFit f offsetToZero fallback).after (smootherTable [n] w u) ((List.range n).map v) [r]
      = [.fin fallback] := by
  have h := hcf.few order f hf (yearPoints n u v) (by rw [yearPoints_length, (chooseFitFunction_spec order f hf).2.1]; exact hn)
  unfold Smoother.after
  rw [seasonal_fit, h]
  rfl

include hf hcf hu in
/-- **C104.** Bin values that lie on a seasonal curve are not changed. -/
theorem C104_exact (hn : 2 * order + 1 ≤ n) (c : ℝ) (a b : ℕ → ℝ) (hv : ∀ j < n, v j = yearCurve n order c a b j) (j : ℕ)
    (hj : j < n) :
    (seasonalSmoother curveFit f false fallback).after (smootherTable [n] w u) ((List.range n).map v) [[.fin (j : ℝ)]]
      = [.fin (v j)] := by
  obtain ⟨c', a', b', h1, h2⟩ := C104_best curveFit order f hf fallback hcf n w u v hu hn
  have h0 : chiSquare n v u (yearCurve n order c a b) = 0 :=
    sum_eq_zero fun i hi => by rw [hv i (mem_range.mp hi), sub_self, zero_div]; ring
  have h3 := h2 c a b
  rw [h0] at h3
  have h4 := (sum_eq_zero_iff_of_nonneg fun i _ => sq_nonneg ((yearCurve n order c' a' b' i - v i) / u i)).mp
    (le_antisymm h3 (sum_nonneg fun i _ => sq_nonneg _)) j (mem_range.mpr hj)
  have h5 := pow_eq_zero_iff two_ne_zero |>.mp h4
  rcases div_eq_zero_iff.mp h5 with h5 | h5
  · rw [h1, show yearCurve n order c' a' b' j = v j by linarith]
  · exact absurd h5 (hu j hj).ne'

/-- Adding a constant to the values. -/
theorem chiSquare_shift (d : ℝ) (c : ℝ) (a b : ℕ → ℝ) :
    chiSquare n (fun j => v j + d) u (yearCurve n order (c + d) a b) = chiSquare n v u (yearCurve n order c a b) := by
  unfold chiSquare
  refine sum_congr rfl fun j _ => ?_
  unfold yearCurve seasonalCurve
  congr 2
  ring

/-- The middle of two curves. -/
theorem yearCurve_middle (c c' : ℝ) (a a' b b' : ℕ → ℝ) (j : ℕ) :
    (yearCurve n order c a b j + yearCurve n order c' a' b' j) / 2
      = yearCurve n order ((c + c') / 2) (fun k => (a k + a' k) / 2) (fun k => (b k + b' k) / 2) j := by
  unfold yearCurve seasonalCurve
  rw [show ∀ p q r s : ℝ, (p + q + (r + s)) / 2 = (p + r) / 2 + (q + s) / 2 by intros; ring, ← sum_add_distrib, sum_div]
  congr 1
  exact sum_congr rfl fun k _ => by ring

include hu in
/-- Two best curves agree at the bins. -/
theorem yearCurve_unique (c c' : ℝ) (a a' b b' : ℕ → ℝ)
    (h : ∀ c'' a'' b'', chiSquare n v u (yearCurve n order c a b) ≤ chiSquare n v u (yearCurve n order c'' a'' b''))
    (h' : ∀ c'' a'' b'', chiSquare n v u (yearCurve n order c' a' b') ≤ chiSquare n v u (yearCurve n order c'' a'' b''))
    (j : ℕ) (hj : j < n) : yearCurve n order c a b j = yearCurve n order c' a' b' j := by
  have e : ∀ g : ℕ → ℝ, chiSquare n v u g = ∑ j ∈ range n, (1 / u j * (g j - v j)) ^ 2 := by
    intro g
    unfold chiSquare
    exact sum_congr rfl fun i _ => by ring
  have hm := h ((c + c') / 2) (fun k => (a k + a' k) / 2) fun k => (b k + b' k) / 2
  have hm' := h' ((c + c') / 2) (fun k => (a k + a' k) / 2) fun k => (b k + b' k) / 2
  rw [e, e] at hm hm'
  simp only [← yearCurve_middle] at hm hm'
  exact leastSquares_unique (fun j hj => one_div_pos.mpr (hu j hj)) hm hm' j hj

include hf hcf hu in
/-- **C104.** With `offset_tozero`, the level of the bin values does not matter: adding a constant to all of them changes nothing
at the bins. -/
theorem C104_level (hn : 2 * order + 1 ≤ n) (d : ℝ) (j : ℕ) (hj : j < n) :
    (seasonalSmoother curveFit f true fallback).after (smootherTable [n] w u) ((List.range n).map fun j => v j + d)
        [[.fin (j : ℝ)]]
      = (seasonalSmoother curveFit f true fallback).after (smootherTable [n] w u) ((List.range n).map v) [[.fin (j : ℝ)]] := by
  obtain ⟨par, h1, h2⟩ := seasonal_par curveFit order f hf hcf n u v hu hn
  obtain ⟨par', h1', h2'⟩ := seasonal_par curveFit order f hf hcf n u (fun j => v j + d) hu hn
  have h3 : ∀ c a b, chiSquare n v u (yearCurve n order (par'.getD 0 0 - d) (fun k => par'.getD (2 * k + 1) 0) fun k =>
      par'.getD (2 * k + 2) 0) ≤ chiSquare n v u (yearCurve n order c a b) := by
    intro c a b
    have := h2' (c + d) a b
    rw [chiSquare_shift, ← sub_add_cancel (par'.getD 0 0) d, chiSquare_shift] at this
    exact this
  have huniq := yearCurve_unique order n u v hu _ _ _ _ _ _ h2 h3
  have hconst : par.getD 0 0 = par'.getD 0 0 - d := by
    have s := sum_congr rfl fun j hj => huniq j (mem_range.mp hj)
    rw [yearCurve_sum n order (by omega), yearCurve_sum n order (by omega)] at s
    exact mul_left_cancel₀ (Nat.cast_ne_zero.mpr (by omega)) s
  rw [seasonal_value curveFit order f true fallback hf n w u v par h1 j,
    seasonal_value curveFit order f true fallback hf n w u _ par' h1' j]
  have hj' := huniq j hj
  rw [← hconst] at hj'
  unfold yearCurve seasonalCurve at *
  congr 2
  simp only [if_true]
  linarith

end

end

/-! ### Features declared seasonal -/

theorem seasonal_rows (curveFit : CurveFit) (f : FitFunction) (z : Bool) (d : ℝ) (X : List (FitRow ℝ)) (y : List ℝ)
    (rows : List (List (Flt ℝ))) (b : ℕ) (r : List (Flt ℝ)) (x : Flt ℝ) (hr : rows[b]? = some r)
    (hx : (seasonalSmoother curveFit f z d).after X y [r] = [x]) :
    ((seasonalSmoother curveFit f z d).after X y rows)[b]? = some x := by
  unfold Smoother.after seasonalSmoother at *
  simp only [List.map_cons, List.map_nil, List.cons.injEq, and_true] at hx
  simp only [List.getElem?_map, hr, Option.map_some]
  exact congrArg some hx

/-- The smoother of a seasonal feature. -/
theorem seasonal_choice (c : Choice) (hc : c.kind ≠ .noSmoother) (props : Option (List (String × ℕ))) (name : String)
    (hexp : Spec.NoExplicit c [name]) (fp : ℕ) (hfp : readFeatureProperty props [name] Flags.HAS_MISSING = [fp])
    (h8 : fp.testBit 8 = false) (h9 : fp.testBit 9 = true) :
    smootherForGroup c props [name]
      = .ok (metaSmoother (.seasonal (!c.useNormalization)) c.useNormalization
          (if c.useRegressionType then some .interpolating else none)) := by
  have hdef : Spec.defaultSmoother c.useNormalization fp = .seasonal (!c.useNormalization) := by
    unfold Spec.defaultSmoother; simp [h8, h9]
  have hreg : regTypeSingle fp = .interpolating := by
    unfold regTypeSingle
    rw [show Flags.isSet fp Flags.IS_LINEAR = fp.testBit 8 from Flags.isSet_bit fp 8,
      show Flags.isSet fp Flags.IS_SEASONAL = fp.testBit 9 from Flags.isSet_bit fp 9, h8, h9]
    rfl
  rw [column_choice c hc props name hexp fp hfp (fun h => by have := h.1; unfold Spec.NoOrderFlag at this; simp [h9] at this),
    hreg, hdef]

section
variable (O : OpenSmoothers) (curveFit : CurveFit) (hcf : IsCurveFit curveFit) (c : Choice) (hc : c.kind ≠ .noSmoother)
  (props : Option (List (String × ℕ))) (name : String) (hexp : Spec.NoExplicit c [name]) (fp : ℕ)
  (hfp : readFeatureProperty props [name] Flags.HAS_MISSING = [fp]) (h8 : fp.testBit 8 = false) (h9 : fp.testBit 9 = true)

include hcf hc hexp hfp h8 h9 in
/-- **C104.** A feature declared seasonal, with at least three bins: the smoothed bin values lie on the curve
`c + a sin + b cos`, one turn for all bins, with the smallest squared deviations in units of the uncertainties. Without
normalization its mean `c` is removed. -/
theorem C104_declared : ∃ k, smootherForGroup c props [name] = .ok k ∧
    ∀ (n : ℕ), 3 ≤ n → ∀ (w u v : ℕ → ℝ), (∀ j < n, 0 < u j) → ∃ (m : ℝ) (a b : ℕ → ℝ),
      (∀ j < n, smoothAtCentres (packageSmoothers { O with seasonal := declaredSeasonal curveFit }) k [n] w u v j
        = some (yearCurve n 1 m a b j - if c.useNormalization then 0 else m)) ∧
      ∀ m' a' b', chiSquare n v u (yearCurve n 1 m a b) ≤ chiSquare n v u (yearCurve n 1 m' a' b') := by
  refine ⟨_, seasonal_choice c hc props name hexp fp hfp h8 h9, fun n hn w u v hu => ?_⟩
  have hf : chooseFitFunction 1 = .ok ⟨3, seasonalityFirst⟩ := by unfold chooseFitFunction; rw [if_pos rfl]
  set t := pullTarget c.useNormalization n w v with ht
  obtain ⟨par, h1, h2⟩ := seasonal_par curveFit 1 _ hf hcf n u (fun j => v j - t) hu (by omega)
  refine ⟨par.getD 0 0 + t, (fun k => par.getD (2 * k + 1) 0), (fun k => par.getD (2 * k + 2) 0), fun j hj => ?_, ?_⟩
  · have hp := seasonal_value curveFit 1 _ (!c.useNormalization) 0 hf n w u (fun j => v j - t) par h1 j
    have hr := seasonal_rows curveFit _ (!c.useNormalization) 0 (smootherTable [n] w u) ((List.range n).map fun j => v j - t)
      ((arangeMulti [n]).map fun c => c.map fun (i : ℕ) => Flt.fin (i : ℝ)) j _ _
      (by rw [centreRows_getElem? [n] j (by simpa using hj), digits_one n j hj]; rfl) hp
    have key := fun x hx => meta_centre_eq (packageSmoothers { O with seasonal := declaredSeasonal curveFit })
      (.seasonal (!c.useNormalization)) (fun _ _ _ => rfl) c.useNormalization
      (if c.useRegressionType then some .interpolating else none) [n] (by simp) w u v j (by simpa using hj) x hx
    simp only [List.prod_singleton, ← ht] at key
    rw [key _ hr, if_neg]
    · simp only [Flt.toOption, Option.map_some, Option.some.injEq]
      unfold yearCurve seasonalCurve
      cases hnorm : c.useNormalization with
      | true => simp only [Bool.not_true, Bool.false_eq_true, if_false, if_true]; ring
      | false =>
        simp only [Bool.not_false, Bool.false_eq_true, if_false, if_true]
        have : t = 0 := by rw [ht, hnorm]; simp [pullTarget]
        rw [this]
        ring
    · rintro ⟨h, -⟩
      split_ifs at h
      simp at h
  · intro m' a' b'
    have h3 := h2 (m' - t) a' b'
    rw [← chiSquare_shift 1 n u (fun j => v j - t) t, ← chiSquare_shift 1 n u (fun j => v j - t) t] at h3
    simpa only [sub_add_cancel] using h3

include hcf hc hexp hfp h8 h9 in
/-- **C104.** With one or two bins there is no seasonal curve: all bins get the mean that normalization has subtracted (without
normalization the neutral factor). -/
theorem C104_declared_few : ∃ k, smootherForGroup c props [name] = .ok k ∧
    ∀ (n : ℕ), n < 3 → ∀ (w u v : ℕ → ℝ), ∀ j < n,
      smoothAtCentres (packageSmoothers { O with seasonal := declaredSeasonal curveFit }) k [n] w u v j
        = some (pullTarget c.useNormalization n w v) := by
  refine ⟨_, seasonal_choice c hc props name hexp fp hfp h8 h9, fun n hn w u v j hj => ?_⟩
  have hf : chooseFitFunction 1 = .ok ⟨3, seasonalityFirst⟩ := by unfold chooseFitFunction; rw [if_pos rfl]
  set t := pullTarget c.useNormalization n w v with ht
  have hp := C104_few curveFit 1 _ hf (!c.useNormalization) 0 hcf n w u (fun j => v j - t) (by omega)
  have hr := seasonal_rows curveFit _ (!c.useNormalization) 0 (smootherTable [n] w u) ((List.range n).map fun j => v j - t)
    ((arangeMulti [n]).map fun c => c.map fun (i : ℕ) => Flt.fin (i : ℝ)) j _ _
    (centreRows_getElem? [n] j (by simpa using hj)) (hp _)
  have key := fun x hx => meta_centre_eq (packageSmoothers { O with seasonal := declaredSeasonal curveFit })
    (.seasonal (!c.useNormalization)) (fun _ _ _ => rfl) c.useNormalization
    (if c.useRegressionType then some .interpolating else none) [n] (by simp) w u v j (by simpa using hj) x hx
  simp only [List.prod_singleton, ← ht] at key
  rw [key _ hr, if_neg]
  · simp [Flt.toOption]
  · rintro ⟨h, -⟩
    split_ifs at h
    simp at h

end

/-! ### Witness: such a fit exists -/

/-- The basis functions of a fit function. -/
noncomputable def seasonalBasis (k : ℕ) (x : ℝ) : ℝ :=
  if k = 0 then 1 else if k % 2 = 1 then Real.sin (((k + 1) / 2 : ℕ) * x) else Real.cos ((k / 2 : ℕ) * x)

theorem listCurve_basis (order : ℕ) (par : List ℝ) (x : ℝ) :
    listCurve order par x = ∑ k ∈ range (2 * order + 1), par.getD k 0 * seasonalBasis k x := by
  unfold listCurve seasonalCurve
  induction order with
  | zero => simp [seasonalBasis]
  | succ m ih =>
    rw [sum_range_succ, ← add_assoc, ih, show 2 * (m + 1) + 1 = 2 * m + 1 + 1 + 1 by ring, sum_range_succ _ (2 * m + 1 + 1),
      sum_range_succ _ (2 * m + 1), add_assoc]
    congr 2
    · congr 1
      unfold seasonalBasis
      rw [if_neg (by omega), if_pos (by omega), show (2 * m + 1 + 1) / 2 = m + 1 by omega]
    · congr 1
      unfold seasonalBasis
      rw [if_neg (by omega), if_neg (by omega), show (2 * m + 1 + 1) / 2 = m + 1 by omega]

theorem list_sum_fin {α : Type*} (l : List α) (g : α → ℝ) : (l.map g).sum = ∑ i : Fin l.length, g l[i] := by
  induction l with
  | nil => rfl
  | cons a l ih => rw [List.map_cons, List.sum_cons, ih]; exact (Fin.sum_univ_succ (n := l.length) fun i => g (a :: l)[(i : ℕ)]).symm

/-- A fit that satisfies what is assumed of `curve_fit` exists: the fit functions are linear in their parameters. -/
theorem exists_isCurveFit : ∃ curveFit, IsCurveFit curveFit := by
  have key : ∀ order f, chooseFitFunction order = .ok f → ∀ data : List (ℝ × ℝ × ℝ),
      ∃ par : List ℝ, par.length = f.parameters ∧ ∀ q : List ℝ, q.length = f.parameters →
        (data.map fun d => ((f.value par d.1 - d.2.1) / d.2.2) ^ 2).sum
          ≤ (data.map fun d => ((f.value q d.1 - d.2.1) / d.2.2) ^ 2).sum := by
    intro order f hf data
    obtain ⟨-, hk, hv⟩ := chooseFitFunction_spec order f hf
    obtain ⟨p, hp⟩ := exists_leastSquares data.length (2 * order + 1)
      (fun k i => seasonalBasis k data[i].1 / data[i].2.2) (fun i => data[i].2.1 / data[i].2.2)
    have e : ∀ q : List ℝ, q.length = 2 * order + 1 → (data.map fun d => ((f.value q d.1 - d.2.1) / d.2.2) ^ 2).sum
        = ∑ i : Fin data.length, (∑ k : Fin (2 * order + 1), q.getD k 0 * (seasonalBasis k data[i].1 / data[i].2.2)
          - data[i].2.1 / data[i].2.2) ^ 2 := by
      intro q hq
      rw [list_sum_fin]
      refine sum_congr rfl fun i _ => ?_
      rw [hv, listCurve_basis, sub_div, sum_div, ← Fin.sum_univ_eq_sum_range fun k => q.getD k 0 * seasonalBasis k data[i].1 / data[i].2.2]
      congr 2
      exact sum_congr rfl fun k _ => by ring
    refine ⟨List.ofFn p, by rw [List.length_ofFn, hk], fun q hq => ?_⟩
    rw [e _ (by simp), e q (by rw [hq, hk])]
    have e2 : ∀ k : Fin (2 * order + 1), (List.ofFn p).getD k 0 = p k := by
      intro k
      rw [List.getD_eq_getElem?_getD, List.getElem?_ofFn, dif_pos k.isLt]
      rfl
    simp only [e2]
    exact hp fun k => q.getD k 0
  classical
  refine ⟨fun f data => if h : (∃ order, chooseFitFunction order = .ok f) ∧ f.parameters ≤ data.length
    then some (Classical.choose (key _ f h.1.choose_spec data)) else none, ⟨fun order f hf data hd _ => ?_, fun order f hf data hd => ?_⟩⟩
  · have h : (∃ order, chooseFitFunction order = .ok f) ∧ f.parameters ≤ data.length := ⟨⟨order, hf⟩, hd⟩
    exact ⟨_, dif_pos h, Classical.choose_spec (key _ f h.1.choose_spec data)⟩
  · exact dif_neg fun h => by omega

/-- Witness for C104: a year of four bins with the values 5, 3, 1, 3 is on the curve `3 + 2 cos`; a declared seasonal feature with
normalization keeps the values, and without gets 2, 0, -2, 0. -/
example : ∃ curveFit, IsCurveFit curveFit ∧ ∀ (O : OpenSmoothers) (useNorm : Bool), ∃ k,
    smootherForGroup ⟨.weightedMean, true, useNorm, []⟩ (some [("day", Flags.IS_SEASONAL)]) ["day"] = .ok k ∧
    (List.range 4).map (smoothAtCentres (packageSmoothers { O with seasonal := declaredSeasonal curveFit }) k [4] (fun _ => 1)
        (fun _ => 1) fun j => if j = 0 then 5 else if j = 2 then 1 else 3)
      = if useNorm then [some 5, some 3, some 1, some 3] else [some 2, some 0, some (-2), some 0] := by
  obtain ⟨curveFit, hcf⟩ := exists_isCurveFit
  refine ⟨curveFit, hcf, fun O useNorm => ?_⟩
  obtain ⟨k, hk, h⟩ := C104_declared O curveFit hcf ⟨.weightedMean, true, useNorm, []⟩ (by simp) (some [("day", Flags.IS_SEASONAL)])
    "day" (noExplicit_iff.mp rfl) Flags.IS_SEASONAL rfl (by decide) (by decide)
  refine ⟨k, hk, ?_⟩
  set v : ℕ → ℝ := fun j => if j = 0 then 5 else if j = 2 then 1 else 3 with hv
  obtain ⟨m, a, b, h1, h2⟩ := h 4 (by omega) (fun _ => 1) (fun _ => 1) v (fun _ _ => one_pos)
  have hcurve : ∀ m a b j, yearCurve 4 1 m a b j = m + (a 0 * Real.sin (Real.pi * j / 2) + b 0 * Real.cos (Real.pi * j / 2)) := by
    intro m a b j
    unfold yearCurve seasonalCurve
    rw [sum_range_one]
    rw [show ((0 + 1 : ℕ) : ℝ) * (2 * Real.pi * j / (4 : ℕ)) = Real.pi * j / 2 by push_cast; ring]
  have e1 : Real.pi * ((1 : ℕ) : ℝ) / 2 = Real.pi / 2 := by push_cast; ring
  have e2 : Real.pi * ((2 : ℕ) : ℝ) / 2 = Real.pi := by push_cast; ring
  have e3 : Real.pi * ((3 : ℕ) : ℝ) / 2 = Real.pi + Real.pi / 2 := by push_cast; ring
  have hs : ∀ m a b, yearCurve 4 1 m a b 0 = m + b 0 ∧ yearCurve 4 1 m a b 1 = m + a 0 ∧ yearCurve 4 1 m a b 2 = m - b 0
      ∧ yearCurve 4 1 m a b 3 = m - a 0 := by
    intro m a b
    rw [hcurve, hcurve, hcurve, hcurve, e1, e2, e3]
    simp [Real.sin_add, Real.cos_add, sub_eq_add_neg]
  have hopt := h2 3 (fun _ => 0) (fun _ => 2)
  obtain ⟨s0, s1, s2, s3⟩ := hs 3 (fun _ => 0) (fun _ => 2)
  obtain ⟨t0, t1, t2, t3⟩ := hs m a b
  simp only [chiSquare, sum_range_succ, sum_range_zero, s0, s1, s2, s3, t0, t1, t2, t3, hv] at hopt
  norm_num at hopt
  have q1 := sq_nonneg (m + b 0 - 5)
  have q2 := sq_nonneg (m + a 0 - 3)
  have q3 := sq_nonneg (m - b 0 - 1)
  have q4 := sq_nonneg (m - a 0 - 3)
  have z1 : m + b 0 - 5 = 0 := pow_eq_zero_iff two_ne_zero |>.mp (by linarith)
  have z2 : m + a 0 - 3 = 0 := pow_eq_zero_iff two_ne_zero |>.mp (by linarith)
  have z3 : m - b 0 - 1 = 0 := pow_eq_zero_iff two_ne_zero |>.mp (by linarith)
  have hm : m = 3 := by linarith
  have ha : a 0 = 0 := by linarith
  have hb : b 0 = 2 := by linarith
  have g0 := h1 0 (by omega)
  have g1 := h1 1 (by omega)
  have g2 := h1 2 (by omega)
  have g3 := h1 3 (by omega)
  rw [t0, hm, hb] at g0
  rw [t1, hm, ha] at g1
  rw [t2, hm, hb] at g2
  rw [t3, hm, ha] at g3
  simp only [show List.range 4 = [0, 1, 2, 3] from rfl, List.map_cons, List.map_nil, g0, g1, g2, g3]
  cases useNorm <;> norm_num

end CB
