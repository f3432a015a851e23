import Verif.Props.WeightedMean
import Verif.Props.SmootherChoice
import Verif.Props.Estimators
import Verif.Props.OrthoFit
import Verif.Props.Regularize

/-!
# C83: linear features get a weighted least-squares line
-/

set_option autoImplicit false
set_option linter.unusedSectionVars false

namespace CB
open Finset Spec

section
variable {K : Type*} [Field K] [LinearOrder K] [IsStrictOrderedRing K] [FloorRing K]

theorem linearDet_pos (n : ℕ) (x w : ℕ → K) (hw : ∀ i < n, 0 ≤ w i)
    (hx : ∃ i < n, ∃ j < n, 0 < w i ∧ 0 < w j ∧ x i ≠ x j) : 0 < linearDet n x w := by
  obtain ⟨i, hi, j, hj, hwi, hwj, hxij⟩ := hx
  have hQ := weighted_square_pos n x w hw i j hi hj hwi hwj hxij
  unfold linearDet
  set sw := ∑ i ∈ range n, w i with hsw
  set swx := ∑ i ∈ range n, w i * x i with hswx
  set swxx := ∑ i ∈ range n, x i ^ 2 * w i with hswxx
  have hq : ∀ u v : K, ∑ k ∈ range n, w k * (u + v * x k) ^ 2 = u ^ 2 * sw + 2 * u * v * swx + v ^ 2 * swxx := by
    intro u v
    rw [hsw, hswx, hswxx, mul_sum, mul_sum, mul_sum, ← sum_add_distrib, ← sum_add_distrib]
    exact sum_congr rfl (fun k _ => by ring)
  have hswpos : 0 < sw := by
    have := hQ 1 0 (Or.inl one_ne_zero)
    rw [hq] at this
    linarith
  have := hQ (-swx) sw (Or.inr hswpos.ne')
  rw [hq] at this
  have h2 : (-swx) ^ 2 * sw + 2 * (-swx) * sw * swx + sw ^ 2 * swxx = sw * (sw * swxx - swx * swx) := by ring
  rw [h2] at this
  exact (mul_pos_iff_of_pos_left hswpos).mp this

theorem squaredError_congr (n : ℕ) (x x' y y' w w' : ℕ → K) (hx : ∀ i < n, x i = x' i) (hy : ∀ i < n, y i = y' i)
    (hw : ∀ i < n, w i = w' i) (a b : K) : squaredError n x y w a b = squaredError n x' y' w' a b := by
  unfold squaredError
  refine sum_congr rfl fun i hi => ?_
  have hi := mem_range.mp hi
  rw [hx i hi, hy i hi, hw i hi]

theorem column_map_range (n : ℕ) (f : ℕ → K) (i : ℕ) (hi : i < n) : column ((List.range n).map f) i = f i := by
  unfold column
  rw [List.getD_eq_getElem?_getD, List.getElem?_map, List.getElem?_range hi]
  rfl

theorem table_x_column (n : ℕ) (w u : ℕ → K) (i : ℕ) (hi : i < n) :
    column ((smootherTable [n] w u).map fun r => ((r.x.headD 0 : ℕ) : K)) i = (i : K) := by
  unfold column
  rw [List.getD_eq_getElem?_getD, List.getElem?_map, smootherTable_getElem? [n] w u i (by simpa using hi), digits_one n i hi]
  rfl

theorem table_unc_column (ns : List ℕ) (w u : ℕ → K) (i : ℕ) (hi : i < ns.prod) : uncColumn (smootherTable ns w u) i = u i := by
  unfold uncColumn column
  rw [List.getD_eq_getElem?_getD, List.getElem?_map, smootherTable_getElem? ns w u i hi]
  rfl

theorem table_length (ns : List ℕ) (w u : ℕ → K) : (smootherTable ns w u).length = ns.prod :=
  centres_length ns _ (smootherTable_centres ns w u)

/-- The line through the bins. -/
theorem linear_centre (epsilon : K) (he : 0 < epsilon) (n : ℕ) (hn : 2 ≤ n) (w u v : ℕ → K) :
    ∃ a s : K, (∀ b < n, ((linearExtrapolator epsilon).predict ((linearExtrapolator epsilon).fit (smootherTable [n] w u)
          ((List.range [n].prod).map v)) ((arangeMulti [n]).map fun c => c.map fun (i : ℕ) => Flt.fin (i : K)))[b]?
        = some (.fin (a + s * b))) ∧
      ∀ a' s', (a', s') ≠ (a, s) →
        squaredError n (fun b => (b : K)) v (fun b => 1 / (u b ^ 2 + epsilon)) a s
          < squaredError n (fun b => (b : K)) v (fun b => 1 / (u b ^ 2 + epsilon)) a' s' := by
  set X := smootherTable [n] w u with hX
  set x := column (X.map fun r => ((r.x.headD 0 : ℕ) : K)) with hxd
  set y := column ((List.range [n].prod).map v) with hyd
  set W := fun i => 1 / (uncColumn X i ^ 2 + epsilon) with hWd
  have hlen : X.length = n := by rw [hX, table_length, List.prod_singleton]
  have hx : ∀ i < n, x i = (i : K) := fun i hi => table_x_column n w u i hi
  have hy : ∀ i < n, y i = v i := fun i hi => column_map_range _ v i (by simpa using hi)
  have hW : ∀ i < n, W i = 1 / (u i ^ 2 + epsilon) := fun i hi => by
    rw [hWd]; simp only; rw [hX, table_unc_column [n] w u i (by simpa using hi)]
  have hWpos : ∀ i < n, 0 < W i := fun i hi => by
    rw [hW i hi]; have := sq_nonneg (u i); positivity
  have hex : ∃ i < n, ∃ j < n, 0 < W i ∧ 0 < W j ∧ x i ≠ x j :=
    ⟨0, by omega, 1, by omega, hWpos 0 (by omega), hWpos 1 (by omega), by rw [hx 0 (by omega), hx 1 (by omega)]; simp⟩
  have hdet : linearDet n x W ≠ 0 := (linearDet_pos n x W (fun i hi => (hWpos i hi).le) hex).ne'
  refine ⟨(linearRegression n x y W).1, (linearRegression n x y W).2, fun b hb => ?_, fun a' s' hne => ?_⟩
  · simp only [linearExtrapolator]
    rw [List.getElem?_map, centreRows_getElem? [n] b (by simpa using hb), digits_one n b hb, hlen, if_neg hdet]
    simp only [Option.map_some, List.map_cons, List.map_nil, List.headD_cons]
    rw [mul_comm]
  · have := C32_unique_minimiser n x y W (fun i hi => (hWpos i hi).le) hex a' s' hne
    rwa [squaredError_congr n x (fun b => (b : K)) y v W (fun b => 1 / (u b ^ 2 + epsilon)) hx hy hW,
      squaredError_congr n x (fun b => (b : K)) y v W (fun b => 1 / (u b ^ 2 + epsilon)) hx hy hW] at this

/-- A single bin has no line. -/
theorem linear_centre_one (epsilon : K) (w u v : ℕ → K) :
    ((linearExtrapolator epsilon).predict ((linearExtrapolator epsilon).fit (smootherTable [1] w u)
          ((List.range [1].prod).map v)) ((arangeMulti [1]).map fun c => c.map fun (i : ℕ) => Flt.fin (i : K)))[0]? = some .nan := by
  have hlen : (smootherTable [1] w u).length = 1 := by rw [table_length, List.prod_singleton]
  simp only [linearExtrapolator]
  rw [hlen, if_pos (by
    unfold linearDet
    rw [sum_range_one, sum_range_one, sum_range_one, table_x_column 1 w u 0 (by omega)]
    simp)]
  rw [List.getElem?_map, centreRows_getElem? [1] 0 (by simp)]
  rfl

end

theorem squaredError_shift (n : ℕ) (x y w : ℕ → ℝ) (c a b : ℝ) :
    squaredError n x (fun i => y i - c) w a b = squaredError n x y w (a + c) b := by
  unfold squaredError
  exact sum_congr rfl fun i _ => by ring

/-- The smoother of a feature with one column. -/
theorem column_choice (c : Choice) (hc : c.kind ≠ .noSmoother) (props : Option (List (String × ℕ))) (name : String)
    (hexp : Spec.NoExplicit c [name]) (fp : ℕ) (hfp : readFeatureProperty props [name] Flags.HAS_MISSING = [fp])
    (hrep : ¬ Spec.Unreportable fp) :
    smootherForGroup c props [name]
      = .ok (metaSmoother (Spec.defaultSmoother c.useNormalization fp) c.useNormalization
          (if c.useRegressionType then some (regTypeSingle fp) else none)) := by
  have hone := (C53_onedim c fp name hexp).1 hrep
  have hng : (Spec.defaultSmoother c.useNormalization fp).isGroupByCB = false := by
    unfold Spec.defaultSmoother
    split_ifs <;> rfl
  have htup : regTypeTuple [fp] = regTypeSingle fp := by
    unfold regTypeTuple
    cases h : regTypeSingle fp <;> simp [h]
  unfold smootherForGroup Choice.choose
  rw [hfp, noExplicit_iff.mpr hexp]
  unfold Choice.raw Choice.wrap
  cases hk : c.kind with
  | noSmoother => exact absurd hk hc
  | groupBy => simp [hone, hng]
  | weightedMean => simp [hone, htup]

/-- The smoother of a linear feature. -/
theorem linear_choice (c : Choice) (hc : c.kind ≠ .noSmoother) (props : Option (List (String × ℕ))) (name : String)
    (hexp : Spec.NoExplicit c [name]) (fp : ℕ) (hfp : readFeatureProperty props [name] Flags.HAS_MISSING = [fp])
    (hlin : fp.testBit 8 = true) :
    smootherForGroup c props [name]
      = .ok (metaSmoother .linearExtrapolator c.useNormalization (if c.useRegressionType then some .extrapolating else none)) := by
  have hset : Flags.isSet fp Flags.IS_LINEAR = true := by
    rw [show Flags.isSet fp Flags.IS_LINEAR = fp.testBit 8 from Flags.isSet_bit fp 8]; exact hlin
  have hreg : regTypeSingle fp = .extrapolating := by unfold regTypeSingle; rw [if_pos hset]
  have hdef : Spec.defaultSmoother c.useNormalization fp = .linearExtrapolator := by
    unfold Spec.defaultSmoother; rw [if_pos hlin]
  rw [column_choice c hc props name hexp fp hfp (fun h => by have := h.1.1; rw [hlin] at this; simp at this), hreg, hdef]

/-- **C83.** A feature declared linear, with at least two bins: the smoothed bin values lie on the one straight line with the
smallest squared error, each bin weighted by one over its squared uncertainty plus 0.0001. Normalization does not change this. -/
theorem C83_line (O : OpenSmoothers) (c : Choice) (hc : c.kind ≠ .noSmoother) (props : Option (List (String × ℕ))) (name : String)
    (hexp : Spec.NoExplicit c [name]) (fp : ℕ) (hfp : readFeatureProperty props [name] Flags.HAS_MISSING = [fp])
    (hlin : fp.testBit 8 = true) :
    ∃ k, smootherForGroup c props [name] = .ok k ∧
      ∀ (n : ℕ), 2 ≤ n → ∀ (w u v : ℕ → ℝ), ∃ a s : ℝ,
        (∀ b < n, smoothAtCentres (packageSmoothers O) k [n] w u v b = some (a + s * b)) ∧
        ∀ a' s', (a', s') ≠ (a, s) →
          squaredError n (fun b => (b : ℝ)) v (fun b => 1 / (u b ^ 2 + 1 / 10000)) a s
            < squaredError n (fun b => (b : ℝ)) v (fun b => 1 / (u b ^ 2 + 1 / 10000)) a' s' := by
  refine ⟨_, linear_choice c hc props name hexp fp hfp hlin, fun n hn w u v => ?_⟩
  set c₀ := pullTarget c.useNormalization [n].prod w v with hc₀
  obtain ⟨a, s, h1, h2⟩ := linear_centre (1 / 10000 : ℝ) (by norm_num) n hn w u (fun i => v i - c₀)
  refine ⟨a + c₀, s, fun b hb => ?_, fun a' s' hne => ?_⟩
  · rw [meta_centre_eq (packageSmoothers O) .linearExtrapolator (fun _ _ _ => rfl) c.useNormalization _ [n] (by simp) w u v b
      (by simpa using hb) (.fin (a + s * b)) (h1 b hb), if_neg]
    · simp only [Flt.toOption, Option.map_some, Option.some.injEq]
      rw [← hc₀]; ring
    · rintro ⟨h, -⟩
      split_ifs at h
      simp at h
  · have := h2 (a' - c₀) s' (fun h => hne (by
      rw [Prod.mk.injEq] at h ⊢
      exact ⟨by rw [← h.1]; ring, h.2⟩))
    rw [squaredError_shift, squaredError_shift, sub_add_cancel] at this
    exact this

/-- **C83.** Consequence: estimates that lie on a line are not changed at all. -/
theorem C83_exact (O : OpenSmoothers) (c : Choice) (hc : c.kind ≠ .noSmoother) (props : Option (List (String × ℕ))) (name : String)
    (hexp : Spec.NoExplicit c [name]) (fp : ℕ) (hfp : readFeatureProperty props [name] Flags.HAS_MISSING = [fp])
    (hlin : fp.testBit 8 = true) :
    ∃ k, smootherForGroup c props [name] = .ok k ∧
      ∀ (n : ℕ), 2 ≤ n → ∀ (w u : ℕ → ℝ) (a s : ℝ), ∀ b < n,
        smoothAtCentres (packageSmoothers O) k [n] w u (fun b => a + s * b) b = some (a + s * b) := by
  obtain ⟨k, hk, h⟩ := C83_line O c hc props name hexp fp hfp hlin
  refine ⟨k, hk, fun n hn w u a s b hb => ?_⟩
  obtain ⟨a₁, s₁, h1, h2⟩ := h n hn w u (fun b => a + s * b)
  by_cases he : (a, s) = (a₁, s₁)
  · rw [Prod.mk.injEq] at he
    rw [h1 b hb, he.1, he.2]
  · have hlt := h2 a s he
    have h0 : squaredError n (fun b => (b : ℝ)) (fun b => a + s * (b : ℝ)) (fun b => 1 / (u b ^ 2 + 1 / 10000)) a s = 0 := by
      unfold squaredError
      exact sum_eq_zero fun i _ => by ring
    rw [h0] at hlt
    exact absurd hlt (not_lt.mpr (sum_nonneg fun i _ => mul_nonneg (by positivity) (sq_nonneg _)))

/-- **C83.** With a single bin there is no line: the bin gets no value, i.e. the neutral factor. -/
theorem C83_single_bin (O : OpenSmoothers) (c : Choice) (hc : c.kind ≠ .noSmoother) (props : Option (List (String × ℕ)))
    (name : String) (hexp : Spec.NoExplicit c [name]) (fp : ℕ)
    (hfp : readFeatureProperty props [name] Flags.HAS_MISSING = [fp]) (hlin : fp.testBit 8 = true) :
    ∃ k, smootherForGroup c props [name] = .ok k ∧
      ∀ (w u v : ℕ → ℝ), smoothAtCentres (packageSmoothers O) k [1] w u v 0 = none := by
  refine ⟨_, linear_choice c hc props name hexp fp hfp hlin, fun w u v => ?_⟩
  have h := linear_centre_one (1 / 10000 : ℝ) w u (fun i => v i - pullTarget c.useNormalization [1].prod w v)
  rw [meta_centre_eq (packageSmoothers O) .linearExtrapolator (fun _ _ _ => rfl) c.useNormalization _ [1] (by simp) w u v 0
    (by simp) .nan h]
  split_ifs <;> rfl

/-- Witness for C83: a linear column with default settings; estimates 0, 1, 5 with uncertainties 1 get the line with intercept
-1/2 and slope 5/2. -/
example : smootherForGroup ⟨.weightedMean, true, true, []⟩ (some [("a", Flags.IS_LINEAR)]) ["a"]
      = .ok (.normalizationRegressionType .linearExtrapolator .extrapolating) ∧
    ∀ O, smoothAtCentres (packageSmoothers O) (.normalizationRegressionType .linearExtrapolator .extrapolating) [3] (fun _ => 1)
      (fun _ => 1) (fun b => if b = 0 then 0 else if b = 1 then 1 else 5) 2 = some (9 / 2) := by
  have hch : smootherForGroup ⟨.weightedMean, true, true, []⟩ (some [("a", Flags.IS_LINEAR)]) ["a"]
      = .ok (.normalizationRegressionType .linearExtrapolator .extrapolating) := by rfl
  refine ⟨hch, fun O => ?_⟩
  obtain ⟨k, hk, h⟩ := C83_line O ⟨.weightedMean, true, true, []⟩ (by simp) (some [("a", Flags.IS_LINEAR)]) "a" (noExplicit_iff.mp rfl) Flags.IS_LINEAR rfl
    (by decide)
  rw [hch] at hk
  have hk' := Except.ok.inj hk
  subst hk'
  obtain ⟨a, s, h1, h2⟩ := h 3 (by omega) (fun _ => 1) (fun _ => 1) (fun b => if b = 0 then 0 else if b = 1 then 1 else 5)
  have hopt : (a, s) = (-1 / 2, 5 / 2) := by
    by_contra hne
    have := h2 (-1 / 2) (5 / 2) (fun h => hne h.symm)
    simp only [squaredError, sum_range_succ, sum_range_zero] at this
    norm_num at this
    nlinarith [sq_nonneg (a + s + 1 / 2 - 5 / 2), sq_nonneg (s - 5 / 2)]
  rw [Prod.mk.injEq] at hopt
  rw [h1 2 (by omega), hopt.1, hopt.2]
  norm_num

/-! ### Continuous features -/

theorem orthoSmootherFit_congr (n : ℕ) (x x' y y' err err' : ℕ → ℝ) (hx : ∀ i < n, x i = x' i) (hy : ∀ i < n, y i = y' i)
    (he : ∀ i < n, err i = err' i) (f : ℝ → ℝ) : chiSquared n x y err f = chiSquared n x' y' err' f := by
  unfold chiSquared
  refine sum_congr rfl fun i hi => ?_
  have hi := mem_range.mp hi
  rw [hx i hi, hy i hi, he i hi]

/-- **C70** for a whole feature: the smoothed bin values of a feature declared continuous (and neither linear, seasonal nor
monotonic) are the values of a polynomial with the smallest `χ²` among those with as many coefficients, of which there are fewer than
bins. Normalization does not change this. -/
theorem C70_feature (O : OpenSmoothers) (c : Choice) (hc : c.kind ≠ .noSmoother) (props : Option (List (String × ℕ))) (name : String)
    (hexp : Spec.NoExplicit c [name]) (fp : ℕ) (hfp : readFeatureProperty props [name] Flags.HAS_MISSING = [fp])
    (h0 : fp.testBit 0 = true) (h3 : fp.testBit 3 = false) (h8 : fp.testBit 8 = false) (h9 : fp.testBit 9 = false) :
    ∃ k, smootherForGroup c props [name] = .ok k ∧
      ∀ (n : ℕ), 0 < n → ∀ (w u v : ℕ → ℝ), (∀ b < n, u b ≠ 0) → ∃ (m : ℕ) (d : ℕ → ℝ),
        1 ≤ m ∧ m ≤ 21 ∧ (2 ≤ n → m < n) ∧
        (∀ b < n, smoothAtCentres (packageSmoothers O) k [n] w u v b = some (poly m d b)) ∧
        ∀ d', chiSquared n (fun b => (b : ℝ)) v u (poly m d) ≤ chiSquared n (fun b => (b : ℝ)) v u (poly m d') := by
  have hrep : ¬ Spec.Unreportable fp := fun h => by have := h.1; unfold Spec.NoOrderFlag at this; simp [h0] at this
  have hdef : Spec.defaultSmoother c.useNormalization fp = .orthogonalPolynomial := by
    unfold Spec.defaultSmoother; simp [h0, h3, h8, h9]
  have hreg : regTypeSingle fp = .interpolating := by
    unfold regTypeSingle
    rw [show Flags.isSet fp Flags.IS_LINEAR = fp.testBit 8 from Flags.isSet_bit fp 8,
      show Flags.isSet fp Flags.IS_SEASONAL = fp.testBit 9 from Flags.isSet_bit fp 9,
      show Flags.isSet fp Flags.IS_CONTINUOUS = fp.testBit 0 from Flags.isSet_bit fp 0, h8, h9, h0]
    rfl
  have hch := column_choice c hc props name hexp fp hfp hrep
  rw [hdef, hreg] at hch
  refine ⟨_, hch, fun n hn w u v hu => ?_⟩
  set c₀ := pullTarget c.useNormalization [n].prod w v with hc₀
  set X := smootherTable [n] w u with hX
  set x := column (X.map fun r => ((r.x.headD 0 : ℕ) : ℝ)) with hxd
  set y := column ((List.range [n].prod).map fun i => v i - c₀) with hyd
  set err := uncColumn X with herr
  have hlen : X.length = n := by rw [hX, table_length, List.prod_singleton]
  have hx : ∀ i < n, x i = (i : ℝ) := fun i hi => table_x_column n w u i hi
  have hy : ∀ i < n, y i = v i - c₀ := fun i hi => column_map_range _ _ i (by simpa using hi)
  have he : ∀ i < n, err i = u i := fun i hi => table_unc_column [n] w u i (by simpa using hi)
  obtain ⟨s, hs⟩ := (C72_total n x y err).mpr hn
  have hne : ∀ j < n, err j ≠ 0 := fun j hj => by rw [he j hj]; exact hu j hj
  obtain ⟨d, hd1, hd2⟩ := C70_least_squares n x y err hne s hs
  obtain ⟨b1, b2, b3, -, -⟩ := C71_bounds n x y err s hs
  refine ⟨s.nDegrees, fun i => if i = 0 then d 0 + c₀ else d i, b1, b2, b3, fun b hb => ?_, fun d' => ?_⟩
  · have hpred : ((packageSmoothers O .orthogonalPolynomial).predict ((packageSmoothers O .orthogonalPolynomial).fit X
        ((List.range [n].prod).map fun i => v i - c₀)) ((arangeMulti [n]).map fun c => c.map fun (i : ℕ) => Flt.fin (i : ℝ)))[b]?
        = some (.fin (poly s.nDegrees d b)) := by
      show (((arangeMulti [n]).map fun c => c.map fun (i : ℕ) => Flt.fin (i : ℝ)).map fun r =>
        match orthoSmootherFit X.length x y err with
        | some s => orthoSmootherPredict s (r.headD .nan)
        | none => .nan)[b]? = _
      rw [List.getElem?_map, centreRows_getElem? [n] b (by simpa using hb), digits_one n b hb, hlen, hs]
      simp only [Option.map_some, List.map_cons, List.map_nil, List.headD_cons]
      rw [hd1 b ⟨b, hb, by rw [hx b hb]⟩ ⟨b, hb, by rw [hx b hb]⟩]
    rw [meta_centre_eq (packageSmoothers O) .orthogonalPolynomial (fun _ _ _ => rfl) c.useNormalization _ [n] (by simp) w u v b
      (by simpa using hb) _ hpred, if_neg]
    · simp only [Flt.toOption, Option.map_some, Option.some.injEq]
      rw [poly_shift s.nDegrees b1 d c₀]
    · rintro ⟨h, -⟩
      split_ifs at h
      simp at h
  · have hshift : ∀ e : ℕ → ℝ, chiSquared n (fun b => (b : ℝ)) v u (poly s.nDegrees fun i => if i = 0 then e 0 + c₀ else e i)
        = chiSquared n x y err (poly s.nDegrees e) := by
      intro e
      rw [← chiSquared_shift n x y err s.nDegrees b1 c₀ e]
      exact orthoSmootherFit_congr n _ _ _ _ _ _ (fun i hi => (hx i hi).symm) (fun i hi => by rw [hy i hi]; ring)
        (fun i hi => (he i hi).symm) _
    have h1 := hd2 (fun i => if i = 0 then d' 0 - c₀ else d' i)
    rw [← hshift, ← hshift] at h1
    have e : (fun i => if i = 0 then (fun i => if i = 0 then d' 0 - c₀ else d' i) 0 + c₀
        else (fun i => if i = 0 then d' 0 - c₀ else d' i) i) = d' := by
      funext i
      by_cases hi : i = 0
      · simp [hi]
      · simp [hi]
    rw [e] at h1
    exact h1

/-! ### Ordered features -/

theorem errorWeightedMean_shift (S : Finset ℕ) (x u : ℕ → ℝ) (hS : 0 < ∑ i ∈ S, 1 / u i ^ 2) (c : ℝ) :
    Spec.errorWeightedMean S (fun i => x i - c) u = Spec.errorWeightedMean S x u - c := by
  unfold Spec.errorWeightedMean
  rw [div_sub' hS.ne']
  congr 1
  rw [mul_comm, mul_sum, ← sum_sub_distrib]
  exact sum_congr rfl fun i _ => by ring

/-- **C33** for a whole feature: the smoothed value of a bin of a feature declared ordered lies between the estimate for the bin and
the error-weighted mean of the estimates for the bin and its neighbours. A bin gets no value, i.e. the neutral factor, if these
estimates are all the same, and if it has no weight (with regression types). -/
theorem C33_ordered_feature (O : OpenSmoothers) (c : Choice) (hc : c.kind ≠ .noSmoother) (props : Option (List (String × ℕ)))
    (name : String) (hexp : Spec.NoExplicit c [name]) (fp : ℕ)
    (hfp : readFeatureProperty props [name] Flags.HAS_MISSING = [fp])
    (h0 : fp.testBit 0 = false) (h1 : fp.testBit 1 = true) (h8 : fp.testBit 8 = false) (h9 : fp.testBit 9 = false) :
    ∃ k, smootherForGroup c props [name] = .ok k ∧
      ∀ (n : ℕ), 3 ≤ n → ∀ (w u v : ℕ → ℝ), (∀ b < n, 0 < u b) → ∀ b < n,
        ((c.useRegressionType = true ∧ w b = 0) ∨ (∀ j ∈ Spec.window n b, v j = v b) →
          smoothAtCentres (packageSmoothers O) k [n] w u v b = none) ∧
        (¬ (c.useRegressionType = true ∧ w b = 0) → (∃ j ∈ Spec.window n b, v j ≠ v b) →
          ∃ r, smoothAtCentres (packageSmoothers O) k [n] w u v b = some r ∧
            LiesBetween (v b) (Spec.errorWeightedMean (Spec.window n b) v u) r) := by
  have hrep : ¬ Spec.Unreportable fp := fun h => by have := h.1; unfold Spec.NoOrderFlag at this; simp [h1] at this
  have hdef : Spec.defaultSmoother c.useNormalization fp = .weightedMeanNeighbors := by
    unfold Spec.defaultSmoother; simp [h0, h1, h8, h9]
  have hreg : regTypeSingle fp = .discontinuous := by
    unfold regTypeSingle
    rw [show Flags.isSet fp Flags.IS_LINEAR = fp.testBit 8 from Flags.isSet_bit fp 8,
      show Flags.isSet fp Flags.IS_SEASONAL = fp.testBit 9 from Flags.isSet_bit fp 9,
      show Flags.isSet fp Flags.IS_CONTINUOUS = fp.testBit 0 from Flags.isSet_bit fp 0, h8, h9, h0]
    rfl
  have hch := column_choice c hc props name hexp fp hfp hrep
  rw [hdef, hreg] at hch
  refine ⟨_, hch, fun n hn w u v hu b hb => ?_⟩
  set c₀ := pullTarget c.useNormalization [n].prod w v with hc₀
  set X := smootherTable [n] w u with hX
  set y := (List.range [n].prod).map fun i => v i - c₀ with hyd
  have hylen : y.length = n := by rw [hyd, List.length_map, List.length_range, List.prod_singleton]
  have hnan := C33_neighbors_nan n hn (fun i => v i - c₀) u hu b hb
  have hfin := C33_neighbors n hn (fun i => v i - c₀) u hu b hb
  have hcongr : regularizeToMeanNeighbors n (column y) (uncColumn X) b = regularizeToMeanNeighbors n (fun i => v i - c₀) u b := by
    have hyc : ∀ i < n, column y i = v i - c₀ := fun i hi => column_map_range _ _ i (by simpa using hi)
    have huc : ∀ i < n, uncColumn X i = u i := fun i hi => table_unc_column [n] w u i (by simpa using hi)
    unfold regularizeToMeanNeighbors windowSum
    have hn3 : ¬ n < 3 := by omega
    simp only [if_neg hn3]
    have hs : ∀ (f g : ℕ → ℝ → ℝ → ℝ), (∀ j, f j = g j) → ∑ j ∈ (range n).filter (fun j => j ≤ b + 1 ∧ b ≤ j + 1),
        f j (column y j) (uncColumn X j) = ∑ j ∈ (range n).filter (fun j => j ≤ b + 1 ∧ b ≤ j + 1), g j (v j - c₀) (u j) := by
      intro f g hfg
      refine sum_congr rfl fun j hj => ?_
      have hj := mem_range.mp (mem_filter.mp hj).1
      rw [hfg j, hyc j hj, huc j hj]
    have s1 := hs (fun _ _ a => if 0 < a then 1 / a ^ 2 else 0) _ (fun _ => rfl)
    have s2 := hs (fun _ z a => (if 0 < a then 1 / a ^ 2 else 0) * z) _ (fun _ => rfl)
    have s3 : ∀ q : ℝ, _ = _ := fun q => hs (fun _ z a => (if 0 < a then 1 / a ^ 2 else 0) * (z - q) ^ 2) _ (fun _ => rfl)
    rw [s1, s2, s3, hyc b hb, huc b hb]
  have hpred : ((packageSmoothers O .weightedMeanNeighbors).predict ((packageSmoothers O .weightedMeanNeighbors).fit X y)
      ((arangeMulti [n]).map fun c => c.map fun (i : ℕ) => Flt.fin (i : ℝ)))[b]?
      = some (regularizeToMeanNeighbors n (fun i => v i - c₀) u b) := by
    show (((arangeMulti [n]).map fun c => c.map fun (i : ℕ) => Flt.fin (i : ℝ)).map (lookupOneDim ((List.range y.length).map
      (if y.length < 3 then regularizeToMeanFlt y.length (column y) (uncColumn X) none
      else regularizeToMeanNeighbors y.length (column y) (uncColumn X)))))[b]? = _
    rw [hylen, if_neg (by omega), List.getElem?_map, centreRows_getElem? [n] b (by simpa using hb), digits_one n b hb, Option.map_some]
    rw [← hcongr]
    simp only [List.map_cons, List.map_nil]
    rw [lookupOneDim_centre, getD_range_map _ _ _ _ hb]
  have hres := meta_centre_eq (packageSmoothers O) .weightedMeanNeighbors (fun _ _ _ => rfl) c.useNormalization
    (if c.useRegressionType then some .discontinuous else none) [n] (by simp) w u v b (by simpa using hb) _ hpred
  have hcond : ((if c.useRegressionType then some RegType.discontinuous else none) = some .discontinuous ∧ w b = 0)
      ↔ (c.useRegressionType = true ∧ w b = 0) := by
    cases c.useRegressionType <;> simp
  rw [hres, if_congr hcond rfl rfl]
  refine ⟨fun h => ?_, fun h hvar => ?_⟩
  · rcases h with h | h
    · rw [if_pos h]
    · rw [hnan fun j hj => by rw [h j hj]]
      split_ifs <;> rfl
  · rw [if_neg h]
    obtain ⟨j, hj, hne⟩ := hvar
    have hmem : b ∈ Spec.window n b := by simp [Spec.window, hb]
    obtain ⟨r, hr, hlo, hhi⟩ := hfin ⟨j, hj, b, hmem, fun he => hne (by linarith)⟩
    have hS : 0 < ∑ i ∈ Spec.window n b, 1 / u i ^ 2 :=
      sum_pos (fun i hi => div_pos one_pos (pow_pos (hu i (mem_range.mp (mem_filter.mp hi).1)) 2)) ⟨b, hmem⟩
    rw [errorWeightedMean_shift _ v u hS] at hlo hhi
    refine ⟨r + c₀, by rw [hr]; rfl, ?_, ?_⟩
    · rw [min_sub_sub_right] at hlo; linarith
    · rw [max_sub_sub_right] at hhi; linarith

/-- Witness for C70 and C33: default settings, a continuous column "a" and an ordered column "b". -/
example : smootherForGroup ⟨.weightedMean, true, true, []⟩ (some [("a", Flags.IS_CONTINUOUS), ("b", Flags.IS_ORDERED)]) ["a"]
      = .ok (.normalizationRegressionType .orthogonalPolynomial .interpolating) ∧
    smootherForGroup ⟨.weightedMean, true, true, []⟩ (some [("a", Flags.IS_CONTINUOUS), ("b", Flags.IS_ORDERED)]) ["b"]
      = .ok (.normalizationRegressionType .weightedMeanNeighbors .discontinuous) ∧
    (Nat.testBit Flags.IS_CONTINUOUS 0 = true ∧ Nat.testBit Flags.IS_CONTINUOUS 3 = false ∧ Nat.testBit Flags.IS_CONTINUOUS 8 = false ∧
      Nat.testBit Flags.IS_CONTINUOUS 9 = false) ∧
    (Nat.testBit Flags.IS_ORDERED 0 = false ∧ Nat.testBit Flags.IS_ORDERED 1 = true ∧ Nat.testBit Flags.IS_ORDERED 8 = false ∧
      Nat.testBit Flags.IS_ORDERED 9 = false) := ⟨rfl, rfl, by decide, by decide⟩

end CB
