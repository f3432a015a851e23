import Verif.Spec.QpdUnits
import Verif.Props.QpdExtended
import Verif.Props.QpdSemibounded
import Verif.Props.QpdBounded
import Mathlib.Data.List.GetD

/-!
# C109: quantile-parameterised distributions change units with their quantiles
-/

set_option autoImplicit false
set_option linter.unusedSectionVars false

namespace CB
open Spec

attribute [local irreducible] shapeLevels

section
variable (a b : ℝ) (hb : 0 < b)
include hb

theorem sign_scale (x : ℝ) : Real.sign (b * x) = Real.sign x := by
  rcases lt_trichotomy x 0 with h | h | h
  · rw [Real.sign_of_neg h, Real.sign_of_neg (mul_neg_of_pos_of_neg hb h)]
  · rw [h, mul_zero]
  · rw [Real.sign_of_pos h, Real.sign_of_pos (mul_pos hb h)]

theorem crossing_scale (low med high : ℝ) :
    sptCrossing (a + b * low) (a + b * med) (a + b * high) = sptCrossing low med high := by
  unfold sptCrossing
  have h : ∀ x y : ℝ, a + b * x < a + b * y ↔ x < y := fun x y => by
    rw [add_lt_add_iff_left, mul_lt_mul_iff_right₀ hb]
  simp only [gt_iff_lt, h]

theorem unconstrained_scale (L B H : ℝ) : unconstrainedCalc (a + b * L) (a + b * B) (a + b * H)
    = (unconstrainedCalc L B H).map fun j => { j with xi := a + b * j.xi, kappa := b * j.kappa } := by
  unfold unconstrainedCalc
  have e1 : a + b * L + (a + b * H) - 2 * (a + b * B) = b * (L + H - 2 * B) := by ring
  have e2 : ∀ x y : ℝ, a + b * x - (a + b * y) = b * (x - y) := fun x y => by ring
  have e3 : ∀ x y : ℝ, b * x / (b * y) = x / y := fun x y => mul_div_mul_left x y hb.ne'
  simp only [e1, sign_scale b hb, e2, e3]
  split_ifs <;> simp [mul_div_assoc]

omit hb in
theorem quantile_scale (j : Johnson) (phi : Base) (alpha p : ℝ) :
    Johnson.quantile { j with xi := a + b * j.xi, kappa := b * j.kappa } phi alpha p = a + b * j.quantile phi alpha p := by
  unfold Johnson.quantile
  ring

theorem prob_scale (j : Johnson) (phi : Base) (alpha z : ℝ) :
    Johnson.prob { j with xi := a + b * j.xi, kappa := b * j.kappa } phi alpha (a + b * z) = j.prob phi alpha z := by
  unfold Johnson.prob
  rw [show a + b * z - (a + b * j.xi) = b * (z - j.xi) by ring, mul_div_mul_left _ _ hb.ne']

/-- In internal space a change of units is a change of units again. -/
theorem internal_scale (r : Range) : ∃ A C : ℝ, 0 < C ∧
    (∀ x, Inside r x → (rangeInUnits a b r).toInternal (a + b * x) = A + C * r.toInternal x) ∧
    ∀ z, (rangeInUnits a b r).toPhysical (A + C * z) = a + b * r.toPhysical z := by
  cases r with
  | U => exact ⟨a, b, hb, fun _ _ => rfl, fun _ => rfl⟩
  | S l =>
    refine ⟨Real.log b, 1, one_pos, fun x hx => ?_, fun z => ?_⟩
    · have hx' : 0 < x - l := sub_pos.mpr hx
      simp only [rangeInUnits, Range.toInternal, transformFromSemiboundLower, nudgeZero]
      rw [show a + b * x - (a + b * l) = b * (x - l) by ring, if_neg (mul_pos hb hx').ne', if_neg hx'.ne',
        Real.log_mul hb.ne' hx'.ne', one_mul]
    · simp only [rangeInUnits, Range.toPhysical, backTransformInSemiboundLower]
      rw [Real.exp_add, Real.exp_log hb]
      ring_nf
  | B l u =>
    refine ⟨0, 1, one_pos, fun x _ => ?_, fun z => ?_⟩
    · simp only [rangeInUnits, Range.toInternal, transformFromBounds]
      rw [show a + b * x - (a + b * l) = b * (x - l) by ring, show a + b * u - (a + b * l) = b * (u - l) by ring,
        mul_div_mul_left _ _ hb.ne', zero_add, one_mul]
    · simp only [rangeInUnits, Range.toPhysical, backTransformInBounds]
      rw [zero_add, one_mul]
      ring

theorem extended_scale (r : Range) (low med high : ℝ) (A C : ℝ) (hC : 0 < C)
    (h1 : ∀ x, Inside r x → (rangeInUnits a b r).toInternal (a + b * x) = A + C * r.toInternal x)
    (hl : Inside r low) (hm : Inside r med) (hh : Inside r high) :
    mkExtended (rangeInUnits a b r) (a + b * low) (a + b * med) (a + b * high)
      = (mkExtended r low med high).map fun j => j.map fun j => { j with xi := A + C * j.xi, kappa := C * j.kappa } := by
  unfold mkExtended
  rw [crossing_scale a b hb, h1 low hl, h1 med hm, h1 high hh, unconstrained_scale A C hC]
  cases sptCrossing low med high <;> rfl

/-- **C109.** Extended classes: if location and unit of the triplet and of the bounds change, so do those of the distribution. -/
theorem C109_extended (r : Range) (low med high : ℝ) (hl : Inside r low) (hm : Inside r med) (hh : Inside r high) :
    (∀ e, mkExtended r low med high = .error e →
      mkExtended (rangeInUnits a b r) (a + b * low) (a + b * med) (a + b * high) = .error e) ∧
    (mkExtended r low med high = .ok none →
      mkExtended (rangeInUnits a b r) (a + b * low) (a + b * med) (a + b * high) = .ok none) ∧
    ∀ j, mkExtended r low med high = .ok (some j) →
      ∃ j', mkExtended (rangeInUnits a b r) (a + b * low) (a + b * med) (a + b * high) = .ok (some j') ∧
        ∀ (phi : Base) (alpha : ℝ),
          (∀ p, extendedPpf (rangeInUnits a b r) j' phi alpha p = a + b * extendedPpf r j phi alpha p) ∧
          ∀ x, Inside r x → extendedCdf (rangeInUnits a b r) j' phi alpha (a + b * x) = extendedCdf r j phi alpha x := by
  obtain ⟨A, C, hC, h1, h2⟩ := internal_scale a b hb r
  rw [extended_scale a b hb r low med high A C hC h1 hl hm hh]
  refine ⟨fun e h => by rw [h]; rfl, fun h => by rw [h]; rfl, fun j h => ?_⟩
  rw [h]
  refine ⟨_, rfl, fun phi alpha => ⟨fun p => ?_, fun x hx => ?_⟩⟩
  · unfold extendedPpf
    rw [quantile_scale, h2]
  · unfold extendedCdf
    rw [h1 x hx, prob_scale A C hC]

theorem jqpdb_scale (phi : Base) (alpha low med high l u : ℝ) :
    mkJQPDB phi alpha (a + b * low) (a + b * med) (a + b * high) (a + b * l) (a + b * u)
      = (mkJQPDB phi alpha low med high l u).map fun d => { d with l := a + b * d.l, u := a + b * d.u } := by
  have e1 : ∀ x y : ℝ, a + b * x - (a + b * y) = b * (x - y) := fun x y => by ring
  have e2 : ∀ x y : ℝ, b * x / (b * y) = x / y := fun x y => mul_div_mul_left x y hb.ne'
  unfold mkJQPDB
  simp only [crossing_scale a b hb, e1, e2]
  cases sptCrossing low med high <;> rfl

/-- **C109.** `J_QPD_B`: the same. -/
theorem C109_bounded (phi : Base) (alpha low med high l u : ℝ) :
    (∀ e, mkJQPDB phi alpha low med high l u = .error e →
      mkJQPDB phi alpha (a + b * low) (a + b * med) (a + b * high) (a + b * l) (a + b * u) = .error e) ∧
    ∀ d, mkJQPDB phi alpha low med high l u = .ok d →
      ∃ d', mkJQPDB phi alpha (a + b * low) (a + b * med) (a + b * high) (a + b * l) (a + b * u) = .ok d' ∧
        SameUpToUnits a b (d.ppf phi) (d.cdf phi) (d'.ppf phi) (d'.cdf phi) := by
  have e1 : ∀ x y : ℝ, a + b * x - (a + b * y) = b * (x - y) := fun x y => by ring
  have e2 : ∀ x y : ℝ, b * x / (b * y) = x / y := fun x y => mul_div_mul_left x y hb.ne'
  rw [jqpdb_scale a b hb]
  refine ⟨fun e h => by rw [h]; rfl, fun d h => ?_⟩
  rw [h]
  refine ⟨_, rfl, fun p => ?_, fun x => ?_⟩
  · unfold JQPDB.ppf JQPDB.degenerate
    dsimp only
    split_ifs
    · rfl
    · simp only [Option.map_some, Option.some.injEq]
      ring
  · unfold JQPDB.cdf JQPDB.degenerate
    dsimp only
    rw [e1, e1, e2]

theorem jqpds_scale (phi : Base) (alpha low med high l : ℝ) (hl : l < low) (hm : l < med) (hh : l < high) :
    mkJQPDS phi alpha (a + b * low) (a + b * med) (a + b * high) (a + b * l)
      = (mkJQPDS phi alpha low med high l).map fun d => { d with
          l := a + b * d.l, L := Real.log b + d.L, H := Real.log b + d.H, B := Real.log b + d.B, theta := b * d.theta } := by
  have e1 : ∀ x y : ℝ, a + b * x - (a + b * y) = b * (x - y) := fun x y => by ring
  have g : ∀ x : ℝ, l < x → Real.log (b * (x - l)) = Real.log b + Real.log (x - l) := fun x hx =>
    Real.log_mul hb.ne' (sub_pos.mpr hx).ne'
  have e3 : ∀ x y z c : ℝ, c + x + (c + y) - 2 * (c + z) = x + y - 2 * z := fun x y z c => by ring
  have e4 : ∀ x y c : ℝ, c + x - (c + y) = x - y := fun x y c => by ring
  unfold mkJQPDS
  simp only [crossing_scale a b hb, e1, g low hl, g med hm, g high hh, e3, e4]
  cases sptCrossing low med high
  · simp only [Bool.false_eq_true, if_false, Except.map, mul_ite]
  · rfl

/-- **C109.** `J_QPD_S`: the same, for triplets above the bound. -/
theorem C109_semibounded (phi : Base) (alpha low med high l : ℝ) (hl : l < low) (hm : l < med) (hh : l < high) :
    (∀ e, mkJQPDS phi alpha low med high l = .error e →
      mkJQPDS phi alpha (a + b * low) (a + b * med) (a + b * high) (a + b * l) = .error e) ∧
    ∀ d, mkJQPDS phi alpha low med high l = .ok d →
      ∃ d', mkJQPDS phi alpha (a + b * low) (a + b * med) (a + b * high) (a + b * l) = .ok d' ∧
        SameUpToUnits a b (d.ppf phi) (d.cdf phi) (d'.ppf phi) (d'.cdf phi) := by
  have e1 : ∀ x y : ℝ, a + b * x - (a + b * y) = b * (x - y) := fun x y => by ring
  have e2 : ∀ x y : ℝ, b * x / (b * y) = x / y := fun x y => mul_div_mul_left x y hb.ne'
  have e4 : ∀ x y c : ℝ, c + x - (c + y) = x - y := fun x y c => by ring
  rw [jqpds_scale a b hb phi alpha low med high l hl hm hh]
  refine ⟨fun e h => by rw [h]; rfl, fun d h => ?_⟩
  rw [h]
  refine ⟨_, rfl, fun p => ?_, fun x => ?_⟩
  · unfold JQPDS.ppf JQPDS.degenerate
    simp only [e4]
    split_ifs
    · rfl
    · simp only [Option.map_some, Option.some.injEq]
      ring
  · unfold JQPDS.cdf JQPDS.degenerate
    simp only [e1, e2, e4]
    split_ifs <;> rfl

/-! ### Empirical quantiles and the shape -/

theorem sorted_scale (y : List ℝ) : sortedValues (y.map fun x => a + b * x) = (sortedValues y).map fun x => a + b * x := by
  unfold sortedValues
  refine (List.map_insertionSort (r := (· ≤ ·)) (s := (· ≤ ·)) (fun x => a + b * x) y fun x _ z _ => ?_).symm
  constructor
  · intro h; have := mul_le_mul_of_nonneg_left h hb.le; linarith
  · intro h; exact le_of_mul_le_mul_left (by linarith) hb

omit hb in
theorem sortedValues_length (y : List ℝ) : (sortedValues y).length = y.length := (List.perm_insertionSort _ y).length_eq

omit hb in
theorem getD_scale (l : List ℝ) (k : ℕ) (hk : k < l.length) (d d' : ℝ) : (l.map fun x => a + b * x).getD k d' = a + b * l.getD k d := by
  rw [List.getD_eq_getElem _ _ (by simpa using hk), List.getD_eq_getElem _ _ hk, List.getElem_map]

theorem npQuantile_scale (y : List ℝ) (hy : y ≠ []) (p : ℝ) (h0 : 0 ≤ p) (h1 : p ≤ 1) :
    npQuantile (y.map fun x => a + b * x) p = a + b * npQuantile y p := by
  unfold npQuantile
  rw [sorted_scale a b hb]
  unfold interpolatedQuantile
  dsimp only
  rw [List.length_map]
  set x := sortedValues y with hx
  have hlen : 0 < x.length := by rw [hx, sortedValues_length]; exact List.length_pos_of_ne_nil hy
  set pos := p * ((x.length - 1 : ℕ) : ℝ) with hpos
  have hp0 : 0 ≤ pos := mul_nonneg h0 (Nat.cast_nonneg _)
  have hp1 : pos ≤ ((x.length - 1 : ℕ) : ℝ) := mul_le_of_le_one_left (Nat.cast_nonneg _) h1
  have hlow : ⌊pos⌋.toNat < x.length := by
    have : ⌊pos⌋ ≤ ((x.length - 1 : ℕ) : ℤ) := by
      rw [← Int.floor_natCast (R := ℝ)]
      exact Int.floor_le_floor hp1
    omega
  rw [getD_scale a b x _ hlow 0 0]
  by_cases hn : ⌊pos⌋.toNat + 1 < x.length
  · rw [getD_scale a b x _ hn (x.getD ⌊pos⌋.toNat 0) _]
    ring
  · have g1 : ∀ d, (x.map fun x => a + b * x).getD (⌊pos⌋.toNat + 1) d = d := fun d =>
      List.getD_eq_default _ _ (by simpa using hn)
    have g2 : ∀ d, x.getD (⌊pos⌋.toNat + 1) d = d := fun d => List.getD_eq_default _ _ (by simpa using hn)
    rw [g1, g2]
    ring

theorem mQuantile_scale (y : List ℝ) (hy : y ≠ []) (p : ℝ) : mQuantile (y.map fun x => a + b * x) p = a + b * mQuantile y p := by
  unfold mQuantile
  dsimp only
  rw [sorted_scale a b hb, List.length_map]
  have hlen := sortedValues_length y
  have hpos : 0 < y.length := List.length_pos_of_ne_nil hy
  split_ifs with h
  · exact getD_scale a b _ _ (by omega) 0 0
  · set k := ⌊min (max (↑y.length * p + (0.4 + p * (1 - 0.4 - 0.4))) 1) ((y.length : ℝ) - 1)⌋.toNat with hk
    have hkl : k < y.length := by
      have h1 : ⌊min (max (↑y.length * p + (0.4 + p * (1 - 0.4 - 0.4))) 1) ((y.length : ℝ) - 1)⌋ ≤ ((y.length - 1 : ℕ) : ℤ) := by
        rw [← Int.floor_natCast (R := ℝ)]
        refine Int.floor_le_floor ((min_le_right _ _).trans ?_)
        rw [Nat.cast_sub hpos, Nat.cast_one]
      omega
    rw [getD_scale a b _ (k - 1) (by omega) 0 0, getD_scale a b _ k (by omega) 0 0]
    ring

/-- **C109.** The empirical quantiles change units with the observations. -/
theorem C109_empirical (y : List ℝ) (hy : y ≠ []) (p : ℝ) (h0 : 0 ≤ p) (h1 : p ≤ 1) :
    npQuantile (y.map fun x => a + b * x) p = a + b * npQuantile y p ∧
      mQuantile (y.map fun x => a + b * x) p = a + b * mQuantile y p :=
  ⟨npQuantile_scale a b hb y hy p h0 h1, mQuantile_scale a b hb y hy p⟩

omit hb in
theorem shapeRange_mode (bound : String) (l u : ℝ) (r : Range) (h : IsModeOf bound l u r) : shapeRange bound l u = some r := by
  rcases h with ⟨rfl, rfl⟩ | ⟨rfl, rfl⟩ | ⟨rfl, rfl⟩ <;> simp [shapeRange]

omit hb in
theorem mode_shapeRange (bound : String) (l u : ℝ) (r : Range) (h : shapeRange bound l u = some r) : IsModeOf bound l u r := by
  unfold shapeRange at h
  split_ifs at h with h1 h2 h3
  · exact .inl ⟨h1, (Option.some.inj h).symm⟩
  · exact .inr (.inl ⟨h2, (Option.some.inj h).symm⟩)
  · exact .inr (.inr ⟨h3, (Option.some.inj h).symm⟩)

omit hb in
theorem smallestAt_scale (c : ℝ) (hc : 0 < c) (f : ℝ → Option ℝ) : smallestAt (fun s => (f s).map (c * ·)) = smallestAt f := by
  ext s
  unfold smallestAt
  simp only [Set.mem_setOf_eq, Option.map_eq_some_iff]
  constructor
  · rintro ⟨v, ⟨v', h1, rfl⟩, h2⟩
    exact ⟨v', h1, fun t w hw => le_of_mul_le_mul_left (h2 t (c * w) ⟨w, hw, rfl⟩) hc⟩
  · rintro ⟨v, h1, h2⟩
    refine ⟨c * v, ⟨v, h1, rfl⟩, fun t w hw => ?_⟩
    obtain ⟨w', h3, rfl⟩ := hw
    exact mul_le_mul_of_nonneg_left (h2 t w' h3) hc.le

/-- **C109.** The fitted shape does not depend on location and unit of the observations, as long as the three empirical quantiles are
inside the range. -/
theorem C109_shape_units (minimize : (ℝ → Option ℝ) → ℝ) (hmin : IsMinimizer minimize) (alpha l u : ℝ) (h0 : 0 ≤ alpha)
    (h1 : alpha ≤ 1) (bound : String) (y : List ℝ) (hy : y ≠ [])
    (hin : ∀ r, IsModeOf bound l u r →
      Inside r (npQuantile y alpha) ∧ Inside r (npQuantile y 0.5) ∧ Inside r (npQuantile y (1 - alpha))) :
    fitSinhlogisticShape minimize alpha (a + b * l) (a + b * u) bound (y.map fun x => a + b * x)
      = fitSinhlogisticShape minimize alpha l u bound y := by
  have hr' : shapeRange bound (a + b * l) (a + b * u) = (shapeRange bound l u).map (rangeInUnits a b) := by
    unfold shapeRange
    split_ifs <;> rfl
  unfold fitSinhlogisticShape
  rw [hr', npQuantile_scale a b hb y hy alpha h0 h1, npQuantile_scale a b hb y hy 0.5 (by norm_num) (by norm_num),
    npQuantile_scale a b hb y hy (1 - alpha) (by linarith) (by linarith)]
  cases hr : shapeRange bound l u with
  | none => rfl
  | some r =>
    obtain ⟨i1, i2, i3⟩ := hin r (mode_shapeRange bound l u r hr)
    obtain ⟨k1, k2, k3⟩ := C109_extended a b hb r _ _ _ i1 i2 i3
    simp only [Option.map_some]
    cases hm : mkExtended r (npQuantile y alpha) (npQuantile y 0.5) (npQuantile y (1 - alpha)) with
    | error e => rw [k1 e hm]
    | ok j =>
      obtain ⟨pick, -, hpick⟩ := hmin
      cases j with
      | none =>
        rw [k2 hm]
        simp only [hpick]
        have e : ∀ r q, shapeDeviation r none alpha q = fun _ => none := fun r q => rfl
        rw [e, e]
      | some j =>
        obtain ⟨j', hj', hpp⟩ := k3 j hm
        rw [hj']
        simp only [hpick]
        congr 2
        rw [← smallestAt_scale b hb (shapeDeviation r (some j) alpha (mQuantile y))]
        congr 1
        funext t
        unfold shapeDeviation
        simp only [Option.map_some, Option.some.injEq]
        rw [← mul_div_assoc, ← List.sum_map_mul_left]
        refine congrArg (· / _) (congrArg List.sum (List.map_congr_left fun p _ => ?_))
        rw [mQuantile_scale a b hb y hy, (hpp (sinhLogistic t) alpha).1,
          show a + b * mQuantile y p - (a + b * extendedPpf r j (sinhLogistic t) alpha p)
            = b * (mQuantile y p - extendedPpf r j (sinhLogistic t) alpha p) by ring, abs_mul, abs_of_pos hb]

end

theorem exists_isMinimizer : ∃ minimize, IsMinimizer minimize := by
  classical
  exact ⟨fun f => if h : (smallestAt f).Nonempty then h.some else 0, fun s => if h : s.Nonempty then h.some else 0,
    fun s h => by beta_reduce; rw [dif_pos h]; exact h.some_mem, fun f => rfl⟩

theorem quantileDistance_eq (r : Range) (j : Johnson) (alpha : ℝ) (y : List ℝ) (s : ℝ) :
    quantileDistance r j alpha y s =
      (shapeLevels.map fun p => |mQuantile y p - extendedPpf r j (sinhLogistic s) alpha p|).sum := by
  unfold quantileDistance shapeLevels
  rw [List.map_map]
  generalize (999 : ℕ) = n
  induction n with
  | zero => rfl
  | succ n ih =>
    rw [Finset.sum_range_succ, List.range_succ, List.map_append, List.sum_append, ih]
    simp only [List.map_cons, List.map_nil, List.sum_cons, List.sum_nil, add_zero, Function.comp_apply]
    have e : (2 * (n : ℝ) + 1) / 2000 = 0.0005 + n * 0.001 := by norm_num; ring
    rw [e]

/-- **C109.** If some shape is closest to the observations (in the mean absolute deviation of the quantiles), a closest shape is
returned. -/
theorem C109_shape_best (minimize : (ℝ → Option ℝ) → ℝ) (hmin : IsMinimizer minimize) (alpha l u : ℝ) (bound : String) (r : Range)
    (hr : IsModeOf bound l u r) (y : List ℝ) (j : Johnson)
    (hj : mkExtended r (npQuantile y alpha) (npQuantile y 0.5) (npQuantile y (1 - alpha)) = .ok (some j))
    (s : ℝ) (hs : ∀ t, quantileDistance r j alpha y s ≤ quantileDistance r j alpha y t) : ∃ s',
    fitSinhlogisticShape minimize alpha l u bound y = .ok s' ∧
      ∀ t, quantileDistance r j alpha y s' ≤ quantileDistance r j alpha y t := by
  simp only [quantileDistance_eq] at hs ⊢
  replace hr := shapeRange_mode bound l u r hr
  have hN : (0 : ℝ) < shapeLevels.length := by unfold shapeLevels; rw [List.length_map, List.length_range]; norm_num
  obtain ⟨pick, h1, h2⟩ := hmin
  have hne : (smallestAt (shapeDeviation r (some j) alpha (mQuantile y))).Nonempty := by
    refine ⟨s, _, rfl, fun t w hw => ?_⟩
    simp only [shapeDeviation, Option.map_some, Option.some.injEq] at hw
    rw [← hw]
    exact div_le_div_of_nonneg_right (hs t) hN.le
  refine ⟨pick (smallestAt (shapeDeviation r (some j) alpha (mQuantile y))), ?_, fun t => ?_⟩
  · unfold fitSinhlogisticShape
    rw [hr]
    simp only [hj, h2]
  · obtain ⟨v, hv, hle⟩ := h1 _ hne
    have := hle t _ rfl
    simp only [shapeDeviation, Option.map_some, Option.some.injEq] at hv
    rw [← hv] at this
    exact (div_le_div_iff_of_pos_right hN).mp this

/-- **C109.** Exactly the modes "S", "B" and "U" are accepted. -/
theorem C109_modes (minimize : (ℝ → Option ℝ) → ℝ) (alpha l u : ℝ) (bound : String) (y : List ℝ)
    (h : bound ≠ "S" ∧ bound ≠ "B" ∧ bound ≠ "U") :
    fitSinhlogisticShape minimize alpha l u bound y = .error "Exception: Invalid version." := by
  unfold fitSinhlogisticShape shapeRange
  rw [if_neg h.1, if_neg h.2.1, if_neg h.2.2]

/-- **C109.** At the bound the claim fails: a lower quantile equal to the lower bound is replaced by a fixed distance of 1e-12 from the
bound, in all units. Here the upper quantiles are one thousandth in the second unit, but the lower quantile of the distribution stays
the same. -/
theorem C109_at_the_bound (phi : Base) (h : SymmetricBase phi) (alpha : ℝ) (ha0 : 0 < alpha) (ha1 : alpha < 1 / 2) (b : ℝ) (hb : b = 1 ∨ b = 1 / 1000) :
    ∃ j, mkExtended (.S 0) (b * 0) (b * 1) (b * 2) = .ok (some j) ∧ extendedPpf (.S 0) j phi alpha alpha = 1e-12 := by
  have hb0 : 0 < b := by rcases hb with rfl | rfl <;> norm_num
  have hb1 : (1e-12 : ℝ) < b := by rcases hb with rfl | rfl <;> norm_num
  have hlow : (Range.S 0).toInternal (b * 0) = (Range.S 0).toInternal 1e-12 := by
    simp [Range.toInternal, transformFromSemiboundLower, nudgeZero]
  obtain ⟨j, h1, h2, -⟩ := C40_extended_partial phi h (.S 0) alpha 1e-12 (b * 1) (b * 2) ha0 ha1 (by norm_num [Inside])
    (by simpa [Inside] using hb0) (by simpa [Inside] using hb0) (by linarith) (by linarith) (by
      intro hc
      have e : ∀ x : ℝ, 0 < x → (Range.S 0).toInternal x = Real.log x := fun x hx => by
        simp [Range.toInternal, transformFromSemiboundLower, nudgeZero, hx.ne']
      rw [e _ (by norm_num), e _ (by linarith), e _ (by linarith), ← Real.log_mul (by norm_num) (by positivity),
        show (2 : ℝ) * Real.log (b * 1) = Real.log ((b * 1) ^ 2) by rw [Real.log_pow]; norm_num] at hc
      have := Real.log_injOn_pos (Set.mem_Ioi.mpr (by positivity)) (Set.mem_Ioi.mpr (by positivity)) hc
      rcases hb with rfl | rfl <;> norm_num at this)
  have hc1 : sptCrossing 1e-12 (b * 1) (b * 2) = false := by
    unfold sptCrossing
    rw [Bool.or_eq_false_iff]
    exact ⟨decide_eq_false (by linarith), decide_eq_false (by linarith)⟩
  have hc2 : sptCrossing (b * 0) (b * 1) (b * 2) = false := by
    unfold sptCrossing
    rw [Bool.or_eq_false_iff]
    exact ⟨decide_eq_false (by linarith), decide_eq_false (by linarith)⟩
  refine ⟨j, ?_, by simpa using h2.1⟩
  rw [← h1]
  unfold mkExtended
  rw [hc1, hc2, hlow]

/-- Witness for C109: degrees Celsius to Fahrenheit; the fitted shape is the same in both. -/
example (minimize : (ℝ → Option ℝ) → ℝ) (hmin : IsMinimizer minimize) :
    fitSinhlogisticShape minimize (1 / 4) 0 0 "U" [32 + 1.8 * 10, 32 + 1.8 * 20, 32 + 1.8 * 35]
      = fitSinhlogisticShape minimize (1 / 4) 0 0 "U" [10, 20, 35] := by
  have := C109_shape_units 32 1.8 (by norm_num) minimize hmin (1 / 4) 0 0 (by norm_num) (by norm_num) "U" [10, 20, 35] (by simp)
    (fun r hr => by
      rcases hr with ⟨h, -⟩ | ⟨h, -⟩ | ⟨-, rfl⟩
      · exact absurd h (by decide)
      · exact absurd h (by decide)
      · exact ⟨trivial, trivial, trivial⟩)
  rw [← this]
  rfl

/-- Witness for `C109_shape_best`: constant observations, for which all shapes are equally close. -/
example (minimize : (ℝ → Option ℝ) → ℝ) (hmin : IsMinimizer minimize) :
    ∃ s, fitSinhlogisticShape minimize (1 / 4) 0 0 "U" [5, 5, 5] = .ok s := by
  have e : ∀ p : ℝ, 0 ≤ p → p ≤ 1 → npQuantile [5, 5, 5] p = 5 := by
    intro p h0 h1
    have hs : sortedValues [5, 5, 5] = [5, 5, 5] := by simp [sortedValues, List.insertionSort, List.orderedInsert]
    unfold npQuantile
    rw [hs]
    unfold interpolatedQuantile
    have hle : ⌊p * (2 : ℝ)⌋ ≤ 2 := Int.floor_le_iff.mpr (by push_cast; linarith)
    have hk : ⌊p * (2 : ℝ)⌋.toNat = 0 ∨ ⌊p * (2 : ℝ)⌋.toNat = 1 ∨ ⌊p * (2 : ℝ)⌋.toNat = 2 := by omega
    simp only [List.length_cons, List.length_nil]
    norm_num
    rcases hk with h | h | h <;> simp [h]
  obtain ⟨s, h, -⟩ := C109_shape_best minimize hmin (1 / 4) 0 0 "U" .U (.inr (.inr ⟨rfl, rfl⟩)) [5, 5, 5]
    { gamma := 0, xi := 5, kappa := 0, delta := 1 } (by
      rw [e _ (by norm_num) (by norm_num), e _ (by norm_num) (by norm_num), e _ (by norm_num) (by norm_num)]
      simp [mkExtended, sptCrossing, unconstrainedCalc, Range.toInternal]
      norm_num) 0 (fun t => by simp [quantileDistance, extendedPpf, Johnson.quantile, Range.toPhysical])
  exact ⟨s, h⟩

end CB
