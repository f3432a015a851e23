import Verif.Props.Monotone
import Verif.Props.GroupBy
import Mathlib.Analysis.InnerProductSpace.Projection.Minimal
import Mathlib.Analysis.InnerProductSpace.PiL2

/-!
# C148: monotonic smoothing changes the factors as little as possible
-/

set_option autoImplicit false
set_option linter.unusedSectionVars false

namespace CB
open Spec Finset

/-- The weighted sum of squares of the differences between the values in the data and a function. -/
def Spec.squaresOf {K : Type*} [Field K] (data : List (K × K × K)) (f : K → K) : K :=
  (data.map fun d => d.2.2 * (d.2.1 - f d.1) ^ 2).sum

/-- The documented result of `sklearn.isotonic.IsotonicRegression` with direction `inc`: from positions, values and positive weights it makes a function
in this direction; if the positions are different, there is no function in this direction with smaller weighted sum of squares. -/
def Spec.IsBestIsotonic {K : Type*} [Field K] [LinearOrder K] (inc : Bool) (regression : List (K × K × K) → K → K) : Prop :=
  ∀ data, (∀ d ∈ data, 0 < d.2.2) → (∀ x x', x ≤ x' → InOrder inc (regression data x) (regression data x')) ∧
    (data.Pairwise (fun d d' => d.1 < d'.1) → ∀ f : K → K, (∀ x x', x ≤ x' → InOrder inc (f x) (f x')) →
      Spec.squaresOf data (regression data) ≤ Spec.squaresOf data f)

section
variable {K : Type*} [Field K] [LinearOrder K] [IsStrictOrderedRing K]

theorem InOrder.sub_const (inc : Bool) {a b : K} (c : K) (h : InOrder inc a b) : InOrder inc (a - c) (b - c) := by
  unfold InOrder at *
  cases inc <;> simp_all

section
variable [FloorRing K]

/-- A function in order on `0 … n-1`, extended. -/
def extendOrder (n : ℕ) (h : ℕ → K) (x : K) : K := h (min ⌊x⌋.toNat (n - 1))

theorem extendOrder_order (inc : Bool) (n : ℕ) (hn : 0 < n) (h : ℕ → K) (hh : ∀ a b, a ≤ b → b < n → InOrder inc (h a) (h b)) (x x' : K)
    (hx : x ≤ x') : InOrder inc (extendOrder n h x) (extendOrder n h x') := by
  unfold extendOrder
  refine hh _ _ ?_ (by omega)
  have : ⌊x⌋.toNat ≤ ⌊x'⌋.toNat := Int.toNat_le_toNat (Int.floor_le_floor hx)
  omega

theorem extendOrder_nat (n : ℕ) (h : ℕ → K) (b : ℕ) (hb : b < n) : extendOrder n h (b : K) = h b := by
  unfold extendOrder
  rw [Int.floor_natCast, Int.toNat_natCast, min_eq_left (by omega)]

/-- What the isotonic smoother passes on. -/
theorem isotonic_data (reg : List (K × K × K) → K → K) (n : ℕ) (w u y : ℕ → K) :
    (isotonicSmoother reg).fit (smootherTable [n] w u) ((List.range n).map y) =
      (List.range n).map fun b : ℕ => ((b : K), y b, isotonicWeight (u b)) := by
  unfold isotonicSmoother
  dsimp only
  rw [smootherTable_eq, List.prod_singleton, List.zipWith_map, List.zipWith_self]
  refine List.map_congr_left fun b hb => ?_
  have : b < n := List.mem_range.mp hb
  simp [digits, Nat.mod_eq_of_lt this]

theorem isotonic_centres_eq (inc : Bool) (reg : List (K × K × K) → K → K)
    (base : SmootherKind → Smoother K (List (K × K × K))) (hbase : base (.isotonic (some inc)) = isotonicSmoother reg)
    (useNorm : Bool) (t : Option RegType) (ht : t = none ∨ t = some .interpolating) (n : ℕ) (w u v : ℕ → K) :
    ∃ c : K, ∀ b < n, smoothAtCentres base (metaSmoother (.isotonic (some inc)) useNorm t) [n] w u v b =
      some (reg ((List.range n).map fun b : ℕ => ((b : K), v b - c, isotonicWeight (u b))) b + c) := by
  set X := smootherTable [n] w u with hX
  have hrow0 : (arangeMulti [n]).map (fun c => c.map fun (i : ℕ) => Flt.fin (i : K))
      = (List.range n).map fun (i : ℕ) => [Flt.fin (i : K)] := by
    rw [arangeMulti_one, List.map_map]; rfl
  have hprod : [n].prod = n := by simp
  set y := (List.range n).map v with hy
  set rows : List (List (Flt K)) := (List.range n).map fun (i : ℕ) => [Flt.fin (i : K)] with hrows
  have hget : ∀ y' : List K, ∀ b < n, ((isotonicSmoother reg).predict ((isotonicSmoother reg).fit X y') rows)[b]?
      = some (.fin (reg ((isotonicSmoother reg).fit X y') (b : K))) := by
    intro y' b hb
    unfold isotonicSmoother
    simp only [hrows, List.map_map, List.getElem?_map, List.getElem?_range hb]
    rfl
  have hinfo : 0 < n → (setBinInfo X).nBins = [n] := by
    intro hn
    rw [setBinInfo_centres [n] (by simpa using hn.ne') X (smootherTable_centres [n] w u)]
  have hsel : ∀ b < n, (rows.map (selectedInterpolating (setBinInfo X).nBins))[b]? = some false := by
    intro b hb
    rw [hinfo (by omega), hrows, List.map_map, List.getElem?_map, List.getElem?_range hb]
    simp only [Option.map_some, Function.comp, not_selected n b hb]
  have hd0 : (isotonicSmoother reg).fit X y = (List.range n).map fun b : ℕ => ((b : K), v b - 0, isotonicWeight (u b)) := by
    rw [hX, hy, isotonic_data]
    simp
  have hd1 : ∀ c, (isotonicSmoother reg).fit X (y.map fun v => v - c) =
      (List.range n).map fun b : ℕ => ((b : K), v b - c, isotonicWeight (u b)) := by
    intro c
    rw [hX, hy, List.map_map, ← isotonic_data reg n w u fun b => v b - c]
    rfl
  rcases ht with rfl | rfl <;> cases useNorm
  · refine ⟨0, fun b hb => ?_⟩
    unfold smoothAtCentres metaSmoother kindPredict
    simp only [hrow0, hprod, hbase]
    rw [hget y b hb, hd0, add_zero]
  · refine ⟨calcNorm X y, fun b hb => ?_⟩
    unfold smoothAtCentres metaSmoother kindPredict normalizationSmoother
    simp only [hrow0, hprod, hbase, List.getElem?_map]
    rw [hget _ b hb, hd1]
    rfl
  · refine ⟨0, fun b hb => ?_⟩
    unfold smoothAtCentres metaSmoother kindPredict regTypePredict regTypeFit applyCut
    simp only [hrow0, hprod, hbase, List.getElem?_zipWith]
    rw [hget y b hb, hsel b hb, hd0, add_zero]
    rfl
  · refine ⟨calcNorm X y, fun b hb => ?_⟩
    unfold smoothAtCentres metaSmoother kindPredict normRegTypePredict normRegTypeFit applyCut
    simp only [hrow0, hprod, hbase, List.getElem?_zipWith, List.getElem?_map]
    have h1 := hsel b hb
    rw [List.getElem?_map] at h1
    rw [hget _ b hb, h1, hd1]
    rfl

/-- **C148.** The smoothed values of a monotonic feature with direction, whichever wrappers are chosen, are numbers in the requested order, and no other values in
this order are closer to the estimates: the weighted sum of squares is the smallest, with one over the squared uncertainty as weights. -/
theorem C148_best (inc : Bool) (reg : List (K × K × K) → K → K) (hreg : Spec.IsBestIsotonic inc reg)
    (base : SmootherKind → Smoother K (List (K × K × K))) (hbase : base (.isotonic (some inc)) = isotonicSmoother reg)
    (c : Choice) (hk : c.kind ≠ .noSmoother) (name : String) (hex : Spec.NoExplicit c [name]) (fp : ℕ) (hfp : AsksDirection inc fp)
    (kind : SmootherKind) (hkind : c.choose [name] [fp] = .ok kind) (n : ℕ) (w u v : ℕ → K) (hu : ∀ b < n, 0 < u b) :
    ∃ g : ℕ → K, (∀ b < n, smoothAtCentres base kind [n] w u v b = some (g b)) ∧ (∀ a b, a ≤ b → b < n → InOrder inc (g a) (g b)) ∧
      ∀ h : ℕ → K, (∀ a b, a ≤ b → b < n → InOrder inc (h a) (h b)) →
        ∑ b ∈ range n, (v b - g b) ^ 2 / u b ^ 2 ≤ ∑ b ∈ range n, (v b - h b) ^ 2 / u b ^ 2 := by
  obtain ⟨t, ht, hch⟩ := C73_chosen c hk name hex inc fp hfp
  rw [hkind, Except.ok.injEq] at hch
  obtain ⟨d, hd⟩ := isotonic_centres_eq inc reg base hbase c.useNormalization t ht n w u v
  set data := (List.range n).map fun b : ℕ => ((b : K), v b - d, isotonicWeight (u b)) with hdata
  have hpos : ∀ p ∈ data, 0 < p.2.2 := by
    intro p hp
    obtain ⟨b, -, rfl⟩ := List.mem_map.mp hp
    exact isotonicWeight_pos _
  have hsq : ∀ f : K → K, Spec.squaresOf data f = ∑ b ∈ range n, (v b - (f b + d)) ^ 2 / u b ^ 2 := by
    intro f
    unfold Spec.squaresOf
    rw [hdata, List.map_map, ← List.sum_toFinset _ List.nodup_range, List.toFinset_range]
    refine sum_congr rfl fun b hb => ?_
    have : isotonicWeight (u b) = 1 / (u b * u b) := by
      unfold isotonicWeight
      rw [if_pos (hu b (mem_range.mp hb))]
    dsimp only [Function.comp]
    rw [this]
    ring
  refine ⟨fun b => reg data b + d, fun b hb => by rw [hch, hd b hb], fun a b hab hb =>
    InOrder.add inc ((hreg data hpos).1 a b (by exact_mod_cast hab)) (InOrder.refl inc d), fun h hh => ?_⟩
  rcases Nat.eq_zero_or_pos n with rfl | hn
  · simp
  have hpw : data.Pairwise fun p p' => p.1 < p'.1 := by
    rw [hdata, List.pairwise_map]
    exact List.pairwise_lt_range.imp fun h => Nat.cast_lt.mpr h
  have := (hreg data hpos).2 hpw (extendOrder n fun b => h b - d) fun x x' hx =>
    extendOrder_order inc n hn _ (fun a b hab hb => InOrder.sub_const inc d (hh a b hab hb)) x x' hx
  rw [hsq, hsq] at this
  refine this.trans_eq (sum_congr rfl fun b hb => ?_)
  rw [extendOrder_nat n _ b (mem_range.mp hb), sub_add_cancel]

end

/-! ### What this means -/

section
variable (inc : Bool) (n : ℕ) (u v g : ℕ → K) (hu : ∀ b < n, 0 < u b) (ho : ∀ a b, a ≤ b → b < n → InOrder inc (g a) (g b))
  (hbest : ∀ h : ℕ → K, (∀ a b, a ≤ b → b < n → InOrder inc (h a) (h b)) →
    ∑ b ∈ range n, (v b - g b) ^ 2 / u b ^ 2 ≤ ∑ b ∈ range n, (v b - h b) ^ 2 / u b ^ 2)

include hu hbest in
/-- **C148.** Estimates that are in the requested order are not changed. -/
theorem C148_keeps (hv : ∀ a b, a ≤ b → b < n → InOrder inc (v a) (v b)) (b : ℕ) (hb : b < n) : g b = v b := by
  have h := hbest v hv
  simp only [sub_self, ne_eq, OfNat.ofNat_ne_zero, not_false_eq_true, zero_pow, zero_div, sum_const_zero] at h
  have h0 : ∀ b ∈ range n, 0 ≤ (v b - g b) ^ 2 / u b ^ 2 := fun b _ => by positivity
  have h1 := (sum_eq_zero_iff_of_nonneg h0).mp (le_antisymm h (sum_nonneg h0)) b (mem_range.mpr hb)
  have hub := hu b hb
  have h2 : (v b - g b) ^ 2 = 0 := by
    rcases div_eq_zero_iff.mp h1 with h | h
    · exact h
    · have : 0 < u b ^ 2 := by positivity
      exact absurd h this.ne'
  have := pow_eq_zero_iff (two_ne_zero) |>.mp h2
  linarith

include hu ho hbest in
/-- **C148.** The mean, with one over the squared uncertainty as weights, is kept. -/
theorem C148_mean : ∑ b ∈ range n, g b / u b ^ 2 = ∑ b ∈ range n, v b / u b ^ 2 := by
  set S := ∑ b ∈ range n, (v b - g b) / u b ^ 2 with hS
  set W := ∑ b ∈ range n, 1 / u b ^ 2 with hW
  have key : ∀ c, 0 ≤ c ^ 2 * W - 2 * c * S := by
    intro c
    have h := hbest (fun b => g b + c) fun a b hab hb => InOrder.add inc (ho a b hab hb) (InOrder.refl inc c)
    have e : ∑ b ∈ range n, (v b - (g b + c)) ^ 2 / u b ^ 2 = ∑ b ∈ range n, (v b - g b) ^ 2 / u b ^ 2 + (c ^ 2 * W - 2 * c * S) := by
      rw [hS, hW, mul_sum, mul_sum, ← sum_sub_distrib, ← sum_add_distrib]
      refine sum_congr rfl fun b _ => ?_
      ring
    linarith
  have hS0 : S = 0 := by
    rcases Nat.eq_zero_or_pos n with rfl | hn
    · simp [hS]
    have hWpos : 0 < W := sum_pos (fun b hb => by have := hu b (mem_range.mp hb); positivity) ⟨0, mem_range.mpr hn⟩
    have h := key (S / W)
    have e : (S / W) ^ 2 * W - 2 * (S / W) * S = -(S ^ 2 / W) := by field_simp; ring
    rw [e] at h
    have h2 : S ^ 2 / W ≤ 0 := by linarith
    have h3 : S ^ 2 ≤ 0 := by
      by_contra h4
      push Not at h4
      exact absurd h2 (not_le.mpr (div_pos h4 hWpos))
    exact pow_eq_zero_iff (two_ne_zero) |>.mp (le_antisymm h3 (sq_nonneg S))
  have e : S = ∑ b ∈ range n, v b / u b ^ 2 - ∑ b ∈ range n, g b / u b ^ 2 := by
    rw [hS, ← sum_sub_distrib]
    exact sum_congr rfl fun b _ => by ring
  linarith

include hu ho hbest in
/-- **C148.** If the truth is in the requested order, the smoothed values are never farther from it than the estimates were. -/
theorem C148_truth (t : ℕ → K) (htr : ∀ a b, a ≤ b → b < n → InOrder inc (t a) (t b)) :
    ∑ b ∈ range n, (g b - t b) ^ 2 / u b ^ 2 ≤ ∑ b ∈ range n, (v b - t b) ^ 2 / u b ^ 2 := by
  set A := ∑ b ∈ range n, (v b - g b) * (t b - g b) / u b ^ 2 with hA
  set B := ∑ b ∈ range n, (t b - g b) ^ 2 / u b ^ 2 with hB
  have hB0 : 0 ≤ B := sum_nonneg fun b _ => by positivity
  have key : ∀ l : K, 0 ≤ l → l ≤ 1 → 0 ≤ l ^ 2 * B - 2 * l * A := by
    intro l h0 h1
    have h := hbest (fun b => l * t b + (1 - l) * g b) fun a b hab hb =>
      InOrder.add inc (InOrder.mul inc h0 (htr a b hab hb)) (InOrder.mul inc (by linarith) (ho a b hab hb))
    have e : ∑ b ∈ range n, (v b - (l * t b + (1 - l) * g b)) ^ 2 / u b ^ 2 =
        ∑ b ∈ range n, (v b - g b) ^ 2 / u b ^ 2 + (l ^ 2 * B - 2 * l * A) := by
      rw [hA, hB, mul_sum, mul_sum, ← sum_sub_distrib, ← sum_add_distrib]
      refine sum_congr rfl fun b _ => ?_
      ring
    linarith
  have hA0 : A ≤ 0 := by
    by_contra hp
    push Not at hp
    have hBA : 0 < B + A := by linarith
    have h := key (A / (B + A)) (by positivity) ((div_le_one hBA).mpr (by linarith))
    have e : (A / (B + A)) ^ 2 * B - 2 * (A / (B + A)) * A = -(A ^ 2 * (B + 2 * A) / (B + A) ^ 2) := by
      field_simp
      ring
    rw [e] at h
    have : 0 < A ^ 2 * (B + 2 * A) / (B + A) ^ 2 := by positivity
    linarith
  have e : ∑ b ∈ range n, (v b - t b) ^ 2 / u b ^ 2 =
      ∑ b ∈ range n, (v b - g b) ^ 2 / u b ^ 2 - 2 * A + ∑ b ∈ range n, (g b - t b) ^ 2 / u b ^ 2 := by
    rw [hA, mul_sum, ← sum_sub_distrib, ← sum_add_distrib]
    refine sum_congr rfl fun b _ => ?_
    ring
  have h0 : 0 ≤ ∑ b ∈ range n, (v b - g b) ^ 2 / u b ^ 2 := sum_nonneg fun b _ => by positivity
  linarith

include hu ho hbest in
/-- **C148.** Smoothing does not overshoot: the values stay in the range of the estimates. -/
theorem C148_range (lo hi : K) (hlo : ∀ b < n, lo ≤ v b) (hhi : ∀ b < n, v b ≤ hi) (b : ℕ) (hb : b < n) : lo ≤ g b ∧ g b ≤ hi := by
  have hlh : lo ≤ hi := (hlo b hb).trans (hhi b hb)
  have h := hbest (fun b => max lo (min hi (g b))) fun a b hab hb => by
    have := ho a b hab hb
    unfold InOrder at *
    cases inc
    · exact max_le_max le_rfl (min_le_min le_rfl this)
    · exact max_le_max le_rfl (min_le_min le_rfl this)
  have hclose : ∀ b < n, (v b - max lo (min hi (g b))) ^ 2 ≤ (v b - g b) ^ 2 := by
    intro b hb
    have h1 := hlo b hb
    have h2 := hhi b hb
    rcases le_total (g b) lo with h3 | h3
    · rw [min_eq_right (h3.trans hlh), max_eq_left h3]; nlinarith
    · rcases le_total (g b) hi with h4 | h4
      · rw [min_eq_right h4, max_eq_right h3]
      · rw [min_eq_left h4, max_eq_right hlh]; nlinarith
  by_contra hout
  have hlt : (v b - max lo (min hi (g b))) ^ 2 < (v b - g b) ^ 2 := by
    have h1 := hlo b hb
    have h2 := hhi b hb
    rw [not_and_or, not_le, not_le] at hout
    rcases hout with h3 | h3
    · rw [min_eq_right (h3.le.trans hlh), max_eq_left h3.le]; nlinarith
    · rw [min_eq_left h3.le, max_eq_right hlh]; nlinarith
  refine absurd h (not_le.mpr (sum_lt_sum (fun c hc => ?_) ⟨b, mem_range.mpr hb, ?_⟩))
  · have := hu c (mem_range.mp hc)
    have := hclose c (mem_range.mp hc)
    gcongr
  · have := hu b hb
    gcongr

end

end

/-! ### Such a regression exists -/

theorem best_exists (inc : Bool) (n : ℕ) (w v : Fin n → ℝ) (hw : ∀ i, 0 < w i) :
    ∃ g : Fin n → ℝ, (∀ i j, i ≤ j → InOrder inc (g i) (g j)) ∧
      ∀ h : Fin n → ℝ, (∀ i j, i ≤ j → InOrder inc (h i) (h j)) → ∑ i, w i * (v i - g i) ^ 2 ≤ ∑ i, w i * (v i - h i) ^ 2 := by
  have hs : ∀ i, 0 < Real.sqrt (w i) := fun i => Real.sqrt_pos.mpr (hw i)
  let C : Set (EuclideanSpace ℝ (Fin n)) := {e | ∀ i j, i ≤ j → InOrder inc (e i / Real.sqrt (w i)) (e j / Real.sqrt (w j))}
  have hne : C.Nonempty := ⟨0, fun i j _ => by simpa using InOrder.refl inc (0 : ℝ)⟩
  have hclosed : IsClosed C := by
    have : C = ⋂ i, ⋂ j, {e | i ≤ j → InOrder inc (e i / Real.sqrt (w i)) (e j / Real.sqrt (w j))} := by
      ext e; simp [C]
    rw [this]
    refine isClosed_iInter fun i => isClosed_iInter fun j => ?_
    by_cases hij : i ≤ j
    · have c : ∀ k, Continuous fun e : EuclideanSpace ℝ (Fin n) => e k / Real.sqrt (w k) := fun k => by fun_prop
      cases inc
      · simpa [hij, InOrder] using isClosed_le (c j) (c i)
      · simpa [hij, InOrder] using isClosed_le (c i) (c j)
    · simp [hij]
  have hconv : Convex ℝ C := by
    intro x hx y hy a b ha hb _ i j hij
    have h1 := InOrder.add inc (InOrder.mul inc ha (hx i j hij)) (InOrder.mul inc hb (hy i j hij))
    have e : ∀ k, (a • x + b • y) k / Real.sqrt (w k) = a * (x k / Real.sqrt (w k)) + b * (y k / Real.sqrt (w k)) := by
      intro k
      simp only [PiLp.add_apply, PiLp.smul_apply, smul_eq_mul]
      ring
    rw [e, e]
    exact h1
  obtain ⟨p, hp, hmin⟩ := exists_norm_eq_iInf_of_complete_convex hne hclosed.isComplete hconv (WithLp.toLp 2 fun i => Real.sqrt (w i) * v i)
  refine ⟨fun i => p i / Real.sqrt (w i), hp, fun h hh => ?_⟩
  have hmem : (WithLp.toLp 2 fun i => Real.sqrt (w i) * h i : EuclideanSpace ℝ (Fin n)) ∈ C := by
    intro i j hij
    have := hh i j hij
    have e : ∀ k, (WithLp.toLp 2 fun i => Real.sqrt (w i) * h i : EuclideanSpace ℝ (Fin n)) k / Real.sqrt (w k) = h k := by
      intro k
      have := (hs k).ne'
      change Real.sqrt (w k) * h k / Real.sqrt (w k) = h k
      field_simp
    rw [e, e]
    exact this
  have hle : ‖(WithLp.toLp 2 fun i => Real.sqrt (w i) * v i : EuclideanSpace ℝ (Fin n)) - p‖ ≤
      ‖(WithLp.toLp 2 fun i => Real.sqrt (w i) * v i : EuclideanSpace ℝ (Fin n)) - WithLp.toLp 2 fun i => Real.sqrt (w i) * h i‖ := by
    rw [hmin]
    exact ciInf_le ⟨0, by rintro _ ⟨q, rfl⟩; exact norm_nonneg _⟩ (⟨_, hmem⟩ : C)
  have h2 := pow_le_pow_left₀ (norm_nonneg _) hle 2
  rw [EuclideanSpace.norm_sq_eq, EuclideanSpace.norm_sq_eq] at h2
  have e : ∀ (f : Fin n → ℝ) (q : EuclideanSpace ℝ (Fin n)), (∀ i, q i = Real.sqrt (w i) * f i) →
      ∑ i, ‖((WithLp.toLp 2 fun i => Real.sqrt (w i) * v i : EuclideanSpace ℝ (Fin n)) - q) i‖ ^ 2 = ∑ i, w i * (v i - f i) ^ 2 := by
    intro f q hq
    refine sum_congr rfl fun i _ => ?_
    rw [Real.norm_eq_abs, sq_abs]
    change (Real.sqrt (w i) * v i - q i) ^ 2 = _
    rw [hq, ← mul_sub, mul_pow, Real.sq_sqrt (hw i).le]
  rw [e (fun i => p i / Real.sqrt (w i)) p (fun i => by have := (hs i).ne'; field_simp), e h _ fun i => rfl] at h2
  exact h2

/-- The hypothesis on the isotonic regression can be met. -/
theorem bestIsotonic_exists (inc : Bool) : ∃ reg : List (ℝ × ℝ × ℝ) → ℝ → ℝ, Spec.IsBestIsotonic inc reg := by
  have key : ∀ data : List (ℝ × ℝ × ℝ), ∃ f : ℝ → ℝ, (∀ d ∈ data, 0 < d.2.2) → (∀ x x', x ≤ x' → InOrder inc (f x) (f x')) ∧
      (data.Pairwise (fun d d' => d.1 < d'.1) → ∀ h : ℝ → ℝ, (∀ x x', x ≤ x' → InOrder inc (h x) (h x')) →
        Spec.squaresOf data f ≤ Spec.squaresOf data h) := by
    intro data
    by_cases hw : ∀ d ∈ data, 0 < d.2.2
    swap
    · exact ⟨fun _ => 0, fun h => absurd h hw⟩
    by_cases hpw : data.Pairwise fun d d' => d.1 < d'.1
    swap
    · exact ⟨fun _ => 0, fun _ => ⟨fun _ _ _ => InOrder.refl inc _, fun h => absurd h hpw⟩⟩
    obtain ⟨g, hg, hbest⟩ := best_exists inc data.length (fun i => (data.get i).2.2) (fun i => (data.get i).2.1)
      fun i => hw _ (List.get_mem data i)
    rcases Nat.eq_zero_or_pos data.length with h0 | hn
    · have : data = [] := List.length_eq_zero_iff.mp h0
      subst this
      exact ⟨fun _ => 0, fun _ => ⟨fun _ _ _ => InOrder.refl inc _, fun _ _ _ => le_rfl⟩⟩
    -- the number of positions that are not larger
    let cnt : ℝ → ℕ := fun x => (univ.filter fun i : Fin data.length => (data.get i).1 ≤ x).card
    have hmono : ∀ x x', x ≤ x' → cnt x ≤ cnt x' := fun x x' h =>
      card_le_card fun i hi => by
        simp only [mem_filter, mem_univ, true_and] at hi ⊢
        exact hi.trans h
    let idx : ℝ → Fin data.length := fun x => ⟨min (cnt x - 1) (data.length - 1), by omega⟩
    have hidx : ∀ i : Fin data.length, idx (data.get i).1 = i := by
      intro i
      have hset : (univ.filter fun j : Fin data.length => (data.get j).1 ≤ (data.get i).1) = Finset.Iic i := by
        ext j
        simp only [mem_filter, mem_univ, true_and, Finset.mem_Iic]
        constructor
        · intro h
          by_contra hji
          exact absurd h (not_le.mpr (List.pairwise_iff_get.mp hpw i j (not_le.mp hji)))
        · intro h
          rcases h.lt_or_eq with h | rfl
          · exact (List.pairwise_iff_get.mp hpw j i h).le
          · exact le_rfl
      have hc : cnt (data.get i).1 = i + 1 := by
        change (univ.filter _).card = _
        rw [hset, Fin.card_Iic]
      apply Fin.ext
      change min (cnt (data.get i).1 - 1) (data.length - 1) = i
      rw [hc]
      omega
    have hsum : ∀ f : ℝ → ℝ, Spec.squaresOf data f = ∑ i : Fin data.length, (data.get i).2.2 * ((data.get i).2.1 - f (data.get i).1) ^ 2 := by
      intro f
      unfold Spec.squaresOf
      rw [← List.sum_ofFn]
      congr 1
      conv_lhs => rw [← List.ofFn_get data, List.map_ofFn]
      rfl
    refine ⟨fun x => g (idx x), fun _ => ⟨fun x x' h => hg _ _ ?_, fun _ h hh => ?_⟩⟩
    · change min (cnt x - 1) (data.length - 1) ≤ min (cnt x' - 1) (data.length - 1)
      have := hmono x x' h
      omega
    · rw [hsum, hsum]
      simp only [hidx]
      refine hbest (fun i => h (data.get i).1) fun i j hij => hh _ _ ?_
      rcases hij.lt_or_eq with h | rfl
      · exact (List.pairwise_iff_get.mp hpw i j h).le
      · exact le_rfl
  choose reg hreg using key
  exact ⟨reg, hreg⟩

/-- The hypotheses of C148 are met: a feature with IS_MONOTONIC and INCREASING, three bins with estimates 0, 2, 1. -/
example : ∃ (reg : List (ℝ × ℝ × ℝ) → ℝ → ℝ) (kind : SmootherKind), Spec.IsBestIsotonic true reg ∧
    AsksDirection true (Flags.IS_MONOTONIC ||| Flags.INCREASING) ∧
    defaultChoice.choose ["a"] [Flags.IS_MONOTONIC ||| Flags.INCREASING] = .ok kind ∧
    smoothAtCentres (fun _ => isotonicSmoother reg) kind [3] (fun _ => 1) (fun _ => 1) (fun b => if b = 0 then 0 else if b = 1 then 2 else 1) 1 =
      some (3 / 2) := by
  obtain ⟨reg, hreg⟩ := bestIsotonic_exists true
  have hfp : AsksDirection true (Flags.IS_MONOTONIC ||| Flags.INCREASING) := by unfold AsksDirection; decide
  have hex : Spec.NoExplicit defaultChoice ["a"] := by
    unfold Spec.NoExplicit defaultChoice; simp
  obtain ⟨t, ht, hch⟩ := C73_chosen defaultChoice (by decide) "a" hex true _ hfp
  refine ⟨reg, _, hreg, hfp, hch, ?_⟩
  set v : ℕ → ℝ := fun b => if b = 0 then 0 else if b = 1 then 2 else 1
  obtain ⟨g, hg, ho, hbest⟩ := C148_best true reg hreg (fun _ => isotonicSmoother reg) rfl defaultChoice (by decide) "a" hex _ hfp _ hch 3
    (fun _ => 1) (fun _ => 1) v (fun _ _ => one_pos)
  rw [hg 1 (by norm_num)]
  have h1 := hbest (fun b => if b = 0 then 0 else 3 / 2) (by
    intro a b hab hb
    have hb' : b = 0 ∨ b = 1 ∨ b = 2 := by omega
    rcases hb' with rfl | rfl | rfl <;> (have ha : a = 0 ∨ a = 1 ∨ a = 2 := by omega) <;> rcases ha with rfl | rfl | rfl <;>
      first | omega | norm_num [InOrder])
  have h12 : g 1 ≤ g 2 := ho 1 2 (by norm_num) (by norm_num)
  simp only [sum_range_succ, sum_range_zero, v] at h1
  norm_num at h1
  congr 1
  have : (g 1 - 3 / 2) ^ 2 ≤ 0 := by nlinarith [sq_nonneg (g 0), sq_nonneg (g 1 + g 2 - 3), sq_nonneg (g 2 - g 1)]
  have := pow_eq_zero_iff (two_ne_zero) |>.mp (le_antisymm this (sq_nonneg _))
  linarith

end CB
