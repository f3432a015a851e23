import Verif.Spec.QuantileFits
import Verif.Props.LinearFeature
import Verif.Props.NegBinomial

/-!
# C108: quantile functions of parametric distributions through estimated quantiles
-/

set_option autoImplicit false
set_option linter.unusedSectionVars false

namespace CB
open Finset Spec

section
variable (fit : PairFit) (hfit : IsPairFit fit)

/-- The fit exists in principle. -/
theorem exists_isPairFit : ∃ fit, IsPairFit fit := by
  classical
  refine ⟨fun f data => if h : ∃ p, BestPair f data p then some h.choose else none, fun f data p hp => ?_⟩
  have h : ∃ p, BestPair f data p := ⟨p, hp⟩
  exact ⟨_, dif_pos h, h.choose_spec⟩

theorem list_sum_sq_zero {α : Type*} (l : List α) (g : α → ℝ) (h : (l.map fun a => g a ^ 2).sum ≤ 0) : ∀ a ∈ l, g a = 0 := by
  induction l with
  | nil => simp
  | cons b l ih =>
    rw [List.map_cons, List.sum_cons] at h
    have h1 : 0 ≤ (l.map fun a => g a ^ 2).sum := List.sum_nonneg fun x hx => by
      obtain ⟨a, -, rfl⟩ := List.mem_map.mp hx
      exact sq_nonneg _
    have h2 := sq_nonneg (g b)
    intro a ha
    rcases List.mem_cons.mp ha with rfl | ha
    · exact pow_eq_zero_iff two_ne_zero |>.mp (by linarith)
    · exact ih (by linarith) a ha

include hfit in
/-- If some parameters describe the points exactly, so do the fitted ones. -/
theorem fit_reproduces (f : PairFunction) (data : List (ℝ × ℝ)) (p : ℝ × ℝ) (hp : ∀ d ∈ data, f d.1 p.1 p.2 = some d.2) :
    ∃ r, fit f data = some r ∧ ∀ d ∈ data, f d.1 r.1 r.2 = some d.2 := by
  have h0 : pairError f data p = 0 := by
    unfold pairError
    have : (data.map fun d => ((f d.1 p.1 p.2).getD 0 - d.2) ^ 2) = data.map fun _ => (0 : ℝ) :=
      List.map_congr_left fun d hd => by rw [hp d hd]; simp
    rw [this]
    simp
  have hb : BestPair f data p := ⟨fun d hd => by rw [hp d hd]; rfl, fun q _ => by
    rw [h0]
    exact List.sum_nonneg fun x hx => by
      obtain ⟨a, -, rfl⟩ := List.mem_map.mp hx
      exact sq_nonneg _⟩
  obtain ⟨r, h1, h2⟩ := hfit f data p hb
  refine ⟨r, h1, fun d hd => ?_⟩
  have h3 := list_sum_sq_zero data (fun d => (f d.1 r.1 r.2).getD 0 - d.2)
    (by have := h2.2 p hb.1; rw [h0] at this; exact this) d hd
  obtain ⟨a, ha⟩ := Option.isSome_iff_exists.mp (h2.1 d hd)
  rw [ha] at h3 ⊢
  simp only [Option.getD_some] at h3
  rw [show a = d.2 by linarith]

end

/-! ### Gaussian -/

section
variable (fit : PairFit) (hfit : IsPairFit fit) (ppf cdf : ℝ → ℝ) (hmono : ∀ p q, 0 < p → p < q → q < 1 → ppf p < ppf q)
  (n : ℕ) (level value : ℕ → ℝ) (hlevel : ∀ i < n, 0 < level i ∧ level i < 1)

/-- Sums of products of two rows of numbers that rise together. -/
theorem covariance_pos (n : ℕ) (x y : ℕ → ℝ) (h : ∀ i < n, ∀ j < n, 0 ≤ (x i - x j) * (y i - y j)) (i j : ℕ) (hi : i < n) (hj : j < n)
    (hij : 0 < (x i - x j) * (y i - y j)) :
    0 < (∑ i ∈ range n, (1 : ℝ)) * (∑ i ∈ range n, x i * y i) - (∑ i ∈ range n, x i) * ∑ i ∈ range n, y i := by
  have e : ∑ i ∈ range n, ∑ j ∈ range n, (x i - x j) * (y i - y j)
      = 2 * ((∑ i ∈ range n, (1 : ℝ)) * (∑ i ∈ range n, x i * y i) - (∑ i ∈ range n, x i) * ∑ i ∈ range n, y i) := by
    have e1 : ∀ i, ∑ j ∈ range n, (x i - x j) * (y i - y j) = (∑ j ∈ range n, (1 : ℝ)) * (x i * y i)
        - x i * (∑ j ∈ range n, y j) - y i * (∑ j ∈ range n, x j) + ∑ j ∈ range n, x j * y j := by
      intro i
      rw [sum_mul, mul_sum, mul_sum, ← sum_sub_distrib, ← sum_sub_distrib, ← sum_add_distrib]
      exact sum_congr rfl fun j _ => by ring
    rw [sum_congr rfl fun i _ => e1 i, sum_add_distrib, sum_sub_distrib, sum_sub_distrib, ← mul_sum, ← sum_mul, ← sum_mul]
    simp only [sum_const, card_range, nsmul_eq_mul]
    ring
  have hpos : 0 < ∑ i ∈ range n, ∑ j ∈ range n, (x i - x j) * (y i - y j) :=
    sum_pos' (fun i hi => sum_nonneg fun j hj => h i (mem_range.mp hi) j (mem_range.mp hj))
      ⟨i, mem_range.mpr hi, sum_pos' (fun j hj => h i hi j (mem_range.mp hj)) ⟨j, mem_range.mpr hj, hij⟩⟩
  linarith

/-- The sum of squared deviations of a Gaussian. -/
theorem gaussian_error (mu sigma : ℝ) (hs : 0 < sigma) :
    pairError (gaussianPpf ppf) ((List.range n).map fun i => (level i, value i)) (mu, sigma)
      = squaredError n (fun i => ppf (level i)) value (fun _ => 1) mu sigma := by
  unfold pairError squaredError
  rw [List.map_map]
  show ∑ i ∈ range n, ((gaussianPpf ppf (level i) mu sigma).getD 0 - value i) ^ 2 = _
  refine sum_congr rfl fun i _ => ?_
  unfold gaussianPpf
  rw [if_pos hs]
  simp only [Option.getD_some]
  ring

theorem gaussian_valid (hn : 0 < n) (p : ℝ × ℝ) :
    ValidAt (gaussianPpf ppf) ((List.range n).map fun i => (level i, value i)) p ↔ 0 < p.2 := by
  unfold ValidAt gaussianPpf
  constructor
  · intro h
    have := h (level 0, value 0) (List.mem_map.mpr ⟨0, List.mem_range.mpr hn, rfl⟩)
    by_contra hc
    simp [hc] at this
  · intro h d _
    simp [h]

include hfit hmono hlevel in
/-- **C108.** For rising quantiles (levels strictly between 0 and 1, values not all equal), `quantile_fit_gaussian` returns the
quantile function of the Gaussian distribution that is closest to the given quantiles: all other Gaussians have a larger sum of
squared deviations. -/
theorem C108_gaussian_best (hn : 2 ≤ n) (hinc : ∀ i j, i < j → j < n → level i < level j)
    (hval : ∀ i j, i < j → j < n → value i ≤ value j) (hne : value 0 < value (n - 1)) : ∃ mu sigma : ℝ, 0 < sigma ∧
    quantileFitGaussian fit ppf cdf ((List.range n).map level) ((List.range n).map value) "ppf"
      = .ok (.function fun p => some (mu + sigma * ppf p)) ∧
    ∀ mu' sigma', 0 < sigma' → (mu', sigma') ≠ (mu, sigma) →
      ∑ i ∈ range n, (value i - (mu + sigma * ppf (level i))) ^ 2 < ∑ i ∈ range n, (value i - (mu' + sigma' * ppf (level i))) ^ 2 := by
  set x := fun i => ppf (level i) with hx
  have hxinc : ∀ i j, i < j → j < n → x i < x j := fun i j hij hj =>
    hmono _ _ (hlevel i (by omega)).1 (hinc i j hij hj) (hlevel j hj).2
  have hex : ∃ i < n, ∃ j < n, (0 : ℝ) < 1 ∧ (0 : ℝ) < 1 ∧ x i ≠ x j :=
    ⟨0, by omega, 1, by omega, one_pos, one_pos, (hxinc 0 1 (by omega) (by omega)).ne⟩
  have hdet := linearDet_pos n x (fun _ => 1) (fun _ _ => zero_le_one) hex
  have hcov := covariance_pos n x value (fun i hi j hj => by
      rcases lt_trichotomy i j with h | h | h
      · exact mul_nonneg_of_nonpos_of_nonpos (by linarith [hxinc i j h hj]) (by linarith [hval i j h hj])
      · rw [h, sub_self, zero_mul]
      · exact mul_nonneg (by linarith [hxinc j i h hi]) (by linarith [hval j i h hi]))
    (n - 1) 0 (by omega) (by omega) (mul_pos (by linarith [hxinc 0 (n - 1) (by omega) (by omega)]) (by linarith))
  set ab := linearRegression n x value (fun _ => 1) with hab
  have hslope : 0 < ab.2 := by
    rw [hab]
    unfold linearRegression
    dsimp only
    refine div_pos ?_ hdet
    simpa using hcov
  have hmin := fun a b h => C32_unique_minimiser n x value (fun _ => 1) (fun _ _ => zero_le_one) hex a b h
  rw [← hab] at hmin
  have hbest : BestPair (gaussianPpf ppf) ((List.range n).map fun i => (level i, value i)) ab := by
    refine ⟨(gaussian_valid ppf n level value (by omega) ab).mpr hslope, fun q hq => ?_⟩
    have hq' := (gaussian_valid ppf n level value (by omega) q).mp hq
    have e1 := gaussian_error ppf n level value ab.1 ab.2 hslope
    have e2 := gaussian_error ppf n level value q.1 q.2 hq'
    rw [show ab = (ab.1, ab.2) from rfl, e1, show q = (q.1, q.2) from rfl, e2]
    by_cases h : (q.1, q.2) = ab
    · rw [← h]
    · exact (hmin q.1 q.2 h).le
  obtain ⟨r, h1, h2⟩ := hfit _ _ _ hbest
  have hr : r = ab := by
    by_contra h
    have hr' := (gaussian_valid ppf n level value (by omega) r).mp h2.1
    have h3 := hmin r.1 r.2 h
    have h4 := h2.2 ab hbest.1
    have e1 := gaussian_error ppf n level value ab.1 ab.2 hslope
    have e2 := gaussian_error ppf n level value r.1 r.2 hr'
    rw [show ab = (ab.1, ab.2) from rfl, e1, show r = (r.1, r.2) from rfl, e2] at h4
    exact absurd h4 (not_le.mpr h3)
  refine ⟨ab.1, ab.2, hslope, ?_, fun mu' sigma' _ hne' => ?_⟩
  · unfold quantileFitGaussian
    rw [List.zip_map', h1, hr]
    simp [quantileMode, gaussianPpf, hslope]
  · have := hmin mu' sigma' hne'
    simpa [squaredError] using this

include hfit hmono hlevel in
/-- **C108.** Quantiles of a Gaussian distribution at two or more levels give exactly this distribution, in each mode. -/
theorem C108_gaussian_exact (i j : ℕ) (hi : i < n) (hj : j < n) (hij : level i ≠ level j) (mu sigma : ℝ) (hs : 0 < sigma)
    (hval : ∀ i < n, value i = mu + sigma * ppf (level i)) :
    quantileFitGaussian fit ppf cdf ((List.range n).map level) ((List.range n).map value) "ppf"
        = .ok (.function fun p => some (mu + sigma * ppf p)) ∧
      quantileFitGaussian fit ppf cdf ((List.range n).map level) ((List.range n).map value) "cdf"
        = .ok (.function fun x => some (cdf ((x - mu) / sigma))) ∧
      quantileFitGaussian fit ppf cdf ((List.range n).map level) ((List.range n).map value) "dist"
        = .ok (.distribution (fun p => some (mu + sigma * ppf p)) fun x => some (cdf ((x - mu) / sigma))) := by
  obtain ⟨r, h1, h2⟩ := fit_reproduces fit hfit (gaussianPpf ppf) ((List.range n).map fun i => (level i, value i)) (mu, sigma) (by
    intro d hd
    obtain ⟨k, hk, rfl⟩ := List.mem_map.mp hd
    simp only [gaussianPpf, if_pos hs]
    rw [hval k (List.mem_range.mp hk)])
  have g : ∀ k < n, 0 < r.2 ∧ r.1 + r.2 * ppf (level k) = value k := by
    intro k hk
    have := h2 (level k, value k) (List.mem_map.mpr ⟨k, List.mem_range.mpr hk, rfl⟩)
    simp only [gaussianPpf] at this
    split_ifs at this with h
    exact ⟨h, by simpa using this⟩
  have hne : ppf (level i) ≠ ppf (level j) := by
    rcases lt_or_gt_of_ne hij with h | h
    · exact (hmono _ _ (hlevel i hi).1 h (hlevel j hj).2).ne
    · exact (hmono _ _ (hlevel j hj).1 h (hlevel i hi).2).ne'
  have g1 := (g i hi).2
  have g2 := (g j hj).2
  rw [hval i hi] at g1
  rw [hval j hj] at g2
  have hsig : r.2 = sigma := by
    have : (r.2 - sigma) * (ppf (level i) - ppf (level j)) = 0 := by linarith
    rcases mul_eq_zero.mp this with h | h
    · linarith
    · exact absurd (by linarith) hne
  have hmu : r.1 = mu := by rw [hsig] at g1; linarith
  have hr : r = (mu, sigma) := Prod.ext hmu hsig
  unfold quantileFitGaussian
  rw [List.zip_map', h1, hr]
  simp [quantileMode, gaussianPpf, gaussianCdf, hs]

include hfit hmono hlevel in
/-- **C108.** Changing location and unit of the values changes location and unit of the fitted Gaussian. -/
theorem C108_gaussian_units (hn : 2 ≤ n) (hinc : ∀ i j, i < j → j < n → level i < level j)
    (hval : ∀ i j, i < j → j < n → value i ≤ value j) (hne : value 0 < value (n - 1)) (a b : ℝ) (hb : 0 < b) : ∃ mu sigma : ℝ,
    quantileFitGaussian fit ppf cdf ((List.range n).map level) ((List.range n).map value) "ppf"
      = .ok (.function fun p => some (mu + sigma * ppf p)) ∧
    quantileFitGaussian fit ppf cdf ((List.range n).map level) ((List.range n).map fun i => a + b * value i) "ppf"
      = .ok (.function fun p => some (a + b * (mu + sigma * ppf p))) := by
  obtain ⟨mu, sigma, hs, h1, h2⟩ := C108_gaussian_best fit hfit ppf cdf hmono n level value hlevel hn hinc hval hne
  obtain ⟨mu', sigma', hs', h1', h2'⟩ := C108_gaussian_best fit hfit ppf cdf hmono n level (fun i => a + b * value i) hlevel hn hinc
    (fun i j hij hj => by have := mul_le_mul_of_nonneg_left (hval i j hij hj) hb.le; linarith)
    (by have := mul_lt_mul_of_pos_left hne hb; linarith)
  refine ⟨mu, sigma, h1, ?_⟩
  rw [h1']
  have key : (mu', sigma') = (a + b * mu, b * sigma) := by
    by_contra hcon
    have g1 := h2' (a + b * mu) (b * sigma) (by positivity) fun h => hcon h.symm
    have g2 : ∑ i ∈ range n, (value i - (mu + sigma * ppf (level i))) ^ 2
        ≤ ∑ i ∈ range n, (value i - ((mu' - a) / b + sigma' / b * ppf (level i))) ^ 2 := by
      by_cases h : ((mu' - a) / b, sigma' / b) = (mu, sigma)
      · rw [Prod.mk.injEq] at h
        rw [h.1, h.2]
      · exact (h2 _ _ (by positivity) h).le
    have e1 : ∑ i ∈ range n, (a + b * value i - (a + b * mu + b * sigma * ppf (level i))) ^ 2
        = b ^ 2 * ∑ i ∈ range n, (value i - (mu + sigma * ppf (level i))) ^ 2 := by
      rw [mul_sum]
      exact sum_congr rfl fun i _ => by ring
    have e2 : ∑ i ∈ range n, (a + b * value i - (mu' + sigma' * ppf (level i))) ^ 2
        = b ^ 2 * ∑ i ∈ range n, (value i - ((mu' - a) / b + sigma' / b * ppf (level i))) ^ 2 := by
      rw [mul_sum]
      exact sum_congr rfl fun i _ => by field_simp; ring
    rw [e1, e2] at g1
    exact absurd (mul_le_mul_of_nonneg_left g2 (sq_nonneg b)) (not_le.mpr g1)
  rw [Prod.mk.injEq] at key
  rw [key.1, key.2]
  congr 2
  funext p
  congr 1
  ring

end

/-! ### Gamma and negative binomial -/

section
variable (fit : PairFit) (hfit : IsPairFit fit) (n : ℕ) (level value : ℕ → ℝ)

include hfit in
/-- **C108.** If the given quantiles are those of a Gamma distribution, the fitted quantile function goes through all of them. -/
theorem C108_gamma_exact (ppf cdf : ℝ → ℝ → ℝ) (alpha beta : ℝ) (ha : 0 < alpha) (hb : 0 < beta)
    (hval : ∀ i < n, value i = 1 / beta * ppf alpha (level i)) : ∃ f,
    quantileFitGamma fit ppf cdf ((List.range n).map level) ((List.range n).map value) "ppf" = .ok (.function f) ∧
      ∀ i < n, f (level i) = some (value i) := by
  obtain ⟨r, h1, h2⟩ := fit_reproduces fit hfit (gammaPpf ppf) ((List.range n).map fun i => (level i, value i)) (alpha, beta) (by
    intro d hd
    obtain ⟨k, hk, rfl⟩ := List.mem_map.mp hd
    simp only [gammaPpf, if_pos (And.intro ha hb)]
    rw [hval k (List.mem_range.mp hk)])
  refine ⟨fun x => gammaPpf ppf x r.1 r.2, ?_, fun i hi => h2 (level i, value i) (List.mem_map.mpr ⟨i, List.mem_range.mpr hi, rfl⟩)⟩
  unfold quantileFitGamma
  rw [List.zip_map', h1]
  rfl

include hfit in
/-- **C108.** If the given levels are the values of the distribution function of a negative binomial distribution (with variance above
the mean), so are those of the fitted one. -/
theorem C108_nbinom_exact (ppf cdf : ℝ → ℝ → ℝ → ℝ) (mu var : ℝ) (hmu : 0 < mu) (hvar : mu < var)
    (hlev : ∀ i < n, level i = cdf (mu * mu / (var - mu)) (mu / var) (value i)) : ∃ f,
    quantileFitNbinom fit ppf cdf ((List.range n).map level) ((List.range n).map value) "cdf" = .ok (.function f) ∧
      ∀ i < n, f (value i) = some (level i) := by
  have hok : 0 < mu * mu / (var - mu) ∧ 0 < mu / var ∧ mu / var ≤ 1 :=
    ⟨div_pos (mul_pos hmu hmu) (by linarith), div_pos hmu (by linarith), (div_le_one (by linarith)).mpr hvar.le⟩
  obtain ⟨r, h1, h2⟩ := fit_reproduces fit hfit (nbinomMuVar cdf) ((List.range n).map fun i => (value i, level i)) (mu, var) (by
    intro d hd
    obtain ⟨k, hk, rfl⟩ := List.mem_map.mp hd
    simp only [nbinomMuVar, nbinomParams]
    rw [hlev k (List.mem_range.mp hk)]
    exact if_pos hok)
  refine ⟨fun x => nbinomMuVar cdf x r.1 r.2, ?_, fun i hi => h2 (value i, level i) (List.mem_map.mpr ⟨i, List.mem_range.mpr hi, rfl⟩)⟩
  unfold quantileFitNbinom
  rw [List.zip_map', h1]
  rfl

/-- **C108.** The two functions of a fitted Gaussian or Gamma distribution undo each other. -/
theorem C108_inverse (quantiles values : List ℝ) (Q F : ℝ → Option ℝ) (p x : ℝ) (hq : Q p = some x) :
    (∀ ppf cdf : ℝ → ℝ, quantileFitGaussian fit ppf cdf quantiles values "dist" = .ok (.distribution Q F) →
        cdf (ppf p) = p → F x = some p) ∧
      ∀ ppf cdf : ℝ → ℝ → ℝ, quantileFitGamma fit ppf cdf quantiles values "dist" = .ok (.distribution Q F) →
        (∀ alpha, 0 < alpha → cdf alpha (ppf alpha p) = p) → F x = some p := by
  constructor
  · intro ppf cdf h hinv
    unfold quantileFitGaussian at h
    split at h
    · cases h
    · rename_i mu sigma _
      simp only [quantileMode, show ("dist" : String) ≠ "ppf" by decide, if_false, if_true, Except.ok.injEq,
        QuantileResult.distribution.injEq] at h
      obtain ⟨rfl, rfl⟩ := h
      simp only [gaussianPpf] at hq
      split_ifs at hq with hs
      simp only [Option.some.injEq] at hq
      simp only [gaussianCdf, if_pos hs, Option.some.injEq]
      rw [← hq, add_sub_cancel_left, mul_div_cancel_left₀ _ hs.ne', hinv]
  · intro ppf cdf h hinv
    unfold quantileFitGamma at h
    split at h
    · cases h
    · rename_i alpha beta _
      simp only [quantileMode, show ("dist" : String) ≠ "ppf" by decide, if_false, if_true, Except.ok.injEq,
        QuantileResult.distribution.injEq] at h
      obtain ⟨rfl, rfl⟩ := h
      simp only [gammaPpf] at hq
      split_ifs at hq with hs
      simp only [Option.some.injEq] at hq
      simp only [gammaCdf, if_pos hs, Option.some.injEq]
      have hb : (1 / beta) ≠ 0 := (one_div_pos.mpr hs.2).ne'
      rw [← hq, mul_div_cancel_left₀ _ hb, hinv alpha hs.1]

/-- **C108.** An unknown mode raises. -/
theorem C108_mode (mode : String) (h1 : mode ≠ "ppf") (h2 : mode ≠ "dist") (h3 : mode ≠ "cdf") (quantiles values : List ℝ)
    (ppf cdf : ℝ → ℝ) (ppf' cdf' : ℝ → ℝ → ℝ) (ppf'' cdf'' : ℝ → ℝ → ℝ → ℝ) :
    (∃ e, quantileFitGaussian fit ppf cdf quantiles values mode = .error e) ∧
      (∃ e, quantileFitGamma fit ppf' cdf' quantiles values mode = .error e) ∧
      ∃ e, quantileFitNbinom fit ppf'' cdf'' quantiles values mode = .error e := by
  have h : ∀ f g, quantileMode mode f g = .error "Exception: Invalid mode." := fun f g => by
    unfold quantileMode
    rw [if_neg h1, if_neg h2, if_neg h3]
  unfold quantileFitGaussian quantileFitGamma quantileFitNbinom
  refine ⟨?_, ?_, ?_⟩ <;> split
  · exact ⟨_, rfl⟩
  · exact ⟨_, h _ _⟩
  · exact ⟨_, rfl⟩
  · exact ⟨_, h _ _⟩
  · exact ⟨_, rfl⟩
  · exact ⟨_, h _ _⟩

end

/-- Witness for C108: three rising quantiles 1, 2, 4 at the levels 1/4, 1/2, 3/4 and a base quantile function; the best parameters are
7/3 and 6. -/
example : ∃ fit, IsPairFit fit ∧
    quantileFitGaussian fit (fun p => p - 1 / 2) (fun x => x + 1 / 2) ((List.range 3).map fun i : ℕ => ((i : ℝ) + 1) / 4)
      ((List.range 3).map fun i : ℕ => if i = 0 then 1 else if i = 1 then 2 else 4) "ppf"
      = .ok (.function fun p => some (7 / 3 + 6 * (p - 1 / 2))) := by
  obtain ⟨fit, hfit⟩ := exists_isPairFit
  refine ⟨fit, hfit, ?_⟩
  obtain ⟨mu, sigma, hs, h1, h2⟩ := C108_gaussian_best fit hfit (fun p => p - 1 / 2) (fun x => x + 1 / 2)
    (fun p q _ h _ => by linarith) 3 (fun i => ((i : ℝ) + 1) / 4) (fun i => if i = 0 then 1 else if i = 1 then 2 else 4)
    (fun i hi => by
      have : (i : ℝ) ≤ 2 := by exact_mod_cast (by omega : i ≤ 2)
      constructor
      · positivity
      · linarith)
    (by omega) (fun i j hij _ => by
      have : (i : ℝ) < j := by exact_mod_cast hij
      linarith)
    (fun i j hij hj => by
      have : i = 0 ∧ j = 1 ∨ i = 0 ∧ j = 2 ∨ i = 1 ∧ j = 2 := by omega
      rcases this with ⟨rfl, rfl⟩ | ⟨rfl, rfl⟩ | ⟨rfl, rfl⟩ <;> norm_num)
    (by norm_num)
  have key : (mu, sigma) = (7 / 3, 6) := by
    by_contra hcon
    have := h2 (7 / 3) 6 (by norm_num) fun h => hcon h.symm
    simp only [sum_range_succ, sum_range_zero] at this
    norm_num at this
    nlinarith [sq_nonneg (mu - 7 / 3), sq_nonneg (sigma - 6)]
  rw [Prod.mk.injEq] at key
  rw [h1, key.1, key.2]

end CB
