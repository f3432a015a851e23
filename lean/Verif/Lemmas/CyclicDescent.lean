import Mathlib.Analysis.InnerProductSpace.PiL2
import Mathlib.Analysis.InnerProductSpace.Projection.Basic
import Mathlib.Topology.Algebra.Module.FiniteDimension

/-!
# Cyclic descent

In a space of finite dimension, passes over a list of operators, each of which takes away a part of the vector, contract the subspace
that the operators act on.
-/

set_option autoImplicit false

namespace CB
open Finset
open scoped RealInnerProductSpace

section
variable {E : Type*} [NormedAddCommGroup E] [InnerProductSpace ℝ E]

/-- One pass: each operator takes away a part. -/
def cyclicPass (As : List (E →ₗ[ℝ] E)) (l : ℝ) (x : E) : E := As.foldl (fun x A => x - l • A x) x

theorem cyclicPass_cons (A : E →ₗ[ℝ] E) (As : List (E →ₗ[ℝ] E)) (l : ℝ) (x : E) :
    cyclicPass (A :: As) l x = cyclicPass As l (x - l • A x) := rfl

theorem cyclic_step (A : E →ₗ[ℝ] E) (hA : ∀ x, ‖A x‖ ^ 2 ≤ ⟪A x, x⟫) (l : ℝ) (h0 : 0 ≤ l) (h1 : l ≤ 1) (x : E) :
    ‖x - l • A x‖ ^ 2 + l * ‖A x‖ ^ 2 ≤ ‖x‖ ^ 2 := by
  rw [norm_sub_sq_real, inner_smul_right, norm_smul, mul_pow, real_inner_comm, Real.norm_eq_abs, sq_abs]
  have h := hA x
  have h2 : 0 ≤ ‖A x‖ ^ 2 := sq_nonneg _
  nlinarith [mul_le_mul_of_nonneg_left h h0, mul_le_mul_of_nonneg_right (mul_le_mul_of_nonneg_left h1 h0) h2]

theorem cyclicPass_le (l : ℝ) (h0 : 0 ≤ l) (h1 : l ≤ 1) : ∀ (As : List (E →ₗ[ℝ] E)) (_ : ∀ A ∈ As, ∀ x, ‖A x‖ ^ 2 ≤ ⟪A x, x⟫) (x : E),
    ‖cyclicPass As l x‖ ^ 2 ≤ ‖x‖ ^ 2
  | [], _, x => le_rfl
  | A :: As, hA, x => by
    rw [cyclicPass_cons]
    have := cyclic_step A (hA A (by simp)) l h0 h1 x
    have h2 : 0 ≤ l * ‖A x‖ ^ 2 := mul_nonneg h0 (sq_nonneg _)
    linarith [cyclicPass_le l h0 h1 As (fun B hB => hA B (by simp [hB])) (x - l • A x)]

theorem cyclicPass_lt (l : ℝ) (h0 : 0 < l) (h1 : l ≤ 1) : ∀ (As : List (E →ₗ[ℝ] E)) (_ : ∀ A ∈ As, ∀ x, ‖A x‖ ^ 2 ≤ ⟪A x, x⟫) (x : E)
    (_ : ∃ A ∈ As, A x ≠ 0), ‖cyclicPass As l x‖ ^ 2 < ‖x‖ ^ 2
  | [], _, x, h => by obtain ⟨A, hA, -⟩ := h; simp at hA
  | A :: As, hA, x, h => by
    rw [cyclicPass_cons]
    by_cases hx : A x = 0
    · rw [hx, smul_zero, sub_zero]
      refine cyclicPass_lt l h0 h1 As (fun B hB => hA B (by simp [hB])) x ?_
      obtain ⟨B, hB, hBx⟩ := h
      rcases List.mem_cons.mp hB with rfl | hB
      · exact absurd hx hBx
      · exact ⟨B, hB, hBx⟩
    · have := cyclic_step A (hA A (by simp)) l h0.le h1 x
      have h2 : 0 < l * ‖A x‖ ^ 2 := mul_pos h0 (by positivity)
      linarith [cyclicPass_le l h0.le h1 As (fun B hB => hA B (by simp [hB])) (x - l • A x)]

theorem cyclicPass_smul (l c : ℝ) : ∀ (As : List (E →ₗ[ℝ] E)) (x : E), cyclicPass As l (c • x) = c • cyclicPass As l x
  | [], _ => rfl
  | A :: As, x => by
    rw [cyclicPass_cons, cyclicPass_cons, ← cyclicPass_smul l c As, map_smul, smul_sub, smul_comm]

theorem cyclicPass_add (l : ℝ) (u : E) : ∀ (As : List (E →ₗ[ℝ] E)) (_ : ∀ A ∈ As, A u = 0) (x : E),
    cyclicPass As l (x + u) = cyclicPass As l x + u
  | [], _, _ => rfl
  | A :: As, h, x => by
    rw [cyclicPass_cons, cyclicPass_cons, ← cyclicPass_add l u As (fun B hB => h B (by simp [hB])), map_add, h A (by simp), add_zero]
    congr 1
    abel

theorem cyclicPass_mem (V : Submodule ℝ E) (l : ℝ) : ∀ (As : List (E →ₗ[ℝ] E)) (_ : ∀ A ∈ As, ∀ x, A x ∈ V) (x : E) (_ : x ∈ V),
    cyclicPass As l x ∈ V
  | [], _, _, hx => hx
  | A :: As, h, x, hx => by
    rw [cyclicPass_cons]
    exact cyclicPass_mem V l As (fun B hB => h B (by simp [hB])) _ (V.sub_mem hx (V.smul_mem _ (h A (by simp) x)))

theorem cyclicPass_continuous [FiniteDimensional ℝ E] : ∀ (As : List (E →ₗ[ℝ] E)) (g : ℝ × E → E) (_ : Continuous g),
    Continuous fun p : ℝ × E => cyclicPass As p.1 (g p)
  | [], _, hg => hg
  | A :: As, g, hg => by
    have hA : Continuous A := A.continuous_of_finiteDimensional
    exact cyclicPass_continuous As (fun p => g p - p.1 • A (g p)) (hg.sub (continuous_fst.smul (hA.comp hg)))

/-- The contraction: one number less than 1 for all learning rates above a positive bound. -/
theorem cyclic_contraction [FiniteDimensional ℝ E] (As : List (E →ₗ[ℝ] E)) (hA : ∀ A ∈ As, ∀ x, ‖A x‖ ^ 2 ≤ ⟪A x, x⟫) (V : Submodule ℝ E)
    (hV : ∀ x ∈ V, (∀ A ∈ As, A x = 0) → x = 0) (low : ℝ) (hl : 0 < low) :
    ∃ ρ, 0 ≤ ρ ∧ ρ < 1 ∧ ∀ l, low ≤ l → l ≤ 1 → ∀ x ∈ V, ‖cyclicPass As l x‖ ^ 2 ≤ ρ * ‖x‖ ^ 2 := by
  have hlt : ∀ l, low ≤ l → l ≤ 1 → ∀ x ∈ V, x ≠ 0 → ‖cyclicPass As l x‖ ^ 2 < ‖x‖ ^ 2 := by
    intro l h0 h1 x hx hne
    refine cyclicPass_lt l (lt_of_lt_of_le hl h0) h1 As hA x ?_
    by_contra h
    push Not at h
    exact hne (hV x hx h)
  set K : Set (ℝ × E) := Set.Icc low 1 ×ˢ (Metric.sphere (0 : E) 1 ∩ (V : Set E)) with hK
  have hKc : IsCompact K := by
    haveI : ProperSpace E := FiniteDimensional.proper_real E
    exact isCompact_Icc.prod ((isCompact_sphere 0 1).inter_right V.closed_of_finiteDimensional)
  have hcont : Continuous fun p : ℝ × E => ‖cyclicPass As p.1 p.2‖ ^ 2 :=
    ((cyclicPass_continuous As Prod.snd continuous_snd).norm).pow 2
  have hscale : ∀ ρ : ℝ, (∀ p ∈ K, ‖cyclicPass As p.1 p.2‖ ^ 2 ≤ ρ) → ∀ l, low ≤ l → l ≤ 1 → ∀ x ∈ V,
      ‖cyclicPass As l x‖ ^ 2 ≤ ρ * ‖x‖ ^ 2 := by
    intro ρ hρ l h0 h1 x hx
    by_cases hne : x = 0
    · have h3 := cyclicPass_smul l 0 As x
      rw [zero_smul, zero_smul] at h3
      rw [hne, h3]
      simp
    · have hn : 0 < ‖x‖ := norm_pos_iff.mpr hne
      have h2 := hρ (l, ‖x‖⁻¹ • x) ⟨⟨h0, h1⟩, by
        simp [norm_smul, hn.ne'], V.smul_mem _ hx⟩
      rw [cyclicPass_smul, norm_smul, mul_pow] at h2
      have h3 : ‖‖x‖⁻¹‖ ^ 2 = (‖x‖ ^ 2)⁻¹ := by simp
      rw [h3, inv_mul_le_iff₀ (by positivity)] at h2
      linarith
  by_cases hne : K.Nonempty
  · obtain ⟨p, hp, hmax⟩ := hKc.exists_isMaxOn hne hcont.continuousOn
    refine ⟨‖cyclicPass As p.1 p.2‖ ^ 2, sq_nonneg _, ?_, hscale _ fun q hq => hmax hq⟩
    obtain ⟨⟨h0, h1⟩, h2, h3⟩ := hp
    have h4 : ‖p.2‖ = 1 := by simpa using h2
    have := hlt p.1 h0 h1 p.2 h3 (by rw [← norm_ne_zero_iff, h4]; exact one_ne_zero)
    rw [h4] at this
    simpa using this
  · refine ⟨0, le_rfl, zero_lt_one, hscale 0 fun q hq => absurd ⟨q, hq⟩ hne⟩

end

section
variable {n : ℕ}

theorem sum_by_code (code : Fin n → ℕ) (h : Fin n → ℝ) (g : ℕ → ℝ) :
    ∑ i, h i * g (code i) = ∑ b ∈ univ.image code, g b * ∑ j, if code j = b then h j else 0 := by
  rw [← Finset.sum_fiberwise_of_maps_to (g := code) (t := univ.image code) (fun i hi => Finset.mem_image_of_mem _ hi)]
  refine Finset.sum_congr rfl fun b _ => ?_
  rw [Finset.mul_sum, Finset.sum_filter]
  refine Finset.sum_congr rfl fun i _ => ?_
  split_ifs with hb
  · rw [hb, mul_comm]
  · simp

/-- The operator of a feature: the residuals of a bin are added up and divided by a number. Everything is multiplied by the roots of the weights. -/
noncomputable def binOperator (code : Fin n → ℕ) (root : Fin n → ℝ) (den : ℕ → ℝ) : EuclideanSpace ℝ (Fin n) →ₗ[ℝ] EuclideanSpace ℝ (Fin n) where
  toFun x := WithLp.toLp 2 fun i => root i * ((∑ j, if code j = code i then root j * x j else 0) / den (code i))
  map_add' x z := by
    ext i
    simp only [PiLp.add_apply]
    rw [← mul_add, ← add_div, ← Finset.sum_add_distrib]
    congr 3
    funext j
    split_ifs <;> ring
  map_smul' c x := by
    ext i
    simp only [PiLp.smul_apply, smul_eq_mul, RingHom.id_apply]
    rw [show (∑ j, if code j = code i then root j * (c * x j) else 0) = c * ∑ j, if code j = code i then root j * x j else 0 by
      rw [Finset.mul_sum]; exact Finset.sum_congr rfl fun j _ => by split_ifs <;> ring]
    ring

theorem binOperator_apply (code : Fin n → ℕ) (root : Fin n → ℝ) (den : ℕ → ℝ) (x : EuclideanSpace ℝ (Fin n)) (i : Fin n) :
    binOperator code root den x i = root i * ((∑ j, if code j = code i then root j * x j else 0) / den (code i)) := rfl

theorem binOperator_firm (code : Fin n → ℕ) (root : Fin n → ℝ) (den : ℕ → ℝ) (hpos : ∀ b, 0 < den b)
    (hden : ∀ b, (∑ j, if code j = b then root j ^ 2 else 0) ≤ den b) (x : EuclideanSpace ℝ (Fin n)) :
    ‖binOperator code root den x‖ ^ 2 ≤ ⟪binOperator code root den x, x⟫ := by
  set s : ℕ → ℝ := fun b => ∑ j, if code j = b then root j * x j else 0 with hs
  have e1 : ‖binOperator code root den x‖ ^ 2 = ∑ b ∈ univ.image code, (s b / den b) ^ 2 * ∑ j, if code j = b then root j ^ 2 else 0 := by
    rw [EuclideanSpace.norm_sq_eq, ← sum_by_code code (fun j => root j ^ 2) fun b => (s b / den b) ^ 2]
    refine Finset.sum_congr rfl fun i _ => ?_
    rw [binOperator_apply, Real.norm_eq_abs, sq_abs, mul_pow]
  have e2 : ⟪binOperator code root den x, x⟫ = ∑ b ∈ univ.image code, (s b / den b) * s b := by
    rw [PiLp.inner_apply]
    rw [hs, ← sum_by_code code (fun j => root j * x j) fun b => s b / den b]
    refine Finset.sum_congr rfl fun i _ => ?_
    rw [binOperator_apply, real_inner_comm]
    simp only [RCLike.inner_apply, conj_trivial]
    ring
  rw [e1, e2]
  refine Finset.sum_le_sum fun b _ => ?_
  have h1 : (s b / den b) * s b = (s b / den b) ^ 2 * den b := by
    have := (hpos b).ne'
    field_simp
  rw [h1]
  exact mul_le_mul_of_nonneg_left (hden b) (sq_nonneg _)

/-- A vector that the operator does not change has no residual sums. -/
theorem binOperator_zero (code : Fin n → ℕ) (root : Fin n → ℝ) (den : ℕ → ℝ) (hpos : ∀ b, 0 < den b) (x : EuclideanSpace ℝ (Fin n))
    (h : binOperator code root den x = 0) (b : ℕ) : (∑ j, if code j = b then root j * x j else 0) = 0 := by
  by_cases hb : ∃ i, code i = b ∧ root i ≠ 0
  · obtain ⟨i, rfl, hi⟩ := hb
    have h1 : binOperator code root den x i = 0 := by rw [h]; rfl
    rw [binOperator_apply, mul_eq_zero, div_eq_zero_iff] at h1
    rcases h1 with h1 | h1 | h1
    · exact absurd h1 hi
    · exact h1
    · exact absurd h1 (hpos _).ne'
  · push Not at hb
    refine Finset.sum_eq_zero fun j _ => ?_
    split_ifs with hj
    · rw [hb j hj, zero_mul]
    · rfl

variable {F : Type*}

/-- The vectors that are sums of functions of the bin numbers, times the roots of the weights. -/
def additiveSpace (features : List F) (code : F → Fin n → ℕ) (root : Fin n → ℝ) : Submodule ℝ (EuclideanSpace ℝ (Fin n)) where
  carrier := {x | ∃ φ : F → ℕ → ℝ, ∀ i, x i = root i * (features.map fun f => φ f (code f i)).sum}
  add_mem' := by
    rintro x z ⟨φ, hφ⟩ ⟨ψ, hψ⟩
    refine ⟨fun f b => φ f b + ψ f b, fun i => ?_⟩
    rw [PiLp.add_apply, hφ, hψ, List.sum_map_add, mul_add]
  zero_mem' := ⟨fun _ _ => 0, fun i => by simp⟩
  smul_mem' := by
    rintro c x ⟨φ, hφ⟩
    refine ⟨fun f b => c * φ f b, fun i => ?_⟩
    rw [PiLp.smul_apply, hφ, List.sum_map_mul_left, smul_eq_mul]
    ring

theorem inner_additive (features : List F) (code : F → Fin n → ℕ) (root : Fin n → ℝ) (x u : EuclideanSpace ℝ (Fin n)) (φ : F → ℕ → ℝ)
    (hx : ∀ i, x i = root i * (features.map fun f => φ f (code f i)).sum)
    (h : ∀ f ∈ features, ∀ b, (∑ j, if code f j = b then root j * u j else 0) = 0) : ⟪x, u⟫ = 0 := by
  rw [PiLp.inner_apply]
  have e : ∀ i, ⟪x i, u i⟫ = (features.map fun f => (root i * u i) * φ f (code f i)).sum := by
    intro i
    rw [List.sum_map_mul_left, hx, real_inner_comm]
    simp only [RCLike.inner_apply, conj_trivial]
    ring
  rw [Finset.sum_congr rfl fun i _ => e i]
  clear hx e
  induction features with
  | nil => simp
  | cons f fs ih =>
    simp only [List.map_cons, List.sum_cons, Finset.sum_add_distrib]
    rw [ih fun g hg => h g (by simp [hg]), add_zero, sum_by_code (code f) (fun j => root j * u j) (φ f)]
    exact Finset.sum_eq_zero fun b _ => by rw [h f (by simp) b, mul_zero]

open Classical in
theorem additiveSpace_single (features : List F) (code : F → Fin n → ℕ) (root : Fin n → ℝ) (f : F) (hf : f ∈ features) (g : ℕ → ℝ)
    (x : EuclideanSpace ℝ (Fin n)) (hx : ∀ i, x i = root i * g (code f i)) : x ∈ additiveSpace features code root := by
  have hc : (0 : ℝ) < (features.count f : ℝ) := by exact_mod_cast List.count_pos_iff.mpr hf
  refine ⟨fun f' b => if f' = f then g b / features.count f else 0, fun i => ?_⟩
  rw [hx]
  congr 1
  have e : ∀ (l : List F), (l.map fun f' => if f' = f then g (code f' i) / (features.count f : ℝ) else 0).sum =
      (l.count f : ℝ) * (g (code f i) / (features.count f : ℝ)) := by
    intro l
    induction l with
    | nil => simp
    | cons a l ih =>
      rw [List.map_cons, List.sum_cons, ih, List.count_cons]
      by_cases ha : a = f
      · subst ha
        simp
        ring
      · simp [ha]
  rw [e]
  field_simp

/-- Several functions of the bins of the same feature are one. -/
theorem merge_functions (features : List F) (code : F → Fin n → ℕ) : ∀ (l : List (F × (ℕ → ℝ))) (_ : ∀ p ∈ l, p.1 ∈ features),
    ∃ φ : F → ℕ → ℝ, ∀ i, (l.map fun p => p.2 (code p.1 i)).sum = (features.map fun f => φ f (code f i)).sum
  | [], _ => ⟨fun _ _ => 0, fun i => by simp⟩
  | p :: l, h => by
    obtain ⟨φ, hφ⟩ := merge_functions features code l fun q hq => h q (by simp [hq])
    obtain ⟨ψ, hψ⟩ := additiveSpace_single features code (fun _ => 1) p.1 (h p (by simp)) p.2
      (WithLp.toLp 2 fun i => 1 * p.2 (code p.1 i)) fun i => rfl
    refine ⟨fun f b => φ f b + ψ f b, fun i => ?_⟩
    have e : 1 * p.2 (code p.1 i) = 1 * (features.map fun f => ψ f (code f i)).sum := hψ i
    rw [one_mul, one_mul] at e
    rw [List.map_cons, List.sum_cons, hφ, List.sum_map_add, e, add_comm]

/-- Everything together: passes over the features contract the additive vectors and do nothing to those orthogonal to them. -/
theorem binOperators_contract (features : List F) (code : F → Fin n → ℕ) (root : Fin n → ℝ) (den : F → ℕ → ℝ)
    (hpos : ∀ f b, 0 < den f b) (hden : ∀ f b, (∑ j, if code f j = b then root j ^ 2 else 0) ≤ den f b) (low : ℝ) (hl : 0 < low) :
    ∃ ρ, 0 ≤ ρ ∧ ρ < 1 ∧ ∀ l, low ≤ l → l ≤ 1 → ∀ x ∈ additiveSpace features code root, ∀ u ∈ (additiveSpace features code root)ᗮ,
      ∃ z ∈ additiveSpace features code root, cyclicPass (features.map fun f => binOperator (code f) root (den f)) l (x + u) = z + u ∧
        ‖z‖ ^ 2 ≤ ρ * ‖x‖ ^ 2 := by
  obtain ⟨ρ, h0, h1, h⟩ := cyclic_contraction (features.map fun f => binOperator (code f) root (den f)) (by
    intro A hA
    obtain ⟨f, -, rfl⟩ := List.mem_map.mp hA
    exact binOperator_firm _ _ _ (hpos f) (hden f)) (additiveSpace features code root) (by
    rintro x ⟨φ, hφ⟩ hx
    have := inner_additive features code root x x φ hφ fun f hf b =>
      binOperator_zero (code f) root (den f) (hpos f) x (hx _ (List.mem_map_of_mem hf)) b
    exact inner_self_eq_zero.mp this) low hl
  refine ⟨ρ, h0, h1, fun l hl0 hl1 x hx u hu => ⟨_, cyclicPass_mem _ l _ ?_ x hx, cyclicPass_add l u _ ?_ x, h l hl0 hl1 x hx⟩⟩
  · intro A hA z
    obtain ⟨f, hf, rfl⟩ := List.mem_map.mp hA
    exact additiveSpace_single features code root f hf (fun b => (∑ j, if code f j = b then root j * z j else 0) / den f b) _ fun i => rfl
  · intro A hA
    obtain ⟨f, hf, rfl⟩ := List.mem_map.mp hA
    ext i
    rw [binOperator_apply]
    have e : (∑ j, if code f j = code f i then root j * u j else 0) = 0 := by
      have hmem := additiveSpace_single features code root f hf (fun b => if b = code f i then 1 else 0)
        (WithLp.toLp 2 fun j => root j * if code f j = code f i then 1 else 0) fun j => rfl
      have := (Submodule.mem_orthogonal _ u).mp hu _ hmem
      rw [PiLp.inner_apply] at this
      refine Eq.trans (Finset.sum_congr rfl fun j _ => ?_) this
      show _ = ⟪root j * (if code f j = code f i then 1 else 0), u j⟫
      rw [real_inner_comm]
      simp only [RCLike.inner_apply, conj_trivial]
      by_cases hj : code f j = code f i
      · rw [if_pos hj, if_pos hj, mul_one]
      · rw [if_neg hj, if_neg hj, mul_zero, zero_mul]
    rw [e]
    simp

end
end CB
