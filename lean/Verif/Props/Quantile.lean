import Verif.Model.GenericLoss
import Mathlib.Algebra.BigOperators.Group.List.Basic
import Mathlib.Algebra.Order.BigOperators.Group.List
import Mathlib.Algebra.BigOperators.Ring.List
import Mathlib.Data.List.Perm.Basic
import Mathlib.Data.Rat.Floor
import Mathlib.Algebra.Order.Field.Rat
import Mathlib.Tactic.Linarith
import Mathlib.Tactic.Ring
import Mathlib.Tactic.NormNum
import Mathlib.Tactic.FieldSimp
import Mathlib.Tactic.Positivity

set_option autoImplicit false
set_option linter.unusedSectionVars false

/-!
C36: the quantile loss.
-/
namespace CB

section
variable {K : Type*} [Field K] [LinearOrder K] [IsStrictOrderedRing K]

/-- The pinball loss of the literature: `max (τ (y - p)) ((τ - 1) (y - p))`. -/
def Spec.pinball (tau p y : K) : K := max (tau * (y - p)) ((tau - 1) * (y - p))

/-- The cost of one sample is the pinball loss. -/
theorem pinball_eq (tau p y : K) : pinball tau p y = Spec.pinball tau p y := by
  unfold pinball Spec.pinball
  by_cases h : y < p
  · rw [if_pos h, if_neg (not_le.mpr h), max_eq_right]
    · ring
    · have := mul_nonneg (sub_nonneg.mpr h.le) (zero_le_one (α := K))
      linarith
  · rw [not_lt] at h
    rw [if_neg (not_lt.mpr h), if_pos h, max_eq_left]
    · ring
    · have := sub_nonneg.mpr h
      linarith

/-- **C36**: the quantile loss is the weighted mean of the pinball loss of the samples (prediction, target, weight). -/
theorem C36_meaning (tau : K) (l : List (K × K × K)) (hne : l ≠ []) :
    quantileCosts tau l = (l.map (fun s => s.2.2 * Spec.pinball tau s.1 s.2.1)).sum / (l.map (fun s => s.2.2)).sum := by
  unfold quantileCosts
  rw [if_pos (List.length_pos_of_ne_nil hne)]
  congr 2
  apply List.map_congr_left
  intro s _
  rw [pinball_eq, mul_comm]

theorem pinball_nonneg (tau p y : K) (h0 : 0 ≤ tau) (h1 : tau ≤ 1) : 0 ≤ pinball tau p y := by
  unfold pinball
  by_cases h : y < p
  · rw [if_pos h, if_neg (not_le.mpr h)]
    have := mul_nonneg (sub_nonneg.mpr h1) (sub_nonneg.mpr h.le)
    linarith
  · rw [not_lt] at h
    rw [if_neg (not_lt.mpr h), if_pos h]
    have := mul_nonneg h0 (sub_nonneg.mpr h)
    linarith

/-- **C36**: the quantile loss is not negative, and zero for perfect predictions. -/
theorem C36_nonneg (tau : K) (h0 : 0 ≤ tau) (h1 : tau ≤ 1) (l : List (K × K × K)) (hw : ∀ s ∈ l, 0 ≤ s.2.2) :
    0 ≤ quantileCosts tau l ∧ ((∀ s ∈ l, s.1 = s.2.1) → quantileCosts tau l = 0) := by
  unfold quantileCosts
  split
  · constructor
    · apply div_nonneg
      · apply List.sum_nonneg
        intro x hx
        rw [List.mem_map] at hx
        obtain ⟨s, hs, rfl⟩ := hx
        exact mul_nonneg (pinball_nonneg _ _ _ h0 h1) (hw s hs)
      · apply List.sum_nonneg
        intro x hx
        rw [List.mem_map] at hx
        obtain ⟨s, hs, rfl⟩ := hx
        exact hw s hs
    · intro hp
      have : (l.map (fun s => pinball tau s.1 s.2.1 * s.2.2)) = l.map (fun _ => 0) := by
        apply List.map_congr_left
        intro s hs
        rw [hp s hs]
        unfold pinball
        simp
      rw [this]
      simp
  · exact ⟨le_refl _, fun _ => rfl⟩

theorem pinball_convex (tau a b t y : K) (ht0 : 0 ≤ t) (ht1 : t ≤ 1) :
    pinball tau ((1 - t) * a + t * b) y ≤ (1 - t) * pinball tau a y + t * pinball tau b y := by
  rw [pinball_eq, pinball_eq, pinball_eq]
  unfold Spec.pinball
  have hs : 0 ≤ 1 - t := by linarith
  apply max_le
  · have e1 := mul_le_mul_of_nonneg_left (le_max_left (tau * (y - a)) ((tau - 1) * (y - a))) hs
    have e2 := mul_le_mul_of_nonneg_left (le_max_left (tau * (y - b)) ((tau - 1) * (y - b))) ht0
    have : tau * (y - ((1 - t) * a + t * b)) = (1 - t) * (tau * (y - a)) + t * (tau * (y - b)) := by ring
    linarith
  · have e1 := mul_le_mul_of_nonneg_left (le_max_right (tau * (y - a)) ((tau - 1) * (y - a))) hs
    have e2 := mul_le_mul_of_nonneg_left (le_max_right (tau * (y - b)) ((tau - 1) * (y - b))) ht0
    have : (tau - 1) * (y - ((1 - t) * a + t * b)) = (1 - t) * ((tau - 1) * (y - a)) + t * ((tau - 1) * (y - b)) := by ring
    linarith

/-- **C36**: the quantile loss is convex in the predictions: for samples (prediction, other prediction, target, weight), mixing
the two predictions gives at most the mixture of the losses. In particular it is convex in the parameter of the
multiplicative and of the additive model. -/
theorem C36_convex (tau : K) (t : K) (ht0 : 0 ≤ t) (ht1 : t ≤ 1) (l : List (K × K × K × K))
    (hw : ∀ s ∈ l, 0 ≤ s.2.2.2) :
    quantileCosts tau (l.map (fun s => ((1 - t) * s.1 + t * s.2.1, s.2.2.1, s.2.2.2)))
      ≤ (1 - t) * quantileCosts tau (l.map (fun s => (s.1, s.2.2.1, s.2.2.2)))
        + t * quantileCosts tau (l.map (fun s => (s.2.1, s.2.2.1, s.2.2.2))) := by
  unfold quantileCosts
  simp only [List.length_map, List.map_map, Function.comp_def]
  split
  · have hW : 0 ≤ (l.map (fun s => s.2.2.2)).sum := by
      apply List.sum_nonneg
      intro x hx
      rw [List.mem_map] at hx
      obtain ⟨s, hs, rfl⟩ := hx
      exact hw s hs
    rw [mul_div_assoc', mul_div_assoc', ← add_div]
    apply div_le_div_of_nonneg_right _ hW
    rw [← List.sum_map_mul_left, ← List.sum_map_mul_left, ← List.sum_map_add]
    apply List.sum_le_sum
    intro s hs
    have := mul_le_mul_of_nonneg_right (pinball_convex tau s.1 s.2.1 t s.2.2.1 ht0 ht1) (hw s hs)
    linarith
  · simp

/-- Weight of the targets with a property. -/
def Spec.weightOf (l : List (K × K)) (p : K → Bool) : K := ((l.filter (fun s => p s.1)).map Prod.snd).sum

/-- `q` is a weighted `tau`-quantile of the samples (target, weight): the targets below `q` carry at most the fraction `tau` of
the total weight, the targets up to `q` at least that. -/
def Spec.IsQuantile (tau : K) (l : List (K × K)) (q : K) : Prop :=
  Spec.weightOf l (fun y => decide (y < q)) ≤ tau * (l.map Prod.snd).sum ∧
    tau * (l.map Prod.snd).sum ≤ Spec.weightOf l (fun y => decide (y ≤ q))

theorem weightOf_cons (s : K × K) (l : List (K × K)) (p : K → Bool) :
    Spec.weightOf (s :: l) p = (if p s.1 then s.2 else 0) + Spec.weightOf l p := by
  unfold Spec.weightOf
  by_cases h : p s.1
  · rw [List.filter_cons_of_pos (by simpa using h), if_pos h]; simp
  · rw [List.filter_cons_of_neg (by simpa using h), if_neg h]; simp

theorem weightOf_append (l m : List (K × K)) (p : K → Bool) :
    Spec.weightOf (l ++ m) p = Spec.weightOf l p + Spec.weightOf m p := by
  unfold Spec.weightOf
  rw [List.filter_append, List.map_append, List.sum_append]

theorem weightOf_nonneg (l : List (K × K)) (p : K → Bool) (hw : ∀ s ∈ l, 0 ≤ s.2) : 0 ≤ Spec.weightOf l p := by
  unfold Spec.weightOf
  apply List.sum_nonneg
  intro x hx
  rw [List.mem_map] at hx
  obtain ⟨s, hs, rfl⟩ := hx
  exact hw s (List.mem_filter.mp hs).1

/-- The loss of a constant prediction `c` exceeds the one of `q` at least by the linear bound. -/
theorem pinball_sum_bound_up (tau q c : K) (hc : q ≤ c) (l : List (K × K)) (hw : ∀ s ∈ l, 0 ≤ s.2) :
    (l.map (fun s => pinball tau q s.1 * s.2)).sum
      + (c - q) * (Spec.weightOf l (fun y => decide (y ≤ q)) - tau * (l.map Prod.snd).sum)
      ≤ (l.map (fun s => pinball tau c s.1 * s.2)).sum := by
  induction l with
  | nil => simp [Spec.weightOf]
  | cons s l ih =>
    have ih := ih (fun x hx => hw x (by simp [hx]))
    have hs := hw s (by simp)
    rw [List.map_cons, List.map_cons, List.map_cons, List.sum_cons, List.sum_cons, List.sum_cons, weightOf_cons]
    have key : pinball tau q s.1 * s.2 + (c - q) * ((if decide (s.1 ≤ q) = true then s.2 else 0) - tau * s.2)
        ≤ pinball tau c s.1 * s.2 := by
      have hcq : 0 ≤ c - q := sub_nonneg.mpr hc
      have : pinball tau q s.1 + (c - q) * ((if s.1 ≤ q then 1 else 0) - tau) ≤ pinball tau c s.1 := by
        unfold pinball
        by_cases h1 : s.1 ≤ q
        · rw [if_pos h1]
          by_cases h2 : s.1 < q
          · have h3 : s.1 < c := lt_of_lt_of_le h2 hc
            rw [if_pos h2, if_neg (not_le.mpr h2), if_pos h3, if_neg (not_le.mpr h3)]
            linarith
          · have h4 : s.1 = q := le_antisymm h1 (not_lt.mp h2)
            rw [if_neg h2, if_pos (not_lt.mp h2), h4]
            by_cases h3 : q < c
            · rw [if_pos h3, if_neg (not_le.mpr h3)]; linarith
            · have : c = q := le_antisymm (not_lt.mp h3) hc
              rw [this]; simp
        · rw [if_neg h1]
          have h1' : q < s.1 := not_le.mp h1
          rw [if_neg (not_lt.mpr h1'.le), if_pos h1'.le]
          by_cases h3 : s.1 < c
          · rw [if_pos h3, if_neg (not_le.mpr h3)]
            have := sub_pos.mpr h3
            linarith
          · rw [if_neg h3, if_pos (not_lt.mp h3)]
            linarith
      have := mul_le_mul_of_nonneg_right this hs
      by_cases h1 : s.1 ≤ q
      · rw [if_pos h1] at this
        rw [if_pos (by simpa using h1)]
        linarith
      · rw [if_neg h1] at this
        rw [if_neg (by simpa using h1)]
        linarith
    linarith

theorem pinball_sum_bound_down (tau q c : K) (hc : c ≤ q) (l : List (K × K)) (hw : ∀ s ∈ l, 0 ≤ s.2) :
    (l.map (fun s => pinball tau q s.1 * s.2)).sum
      + (q - c) * (tau * (l.map Prod.snd).sum - Spec.weightOf l (fun y => decide (y < q)))
      ≤ (l.map (fun s => pinball tau c s.1 * s.2)).sum := by
  induction l with
  | nil => simp [Spec.weightOf]
  | cons s l ih =>
    have ih := ih (fun x hx => hw x (by simp [hx]))
    have hs := hw s (by simp)
    rw [List.map_cons, List.map_cons, List.map_cons, List.sum_cons, List.sum_cons, List.sum_cons, weightOf_cons]
    have key : pinball tau q s.1 * s.2 + (q - c) * (tau * s.2 - (if decide (s.1 < q) = true then s.2 else 0))
        ≤ pinball tau c s.1 * s.2 := by
      have hcq : 0 ≤ q - c := sub_nonneg.mpr hc
      have : pinball tau q s.1 + (q - c) * (tau - (if s.1 < q then 1 else 0)) ≤ pinball tau c s.1 := by
        unfold pinball
        by_cases h1 : s.1 < q
        · rw [if_pos h1, if_neg (not_le.mpr h1)]
          by_cases h2 : s.1 < c
          · rw [if_pos h2, if_neg (not_le.mpr h2)]
            linarith
          · have h2' := sub_nonneg.mpr (not_lt.mp h2)
            rw [if_neg h2, if_pos (not_lt.mp h2)]
            linarith
        · have h1' : q ≤ s.1 := not_lt.mp h1
          rw [if_neg h1, if_pos h1']
          have h2 : ¬ s.1 < c := not_lt.mpr (le_trans hc h1')
          rw [if_neg h2, if_pos (not_lt.mp h2)]
          linarith
      have := mul_le_mul_of_nonneg_right this hs
      by_cases h1 : s.1 < q
      · rw [if_pos h1] at this
        rw [if_pos (by simpa using h1)]
        linarith
      · rw [if_neg h1] at this
        rw [if_neg (by simpa using h1)]
        linarith
    linarith

/-- The samples with a constant prediction. -/
def withConstant (c : K) (l : List (K × K)) : List (K × K × K) := l.map (fun s => (c, s.1, s.2))

theorem quantileCosts_const (tau c : K) (l : List (K × K)) (hne : l ≠ []) :
    quantileCosts tau (withConstant c l) = (l.map (fun s => pinball tau c s.1 * s.2)).sum / (l.map Prod.snd).sum := by
  unfold quantileCosts withConstant
  simp only [List.length_map, List.map_map, Function.comp_def]
  rw [if_pos (List.length_pos_of_ne_nil hne)]

/-- **C36**: no constant prediction has a smaller loss than a weighted quantile of the targets. -/
theorem C36_quantile_minimises (tau : K) (l : List (K × K)) (hw : ∀ s ∈ l, 0 ≤ s.2) (hW : 0 < (l.map Prod.snd).sum) (q : K)
    (hq : Spec.IsQuantile tau l q) (c : K) : quantileCosts tau (withConstant q l) ≤ quantileCosts tau (withConstant c l) := by
  have hne : l ≠ [] := by rintro rfl; simp at hW
  rw [quantileCosts_const _ _ _ hne, quantileCosts_const _ _ _ hne]
  apply div_le_div_of_nonneg_right _ hW.le
  rcases le_total q c with h | h
  · have h1 := pinball_sum_bound_up tau q c h l hw
    have h2 := mul_nonneg (sub_nonneg.mpr h) (sub_nonneg.mpr hq.2)
    linarith
  · have h1 := pinball_sum_bound_down tau q c h l hw
    have h2 := mul_nonneg (sub_nonneg.mpr h) (sub_nonneg.mpr hq.1)
    linarith

/-- What `firstReaching` returns: the target of a sample before which the cutoff is not reached (or which is the first), and
with which it is. -/
theorem firstReaching_spec (cutoff : K) : ∀ (l : List (K × K)) (acc q : K), firstReaching cutoff acc l = some q →
    ∃ (pre post : List (K × K)) (w : K), l = pre ++ (q, w) :: post ∧ cutoff ≤ acc + (pre.map Prod.snd).sum + w ∧
      (pre = [] ∨ acc + (pre.map Prod.snd).sum < cutoff) := by
  intro l
  induction l with
  | nil => intro acc q h; simp [firstReaching] at h
  | cons s l ih =>
    intro acc q h
    unfold firstReaching at h
    split at h
    · rename_i hge
      refine ⟨[], l, s.2, ?_, ?_, Or.inl rfl⟩
      · rw [List.nil_append, ← Option.some.inj h]
      · simpa using hge
    · rename_i hlt
      obtain ⟨pre, post, w, hl, h1, h2⟩ := ih (acc + s.2) q h
      refine ⟨s :: pre, post, w, by rw [hl]; rfl, ?_, Or.inr ?_⟩
      · rw [List.map_cons, List.sum_cons]; linarith
      · rw [List.map_cons, List.sum_cons]
        rcases h2 with h2 | h2
        · rw [h2]; simp; exact not_le.mp hlt
        · linarith

theorem firstReaching_none (cutoff : K) : ∀ (l : List (K × K)) (acc : K), l ≠ [] → firstReaching cutoff acc l = none →
    acc + (l.map Prod.snd).sum < cutoff := by
  intro l
  induction l with
  | nil => intro _ h; exact absurd rfl h
  | cons s l ih =>
    intro acc _ h
    unfold firstReaching at h
    split at h
    · simp at h
    · rename_i hlt
      rw [List.map_cons, List.sum_cons]
      by_cases hl : l = []
      · rw [hl]; simp; exact not_le.mp hlt
      · have := ih (acc + s.2) hl h
        linarith

/-- **C36**: `_weighted_quantile_of_dataframe` returns a weighted quantile, whichever order the sorting gives to equal
targets. -/
theorem C36_weighted_quantile (tau : K) (h0 : 0 ≤ tau) (h1 : tau ≤ 1) (l sorted : List (K × K)) (hne : l ≠ [])
    (hw : ∀ s ∈ l, 0 ≤ s.2) (hperm : sorted.Perm l) (hsort : (sorted.map Prod.fst).Pairwise (· ≤ ·)) :
    ∃ q, weightedQuantile tau sorted = some q ∧ Spec.IsQuantile tau l q := by
  have hws : ∀ s ∈ sorted, 0 ≤ s.2 := fun s hs => hw s (hperm.mem_iff.mp hs)
  have hsne : sorted ≠ [] := by
    intro h; rw [h] at hperm; exact hne hperm.symm.eq_nil
  have hsum : (sorted.map Prod.snd).sum = (l.map Prod.snd).sum := (hperm.map _).sum_eq
  have hwt : ∀ p, Spec.weightOf sorted p = Spec.weightOf l p := fun p => ((hperm.filter _).map _).sum_eq
  have hW : 0 ≤ (sorted.map Prod.snd).sum := by
    apply List.sum_nonneg
    intro x hx
    rw [List.mem_map] at hx
    obtain ⟨s, hs, rfl⟩ := hx
    exact hws s hs
  unfold weightedQuantile
  simp only []
  cases hf : firstReaching ((sorted.map Prod.snd).sum * tau) 0 sorted with
  | none =>
    exfalso
    have := firstReaching_none _ sorted 0 hsne hf
    have h2 := mul_le_mul_of_nonneg_left h1 hW
    linarith
  | some q =>
    refine ⟨q, rfl, ?_⟩
    obtain ⟨pre, post, w, hs, hge, hlt⟩ := firstReaching_spec _ _ _ _ hf
    unfold Spec.IsQuantile
    rw [← hwt, ← hwt, ← hsum]
    have hsort' : ∀ s ∈ pre, s.1 ≤ q := by
      intro s hs'
      rw [hs, List.map_append, List.pairwise_append] at hsort
      exact hsort.2.2 s.1 (List.mem_map.mpr ⟨s, hs', rfl⟩) q (by simp)
    have hpost : ∀ s ∈ post, q ≤ s.1 := by
      intro s hs'
      rw [hs, List.map_append, List.map_cons, List.pairwise_append, List.pairwise_cons] at hsort
      exact hsort.2.1.1 s.1 (List.mem_map.mpr ⟨s, hs', rfl⟩)
    have hpre_all : Spec.weightOf pre (fun y => decide (y ≤ q)) = (pre.map Prod.snd).sum := by
      unfold Spec.weightOf
      rw [List.filter_eq_self.mpr (fun s hs' => by simpa using hsort' s hs')]
    have hwpre : ∀ s ∈ pre, 0 ≤ s.2 := fun s hs' => hws s (by rw [hs]; simp [hs'])
    have hwpost : ∀ s ∈ post, 0 ≤ s.2 := fun s hs' => hws s (by rw [hs]; simp [hs'])
    constructor
    · have e : Spec.weightOf sorted (fun y => decide (y < q)) = Spec.weightOf pre (fun y => decide (y < q)) := by
        rw [hs, weightOf_append, weightOf_cons]
        have : Spec.weightOf post (fun y => decide (y < q)) = 0 := by
          unfold Spec.weightOf
          rw [List.filter_eq_nil_iff.mpr (fun s hs' => by simpa using hpost s hs')]
          rfl
        rw [this]; simp
      have hle : Spec.weightOf pre (fun y => decide (y < q)) ≤ (pre.map Prod.snd).sum := by
        clear e hs hge hlt hpre_all hsort'
        induction pre with
        | nil => simp [Spec.weightOf]
        | cons s pre ih =>
          have := ih (fun x hx => hwpre x (by simp [hx]))
          have hsw := hwpre s (by simp)
          rw [weightOf_cons, List.map_cons, List.sum_cons]
          split
          · linarith
          · linarith
      rw [e, mul_comm]
      rcases hlt with h | h
      · rw [h]
        have : Spec.weightOf ([] : List (K × K)) (fun y => decide (y < q)) = 0 := rfl
        rw [this]
        exact mul_nonneg hW h0
      · linarith
    · have e : Spec.weightOf sorted (fun y => decide (y ≤ q))
          = (pre.map Prod.snd).sum + (w + Spec.weightOf post (fun y => decide (y ≤ q))) := by
        conv_lhs => rw [hs, weightOf_append, weightOf_cons, hpre_all]
        simp
      rw [e, mul_comm]
      have := weightOf_nonneg post (fun y => decide (y ≤ q)) hwpost
      linarith

/-- **C36**, put together: the weighted quantile computed from the samples has the smallest quantile loss of all constant
predictions. -/
theorem C36_computed_quantile_minimises (tau : K) (h0 : 0 ≤ tau) (h1 : tau ≤ 1) (l sorted : List (K × K))
    (hw : ∀ s ∈ l, 0 ≤ s.2) (hW : 0 < (l.map Prod.snd).sum) (hperm : sorted.Perm l)
    (hsort : (sorted.map Prod.fst).Pairwise (· ≤ ·)) :
    ∃ q, weightedQuantile tau sorted = some q ∧
      ∀ c, quantileCosts tau (withConstant q l) ≤ quantileCosts tau (withConstant c l) := by
  have hne : l ≠ [] := by rintro rfl; simp at hW
  obtain ⟨q, hq, hQ⟩ := C36_weighted_quantile tau h0 h1 l sorted hne hw hperm hsort
  exact ⟨q, hq, fun c => C36_quantile_minimises tau l hw hW q hQ c⟩

/-- Witness for C36. -/
example : weightedQuantile (1 / 4 : ℚ) [(1, 1), (2, 1), (3, 2)] = some 1 ∧
    weightedQuantile (1 / 3 : ℚ) [(1, 1), (2, 1), (3, 2)] = some 2 ∧
    quantileCosts (1 / 3 : ℚ) (withConstant 2 [(1, 1), (2, 1), (3, 2)]) = 1 / 3 := by decide +kernel

/-! ### Continuous quantile -/

theorem headD_le_getLastD (l : List ℕ) (hs : l.Pairwise (· < ·)) (i : ℕ) (hi : i ∈ l) :
    l.headD 0 ≤ i ∧ i ≤ l.getLastD 0 := by
  cases l with
  | nil => simp at hi
  | cons a l =>
    constructor
    · rcases List.mem_cons.mp hi with h | h
      · simp [h]
      · exact ((List.pairwise_cons.mp hs).1 i h).le
    · have : ∀ (l : List ℕ) (a : ℕ), (a :: l).Pairwise (· < ·) → ∀ i ∈ a :: l, i ≤ (a :: l).getLastD 0 := by
        intro l
        induction l with
        | nil => intro a _ i hi; simp at hi; simp [hi]
        | cons b l ih =>
          intro a hs i hi
          have e : (a :: b :: l).getLastD 0 = (b :: l).getLastD 0 := by simp [List.getLastD_cons]
          rw [e]
          rcases List.mem_cons.mp hi with h | h
          · rw [h]
            have h1 := (List.pairwise_cons.mp hs).1 b (by simp)
            exact le_trans h1.le (ih b (List.pairwise_cons.mp hs).2 b (by simp))
          · exact ih b (List.pairwise_cons.mp hs).2 i h
      exact this l a hs i hi

/-- **C56** for samples of weight 1: the continuous quantile exists for every level in [0, 1] and exceeds the quantile `q` of the
targets by at most 2, and by at most 1 unless the level is a multiple of `1 / n`. (For other weights see
`C56_weights_counterexample`; an excess of more than 1 occurs, `C56_overshoot_counterexample`.) -/
theorem C56_unit_weights_partial [FloorRing K] (tau : K) (h0 : 0 ≤ tau) (h1 : tau ≤ 1) (l sorted : List (K × K)) (hne : l ≠ [])
    (hw : ∀ s ∈ l, s.2 = 1) (hperm : sorted.Perm l) (hsort : (sorted.map Prod.fst).Pairwise (· ≤ ·)) :
    ∃ q r, continuousQuantile tau sorted = some r ∧ Spec.IsQuantile tau l q ∧ q ≤ r ∧ r ≤ q + 2 ∧
      ((∀ m : ℕ, (m : K) ≠ (l.length : K) * tau) → r ≤ q + 1) := by
  obtain ⟨q, hq, hQ⟩ := C36_weighted_quantile tau h0 h1 l sorted hne (fun s hs => by rw [hw s hs]; exact zero_le_one) hperm hsort
  have hws : ∀ s ∈ sorted, s.2 = 1 := fun s hs => hw s (hperm.mem_iff.mp hs)
  have hones : ∀ m : List (K × K), (∀ s ∈ m, s.2 = 1) → (m.map Prod.snd).sum = (m.length : K) := by
    intro m
    induction m with
    | nil => intro _; simp
    | cons a m ih =>
      intro h
      rw [List.map_cons, List.sum_cons, ih (fun s hs => h s (by simp [hs])), h a (by simp)]
      push_cast [List.length_cons]
      ring
  have hsum : (sorted.map Prod.snd).sum = (l.length : K) := by rw [hones sorted hws, hperm.length_eq]
  have hnn : (0 : K) ≤ (l.length : K) := Nat.cast_nonneg _
  have hsne : sorted ≠ [] := by
    intro h; rw [h] at hperm; exact hne hperm.symm.eq_nil
  unfold weightedQuantile at hq
  simp only [] at hq
  unfold continuousQuantile
  simp only []
  rw [hsum] at hq ⊢
  cases hf : firstReaching ((l.length : K) * tau) 0 sorted with
  | none =>
    exfalso
    have := firstReaching_none _ sorted 0 hsne hf
    rw [hsum] at this
    have h2 := mul_le_mul_of_nonneg_left h1 hnn
    linarith
  | some q' =>
    rw [hf] at hq
    have hqq : q' = q := Option.some.inj hq
    subst hqq
    simp only []
    obtain ⟨pre, post, w, hs, hge, hlt⟩ := firstReaching_spec _ _ _ _ hf
    have hwq : w = 1 := hws (q', w) (by rw [hs]; simp)
    have hpre : (pre.map Prod.snd).sum = (pre.length : K) := hones pre (fun s hs' => hws s (by rw [hs]; simp [hs']))
    rw [hpre, hwq, zero_add] at hge
    rw [hpre, zero_add] at hlt
    set all := (List.range (sorted.map Prod.fst).length).filter (fun i => decide ((sorted.map Prod.fst)[i]? = some q')) with hall
    have hmem : pre.length ∈ all := by
      rw [hall, List.mem_filter, List.mem_range]
      constructor
      · rw [hs]; simp
      · rw [hs]; simp
    have hpw : all.Pairwise (· < ·) := List.Pairwise.filter _ List.pairwise_lt_range
    obtain ⟨hlow, hhigh⟩ := headD_le_getLastD all hpw _ hmem
    set low := all.headD 0
    set high := all.getLastD 0
    have hfl : ((low : ℕ) : ℤ) ≤ ⌊(l.length : K) * tau⌋ := by
      rw [Int.le_floor]
      have hl : ((low : ℕ) : K) ≤ (pre.length : K) := Nat.cast_le.mpr hlow
      push_cast
      rcases hlt with h | h
      · rw [h] at hl
        simp at hl
        rw [hl]
        push_cast
        exact mul_nonneg hnn h0
      · linarith
    have hfu : ⌊(l.length : K) * tau⌋ ≤ (pre.length : ℤ) + 1 := by
      have := Int.floor_le ((l.length : K) * tau)
      have h2 : ((⌊(l.length : K) * tau⌋ : ℤ) : K) ≤ (((pre.length : ℤ) + 1 : ℤ) : K) := by push_cast; linarith
      exact_mod_cast h2
    by_cases hhl : high > low
    · rw [if_pos hhl]
      have hd : (0 : K) < (high : K) - (low : K) := by
        have : (low : K) < (high : K) := Nat.cast_lt.mpr hhl
        linarith
      have hd1 : (1 : K) ≤ (high : K) - (low : K) := by
        have : ((low + 1 : ℕ) : K) ≤ (high : K) := Nat.cast_le.mpr hhl
        push_cast at this
        linarith
      have hph : ((pre.length : ℕ) : K) ≤ (high : K) := Nat.cast_le.mpr hhigh
      have hflK : ((low : ℕ) : K) ≤ ((⌊(l.length : K) * tau⌋ : ℤ) : K) := by exact_mod_cast hfl
      have hfuK : ((⌊(l.length : K) * tau⌋ : ℤ) : K) ≤ (pre.length : K) + 1 := by exact_mod_cast hfu
      refine ⟨q', _, rfl, hQ, ?_, ?_, ?_⟩
      · have : 0 ≤ ((⌊(l.length : K) * tau⌋ - (low : ℤ) : ℤ) : K) / ((high : K) - (low : K)) := by
          apply div_nonneg _ hd.le
          push_cast
          linarith
        linarith
      · have : ((⌊(l.length : K) * tau⌋ - (low : ℤ) : ℤ) : K) / ((high : K) - (low : K)) ≤ 2 := by
          rw [div_le_iff₀ hd]
          push_cast
          linarith
        linarith
      · intro hint
        have hfs : ((⌊(l.length : K) * tau⌋ : ℤ) : K) ≤ (pre.length : K) := by
          have hne' : (l.length : K) * tau ≠ (pre.length : K) + 1 := by
            intro hc
            apply hint (pre.length + 1)
            push_cast
            exact hc.symm
          have hltK : (l.length : K) * tau < (pre.length : K) + 1 := lt_of_le_of_ne hge hne'
          have : ⌊(l.length : K) * tau⌋ < (pre.length : ℤ) + 1 := by
            rw [Int.floor_lt]; push_cast; exact hltK
          have : ⌊(l.length : K) * tau⌋ ≤ (pre.length : ℤ) := by omega
          exact_mod_cast this
        have : ((⌊(l.length : K) * tau⌋ - (low : ℤ) : ℤ) : K) / ((high : K) - (low : K)) ≤ 1 := by
          rw [div_le_iff₀ hd]
          push_cast
          linarith
        linarith
    · rw [if_neg hhl]
      exact ⟨q', q', rfl, hQ, le_refl _, by linarith, fun _ => by linarith⟩

end

/-- **C56** fails for weights other than 1: the cumulated weight is used as an index. All targets are 0 with weight 100, and the
"median" is 100. -/
theorem C56_weights_counterexample : continuousQuantile (1 / 2 : ℚ) [(0, 100), (0, 100)] = some 100 := by decide +kernel

/-- **C56** fails at multiples of `1 / n`: the median of 0, 0, 5, 5 is given as 2. -/
theorem C56_overshoot_counterexample : continuousQuantile (1 / 2 : ℚ) [(0, 1), (0, 1), (5, 1), (5, 1)] = some 2 := by
  decide +kernel

/-! ### Parameters in link space -/

/-- **C55**: in the multiplicative mode with the log link, adding the stored parameter to the prediction of the other features
in link space gives the optimised model, for an optimum of at least 1e-5; a bin whose optimum is the start value (as for an
empty bin) is neutral. -/
theorem C55_multiplicative_partial (param yhat : ℝ) (hp : 1e-5 ≤ param) (hy : 0 < yhat) :
    logLink.unlink (logLink.link yhat + genericParamLink logLink param) = genericModel true param yhat ∧
      genericParamLink logLink (logLink.unlink 0) = 0 := by
  have h1 : (logLink.unlink 0) = 1 := Real.exp_zero
  have hpos : 0 < param := lt_of_lt_of_le (by norm_num) hp
  constructor
  · unfold genericParamLink genericModel
    rw [h1, if_pos one_ne_zero, if_neg (not_lt.mpr (by rw [abs_of_pos hpos]; exact hp))]
    show Real.exp (Real.log yhat + Real.log param) = _
    rw [Real.exp_add, Real.exp_log hy, Real.exp_log hpos]
    simp [mul_comm]
  · unfold genericParamLink
    rw [h1, if_pos one_ne_zero, if_neg (by norm_num), Real.log_one]

/-- **C55** in the additive mode. -/
theorem C55_additive_partial (param yhat : ℝ) :
    identityLink.unlink (identityLink.link yhat + genericParamLink identityLink param) = genericModel false param yhat ∧
      genericParamLink identityLink (identityLink.unlink 0) = 0 := by
  unfold genericParamLink genericModel identityLink
  simp [add_comm]

/-- **C55** fails for `CBGenericClassifier`, which uses the multiplicative model with the logit link: the stored parameter of
a bin whose optimum is the start value is log(1/2), not the neutral 0, and adding a parameter in link space is not the model
that was optimised (here the optimum 1, which leaves the prediction 1/2 unchanged in the model, is fine, but 2 on 1/2 should
give 1 and gives 2/3). -/
theorem C55_classifier_counterexample :
    genericParamLink logitLink (logitLink.unlink 0) = Real.log (1 / 2) ∧ Real.log (1 / 2) ≠ 0 ∧
    genericModel true 2 (1 / 2) = 1 ∧
    logitLink.unlink (logitLink.link (1 / 2) + genericParamLink logitLink 2) = 2 / 3 := by
  have h1 : (logitLink.unlink 0) = 1 / 2 := by
    show 1 / (1 + Real.exp (-0)) = 1 / 2
    rw [neg_zero, Real.exp_zero]; norm_num
  refine ⟨?_, ?_, ?_, ?_⟩
  · unfold genericParamLink
    rw [h1, if_pos (by norm_num), if_neg (by norm_num [abs_of_pos])]
  · have : Real.log (1 / 2) < 0 := Real.log_neg (by norm_num) (by norm_num)
    exact this.ne
  · unfold genericModel; norm_num
  · unfold genericParamLink
    rw [h1, if_pos (by norm_num), if_neg (by norm_num [abs_of_pos])]
    show 1 / (1 + Real.exp (-(Real.log (1 / 2 / (1 - 1 / 2)) + Real.log 2))) = 2 / 3
    rw [show (1 : ℝ) / 2 / (1 - 1 / 2) = 1 by norm_num, Real.log_one, zero_add, Real.exp_neg, Real.exp_log (by norm_num)]
    norm_num

/-- **C55**: an optimum between -1e-5 and 1e-5 is stored as log 1e-5, so the prediction stays positive. -/
theorem C55_small_optimum (param : ℝ) (h : |param| < 1e-5) : genericParamLink logLink param = Real.log 1e-5 := by
  have h1 : (logLink.unlink 0) = 1 := Real.exp_zero
  unfold genericParamLink
  rw [h1, if_pos one_ne_zero, if_pos h]

end CB
