import Verif.Model.Importance
import Mathlib.Tactic.Linarith
import Mathlib.Tactic.FieldSimp
import Mathlib.Tactic.Ring
import Mathlib.Tactic.NormNum
import Mathlib.Algebra.Order.BigOperators.Group.List
import Mathlib.Algebra.BigOperators.Group.List.Basic
import Mathlib.Algebra.BigOperators.Ring.List
import Mathlib.Algebra.Order.Field.Rat

set_option autoImplicit false
set_option linter.unusedSectionVars false

/-!
C28 (feature importances) and C29 (empty training data).
-/
namespace CB

theorem dictSet_new {α β : Type*} [DecidableEq α] (d : List (α × β)) (k : α) (v : β) (h : k ∉ d.map Prod.fst) :
    dictSet d k v = d ++ [(k, v)] := by
  induction d with
  | nil => rfl
  | cons p d ih =>
    obtain ⟨k', v'⟩ := p
    simp only [List.map_cons, List.mem_cons, not_or] at h
    unfold dictSet
    rw [if_neg (fun hc => h.1 hc.symm), ih h.2]
    rfl

/-- A dictionary built with different keys lists the assignments. -/
theorem dictOf_nodup {α β : Type*} [DecidableEq α] (l : List (α × β)) (h : (l.map Prod.fst).Nodup) : dictOf l = l := by
  unfold dictOf
  have gen : ∀ (l d : List (α × β)), ((d ++ l).map Prod.fst).Nodup →
      l.foldl (fun d p => dictSet d p.1 p.2) d = d ++ l := by
    intro l
    induction l with
    | nil => intro d _; simp
    | cons p l ih =>
      intro d hnd
      rw [List.foldl_cons, dictSet_new d p.1 p.2, ih]
      · simp
      · simpa using hnd
      · rw [List.map_append, List.map_cons, List.nodup_append] at hnd
        intro hc
        exact hnd.2.2 p.1 hc p.1 (by simp) rfl
  simpa using gen l [] (by simpa using h)

section
variable {K : Type*} [Field K] [LinearOrder K] [IsStrictOrderedRing K]

theorem sum_div (l : List K) (t : K) : (l.map (fun v => v / t)).sum = l.sum / t := by
  induction l with
  | nil => simp
  | cons a l ih => rw [List.map_cons, List.sum_cons, List.sum_cons, ih]; ring

theorem binWeightedAverage_nonneg (codes : List ℕ) (nBins : ℕ) (factors : ℕ → K) :
    0 ≤ binWeightedAverage codes nBins factors := by
  unfold binWeightedAverage
  apply List.sum_nonneg
  intro x hx
  rw [List.mem_map] at hx
  obtain ⟨b, _, rfl⟩ := hx
  apply div_nonneg
  · exact mul_nonneg (Nat.cast_nonneg _) (abs_nonneg _)
  · apply List.sum_nonneg
    intro y hy
    rw [List.mem_map] at hy
    obtain ⟨c, _, rfl⟩ := hy
    exact Nat.cast_nonneg _

/-- **C28.** After one fit of features whose names (columns joined by "_") differ, `get_feature_importances` returns one entry
per feature, in order; the values are not negative, and they sum to 1 whenever the total deviation from neutral exceeds
5e-7. (Refits and equal names: `C28_refit_counterexample`, `C28_name_collision`.) -/
theorem C28_distribution (features : List (List String × List ℕ × ℕ × (ℕ → K))) (hne : features ≠ [])
    (hnames : (features.map (fun f => "_".intercalate f.1)).Nodup) :
    ∃ imp : List (String × K), getFeatureImportances (setFeatureImportances [] features) = .ok imp ∧
      imp.map Prod.fst = features.map (fun f => "_".intercalate f.1) ∧
      (∀ e ∈ imp, 0 ≤ e.2) ∧
      (1 / 2000000 < (features.map (fun f => binWeightedAverage f.2.1 f.2.2.1 f.2.2.2)).sum → (imp.map Prod.snd).sum = 1) := by
  set st := setFeatureImportances [] features with hst
  have hst' : st = features.map (fun f => (f.1, binWeightedAverage f.2.1 f.2.2.1 f.2.2.2)) := by
    rw [hst]; simp [setFeatureImportances]
  set vals := getNormalizedValues (st.map Prod.snd) with hvals
  have hlen : vals.length = st.length := by
    rw [hvals]; unfold getNormalizedValues; split <;> simp
  set l := List.zipWith (fun f v => ("_".intercalate f.1, v)) st vals with hl
  have hfst : l.map Prod.fst = features.map (fun f => "_".intercalate f.1) := by
    rw [hl]
    have : ∀ (st : List (List String × K)) (vals : List K), vals.length = st.length →
        (List.zipWith (fun f v => ("_".intercalate f.1, v)) st vals).map Prod.fst = st.map (fun f => "_".intercalate f.1) := by
      intro st
      induction st with
      | nil => intro vals _; simp
      | cons a st ih =>
        intro vals h
        cases vals with
        | nil => simp at h
        | cons v vals => simp only [List.zipWith_cons_cons, List.map_cons]; rw [ih vals (by simpa using h)]
    rw [this st vals hlen, hst', List.map_map]
    rfl
  have hsnd : l.map Prod.snd = vals := by
    rw [hl]
    have : ∀ (st : List (List String × K)) (vals : List K), vals.length = st.length →
        (List.zipWith (fun f v => ("_".intercalate f.1, v)) st vals).map Prod.snd = vals := by
      intro st
      induction st with
      | nil => intro vals h; cases vals <;> simp at h ⊢
      | cons a st ih =>
        intro vals h
        cases vals with
        | nil => simp at h
        | cons v vals => simp only [List.zipWith_cons_cons, List.map_cons]; rw [ih vals (by simpa using h)]
    exact this st vals hlen
  have hnn : ∀ v ∈ st.map Prod.snd, 0 ≤ v := by
    intro v hv
    rw [hst', List.map_map, List.mem_map] at hv
    obtain ⟨f, _, rfl⟩ := hv
    exact binWeightedAverage_nonneg _ _ _
  have hsum0 : 0 ≤ (st.map Prod.snd).sum := List.sum_nonneg hnn
  refine ⟨l, ?_, hfst, ?_, ?_⟩
  · unfold getFeatureImportances
    have : st.isEmpty = false := by
      rw [hst']
      cases features with
      | nil => exact absurd rfl hne
      | cons a b => rfl
    rw [this]
    simp only [Bool.false_eq_true, if_false]
    rw [dictOf_nodup _ (by rw [← hl, hfst]; exact hnames)]
  · intro e he
    have : e.2 ∈ vals := by rw [← hsnd]; exact List.mem_map.mpr ⟨e, he, rfl⟩
    rw [hvals] at this
    unfold getNormalizedValues at this
    split at this
    · rw [List.mem_map] at this
      obtain ⟨v, hv, hve⟩ := this
      rw [← hve]
      exact div_nonneg (hnn v hv) hsum0
    · exact hnn _ this
  · intro htot
    have hs : (st.map Prod.snd).sum = (features.map (fun f => binWeightedAverage f.2.1 f.2.2.1 f.2.2.2)).sum := by
      rw [hst', List.map_map]; rfl
    rw [hsnd, hvals]
    unfold getNormalizedValues roundedNonzero
    rw [abs_of_nonneg hsum0, hs]
    simp only [decide_eq_true htot, if_true]
    rw [sum_div, hs]
    have h0 : (0 : K) < 1 / 2000000 := by norm_num
    exact div_self (ne_of_gt (lt_trans h0 htot))

/-- **C28**: before any fit `get_feature_importances` fails. -/
theorem C28_unfitted : getFeatureImportances (K := K) [] = .error "ValueError" := rfl

/-- What the importance of a feature is: the average of the absolute factors (in link space) over the samples. -/
theorem C28_meaning (codes : List ℕ) (nBins : ℕ) (hb : ∀ c ∈ codes, c < nBins) (factors : ℕ → K) :
    binWeightedAverage codes nBins factors = (codes.map (fun c => |factors c|)).sum / (codes.length : K) := by
  unfold binWeightedAverage
  have hcount : ∀ (g : ℕ → K), ((List.range nBins).map (fun b => (codes.count b : K) * g b)).sum = (codes.map g).sum := by
    intro g
    induction codes with
    | nil => simp
    | cons c cs ih =>
      have hc : c < nBins := hb c (by simp)
      have h1 : ∀ b, ((c :: cs).count b : K) * g b = (if b = c then g c else 0) + (cs.count b : K) * g b := by
        intro b
        rw [List.count_cons]
        by_cases h : c = b
        · subst h; simp; ring
        · have : ¬ b = c := fun hh => h hh.symm
          simp [h, this]
      have h2 : ∀ (m : ℕ), ((List.range m).map (fun b => if b = c then g c else 0)).sum = if c < m then g c else 0 := by
        intro m
        induction m with
        | zero => simp
        | succ m ihm =>
          rw [List.range_succ, List.map_append, List.sum_append, ihm]
          by_cases hcm : c < m
          · have : m ≠ c := by omega
            simp [hcm, this, show c < m + 1 by omega]
          · by_cases hce : m = c
            · subst hce; simp
            · simp [hcm, hce, show ¬ c < m + 1 by omega]
      have h3 : ((List.range nBins).map (fun b => ((c :: cs).count b : K) * g b)).sum
          = ((List.range nBins).map (fun b => if b = c then g c else 0)).sum
            + ((List.range nBins).map (fun b => (cs.count b : K) * g b)).sum := by
        rw [← List.sum_map_add]
        congr 1
        apply List.map_congr_left
        intro b _
        exact h1 b
      rw [h3, h2, if_pos hc, ih (fun x hx => hb x (by simp [hx])), List.map_cons, List.sum_cons]
  have hw : ((List.range nBins).map (fun b => (codes.count b : K))).sum = (codes.length : K) := by
    have := hcount (fun _ => 1)
    simpa using this
  simp only [hw, sub_zero]
  have h4 := hcount (fun b => |factors b|)
  rw [← h4]
  generalize ((codes.length : ℕ) : K) = n
  generalize List.range nBins = r
  induction r with
  | nil => simp
  | cons a r ih => rw [List.map_cons, List.sum_cons, List.map_cons, List.sum_cons, ih]; ring

end

/-- **C28** is false after a refit: the values of the first fit stay in the total, and the entries no longer sum to 1. -/
theorem C28_refit_counterexample :
    ∃ (f g : List (List String × List ℕ × ℕ × (ℕ → ℚ))) (imp : List (String × ℚ)),
      f.map Prod.fst = g.map Prod.fst ∧
      getFeatureImportances (setFeatureImportances (setFeatureImportances [] f) g) = .ok imp ∧
      (imp.map Prod.snd).sum = 1 / 2 :=
  ⟨[(["a"], [0, 0], 2, fun _ => 1)], [(["a"], [0, 1], 2, fun _ => 1)], [("a", 1/2)], rfl, by decide +kernel, by decide +kernel⟩

/-- **C28** is false for features whose joined names coincide: there are fewer entries than features and they do not sum
to 1. -/
theorem C28_name_collision :
    ∃ (f : List (List String × List ℕ × ℕ × (ℕ → ℚ))) (imp : List (String × ℚ)),
      (f.map Prod.fst).Nodup ∧ getFeatureImportances (setFeatureImportances [] f) = .ok imp ∧
      imp.length ≠ f.length ∧ (imp.map Prod.snd).sum ≠ 1 :=
  ⟨[(["a", "b"], [0, 0], 2, fun _ => 1), (["a_b"], [0, 0], 2, fun _ => 3)], [("a_b", 3/4)], by decide, by decide +kernel,
    by decide, by decide +kernel⟩

/-- Witness for C28. -/
example : getFeatureImportances (setFeatureImportances []
      [(["a", "b"], [0, 1, 1, 2], 3, fun b => (b : ℚ)), (["c"], [0, 0, 0, 1], 2, fun b => 2 * (b : ℚ))])
    = .ok [("a_b", 2/3), ("c", 1/3)] := by decide +kernel

/-- **C29** is false: data with samples but no targets, and data without samples but with targets, pass the check. -/
theorem C29_counterexample : checkLenData 3 0 = .ok () ∧ checkLenData 0 3 = .ok () := by decide

/-- **C29**, what holds: the check raises exactly when both are empty. Missing: it should raise when one of them is. -/
theorem C29_both_empty_partial (lenX lenY : ℕ) : checkLenData lenX lenY = .error "ValueError" ↔ lenX = 0 ∧ lenY = 0 := by
  unfold checkLenData
  simp only [Nat.zero_or]
  by_cases h : lenX = lenY ∧ lenY = 0
  · rw [if_pos h]; simp; omega
  · rw [if_neg h]; simp; omega

end CB
