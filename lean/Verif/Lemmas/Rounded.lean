import Verif.Spec.Rounded
import Verif.Lemmas.Training
import Mathlib.Tactic.Linarith
import Mathlib.Tactic.Ring
import Mathlib.Tactic.Positivity
import Mathlib.Tactic.NormNum

/-!
# Rounding errors in the bookkeeping of the predictions
-/

set_option autoImplicit false
set_option linter.unusedSectionVars false

namespace CB
open Spec

variable {K : Type*} [Field K] [LinearOrder K] [IsStrictOrderedRing K]

/-! ### One operation -/

section
variable (m : Machine K) (u : K) (hu : 0 ≤ u) (hu2 : u ≤ 1 / 2) (hm : RoundsWithin m u)
include hu hu2 hm

/-- Adding and subtracting a trial contribution. -/
theorem trial_error (S B x a c col : K) (hS : |x| + B ≤ S) (ha : |a| ≤ B) (hac : |a + c| ≤ B) :
    S + |m.sub (m.add col c) c - (x + a)| ≤ (1 + u) ^ 2 * (S + |col - (x + a)|) := by
  have h1 := (hm col c).1
  have h2 := (hm (m.add col c) c).2
  generalize m.add col c = t at h1 h2 ⊢
  generalize m.sub t c = r at h2 ⊢
  set D := col - (x + a) with hD
  have e1 : |col + c| ≤ S + |D| := by
    have : col + c = D + (x + (a + c)) := by rw [hD]; ring
    rw [this]
    have h3 := abs_add_le D (x + (a + c))
    have h4 := abs_add_le x (a + c)
    linarith
  have e2 : |t - c - (x + a)| ≤ |D| + u * (S + |D|) := by
    have : t - c - (x + a) = D + (t - (col + c)) := by rw [hD]; ring
    rw [this]
    have h3 := abs_add_le D (t - (col + c))
    have h4 := mul_le_mul_of_nonneg_left e1 hu
    linarith
  have e3 : |t - c| ≤ (1 + u) * (S + |D|) := by
    have : t - c = (t - c - (x + a)) + (x + a) := by ring
    rw [this]
    have h3 := abs_add_le (t - c - (x + a)) (x + a)
    have h4 := abs_add_le x a
    nlinarith
  have e4 : |r - (x + a)| ≤ |D| + u * (S + |D|) + u * ((1 + u) * (S + |D|)) := by
    have : r - (x + a) = (t - c - (x + a)) + (r - (t - c)) := by ring
    rw [this]
    have h3 := abs_add_le (t - c - (x + a)) (r - (t - c))
    have h4 := mul_le_mul_of_nonneg_left e3 hu
    linarith
  nlinarith

/-- An update of the stored factor and of the prediction by the same operation. -/
theorem both_error (S L x a f a' col col' y : K) (hS : |x| + 2 * L ≤ S) (hL : |a'| ≤ L)
    (hy : y = a + f ∨ y = a - f) (ha' : a' = y ∨ |a' - y| ≤ u * |y|)
    (hc : |col' - (col + (y - a))| ≤ u * |col + (y - a)|) :
    S + |col' - (x + a')| ≤ (1 + u) ^ 2 * (S + |col - (x + a)|) := by
  have hL0 : 0 ≤ L := (abs_nonneg _).trans hL
  have hx0 := abs_nonneg x
  have e0 : |a' - y| ≤ u * |y| := by
    rcases ha' with h | h
    · rw [h, sub_self, abs_zero]; positivity
    · exact h
  have e1 : |y| ≤ 2 * L := by
    have h1 : |y| ≤ |a'| + |a' - y| := by
      have := abs_add_le a' (y - a')
      rw [abs_sub_comm y a', show a' + (y - a') = y by ring] at this
      exact this
    have h2 : u * |y| ≤ 1 / 2 * |y| := mul_le_mul_of_nonneg_right hu2 (abs_nonneg _)
    linarith
  set D := col - (x + a) with hD
  have hD0 := abs_nonneg D
  have e2 : |col + (y - a)| ≤ S + |D| := by
    have : col + (y - a) = D + (x + y) := by rw [hD]; ring
    rw [this]
    have h3 := abs_add_le D (x + y)
    have h4 := abs_add_le x y
    linarith
  have e3 : |col' - (x + a')| ≤ |D| + u * (S + |D|) + u * (S + |D|) := by
    have : col' - (x + a') = D + (col' - (col + (y - a))) + (y - a') := by rw [hD]; ring
    rw [this]
    have h3 := abs_add_le (D + (col' - (col + (y - a)))) (y - a')
    have h4 := abs_add_le D (col' - (col + (y - a)))
    rw [abs_sub_comm y a'] at h3
    have h5 := mul_le_mul_of_nonneg_left e2 hu
    have h6 := mul_le_mul_of_nonneg_left e1 hu
    have h7 : u * (2 * L) ≤ u * (S + |D|) := mul_le_mul_of_nonneg_left (by linarith) hu
    linarith
  nlinarith [mul_nonneg (mul_nonneg hu hu) (show (0 : K) ≤ S + |D| by linarith)]

/-- The clip of an update keeps the sum with the stored factor in bounds. -/
theorem clip_within (L lo hi a v : K) (hlo : |lo| ≤ L) (hhi : |hi| ≤ L) (ha : |a| ≤ L) :
    |a + clipTo v (m.sub lo a) (m.sub hi a)| ≤ 2 * L := by
  have h1 := (hm lo a).2
  have h2 := (hm hi a).2
  have hL0 : 0 ≤ L := (abs_nonneg _).trans ha
  have b1 : u * |lo - a| ≤ L := by
    have : |lo - a| ≤ 2 * L := by
      have := abs_sub lo a
      linarith
    nlinarith [abs_nonneg (lo - a)]
  have b2 : u * |hi - a| ≤ L := by
    have : |hi - a| ≤ 2 * L := by
      have := abs_sub hi a
      linarith
    nlinarith [abs_nonneg (hi - a)]
  obtain ⟨c1, c2⟩ := abs_le.mp (h1.trans b1)
  obtain ⟨c3, c4⟩ := abs_le.mp (h2.trans b2)
  obtain ⟨d1, d2⟩ := abs_le.mp hlo
  obtain ⟨d3, d4⟩ := abs_le.mp hhi
  unfold clipTo
  rw [abs_le]
  constructor
  · rcases min_choice (max v (m.sub lo a)) (m.sub hi a) with h | h
    · rw [h]
      have := le_max_right v (m.sub lo a)
      linarith
    · rw [h]; linarith
  · have := min_le_right (max v (m.sub lo a)) (m.sub hi a)
    linarith

end

/-! ### One feature -/

theorem col_updateR (m : Machine K) (pred : Pred K) (cfg : FeatureCfg) (v : ℕ → K) (e : Bool) (s : ℕ) :
    (pred.updateR m cfg v).col e s = if cfg.external = e then m.add (pred.col e s) (v s) else pred.col e s := by
  unfold Pred.updateR Pred.col
  cases cfg.external <;> cases e <;> simp

theorem col_removeR (m : Machine K) (pred : Pred K) (cfg : FeatureCfg) (v : ℕ → K) (e : Bool) (s : ℕ) :
    (pred.removeR m cfg v).col e s = if cfg.external = e then m.sub (pred.col e s) (v s) else pred.col e s := by
  unfold Pred.removeR Pred.col
  cases cfg.external <;> cases e <;> simp

theorem visitFactorsR_WF (m : Machine K) (p : Params K) (o : Oracle K) (cfg : FeatureCfg) (dv : ℕ) (isd : Bool) (il : Flt K)
    (un : ℕ → K) (fs : FState K) (pred : Pred K) : (visitFactorsR m p o cfg dv isd il un fs pred).1.WF ∧
      (visitFactorsR m p o cfg dv isd il un fs pred).1.isFitted = true := by
  unfold FState.WF visitFactorsR
  simp

/-- The stored factor after a visit: the update itself for a feature that was never fitted, the rounded sum otherwise. -/
theorem visitFactorsR_stored (m : Machine K) (p : Params K) (o : Oracle K) (cfg : FeatureCfg) (dv : ℕ) (isd : Bool) (il : Flt K)
    (un : ℕ → K) (fs : FState K) (pred : Pred K) (hp : p.aggregate = true) (hw : fs.WF) (b : ℕ) :
    stored (visitFactorsR m p o cfg dv isd il un fs pred).1 b =
        stored fs b + (visitFactorsR m p o cfg dv isd il un fs pred).1.factors b ∨
      stored (visitFactorsR m p o cfg dv isd il un fs pred).1 b =
        m.add (stored fs b) ((visitFactorsR m p o cfg dv isd il un fs pred).1.factors b) := by
  have key : ∀ g : FState K, g.isFitted = fs.isFitted → g.agg = fs.agg →
      stored ({ g with
        agg := some (match g.isFitted, p.aggregate, g.agg with
          | true, true, some agg => fun b => m.add (agg b) (g.factors b)
          | _, _, _ => g.factors)
        isFitted := true } : FState K) b = stored fs b + g.factors b ∨
      stored ({ g with
        agg := some (match g.isFitted, p.aggregate, g.agg with
          | true, true, some agg => fun b => m.add (agg b) (g.factors b)
          | _, _, _ => g.factors)
        isFitted := true } : FState K) b = m.add (stored fs b) (g.factors b) := by
    intro g h1 h2
    unfold FState.WF at hw
    rw [h1, h2, hp]
    unfold stored
    cases hf : fs.isFitted with
    | true =>
      cases ha : fs.agg with
      | none => rw [hf, ha] at hw; simp at hw
      | some agg => right; rfl
    | false =>
      cases ha : fs.agg with
      | none => left; simp
      | some agg => rw [hf, ha] at hw; simp at hw
  unfold visitFactorsR
  dsimp only
  split
  · split
    · split
      · split
        · split <;> exact key _ rfl rfl
        · exact key _ rfl rfl
      · exact key _ rfl rfl
    · exact key _ rfl rfl
  · exact key _ rfl rfl

/-- A visit in terms of `visit_factors`. -/
theorem featureIterationR_form (m : Machine K) (p : Params K) (hp : p.aggregate = true) (o : Oracle K) (it k : ℕ) (cfg : FeatureCfg)
    (dv : ℕ) (isd : Bool) (il : Flt K) (fs : FState K) (pred : Pred K) :
    ∃ (g : FState K) (un : ℕ → K), stored g = stored fs ∧ g.agg = fs.agg ∧ g.isFitted = fs.isFitted ∧
      featureIterationR m p o it k cfg dv isd il fs pred = ((visitFactorsR m p o cfg dv isd il un g pred).1,
        (visitFactorsR m p o cfg dv isd il un g pred).2.updateR m cfg
          (predInSample cfg (visitFactorsR m p o cfg dv isd il un g pred).1)) := by
  unfold featureIterationR
  rw [hp, if_pos rfl]
  refine ⟨_, _, ?_, ?_, ?_, rfl⟩ <;> rfl

section
variable (m : Machine K) (u : K) (hu : 0 ≤ u) (hu2 : u ≤ 1 / 2) (hm : RoundsWithin m u)
variable (p : Params K) (hp : p.aggregate = true) (o : Oracle K) (L : K)
variable (hc : p.clip = true → ∀ e one, |p.consts.logMin e one| ≤ L ∧ |p.consts.logMax e one| ≤ L)
include hu hu2 hm hp hc

/-- What the trial of a diverging training does to the prediction. -/
theorem visitFactorsR_pred (cfg : FeatureCfg) (dv : ℕ) (isd : Bool) (il : Flt K) (un : ℕ → K) (fs : FState K) (pred : Pred K)
    (hw : fs.WF) (hd : isd = true → fs.isFitted = true) (e : Bool) (i : ℕ) (S x : K) (hS : |x| + 2 * L ≤ S)
    (ha : |stored fs (cfg.bin i)| ≤ L) (he : cfg.external = e) :
    S + |(visitFactorsR m p o cfg dv isd il un fs pred).2.col e i - (x + stored fs (cfg.bin i))| ≤
      (1 + u) ^ 2 * (S + |pred.col e i - (x + stored fs (cfg.bin i))|) := by
  have hL0 : 0 ≤ L := (abs_nonneg _).trans ha
  have hS0 : 0 ≤ S := by have := abs_nonneg x; linarith
  have same : S + |pred.col e i - (x + stored fs (cfg.bin i))| ≤
      (1 + u) ^ 2 * (S + |pred.col e i - (x + stored fs (cfg.bin i))|) := by
    have h0 : 0 ≤ S + |pred.col e i - (x + stored fs (cfg.bin i))| := by positivity
    nlinarith [mul_nonneg hu h0, mul_nonneg (mul_nonneg hu hu) h0]
  have tried : isd = true → p.clip = true → S + |((pred.updateR m cfg (predInSample cfg { fs with factors := clipUpdateR m p.consts cfg fs })).removeR m cfg
      (predInSample cfg { fs with factors := clipUpdateR m p.consts cfg fs })).col e i - (x + stored fs (cfg.bin i))| ≤
      (1 + u) ^ 2 * (S + |pred.col e i - (x + stored fs (cfg.bin i))|) := by
    intro h1 h2
    rw [col_removeR, col_updateR, if_pos he, if_pos he]
    refine trial_error m u hu hu2 hm S (2 * L) x _ _ _ hS (by linarith) ?_
    show |stored fs (cfg.bin i) + clipUpdateR m p.consts cfg fs (cfg.bin i)| ≤ 2 * L
    have hf := hd h1
    unfold FState.WF at hw
    unfold clipUpdateR
    unfold stored at ha ⊢
    cases hag : fs.agg with
    | none => rw [hf, hag] at hw; simp at hw
    | some agg =>
      rw [hag] at ha
      rw [hf]
      exact clip_within m u hu hu2 hm L _ _ _ _ (hc h2 _ _).1 (hc h2 _ _).2 ha
  unfold visitFactorsR
  dsimp only
  rw [hp, Bool.and_true]
  cases hcl : p.clip with
  | false => exact same
  | true =>
    rw [if_pos rfl]
    cases isd with
    | false => exact same
    | true =>
      rw [if_pos rfl]
      have ht := tried rfl hcl
      split
      · split
        · split <;> exact ht
        · exact ht
      · exact ht

/-- One visit of a feature: at most four roundings. -/
theorem featureIterationR_error (it k : ℕ) (cfg : FeatureCfg) (dv : ℕ) (isd : Bool) (il : Flt K) (fs : FState K) (pred : Pred K)
    (hw : fs.WF) (hd : isd = true → fs.isFitted = true) (e : Bool) (i : ℕ) (S x : K) (hS : |x| + 2 * L ≤ S)
    (ha : |stored fs (cfg.bin i)| ≤ L) (he : cfg.external = e)
    (ha' : |stored (featureIterationR m p o it k cfg dv isd il fs pred).1 (cfg.bin i)| ≤ L) :
    S + |(featureIterationR m p o it k cfg dv isd il fs pred).2.col e i -
        (x + stored (featureIterationR m p o it k cfg dv isd il fs pred).1 (cfg.bin i))| ≤
      (1 + u) ^ 4 * (S + |pred.col e i - (x + stored fs (cfg.bin i))|) := by
  obtain ⟨g, un, hst, hag, hfi, hF⟩ := featureIterationR_form m p hp o it k cfg dv isd il fs pred
  rw [hF] at ha' ⊢
  dsimp only at ha' ⊢
  have hwg : g.WF := by unfold FState.WF at hw ⊢; rw [hag, hfi]; exact hw
  have hdg : isd = true → g.isFitted = true := by rw [hfi]; exact hd
  rw [← hst] at ha ⊢
  have h1 := visitFactorsR_pred m u hu hu2 hm p hp o L hc cfg dv isd il un g pred hwg hdg e i S x hS ha he
  have h2 := visitFactorsR_stored m p o cfg dv isd il un g pred hp hwg (cfg.bin i)
  generalize visitFactorsR m p o cfg dv isd il un g pred = V at h1 h2 ha' ⊢
  rw [col_updateR, if_pos he]
  have h3 := both_error m u hu hu2 hm S L x (stored g (cfg.bin i)) (V.1.factors (cfg.bin i)) (stored V.1 (cfg.bin i)) (V.2.col e i)
    (m.add (V.2.col e i) (predInSample cfg V.1 i)) (stored g (cfg.bin i) + V.1.factors (cfg.bin i)) hS ha' (.inl rfl)
    (h2.imp id fun h => by rw [h]; exact (hm _ _).1)
    (by
      rw [add_sub_cancel_left]
      exact (hm _ _).1)
  refine h3.trans ?_
  calc _ ≤ (1 + u) ^ 2 * ((1 + u) ^ 2 * (S + |pred.col e i - (x + stored g (cfg.bin i))|)) :=
        mul_le_mul_of_nonneg_left h1 (by positivity)
    _ = _ := by ring

end

/-! ### A pass over the features and the removal -/

theorem storedSum_within (L : K) (hL : 0 ≤ L) (e : Bool) (i : ℕ) :
    ∀ (cfgs : List FeatureCfg) (fss : List (FState K)), FactorsWithin L fss → |storedSum e cfgs fss i| ≤ cfgs.length * L := by
  intro cfgs
  induction cfgs with
  | nil => intro fss _; rw [storedSum_nil_left]; simp
  | cons cfg cfgs ih =>
    intro fss h
    cases fss with
    | nil => rw [storedSum_nil_right, abs_zero]; positivity
    | cons fs fss =>
      rw [storedSum_cons, List.length_cons]
      have h1 := ih fss fun g hg => h g (by simp [hg])
      have h2 : |if cfg.external = e then stored fs (cfg.bin i) else 0| ≤ L := by
        split
        · exact h fs (by simp) _
        · rw [abs_zero]; exact hL
      have h3 := abs_add_le (if cfg.external = e then stored fs (cfg.bin i) else 0) (storedSum e cfgs fss i)
      push_cast
      linarith

section
variable (m : Machine K) (u : K) (hu : 0 ≤ u) (hu2 : u ≤ 1 / 2) (hm : RoundsWithin m u)
variable (p : Params K) (hp : p.aggregate = true) (o : Oracle K) (L : K) (hL : 0 ≤ L)
variable (hc : p.clip = true → ∀ e one, |p.consts.logMin e one| ≤ L ∧ |p.consts.logMax e one| ≤ L)
include hu hu2 hm hp hL hc

/-- A pass over the features: at most four roundings per feature. -/
theorem featurePassR_error (it dv : ℕ) (isd : Bool) (il : Flt K) (e : Bool) (i : ℕ) (S : K) :
    ∀ (cfgs : List FeatureCfg) (k : ℕ) (fss : List (FState K)) (pred : Pred K) (c0 : K), (∀ fs ∈ fss, fs.WF) →
      (isd = true → ∀ fs ∈ fss, fs.isFitted = true) → FactorsWithin L fss →
      FactorsWithin L (featurePassR m p o it dv isd il k cfgs fss pred).1 → |c0| + cfgs.length * (2 * L) ≤ S →
      S + |(featurePassR m p o it dv isd il k cfgs fss pred).2.col e i -
          (c0 + storedSum e cfgs (featurePassR m p o it dv isd il k cfgs fss pred).1 i)| ≤
        (1 + u) ^ (4 * cfgs.length) * (S + |pred.col e i - (c0 + storedSum e cfgs fss i)|) := by
  intro cfgs
  induction cfgs with
  | nil => intro k fss pred c0 _ _ _ _ _; simp [featurePassR, storedSum_nil_left]
  | cons cfg cfgs ih =>
    intro k fss pred c0 hw hd hL1 hL2 hS
    have hS0 : 0 ≤ S := by
      have := abs_nonneg c0
      have : (0 : K) ≤ (cfg :: cfgs).length * (2 * L) := by positivity
      linarith
    have hone : 1 ≤ 1 + u := by linarith
    cases fss with
    | nil =>
      simp only [featurePassR, storedSum_nil_right]
      have h0 : 0 ≤ S + |pred.col e i - (c0 + 0)| := by positivity
      exact le_mul_of_one_le_left h0 (one_le_pow₀ hone)
    | cons fs fss =>
      have hw0 : fs.WF := hw fs (by simp)
      have hws : ∀ g ∈ fss, g.WF := fun g hg => hw g (by simp [hg])
      have hds : isd = true → ∀ g ∈ fss, g.isFitted = true := fun h g hg => hd h g (by simp [hg])
      have hLs : FactorsWithin L fss := fun g hg => hL1 g (by simp [hg])
      rw [List.length_cons] at hS
      push_cast at hS
      rw [featurePassR] at hL2 ⊢
      simp only at hL2 ⊢
      generalize hfs0 : (if it = 0 then { fs with factors := fun _ => 0 } else fs : FState K) = fs0 at hL2 ⊢
      have hs0 : stored fs0 = stored fs := by rw [← hfs0]; split <;> rfl
      have hw1 : fs0.WF := by rw [← hfs0]; split <;> exact hw0
      have hd1 : isd = true → fs0.isFitted = true := by
        intro h
        have := hd h fs (by simp)
        rw [← hfs0]; split <;> exact this
      rw [storedSum_cons, storedSum_cons]
      -- the visit of the first feature
      have step : ∀ F : FState K × Pred K, FactorsWithin L (F.1 :: (featurePassR m p o it dv isd il (k + 1) cfgs fss F.2).1) →
          (S + |F.2.col e i - (c0 + ((if cfg.external = e then stored F.1 (cfg.bin i) else 0) + storedSum e cfgs fss i))| ≤
            (1 + u) ^ 4 * (S + |pred.col e i - (c0 + ((if cfg.external = e then stored fs (cfg.bin i) else 0) +
              storedSum e cfgs fss i))|)) →
          S + |(featurePassR m p o it dv isd il (k + 1) cfgs fss F.2).2.col e i -
              (c0 + ((if cfg.external = e then stored F.1 (cfg.bin i) else 0) +
                storedSum e cfgs (featurePassR m p o it dv isd il (k + 1) cfgs fss F.2).1 i))| ≤
            (1 + u) ^ (4 * (cfg :: cfgs).length) * (S + |pred.col e i -
              (c0 + ((if cfg.external = e then stored fs (cfg.bin i) else 0) + storedSum e cfgs fss i))|) := by
        intro F hF h1
        have hx : |if cfg.external = e then stored F.1 (cfg.bin i) else 0| ≤ 2 * L := by
          split
          · have := hF F.1 (by simp) (cfg.bin i)
            linarith
          · rw [abs_zero]; linarith
        have h2 := ih (k + 1) fss F.2 (c0 + if cfg.external = e then stored F.1 (cfg.bin i) else 0) hws hds hLs
          (fun g hg => hF g (by simp [hg])) (by
            have := abs_add_le c0 (if cfg.external = e then stored F.1 (cfg.bin i) else 0)
            linarith)
        rw [add_assoc, add_assoc] at h2
        refine h2.trans ?_
        calc _ ≤ (1 + u) ^ (4 * cfgs.length) * ((1 + u) ^ 4 * (S + |pred.col e i -
              (c0 + ((if cfg.external = e then stored fs (cfg.bin i) else 0) + storedSum e cfgs fss i))|)) :=
              mul_le_mul_of_nonneg_left h1 (by positivity)
          _ = _ := by rw [List.length_cons]; ring
      have grow : ∀ t : K, 0 ≤ t → S + t ≤ (1 + u) ^ 4 * (S + t) := fun t ht =>
        le_mul_of_one_le_left (by linarith) (one_le_pow₀ hone)
      cases hsk : skipped p it cfg with
      | true =>
        rw [hsk] at hL2
        simp only [if_true] at hL2 ⊢
        refine step ({ fs0 with factorsOld := fs0.factors }, pred) hL2 ?_
        have h2 : stored ({ fs0 with factorsOld := fs0.factors } : FState K) = stored fs := hs0
        dsimp only
        rw [h2]
        exact grow _ (abs_nonneg _)
      | false =>
        rw [hsk] at hL2
        simp only [Bool.false_eq_true, if_false] at hL2 ⊢
        refine step (featureIterationR m p o it k cfg dv isd il fs0 pred) hL2 ?_
        by_cases he : cfg.external = e
        · simp only [if_pos he]
          have h3 := featureIterationR_error m u hu hu2 hm p hp o L hc it k cfg dv isd il fs0 pred hw1 hd1 e i S
            (c0 + storedSum e cfgs fss i) (by
              have h4 := abs_add_le c0 (storedSum e cfgs fss i)
              have h5 := storedSum_within L hL e i cfgs fss hLs
              have h6 : (0 : K) ≤ cfgs.length * L := by positivity
              linarith) (by rw [hs0]; exact hL1 fs (by simp) _) he (hL2 _ (by simp) _)
          rw [hs0] at h3
          have hr : ∀ a : K, c0 + (a + storedSum e cfgs fss i) = c0 + storedSum e cfgs fss i + a := fun a => by ring
          rw [hr, hr]
          exact h3
        · simp only [if_neg he]
          have hcol : (featureIterationR m p o it k cfg dv isd il fs0 pred).2.col e i = pred.col e i := by
            obtain ⟨g, un, -, -, -, hF⟩ := featureIterationR_form m p hp o it k cfg dv isd il fs0 pred
            rw [hF]
            dsimp only
            rw [col_updateR, if_neg he]
            unfold visitFactorsR
            dsimp only
            have ht : ∀ v, ((pred.updateR m cfg v).removeR m cfg v).col e i = pred.col e i := by
              intro v
              rw [col_removeR, if_neg he, col_updateR, if_neg he]
            split
            · split
              · split
                · split
                  · split <;> exact ht _
                  · exact ht _
                · exact ht _
              · rfl
            · rfl
          rw [hcol]
          exact grow _ (abs_nonneg _)

omit hp hc in
/-- The removal of a diverging iteration: at most two roundings per feature. -/
theorem removePredsR_error (e : Bool) (i : ℕ) (S : K) :
    ∀ (cfgs : List FeatureCfg) (fss : List (FState K)) (pred : Pred K) (r : List (FState K) × Pred K) (c0 : K),
      removePredsR m cfgs fss pred = .ok r → FactorsWithin L fss → FactorsWithin L r.1 → |c0| + cfgs.length * (2 * L) ≤ S →
      S + |r.2.col e i - (c0 + storedSum e cfgs r.1 i)| ≤
        (1 + u) ^ (2 * cfgs.length) * (S + |pred.col e i - (c0 + storedSum e cfgs fss i)|) := by
  intro cfgs
  induction cfgs with
  | nil =>
    intro fss pred r c0 h _ _ _
    simp only [removePredsR, Except.ok.injEq] at h
    rw [← h]; simp [storedSum_nil_left]
  | cons cfg cfgs ih =>
    intro fss pred r c0 h hL1 hL2 hS
    have hS0 : 0 ≤ S := by
      have := abs_nonneg c0
      have : (0 : K) ≤ (cfg :: cfgs).length * (2 * L) := by positivity
      linarith
    have hone : 1 ≤ 1 + u := by linarith
    cases fss with
    | nil =>
      simp only [removePredsR, Except.ok.injEq] at h
      rw [← h]
      simp only [storedSum_nil_right]
      have h0 : 0 ≤ S + |pred.col e i - (c0 + 0)| := by positivity
      exact le_mul_of_one_le_left h0 (one_le_pow₀ hone)
    | cons fs fss =>
      have hLs : FactorsWithin L fss := fun g hg => hL1 g (by simp [hg])
      rw [List.length_cons] at hS
      push_cast at hS
      rw [removePredsR] at h
      split at h
      · cases h
      rename_i agg hag
      dsimp only at h
      split at h
      · cases h
      rename_i rest pred' hrest
      rw [Except.ok.injEq] at h
      subst h
      dsimp only at hL2 ⊢
      rw [storedSum_cons, storedSum_cons]
      have hst : ∀ b, stored ({ fs with agg := some fun b => m.sub (agg b) (fs.factors b) } : FState K) b =
          m.sub (stored fs b) (fs.factors b) := by
        intro b
        unfold stored
        rw [hag]
      have hx : |if cfg.external = e then stored ({ fs with agg := some fun b => m.sub (agg b) (fs.factors b) } : FState K) (cfg.bin i)
          else 0| ≤ 2 * L := by
        split
        · have := hL2 _ (List.mem_cons_self) (cfg.bin i)
          linarith
        · rw [abs_zero]; linarith
      have h2 := ih fss _ (rest, pred') (c0 + if cfg.external = e then
          stored ({ fs with agg := some fun b => m.sub (agg b) (fs.factors b) } : FState K) (cfg.bin i) else 0) hrest hLs
        (fun g hg => hL2 g (List.mem_cons_of_mem _ hg)) (by
          have := abs_add_le c0 (if cfg.external = e then
            stored ({ fs with agg := some fun b => m.sub (agg b) (fs.factors b) } : FState K) (cfg.bin i) else 0)
          linarith)
      rw [add_assoc, add_assoc] at h2
      refine h2.trans ?_
      have h1 : S + |(pred.removeR m cfg (predInSample cfg fs)).col e i - (c0 + ((if cfg.external = e then
            stored ({ fs with agg := some fun b => m.sub (agg b) (fs.factors b) } : FState K) (cfg.bin i) else 0) +
              storedSum e cfgs fss i))| ≤
          (1 + u) ^ 2 * (S + |pred.col e i - (c0 + ((if cfg.external = e then stored fs (cfg.bin i) else 0) +
            storedSum e cfgs fss i))|) := by
        rw [col_removeR]
        by_cases he : cfg.external = e
        · simp only [if_pos he]
          have h3 := both_error m u hu hu2 hm S L (c0 + storedSum e cfgs fss i) (stored fs (cfg.bin i)) (fs.factors (cfg.bin i))
            (stored ({ fs with agg := some fun b => m.sub (agg b) (fs.factors b) } : FState K) (cfg.bin i)) (pred.col e i)
            (m.sub (pred.col e i) (predInSample cfg fs i)) (stored fs (cfg.bin i) - fs.factors (cfg.bin i)) (by
              have h4 := abs_add_le c0 (storedSum e cfgs fss i)
              have h5 := storedSum_within L hL e i cfgs fss hLs
              have h6 : (0 : K) ≤ cfgs.length * L := by positivity
              linarith) (hL2 _ (List.mem_cons_self) _) (.inr rfl) (.inr (by rw [hst]; exact (hm _ _).2))
            (by
              have : pred.col e i + (stored fs (cfg.bin i) - fs.factors (cfg.bin i) - stored fs (cfg.bin i)) =
                  pred.col e i - fs.factors (cfg.bin i) := by ring
              rw [this]
              exact (hm _ _).2)
          have hr : ∀ a : K, c0 + (a + storedSum e cfgs fss i) = c0 + storedSum e cfgs fss i + a := fun a => by ring
          rw [hr, hr]
          exact h3
        · simp only [if_neg he]
          exact le_mul_of_one_le_left (by positivity) (one_le_pow₀ hone)
      calc _ ≤ (1 + u) ^ (2 * cfgs.length) * ((1 + u) ^ 2 * (S + |pred.col e i -
            (c0 + ((if cfg.external = e then stored fs (cfg.bin i) else 0) + storedSum e cfgs fss i))|)) :=
            mul_le_mul_of_nonneg_left h1 (by positivity)
        _ = _ := by rw [List.length_cons]; ring

end

end CB
