import Verif.Props.LossDescent
import Verif.Spec.CostDescent

/-!
# C84: training with bin by bin minimisation of a convex loss never increases the costs
-/

set_option autoImplicit false
set_option linter.unusedSectionVars false

namespace CB
open Finset Spec

/-! ### One bin -/

theorem binSum_members (n : ℕ) (codes : ℕ → ℕ) (g : ℕ → ℝ) (b : ℕ) : binSum n codes g b = ((binMembers n codes b).map g).sum := by
  unfold binSum binMembers
  induction n with
  | zero => simp
  | succ n ih =>
    rw [sum_range_succ, ih, List.range_succ, List.filter_append, List.map_append, List.sum_append]
    by_cases h : codes n = b <;> simp [h]

/-- The quantile costs are the weighted mean of the pinball loss. -/
theorem quantileCostsFlt_eq (q : ℝ) : quantileCostsFlt q = meanCosts (Spec.pinball q) := by
  funext l
  unfold quantileCostsFlt meanCosts quotientFlt
  cases l with
  | nil => simp
  | cons s l =>
    rw [if_pos (by simp), if_neg (List.cons_ne_nil s l)]
    have : ((s :: l).map fun s => CB.pinball q s.1 s.2.1 * s.2.2) = (s :: l).map fun s => s.2.2 * Spec.pinball q s.1 s.2.1 := by
      refine List.map_congr_left fun x _ => ?_
      rw [pinball_eq, mul_comm]
    rw [this]

theorem pinball_convexLoss (q : ℝ) (h0 : 0 ≤ q) (h1 : q ≤ 1) : ConvexLoss (Spec.pinball q) where
  nonneg p y := by rw [← pinball_eq]; exact pinball_nonneg q p y h0 h1
  convex a b y t ht0 ht1 := by
    rw [← pinball_eq, ← pinball_eq, ← pinball_eq]
    exact pinball_convex q a b t y ht0 ht1

/-- What the proofs need of such an estimator. -/
structure Minimizing (minimize : (ℝ → Flt ℝ) → ℝ → ℝ) (mult : Bool) (E : Estimator) (loss : ℝ → ℝ → ℝ) : Prop where
  convex : ConvexLoss loss
  link : E.link = if mult then .log else .identity
  parameters : ∀ it n codes y w pred b, (E.parameters it n codes y w pred b).1 = genericParamLink E.link.toLink
    (minimize (binObjective (meanCosts loss) E.link.toLink mult n codes y w pred b) (E.link.toLink.unlink 0))
  calibrate : ∀ c v f, E.calibrate c v f = f
  loss_eq : E.loss = genericTotal (meanCosts loss)
  valid : ∀ y, E.valid y ↔ (mult = true → 0 ≤ y)

theorem costEstimator_minimizing {minimize : (ℝ → Flt ℝ) → ℝ → ℝ} {mult : Bool} {E : Estimator} {loss : ℝ → ℝ → ℝ}
    (h : CostEstimator minimize mult E loss) : Minimizing minimize mult E loss := by
  cases h with
  | quantile q h0 h1 =>
    refine ⟨pinball_convexLoss q h0 h1, rfl, ?_, fun _ _ _ => rfl, ?_, fun _ => Iff.rfl⟩
    · intro it n codes y w pred b
      simp only [quantileEstimator, genericParameters, quantileCostsFlt_eq]
    · simp only [quantileEstimator, quantileCostsFlt_eq]
  | generic _ h => exact ⟨h, rfl, fun _ _ _ _ _ _ _ => rfl, fun _ _ _ => rfl, rfl, fun _ => Iff.rfl⟩

/-- The parameter that changes nothing. -/
def neutralParam (mult : Bool) : ℝ := if mult then 1 else 0

theorem unlink_zero (mult : Bool) : (if mult then LinkKind.log else LinkKind.identity).toLink.unlink 0 = neutralParam mult := by
  cases mult with
  | true => exact Real.exp_zero
  | false => rfl

/-- A shrunk update in link space moves all predictions of a bin by the same part of the way to the optimised ones. -/
theorem shrunk_update (mult : Bool) (param : ℝ) (hpos : mult = true → -1e-5 < param) (t : ℝ) (h0 : 0 ≤ t) (h1 : t ≤ 1) :
    ∃ s, 0 ≤ s ∧ s ≤ 1 ∧ ∀ x : ℝ,
      (if mult then LinkKind.log else LinkKind.identity).toLink.unlink
          (x + t * genericParamLink (if mult then LinkKind.log else LinkKind.identity).toLink param) =
        (1 - s) * (if mult then LinkKind.log else LinkKind.identity).toLink.unlink x +
          s * genericModel mult param ((if mult then LinkKind.log else LinkKind.identity).toLink.unlink x) := by
  cases mult with
  | false =>
    refine ⟨t, h0, h1, fun x => ?_⟩
    simp only [Bool.false_eq_true, if_false, LinkKind.toLink, identityLink, genericParamLink, genericModel]
    simp
    ring
  | true =>
    simp only [if_true, LinkKind.toLink, logLink, genericParamLink, genericModel]
    rw [if_pos (Real.exp_ne_zero 0)]
    have hp := hpos rfl
    generalize hc : (if |param| < (1e-5 : ℝ) then (1e-5 : ℝ) else param) = c
    -- `c` is on the way from 1 to the parameter
    have hcpos : 0 < c := by
      rw [← hc]
      split_ifs with h
      · norm_num
      · rw [not_lt] at h
        rcases abs_cases param with ⟨e, -⟩ | ⟨e, hneg⟩
        · rw [e] at h
          exact lt_of_lt_of_le (by norm_num) h
        · exfalso; rw [e] at h; linarith
    have hway : (1 ≤ c ∧ c ≤ param) ∨ (c ≤ 1 ∧ param ≤ c) := by
      rw [← hc]
      split_ifs with h
      · right
        refine ⟨by norm_num, ?_⟩
        exact (le_abs_self param).trans h.le
      · rcases le_total 1 param with h' | h'
        · exact .inl ⟨h', le_rfl⟩
        · exact .inr ⟨h', le_rfl⟩
    -- and `exp (t log c)` is on the way from 1 to `c`
    have hexp : (1 ≤ Real.exp (t * Real.log c) ∧ Real.exp (t * Real.log c) ≤ param) ∨
        (Real.exp (t * Real.log c) ≤ 1 ∧ param ≤ Real.exp (t * Real.log c)) := by
      rcases hway with ⟨h2, h3⟩ | ⟨h2, h3⟩
      · left
        have hl : 0 ≤ Real.log c := Real.log_nonneg h2
        refine ⟨Real.one_le_exp (mul_nonneg h0 hl), le_trans ?_ h3⟩
        calc Real.exp (t * Real.log c) ≤ Real.exp (Real.log c) := Real.exp_le_exp.mpr (by nlinarith)
          _ = c := Real.exp_log hcpos
      · right
        have hl : Real.log c ≤ 0 := Real.log_nonpos hcpos.le h2
        refine ⟨Real.exp_le_one_iff.mpr (by nlinarith), le_trans h3 ?_⟩
        calc c = Real.exp (Real.log c) := (Real.exp_log hcpos).symm
          _ ≤ Real.exp (t * Real.log c) := Real.exp_le_exp.mpr (by nlinarith)
    revert hexp
    generalize hzdef : Real.exp (t * Real.log c) = z
    intro hexp
    obtain ⟨s, hs0, hs1, hz⟩ : ∃ s, 0 ≤ s ∧ s ≤ 1 ∧ z = (1 - s) + s * param := by
      by_cases hone : param = 1
      · exact ⟨0, le_rfl, zero_le_one, by rcases hexp with h | h <;> linarith [h.1, h.2]⟩
      · have hne : param - 1 ≠ 0 := sub_ne_zero.mpr hone
        refine ⟨(z - 1) / (param - 1), ?_, ?_, by field_simp; ring⟩
        · rcases hexp with h | h
          · exact div_nonneg (by linarith [h.1]) (by linarith [h.1, h.2])
          · exact div_nonneg_of_nonpos (by linarith [h.1]) (by linarith [h.1, h.2])
        · rcases hexp with h | h
          · have : 0 < param - 1 := lt_of_le_of_ne (by linarith [h.1, h.2]) (Ne.symm hne)
            rw [div_le_one this]; linarith [h.2]
          · have : param - 1 < 0 := lt_of_le_of_ne (by linarith [h.1, h.2]) hne
            rw [div_le_one_of_neg this]; linarith [h.2]
    refine ⟨s, hs0, hs1, fun x => ?_⟩
    rw [Real.exp_add, hzdef, hz]
    ring

theorem genericModel_neutral (mult : Bool) (x : ℝ) : genericModel mult (neutralParam mult) x = x := by
  cases mult <;> simp [genericModel, neutralParam]

theorem meanCosts_sum (loss : ℝ → ℝ → ℝ) (l : List (ℝ × ℝ × ℝ)) (hne : (l.map fun s => s.2.2).sum ≠ 0) :
    meanCosts loss l = .fin ((l.map fun s => s.2.2 * loss s.1 s.2.1).sum / (l.map fun s => s.2.2).sum) := by
  unfold meanCosts
  rw [if_neg (by rintro rfl; simp at hne), if_neg hne]

/-- The optimised parameter does not increase the costs of its bin. -/
theorem optimum_not_worse {minimize : (ℝ → Flt ℝ) → ℝ → ℝ} (hmin : NotWorse minimize) (loss : ℝ → ℝ → ℝ) (link : Link)
    (mult : Bool) (start : ℝ) (hstart : start = neutralParam mult) (n : ℕ) (codes : ℕ → ℕ) (y w pred : ℕ → ℝ)
    (hw : ∀ i < n, 0 ≤ w i) (b : ℕ) :
    binSum n codes (fun i => w i * loss (genericModel mult
        (minimize (binObjective (meanCosts loss) link mult n codes y w pred b) start) (link.unlink (pred i))) (y i)) b ≤
      binSum n codes (fun i => w i * loss (link.unlink (pred i)) (y i)) b := by
  rw [binSum_members, binSum_members]
  have hmem : ∀ i ∈ binMembers n codes b, 0 ≤ w i := by
    intro i hi
    exact hw i (List.mem_range.mp (List.mem_filter.mp hi).1)
  by_cases hW : ((binMembers n codes b).map w).sum = 0
  · -- no weight: nothing counts
    have hz : ∀ i ∈ binMembers n codes b, w i = 0 := by
      intro i hi
      have := List.all_zero_of_le_zero_le_of_sum_eq_zero
        (l := (binMembers n codes b).map w) (fun x hx => by
          obtain ⟨j, hj, rfl⟩ := List.mem_map.mp hx
          exact hmem j hj) hW (List.mem_map_of_mem hi)
      exact this
    apply le_of_eq
    congr 1
    refine List.map_congr_left fun i hi => ?_
    rw [hz i hi, zero_mul, zero_mul]
  · have hsum : ∀ param, binObjective (meanCosts loss) link mult n codes y w pred b param =
        .fin (((binMembers n codes b).map fun i => w i * loss (genericModel mult param (link.unlink (pred i))) (y i)).sum /
          ((binMembers n codes b).map w).sum) := by
      intro param
      unfold binObjective
      rw [meanCosts_sum _ _ (by rw [List.map_map]; exact hW), List.map_map, List.map_map]
      rfl
    have hpos : 0 < ((binMembers n codes b).map w).sum := by
      refine lt_of_le_of_ne (List.sum_nonneg ?_) (Ne.symm hW)
      intro x hx
      obtain ⟨j, hj, rfl⟩ := List.mem_map.mp hx
      exact hmem j hj
    obtain ⟨a, ha, hle⟩ := hmin _ start _ (hsum start)
    rw [hsum, Flt.fin.injEq] at ha
    rw [← ha] at hle
    have h2 := (div_le_div_iff_of_pos_right hpos).mp hle
    refine h2.trans (le_of_eq ?_)
    rw [hstart]
    simp only [genericModel_neutral]

/-- One update whose summands in link space are shrunk versions of the estimates does not increase the costs. -/
theorem cost_step {minimize : (ℝ → Flt ℝ) → ℝ → ℝ} (hmin : NotWorse minimize) (loss : ℝ → ℝ → ℝ) (hl : ConvexLoss loss)
    (mult : Bool) (n : ℕ) (codes : ℕ → ℕ) (y w pred f : ℕ → ℝ) (hw : ∀ i < n, 0 ≤ w i) (param : ℕ → ℝ)
    (hparam : ∀ b, param b = minimize (binObjective (meanCosts loss) (if mult then LinkKind.log else LinkKind.identity).toLink mult n
      codes y w pred b) ((if mult then LinkKind.log else LinkKind.identity).toLink.unlink 0))
    (hpos : mult = true → ∀ b, -1e-5 < param b)
    (hf : ∀ i < n, ∃ t, 0 ≤ t ∧ t ≤ 1 ∧ f (codes i) =
      t * genericParamLink (if mult then LinkKind.log else LinkKind.identity).toLink (param (codes i))) :
    ∑ i ∈ range n, w i * loss ((if mult then LinkKind.log else LinkKind.identity).toLink.unlink (pred i + f (codes i))) (y i) ≤
      ∑ i ∈ range n, w i * loss ((if mult then LinkKind.log else LinkKind.identity).toLink.unlink (pred i)) (y i) := by
  rw [sum_by_bin n codes, sum_by_bin n codes (fun i => w i * loss _ (y i))]
  refine Finset.sum_le_sum fun b hb => ?_
  obtain ⟨i0, hi0, rfl⟩ := Finset.mem_image.mp hb
  obtain ⟨t, t0, t1, hft⟩ := hf i0 (Finset.mem_range.mp hi0)
  obtain ⟨s, s0, s1, hs⟩ := shrunk_update mult (param (codes i0)) (fun h => hpos h _) t t0 t1
  have hopt := optimum_not_worse hmin loss (if mult then LinkKind.log else LinkKind.identity).toLink mult _ (unlink_zero mult) n
    codes y w pred hw (codes i0)
  rw [← hparam] at hopt
  generalize (if mult then LinkKind.log else LinkKind.identity).toLink = L at *
  have h1 : binSum n codes (fun i => w i * loss (L.unlink (pred i + f (codes i))) (y i)) (codes i0) ≤
      binSum n codes (fun i => (1 - s) * (w i * loss (L.unlink (pred i)) (y i)) +
        s * (w i * loss (genericModel mult (param (codes i0)) (L.unlink (pred i))) (y i))) (codes i0) := by
    unfold binSum
    refine Finset.sum_le_sum fun i hi => ?_
    by_cases hc : codes i = codes i0
    · rw [if_pos hc, if_pos hc]
      dsimp only
      rw [hc, hft, hs]
      have := mul_le_mul_of_nonneg_left (hl.convex (L.unlink (pred i)) (genericModel mult (param (codes i0)) (L.unlink (pred i)))
        (y i) s s0 s1) (hw i (Finset.mem_range.mp hi))
      nlinarith
    · rw [if_neg hc, if_neg hc]
  refine h1.trans ?_
  have h2 : binSum n codes (fun i => (1 - s) * (w i * loss (L.unlink (pred i)) (y i)) +
        s * (w i * loss (genericModel mult (param (codes i0)) (L.unlink (pred i))) (y i))) (codes i0) =
      (1 - s) * binSum n codes (fun i => w i * loss (L.unlink (pred i)) (y i)) (codes i0) +
        s * binSum n codes (fun i => w i * loss (genericModel mult (param (codes i0)) (L.unlink (pred i))) (y i)) (codes i0) := by
    rw [binSum_members, binSum_members, binSum_members, List.sum_map_add, List.sum_map_mul_left, List.sum_map_mul_left]
  rw [h2]
  nlinarith [mul_le_mul_of_nonneg_left hopt s0]

/-! ### Clipped updates -/

theorem clip_shrinks (x lo hi : ℝ) (h1 : lo ≤ 0) (h2 : 0 ≤ hi) : ∃ t, 0 ≤ t ∧ t ≤ 1 ∧ clipTo x lo hi = t * x := by
  have hb : (0 ≤ clipTo x lo hi ∧ clipTo x lo hi ≤ x) ∨ (x ≤ clipTo x lo hi ∧ clipTo x lo hi ≤ 0) := by
    unfold clipTo
    rcases le_total 0 x with h | h
    · left
      rw [max_eq_left (h1.trans h)]
      exact ⟨le_min h h2, min_le_left _ _⟩
    · right
      have : max x lo ≤ 0 := max_le h h1
      exact ⟨le_min (le_max_left _ _) (h.trans h2), (min_le_left _ _).trans this⟩
  by_cases hx : x = 0
  · refine ⟨0, le_rfl, zero_le_one, ?_⟩
    subst hx
    rcases hb with h | h <;> linarith [h.1, h.2]
  · refine ⟨clipTo x lo hi / x, ?_, ?_, by field_simp⟩
    · rcases hb with h | h
      · exact div_nonneg h.1 (h.1.trans h.2)
      · exact div_nonneg_of_nonpos h.2 (h.1.trans h.2)
    · rcases hb with h | h
      · rw [div_le_one (lt_of_le_of_ne (h.1.trans h.2) (Ne.symm hx))]; exact h.2
      · rw [div_le_one_of_neg (lt_of_le_of_ne (h.1.trans h.2) hx)]; exact h.1

/-- Within its limits, a feature is only updated by shrunk values. -/
theorem clipUpdate_shrinks (c : ClipConsts ℝ) (hc : c.Ok) (cfg : FeatureCfg) (fs : FState ℝ) (b : ℕ)
    (hin : c.logMin cfg.external (cfg.group.length == 1) ≤ stored fs b ∧
      stored fs b ≤ c.logMax cfg.external (cfg.group.length == 1)) :
    ∃ t, 0 ≤ t ∧ t ≤ 1 ∧ clipUpdate c cfg fs b = t * fs.factors b := by
  obtain ⟨t, t0, t1, ht⟩ := clip_shrinks (fs.factors b) c.logHalf c.logTwo hc.half hc.two
  unfold clipUpdate
  cases hf : fs.isFitted with
  | false => exact ⟨t, t0, t1, ht⟩
  | true =>
    cases ha : fs.agg with
    | none => exact ⟨t, t0, t1, ht⟩
    | some agg =>
      have hst : stored fs b = agg b := by unfold stored; rw [ha]
      rw [hst] at hin
      obtain ⟨r, r0, r1, hr⟩ := clip_shrinks (clipTo (fs.factors b) c.logHalf c.logTwo)
        (c.logMin cfg.external (cfg.group.length == 1) - agg b) (c.logMax cfg.external (cfg.group.length == 1) - agg b)
        (by linarith [hin.1]) (by linarith [hin.2])
      refine ⟨r * t, mul_nonneg r0 t0, mul_le_one₀ r1 t0 t1, ?_⟩
      show clipTo (clipTo (fs.factors b) c.logHalf c.logTwo) _ _ = _
      rw [hr, ht]
      ring

/-- While training does not diverge, an update is a shrunk version of the learning rate times what the smoother says. -/
theorem update_clipped (p : Params ℝ) (hp : p.aggregate = true) (hc : p.clip = true → p.consts.Ok) (o : Oracle ℝ) (it i : ℕ)
    (cfg : FeatureCfg) (dv : ℕ) (il : Flt ℝ) (fs : FState ℝ) (pred : Pred ℝ) (hcal : ∀ it i fs, o.calibrate it i fs = fs.factors)
    (hin : p.clip = true → ∀ b, p.consts.logMin cfg.external (cfg.group.length == 1) ≤ stored fs b ∧
      stored fs b ≤ p.consts.logMax cfg.external (cfg.group.length == 1)) :
    ∃ g : ℕ → ℝ, (featureIteration p o it i cfg dv false il fs pred).2 = pred.update cfg (fun s => g (cfg.bin s)) ∧
      ∀ b, ∃ t, 0 ≤ t ∧ t ≤ 1 ∧ g b = t *
        predictFactors cfg (updateFactors cfg fs (o.estimate it i pred fs) (o.learnRate (it + 1)))
          (o.smooth it i pred (updateFactors cfg fs (o.estimate it i pred fs) (o.learnRate (it + 1))) (o.estimate it i pred fs))
          (o.learnRate (it + 1)) b := by
  by_cases hclip : p.clip = true
  · unfold featureIteration visitFactors
    simp only [hp, hclip, if_true, hcal, Bool.and_self, Bool.false_eq_true, if_false]
    refine ⟨_, rfl, fun b => ?_⟩
    exact clipUpdate_shrinks p.consts (hc hclip) cfg _ b (hin hclip b)
  · rw [Bool.not_eq_true] at hclip
    refine ⟨_, update_plain p hp hclip o it i cfg dv false il fs pred hcal, fun b => ⟨1, zero_le_one, le_rfl, (one_mul _).symm⟩⟩

/-! ### Iterations -/

/-- If no visit of a feature within its limits increases a quantity, no pass over the features does. -/
theorem pass_descends_in (p : Params ℝ) (o : Oracle ℝ) (Q : Pred ℝ → ℝ) (I : FeatureCfg → FState ℝ → Prop)
    (hI : ∀ cfg fs f, I cfg fs → I cfg { fs with factors := f }) (it dv : ℕ) (il : Flt ℝ) :
    ∀ (cfgs : List FeatureCfg) (k : ℕ) (fss : List (FState ℝ)) (pred : Pred ℝ),
      (∀ (j : ℕ) cfg fs, cfgs[j]? = some cfg → fss[j]? = some fs → I cfg fs) →
      (∀ j cfg, cfgs[j]? = some cfg → ∀ fs pred, I cfg fs →
        Q (featureIteration p o it (k + j) cfg dv false il fs pred).2 ≤ Q pred) →
      Q (featurePass p o it dv false il k cfgs fss pred).2 ≤ Q pred
  | [], k, fss, pred, _, _ => by simp [featurePass]
  | cfg :: cfgs, k, [], pred, _, _ => by simp [featurePass]
  | cfg :: cfgs, k, fs :: fss, pred, hin, h => by
    have ih := fun pred' => pass_descends_in p o Q I hI it dv il cfgs (k + 1) fss pred'
      (fun j c f hj hf => hin (j + 1) c f (by simpa using hj) (by simpa using hf))
      (fun j c hj fs pr hf => by
        have := h (j + 1) c (by simpa using hj) fs pr hf
        rwa [show k + (j + 1) = k + 1 + j by omega] at this)
    have h0 := hin 0 cfg fs rfl rfl
    unfold featurePass
    by_cases hsk : skipped p it cfg = true
    · simp only [hsk, if_true]
      exact ih pred
    · simp only [hsk]
      refine (ih _).trans (h 0 cfg (by simp) _ pred ?_)
      split_ifs
      · exact hI _ _ _ h0
      · exact h0

/-- As `trace_descends`, with a hypothesis about the passes of the history only. -/
theorem trace_descends_in (p : Params ℝ) (o : Oracle ℝ) (cfgs : List FeatureCfg) (prior : ℕ → ℝ) (Q : Pred ℝ → ℝ)
    (hpass : ∀ past s, Trace p o cfgs (startState o cfgs prior) past s → s.diverging = 0 → s.isDiverging = false →
      Q (featurePass p o s.iteration s.diverging s.isDiverging s.initialLoss 0 cfgs s.feats s.pred).2 ≤ Q s.pred)
    (hloss : ∀ a b, Q a ≤ Q b → isDiverged (o.loss b) (o.loss a) = false)
    (past : List (TState ℝ)) (s : TState ℝ) (h : Trace p o cfgs (startState o cfgs prior) past s) :
    (∀ t ∈ past, Q s.pred ≤ Q t.pred) ∧ Q s.pred ≤ Q (startState o cfgs prior).pred ∧ s.diverging = 0 ∧
      s.initialLoss = o.loss (startState o cfgs prior).pred ∧ s.loss = o.loss s.pred ∧ s.isDiverging = false := by
  induction h with
  | start => exact ⟨by simp, le_refl _, rfl, rfl, rfl, rfl⟩
  | step ht hc hi ih =>
    rename_i past s s'
    obtain ⟨h1, h2, h3, h4, h5, h6⟩ := ih
    obtain ⟨feats, pred, r, hfp, hcc, hr, hf, hp, -, hil, hl, -, -, -⟩ := iterate_ok p o cfgs s s' hi
    have hQ : Q pred ≤ Q s.pred := by
      have := hpass past s ht h3 h6
      rwa [hfp] at this
    have hnd : isDiverged s.initialLoss (o.loss pred) = false := by
      rw [h4]
      exact hloss _ _ (hQ.trans h2)
    unfold checkConvergence at hcc
    rw [hnd] at hcc
    simp only [Bool.false_eq_true, if_false, Except.ok.injEq, Prod.mk.injEq] at hcc
    rw [← hcc.2] at hr
    simp only [Bool.false_eq_true, if_false, Except.ok.injEq] at hr
    have hpred : s'.pred = pred := by rw [hp, ← hr]
    refine ⟨?_, ?_, ?_, ?_, ?_, hcc.2.symm⟩
    · intro t ht
      rw [hpred]
      rcases List.mem_cons.mp ht with rfl | ht
      · exact hQ
      · exact hQ.trans (h1 t ht)
    · rw [hpred]; exact hQ.trans h2
    · rw [← hcc.1]; exact h3
    · rw [hil]; exact h4
    · rw [hl, hpred]

section
variable {σ : Type*} (S : Setup σ) (D : TrainSet) {minimize : (ℝ → Flt ℝ) → ℝ → ℝ} {mult : Bool} {E : Estimator} {loss : ℝ → ℝ → ℝ}

/-- The costs of a running prediction. -/
noncomputable def linkCost (loss : ℝ → ℝ → ℝ) (D : TrainSet) (E : Estimator) (pred : Pred ℝ) : ℝ :=
  trainingCost loss D fun s => E.link.toLink.unlink (pred.factors s)

/-- The loss is not doubled when the costs do not grow. -/
theorem cost_not_diverged (hE : Minimizing minimize mult E loss) (hw : ∀ i < D.n, 0 ≤ D.w i) (a b : Pred ℝ)
    (h : linkCost loss D E a ≤ linkCost loss D E b) :
    isDiverged ((S.oracle E D).loss b) ((S.oracle E D).loss a) = false := by
  unfold isDiverged Setup.oracle
  simp only [hE.loss_eq]
  unfold genericTotal
  have hsum : ∀ g : ℕ → ℝ, ((List.range D.n).map g).sum = ∑ i ∈ range D.n, g i := fun g => by
    induction D.n with
    | zero => simp
    | succ n ih => rw [List.range_succ, List.map_append, List.sum_append, ih, sum_range_succ]; simp
  have hcost : ∀ c : Pred ℝ, meanCosts loss ((List.range D.n).map fun i => (E.link.toLink.unlink (c.factors i), D.y i, D.w i)) =
      if D.n = 0 then .fin 0 else if ∑ i ∈ range D.n, D.w i = 0 then .nan
        else .fin (linkCost loss D E c / ∑ i ∈ range D.n, D.w i) := by
    intro c
    unfold meanCosts linkCost trainingCost
    rw [List.map_map, List.map_map]
    have e1 := hsum D.w
    have e2 := hsum fun i => D.w i * loss (E.link.toLink.unlink (c.factors i)) (D.y i)
    simp only [Function.comp_def, e1, e2, List.map_eq_nil_iff, List.range_eq_nil]
  rw [hcost, hcost]
  by_cases hn : D.n = 0
  · simp [hn, Flt.twice, Flt.gt]
  · rw [if_neg hn, if_neg hn]
    have hd : 0 ≤ ∑ i ∈ range D.n, D.w i := Finset.sum_nonneg fun i hi => hw i (Finset.mem_range.mp hi)
    by_cases h0 : ∑ i ∈ range D.n, D.w i = 0
    · rw [if_pos h0]; rfl
    · rw [if_neg h0, if_neg h0]
      have hb : 0 ≤ linkCost loss D E b :=
        Finset.sum_nonneg fun i hi => mul_nonneg (hw i (Finset.mem_range.mp hi)) (hE.convex.nonneg _ _)
      have h1 := div_le_div_of_nonneg_right h hd
      have h2 := div_nonneg hb hd
      simp only [Flt.twice, Flt.gt, decide_eq_false_iff_not, not_lt]
      linarith

/-- No visit of a feature within its limits increases the costs. -/
theorem cost_visit (hE : Minimizing minimize mult E loss) (hmin : NotWorse minimize) (hpos : NoNegativeParameters minimize mult loss D)
    (hagg : S.params.aggregate = true) (hc : mult = true → S.params.consts.Ok) (hw : ∀ i < D.n, 0 ≤ D.w i)
    (hlr : ∀ k, 0 ≤ S.learnRate k ∧ S.learnRate k ≤ 1) (hg : ∀ f ∈ S.features, f.1.group ≠ []) (hsm : ShrinkingSmoothers S D)
    (it j : ℕ) (cfg : FeatureCfg) (hj : (S.cfgs D)[j]? = some cfg) (dv : ℕ) (il : Flt ℝ) (fs : FState ℝ) (pred : Pred ℝ)
    (hin : mult = true → ∀ b, S.params.consts.logMin cfg.external (cfg.group.length == 1) ≤ stored fs b ∧
      stored fs b ≤ S.params.consts.logMax cfg.external (cfg.group.length == 1)) :
    linkCost loss D E (featureIteration (S.paramsFor E) (S.oracle E D) it j cfg dv false il fs pred).2 ≤ linkCost loss D E pred := by
  have hclip : (S.paramsFor E).clip = true → mult = true := by
    intro h
    cases mult with
    | true => rfl
    | false => simp [Setup.paramsFor, hE.link] at h
  unfold Setup.cfgs at hj
  rw [List.getElem?_map] at hj
  cases hf : S.features[j]? with
  | none => rw [hf] at hj; simp at hj
  | some f =>
    rw [hf] at hj
    simp only [Option.map_some, Option.some.injEq] at hj
    subst hj
    have hmem : f ∈ S.features := List.mem_of_getElem? hf
    obtain ⟨g, hup, hgt⟩ := update_clipped (S.paramsFor E) hagg (fun h => hc (hclip h)) (S.oracle E D) it j (f.1.cfg D.X D.n) dv il
      fs pred (by
        intro it i fs
        unfold Setup.oracle
        dsimp only
        cases S.features[i]? with
        | none => rfl
        | some f => exact hE.calibrate _ _ _) (fun h => hin (hclip h))
    rw [hup]
    unfold Pred.update
    by_cases hx : (f.1.cfg D.X D.n).external = true
    · rw [if_pos hx]; exact le_rfl
    · rw [if_neg hx]
      unfold linkCost trainingCost
      have hest : ∀ b, (S.oracle E D).estimate it j pred fs b = genericParamLink E.link.toLink
          (minimize (binObjective (meanCosts loss) E.link.toLink mult D.n (f.1.cfg D.X D.n).bin D.y D.w pred.factors b)
            (E.link.toLink.unlink 0)) := by
        intro b
        simp only [Setup.oracle, hf]
        exact hE.parameters _ _ _ _ _ _ _
      have hstep := cost_step hmin loss hE.convex mult D.n (f.1.cfg D.X D.n).bin D.y D.w pred.factors g hw
        (fun b => minimize (binObjective (meanCosts loss) (if mult then LinkKind.log else LinkKind.identity).toLink mult D.n
          (f.1.cfg D.X D.n).bin D.y D.w pred.factors b) ((if mult then LinkKind.log else LinkKind.identity).toLink.unlink 0))
        (fun _ => rfl)
        (by
          intro hm b
          have := hpos hm (f.1.cfg D.X D.n).bin pred.factors b
          subst hm
          rw [unlink_zero]
          exact this)
        (by
          intro i hi
          obtain ⟨t, t0, t1, e⟩ := hgt ((f.1.cfg D.X D.n).bin i)
          obtain ⟨r, r0, r1, e'⟩ := update_shrinks (f.1.cfg D.X D.n) fs ((S.oracle E D).estimate it j pred fs)
            ((S.oracle E D).learnRate (it + 1)) (hlr _).1 (hlr _).2 ((S.oracle E D).smooth it j pred
              (updateFactors (f.1.cfg D.X D.n) fs ((S.oracle E D).estimate it j pred fs)
                ((S.oracle E D).learnRate (it + 1))) ((S.oracle E D).estimate it j pred fs))
            (by
              intro b v hv
              simp only [Setup.oracle, hf] at hv ⊢
              exact hsm f hmem _ _ b v hv)
            ((f.1.cfg D.X D.n).bin i) (cfg_bin_le f.1 (hg f hmem) D.X D.n i hi)
          refine ⟨t * r, mul_nonneg t0 r0, mul_le_one₀ t1 r0 r1, ?_⟩
          rw [e, e', hest, hE.link]
          ring)
      rw [hE.link]
      exact hstep

/-- No pass over the features increases the costs while training does not diverge. -/
theorem cost_pass (hE : Minimizing minimize mult E loss) (hmin : NotWorse minimize) (hpos : NoNegativeParameters minimize mult loss D)
    (hagg : S.params.aggregate = true) (hc : mult = true → S.params.consts.Ok) (hw : ∀ i < D.n, 0 ≤ D.w i)
    (hlr : ∀ k, 0 ≤ S.learnRate k ∧ S.learnRate k ≤ 1) (hg : ∀ f ∈ S.features, f.1.group ≠ []) (hsm : ShrinkingSmoothers S D)
    (prior : ℕ → ℝ) (past : List (TState ℝ)) (s : TState ℝ)
    (h : Trace (S.paramsFor E) (S.oracle E D) (S.cfgs D) (startState (S.oracle E D) (S.cfgs D) prior) past s)
    (hd : s.diverging = 0) (hid : s.isDiverging = false) :
    linkCost loss D E (featurePass (S.paramsFor E) (S.oracle E D) s.iteration s.diverging s.isDiverging s.initialLoss 0 (S.cfgs D)
      s.feats s.pred).2 ≤ linkCost loss D E s.pred := by
  rw [hid]
  refine pass_descends_in (S.paramsFor E) (S.oracle E D) (linkCost loss D E)
    (fun cfg fs => mult = true → ∀ b, S.params.consts.logMin cfg.external (cfg.group.length == 1) ≤ stored fs b ∧
      stored fs b ≤ S.params.consts.logMax cfg.external (cfg.group.length == 1))
    (fun cfg fs f h => h) s.iteration s.diverging s.initialLoss (S.cfgs D) 0 s.feats s.pred ?_ ?_
  · intro j cfg fs hj hf hm
    obtain ⟨fs', h1, h2, -⟩ := C23_bounds_link (S.paramsFor E) hagg (by simp [Setup.paramsFor, hE.link, hm]) (hc hm) (S.oracle E D)
      (S.cfgs D) prior past s h hd j cfg hj
    rw [hf, Option.some.injEq] at h1
    subst h1
    exact h2
  · intro j cfg hj fs pr hin
    rw [Nat.zero_add]
    exact cost_visit S D hE hmin hpos hagg hc hw hlr hg hsm s.iteration j cfg hj s.diverging s.initialLoss fs pr hin

/-- **C84.** Quantile regressors and the generic regressors with a convex loss: with smoothers that only shrink, learning rates
between 0 and 1 and an optimiser that does not return anything worse than its start value, the costs on the training data never
increase from one iteration to any later one, and training never diverges. -/
theorem C84_never_increases (hE : CostEstimator minimize mult E loss) (hmin : NotWorse minimize)
    (hpos : NoNegativeParameters minimize mult loss D) (hagg : S.params.aggregate = true) (hc : S.params.consts = realConsts)
    (hw : ∀ i < D.n, 0 ≤ D.w i) (hlr : ∀ k, 0 ≤ S.learnRate k ∧ S.learnRate k ≤ 1) (hg : ∀ f ∈ S.features, f.1.group ≠ [])
    (hsm : ShrinkingSmoothers S D) (prior : ℕ → ℝ) (past : List (TState ℝ)) (s : TState ℝ)
    (h : Trace (S.paramsFor E) (S.oracle E D) (S.cfgs D) (startState (S.oracle E D) (S.cfgs D) prior) past s) :
    (∀ t ∈ past, trainingCost loss D (fun i => E.link.toLink.unlink (s.pred.factors i)) ≤
        trainingCost loss D fun i => E.link.toLink.unlink (t.pred.factors i)) ∧
      trainingCost loss D (fun i => E.link.toLink.unlink (s.pred.factors i)) ≤
        trainingCost loss D (fun i => E.link.toLink.unlink (prior i)) ∧ s.diverging = 0 := by
  have hE' := costEstimator_minimizing hE
  have := trace_descends_in (S.paramsFor E) (S.oracle E D) (S.cfgs D) prior (linkCost loss D E)
    (cost_pass S D hE' hmin hpos hagg (fun _ => by rw [hc]; exact realConsts_ok) hw hlr hg hsm prior)
    (fun a b hab => cost_not_diverged S D hE' hw a b hab) past s h
  exact ⟨this.1, this.2.1, this.2.2.1⟩

/-- **C84**, success: such a fit never fails if the targets are valid and the global scale is a number. -/
theorem C84_fit_succeeds (hE : CostEstimator minimize mult E loss) (hmin : NotWorse minimize)
    (hpos : NoNegativeParameters minimize mult loss D) (hagg : S.params.aggregate = true) (hc : S.params.consts = realConsts)
    (hw : ∀ i < D.n, 0 ≤ D.w i) (hlr : ∀ k, 0 ≤ S.learnRate k ∧ S.learnRate k ≤ 1) (hg : ∀ f ∈ S.features, f.1.group ≠ [])
    (hsm : ShrinkingSmoothers S D) (hy : mult = true → ∀ i < D.n, 0 ≤ D.y i) (a : ℝ) (hs : E.scale D.n D.y D.w = .fin a)
    (hm : 1 ≤ S.params.maximalIterations) (hh : S.params.hierarchical = none)
    (hf : S.params.minimalFactorChange < 100) (hlc : S.params.minimalLossChange < 100000000000000000000)
    (fuel : ℕ) (hfuel : S.params.maximalIterations + 4 ≤ fuel) :
    NeverDiverges S E D ∧ ∃ m, S.fit E D fuel = some (.ok m) := by
  have hE' := costEstimator_minimizing hE
  refine ⟨fun a _ past s h => (C84_never_increases S D hE hmin hpos hagg hc hw hlr hg hsm _ past s h).2.2, ?_⟩
  refine fit_succeeds S E D fuel a (fun i hi => (hE'.valid _).mpr fun h => hy h i hi) hs hm hh hf hlc ?_ (by
    unfold normalIterations
    simpa [hh] using hfuel)
  intro past s h
  have hpass := cost_pass S D hE' hmin hpos hagg (fun _ => by rw [hc]; exact realConsts_ok) hw hlr hg hsm (baseline E D a)
  obtain ⟨-, h2, h3, h4, h5, h6⟩ := trace_descends_in (S.paramsFor E) (S.oracle E D) (S.cfgs D) _ (linkCost loss D E) hpass
    (fun a b hab => cost_not_diverged S D hE' hw a b hab) past s h
  rw [h4, h5]
  refine ⟨cost_not_diverged S D hE' hw _ _ h2, cost_not_diverged S D hE' hw _ _ (le_trans ?_ h2)⟩
  have := hpass past s h h3 h6
  rw [h4] at this
  exact this

/-- **C84**, fitted model: on the training data such a model has no higher costs than the predictions it started from. Needed, as
in C19: features made of a single column hold integers or special values there. -/
theorem C84_training_cost (hE : CostEstimator minimize mult E loss) (hmin : NotWorse minimize)
    (hpos : NoNegativeParameters minimize mult loss D) (hagg : S.params.aggregate = true) (hc : S.params.consts = realConsts)
    (hw : ∀ i < D.n, 0 ≤ D.w i) (hlr : ∀ k, 0 ≤ S.learnRate k ∧ S.learnRate k ≤ 1) (hg : ∀ f ∈ S.features, f.1.group ≠ [])
    (hsm : ShrinkingSmoothers S D)
    (hint : ∀ f ∈ S.features, ∀ c, f.1.group = [c] → ∀ i < D.n, ∀ x : ℝ, D.X i c = .fin x → ∃ k : ℤ, x = (k : ℝ))
    (fuel : ℕ) (m : FittedModel) (h : S.fit E D fuel = some (.ok m)) :
    trainingCost loss D (m.predict D.prior D.X) ≤ trainingCost loss D
      fun i => E.link.toLink.unlink (priorPrediction E.link m.scale m.offset D.prior i).getFin := by
  obtain ⟨a, r, -, hs, hfit, rfl⟩ := fit_ok S _ D fuel m h
  obtain ⟨past, s, ht, hcont, -, hpred, -⟩ := fitMain_ok _ _ _ _ fuel r hfit
  have hd : s.isDiverging = false := by
    unfold continues at hcont
    rw [Bool.or_eq_false_iff] at hcont
    exact hcont.2
  have hdesc := (C84_never_increases S D hE hmin hpos hagg hc hw hlr hg hsm _ past s ht).2.1
  have hcfgs : S.cfgs D = (S.features.map (·.1)).map fun f => f.cfg D.X D.n := by
    unfold Setup.cfgs
    rw [List.map_map]; rfl
  refine le_trans (le_of_eq ?_) hdesc
  unfold trainingCost
  refine Finset.sum_congr rfl fun i hi => ?_
  have hi := Finset.mem_range.mp hi
  have hpi : r.prediction.factors i = s.pred.factors i := by
    rw [hpred, trace_prediction _ _ _ _ past s ht hd]
  rw [hcfgs] at hfit
  obtain ⟨h1, -⟩ := C19_predict_train (S.paramsFor E) hagg (S.oracle E D) D.X D.n
    (S.features.map (·.1)) (baseline E D a) fuel r hfit i hi
    (by
      intro f hf
      obtain ⟨q, hq, rfl⟩ := List.mem_map.mp hf
      exact hg q hq)
    (by
      intro f hf c hfc x hx
      obtain ⟨q, hq, rfl⟩ := List.mem_map.mp hf
      exact hint q hq c hfc i hi x hx)
  dsimp only
  rw [← hpi, ← h1]
  rfl

end

end CB
