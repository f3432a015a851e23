import Verif.Model.GenericFit
import Verif.Props.Quantile
import Verif.Props.PipelineRows
import Verif.Props.CostDescentExample
import Mathlib.Logic.Equiv.Basic
import Mathlib.Data.List.Sort

/-!
# C77 and C87 for the quantile and generic-loss estimators

These estimators hand the samples of a bin to an optimiser as a list, and the quantile regressors sort the targets. The order of the
samples is nevertheless irrelevant.
-/

set_option autoImplicit false
set_option linter.unusedSectionVars false

namespace CB
open Finset Spec

/-! ### Samples in another order -/

theorem range_perm {β : Type*} (n : ℕ) (π : Equiv.Perm ℕ) (hπ : ∀ s, π s < n ↔ s < n) (f f' : ℕ → β)
    (hf : ∀ s < n, f' s = f (π s)) : ((List.range n).map f').Perm ((List.range n).map f) := by
  have h1 : (List.range n).map f' = ((List.range n).map π).map f := by
    rw [List.map_map]
    exact List.map_congr_left fun s hs => hf s (List.mem_range.mp hs)
  rw [h1]
  exact (range_map_perm π n hπ).map f

theorem members_perm {β : Type*} (n : ℕ) (π : Equiv.Perm ℕ) (hπ : ∀ s, π s < n ↔ s < n) (codes codes' : ℕ → ℕ)
    (hc : ∀ s < n, codes' s = codes (π s)) (f f' : ℕ → β) (hf : ∀ s < n, f' s = f (π s)) (b : ℕ) :
    ((binMembers n codes' b).map f').Perm ((binMembers n codes b).map f) := by
  have h1 : (binMembers n codes' b).map f' = (((List.range n).map π).filter fun i => decide (codes i = b)).map f := by
    unfold binMembers
    rw [List.filter_map, List.map_map]
    have e : (List.range n).filter (fun i => decide (codes' i = b)) =
        (List.range n).filter ((fun i => decide (codes i = b)) ∘ π) :=
      List.filter_congr fun s hs => by rw [Function.comp, hc s (List.mem_range.mp hs)]
    rw [e]
    exact List.map_congr_left fun s hs => hf s (List.mem_range.mp (List.mem_of_mem_filter hs))
  rw [h1]
  exact ((range_map_perm π n hπ).filter _).map f

theorem quantileCostsFlt_perm (q : ℝ) (l l' : List (ℝ × ℝ × ℝ)) (h : l.Perm l') : quantileCostsFlt q l = quantileCostsFlt q l' := by
  unfold quantileCostsFlt
  rw [h.length_eq, (h.map _).sum_eq, (h.map fun s => s.2.2).sum_eq]

theorem uncertaintyGamma_perm (l l' : List (ℝ × ℝ)) (h : l.Perm l') : uncertaintyGamma l = uncertaintyGamma l' := by
  unfold uncertaintyGamma
  rw [(h.map _).sum_eq]

theorem uncertaintyGaussian_perm (l l' : List (ℝ × ℝ)) (h : l.Perm l') : uncertaintyGaussian l = uncertaintyGaussian l' := by
  unfold uncertaintyGaussian
  have hs : ∀ f : ℝ × ℝ → ℝ, (l.map f).sum = (l'.map f).sum := fun f => (h.map f).sum_eq
  simp only [hs]

theorem uncertaintyBeta_perm (ppf : ℝ → ℝ → ℝ → ℝ) (coef : ℝ → ℝ) (l l' : List (ℝ × ℝ)) (h : l.Perm l') :
    uncertaintyBeta ppf coef l = uncertaintyBeta ppf coef l' := by
  unfold uncertaintyBeta
  have hs : ∀ f : ℝ × ℝ → ℝ, (l.map f).sum = (l'.map f).sum := fun f => (h.map f).sum_eq
  simp only [hs]

/-- What `firstReaching` finds among sorted samples does not depend on the order of samples with equal targets. -/
theorem firstReaching_least (cutoff : ℝ) (l : List (ℝ × ℝ)) (hw : ∀ s ∈ l, 0 ≤ s.2) (hs : (l.map Prod.fst).Pairwise (· ≤ ·))
    (q : ℝ) (h : firstReaching cutoff 0 l = some q) :
    q ∈ l.map Prod.fst ∧ cutoff ≤ Spec.weightOf l (fun y => decide (y ≤ q)) ∧
      ∀ y ∈ l.map Prod.fst, y < q → Spec.weightOf l (fun z => decide (z ≤ y)) < cutoff := by
  obtain ⟨pre, post, w, hl, hge, hlt⟩ := firstReaching_spec _ _ _ _ h
  rw [zero_add] at hge hlt
  have hpre : ∀ s ∈ pre, s.1 ≤ q := by
    intro s hs'
    rw [hl, List.map_append, List.pairwise_append] at hs
    exact hs.2.2 s.1 (List.mem_map.mpr ⟨s, hs', rfl⟩) q (by simp)
  have hpost : ∀ s ∈ post, q ≤ s.1 := by
    intro s hs'
    rw [hl, List.map_append, List.map_cons, List.pairwise_append, List.pairwise_cons] at hs
    exact hs.2.1.1 s.1 (List.mem_map.mpr ⟨s, hs', rfl⟩)
  have hle : ∀ (p : ℝ → Bool) (m : List (ℝ × ℝ)), (∀ s ∈ m, 0 ≤ s.2) → Spec.weightOf m p ≤ (m.map Prod.snd).sum := by
    intro p m
    induction m with
    | nil => intro _; simp [Spec.weightOf]
    | cons s m ih =>
      intro hm
      have := ih fun x hx => hm x (by simp [hx])
      have := hm s (by simp)
      rw [weightOf_cons, List.map_cons, List.sum_cons]
      split <;> linarith
  refine ⟨by rw [hl]; simp, ?_, fun y hy hyq => ?_⟩
  · have e : Spec.weightOf pre (fun y => decide (y ≤ q)) = (pre.map Prod.snd).sum := by
      unfold Spec.weightOf
      rw [List.filter_eq_self.mpr (fun s hs' => by simpa using hpre s hs')]
    have := weightOf_nonneg post (fun y => decide (y ≤ q)) (fun s hs' => hw s (by rw [hl]; simp [hs']))
    conv_rhs => rw [hl, weightOf_append, weightOf_cons, e]
    simp
    linarith
  · have e : Spec.weightOf post (fun z => decide (z ≤ y)) = 0 := by
      unfold Spec.weightOf
      rw [List.filter_eq_nil_iff.mpr (fun s hs' => by
        have := hpost s hs'
        simp only [decide_eq_true_eq, not_le]
        linarith)]
      rfl
    conv_lhs => rw [hl, weightOf_append, weightOf_cons, e]
    have h1 := hle (fun z => decide (z ≤ y)) pre (fun s hs' => hw s (by rw [hl]; simp [hs']))
    rw [if_neg (by simpa using hyq)]
    rcases hlt with h2 | h2
    · exfalso
      rw [hl, h2, List.nil_append, List.map_cons, List.mem_cons] at hy
      rcases hy with hy | hy
      · simp only at hy; linarith
      · obtain ⟨s, hs', rfl⟩ := List.mem_map.mp hy
        exact absurd (hpost s hs') (not_le.mpr hyq)
    · linarith

theorem continuousQuantile_perm (tau : ℝ) (l l' : List (ℝ × ℝ)) (h : l'.Perm l) (hw : ∀ s ∈ l, 0 ≤ s.2)
    (hs : (l.map Prod.fst).Pairwise (· ≤ ·)) (hs' : (l'.map Prod.fst).Pairwise (· ≤ ·)) :
    continuousQuantile tau l' = continuousQuantile tau l := by
  have hw' : ∀ s ∈ l', 0 ≤ s.2 := fun s hs => hw s (h.mem_iff.mp hs)
  have hfst : l'.map Prod.fst = l.map Prod.fst := (h.map _).eq_of_pairwise' hs' hs
  have hsum : (l'.map Prod.snd).sum = (l.map Prod.snd).sum := (h.map _).sum_eq
  have hwt : ∀ p, Spec.weightOf l' p = Spec.weightOf l p := fun p => ((h.filter _).map _).sum_eq
  have hfr : ∀ c, firstReaching c 0 l' = firstReaching c 0 l := by
    intro c
    have hnone : ∀ m m' : List (ℝ × ℝ), m'.Perm m → (∀ s ∈ m, 0 ≤ s.2) → firstReaching c 0 m = none →
        firstReaching c 0 m' = none := by
      intro m m' hp hm h0
      by_cases hne : m = []
      · subst hne
        rw [hp.eq_nil]
        exact h0
      · have h1 := firstReaching_none _ _ _ hne h0
        cases hq : firstReaching c 0 m' with
        | none => rfl
        | some q =>
          exfalso
          obtain ⟨pre, post, w, hl, hge, -⟩ := firstReaching_spec _ _ _ _ hq
          have h2 : 0 ≤ (post.map Prod.snd).sum := by
            apply List.sum_nonneg
            intro x hx
            obtain ⟨s, hs, rfl⟩ := List.mem_map.mp hx
            exact hm s (hp.mem_iff.mp (by rw [hl]; simp [hs]))
          have h3 : (m'.map Prod.snd).sum = (m.map Prod.snd).sum := (hp.map _).sum_eq
          rw [hl, List.map_append, List.map_cons, List.sum_append, List.sum_cons] at h3
          linarith
    cases h1 : firstReaching c 0 l with
    | none => exact hnone _ _ h hw h1
    | some q =>
      cases h2 : firstReaching c 0 l' with
      | none => rw [hnone _ _ h.symm hw' h2] at h1; cases h1
      | some q' =>
        obtain ⟨a1, a2, a3⟩ := firstReaching_least c l hw hs q h1
        obtain ⟨b1, b2, b3⟩ := firstReaching_least c l' hw' hs' q' h2
        rw [hfst] at b1 b3
        rw [hwt] at b2
        rcases lt_trichotomy q q' with h3 | h3 | h3
        · have := b3 q a1 h3
          rw [hwt] at this
          linarith
        · rw [h3]
        · have := a3 q' b1 h3
          linarith
  unfold continuousQuantile
  dsimp only
  rw [hsum, hfr, hfst]

theorem quantileScale_perm (kind : LinkKind) (tau : ℝ) (n : ℕ) (y w y' w' : ℕ → ℝ) (hw : ∀ s < n, 0 ≤ w s) (π : Equiv.Perm ℕ)
    (hπ : ∀ s, π s < n ↔ s < n) (hy : ∀ s < n, y' s = y (π s)) (hw' : ∀ s < n, w' s = w (π s)) :
    quantileScale kind tau n y' w' = quantileScale kind tau n y w := by
  classical
  have hp := range_perm n π hπ (fun i => (y i, w i)) (fun i => (y' i, w' i)) (fun s hs => by rw [hy s hs, hw' s hs])
  have hsorted : ∀ l : List (ℝ × ℝ), ((l.mergeSort fun a b => decide (a.1 ≤ b.1)).map Prod.fst).Pairwise (· ≤ ·) := by
    intro l
    rw [List.pairwise_map]
    have := List.pairwise_mergeSort (le := fun a b : ℝ × ℝ => decide (a.1 ≤ b.1))
      (fun a b c h1 h2 => by simp only [decide_eq_true_eq] at *; exact h1.trans h2)
      (fun a b => by simp only [Bool.or_eq_true, decide_eq_true_eq]; exact le_total _ _) l
    exact this.imp fun h => by simpa using h
  unfold quantileScale
  rw [continuousQuantile_perm tau _ _ (((List.mergeSort_perm _ _).trans hp).trans (List.mergeSort_perm _ _).symm) _ (hsorted _)
    (hsorted _)]
  intro s hs
  rw [(List.mergeSort_perm _ _).mem_iff, List.mem_map] at hs
  obtain ⟨i, hi, rfl⟩ := hs
  exact hw i (List.mem_range.mp hi)

section
variable {α : Type} {n n' : ℕ} {row row' : ℕ → α} {w w' : ℕ → ℝ}

theorem Agree.order {β : Type*} {f f' : ℕ → β} (h : Agree n n row row' f f') (π : Equiv.Perm ℕ) (hπ : ∀ s, π s < n ↔ s < n)
    (hr : ∀ s < n, row' s = row (π s)) : ∀ s < n, f' s = f (π s) := by
  obtain ⟨P, h1, h2⟩ := h
  intro s hs
  rw [h2 s hs, hr s hs, h1 _ ((hπ s).mpr hs)]

theorem genericParameters_order (costs : List (ℝ × ℝ × ℝ) → Flt ℝ) (minimize : (ℝ → Flt ℝ) → ℝ → ℝ)
    (uncertainty : List (ℝ × ℝ) → ℝ) (hcosts : ∀ l l', l.Perm l' → costs l = costs l')
    (hunc : ∀ l l', l.Perm l' → uncertainty l = uncertainty l') (link : Link) (multiplicative : Bool)
    {y y' p p' : ℕ → ℝ} {codes codes' : ℕ → ℕ} (hy : Agree n n' row row' y y') (hn : Need.order.holds n n' row row' w w')
    (hc : Agree n n' row row' codes codes') (hp : Agree n n' row row' p p') :
    genericParameters costs minimize uncertainty link multiplicative n' codes' y' w' p' =
      genericParameters costs minimize uncertainty link multiplicative n codes y w p := by
  obtain ⟨rfl, -, π, hπ, hr, hw⟩ := hn
  have hy := hy.order π hπ hr
  have hc := hc.order π hπ hr
  have hp := hp.order π hπ hr
  funext b
  unfold genericParameters
  have h1 : binObjective costs link multiplicative n' codes' y' w' p' b = binObjective costs link multiplicative n' codes y w p b := by
    funext param
    unfold binObjective
    exact hcosts _ _ (members_perm n' π hπ codes codes' hc _ _ (fun s hs => by rw [hy s hs, hw s hs, hp s hs]) b)
  rw [h1, hunc _ _ (members_perm n' π hπ codes codes' hc (fun i => (y i, w i)) (fun i => (y' i, w' i)) (fun s hs => by rw [hy s hs, hw s hs]) b)]

theorem genericTotal_order (costs : List (ℝ × ℝ × ℝ) → Flt ℝ) (hcosts : ∀ l l', l.Perm l' → costs l = costs l')
    {y y' p p' : ℕ → ℝ} (hy : Agree n n' row row' y y') (hn : Need.order.holds n n' row row' w w')
    (hp : Agree n n' row row' p p') : genericTotal costs n' p' y' w' = genericTotal costs n p y w := by
  obtain ⟨rfl, -, π, hπ, hr, hw⟩ := hn
  have hy := hy.order π hπ hr
  have hp := hp.order π hπ hr
  unfold genericTotal
  exact hcosts _ _ (range_perm n' π hπ _ _ fun s hs => by rw [hy s hs, hw s hs, hp s hs])

end

theorem optimising_invariant (E : Estimator) (h : Optimising E) : RowInvariant E .order := by
  have hunc : ∀ (m : Bool) (l l' : List (ℝ × ℝ)), l.Perm l' →
      (if m = true then uncertaintyGamma else uncertaintyGaussian) l = (if m = true then uncertaintyGamma else uncertaintyGaussian) l' := by
    intro m l l' hl
    cases m
    · exact uncertaintyGaussian_perm l l' hl
    · exact uncertaintyGamma_perm l l' hl
  cases h with
  | quantile m q mini =>
    exact {
      scale := fun {α n n' row row' y y' w w'} _ hy hn => by
        obtain ⟨rfl, h0, π, hπ, hr, hw⟩ := hn
        exact quantileScale_perm _ q n' y w y' w' h0 π hπ (hy.order π hπ hr) hw
      parameters := fun _ hy hn hc hp =>
        genericParameters_order _ _ _ (quantileCostsFlt_perm q) (hunc m) _ _ hy hn hc hp
      loss := fun _ hy hn hp => genericTotal_order _ (quantileCostsFlt_perm q) hy hn hp
      calibrate := fun _ _ _ _ => rfl }
  | generic m costs mini hcosts =>
    exact {
      scale := fun hw hy _ => inv_globalScale _ hw hy
      parameters := fun _ hy hn hc hp => genericParameters_order _ _ _ hcosts (hunc m) _ _ hy hn hc hp
      loss := fun _ hy hn hp => genericTotal_order _ hcosts hy hn hp
      calibrate := fun _ _ _ _ => rfl }
  | classifier ppf coef costs mini hcosts =>
    exact {
      scale := fun hw hy _ => inv_globalScale _ hw hy
      parameters := fun _ hy hn hc hp => genericParameters_order _ _ _ hcosts (uncertaintyBeta_perm ppf coef) _ _ hy hn hc hp
      loss := fun _ hy hn hp => genericTotal_order _ hcosts hy hn hp
      calibrate := fun _ _ _ _ => rfl }

/-- **C77 for the quantile and generic-loss estimators.** If no weight is negative, the order of the samples is irrelevant,
whatever the optimiser does with the objective of a bin. -/
theorem C77_optimising {σ : Type*} (S : Setup σ) (hgroups : ∀ f ∈ S.features, f.1.group ≠ []) (E : Estimator)
    (hE : Optimising E) (D : TrainSet) (hw : ∀ s < D.n, 0 ≤ D.w s) (π : Equiv.Perm ℕ) (hπ : ∀ s, π s < D.n ↔ s < D.n) (fuel : ℕ) :
    S.fit E (resample D π D.n fun s => D.w (π s)) fuel = S.fit E D fuel :=
  fit_order S hgroups E .order (optimising_invariant E hE) D π hπ
    ⟨rfl, hw, π, hπ, fun _ _ => rfl, fun _ _ => rfl⟩ fuel

/-- **C87 for the quantile and generic-loss estimators.** -/
theorem C87_optimising {σ : Type*} (S : Setup σ) (hgroups : ∀ f ∈ S.features, f.1.group ≠ []) (E : Estimator)
    (hE : Optimising E) (B : Binner) (columns : List String) (D : TrainSet) (hw : ∀ s < D.n, 0 ≤ D.w s)
    (π : Equiv.Perm ℕ) (hπ : ∀ s, π s < D.n ↔ s < D.n) (fuel : ℕ) :
    pipelineFit B columns S E (resample D π D.n fun s => D.w (π s)) fuel = pipelineFit B columns S E D fuel :=
  pipeline_order S E B columns D π hπ fuel fun Xt =>
    C77_optimising S hgroups E hE { D with X := Xt } hw π hπ fuel

/-- **C76, counterexample.** For the quantile regressors a weight is not a number of repetitions: the global scale for the target 5
with weight 2 is 5, for two targets 5 with weight 1 it is 6. -/
theorem C76_quantile_counterexample :
    quantileScale .identity (1 / 2) 1 (fun _ => 5) (fun _ => 2) = .fin 5 ∧
      quantileScale .identity (1 / 2) 2 (fun _ => 5) (fun _ => 1) = .fin 6 := by
  constructor
  · norm_num [quantileScale, List.range_succ, continuousQuantile, firstReaching, linkFlt]
  · have : (([(5, 1), (5, 1)] : List (ℝ × ℝ)).mergeSort fun a b => decide (a.1 ≤ b.1)) = [(5, 1), (5, 1)] :=
      List.mergeSort_of_pairwise (by simp)
    norm_num [quantileScale, List.range_succ, continuousQuantile, firstReaching, linkFlt, this]

/-- Witness for C77 and C87: exchanging two samples, median regression and a user-defined loss. -/
example (fuel : ℕ) : ∀ E ∈ [quantileEstimator false (1 / 2) (fun _ _ => 0),
      genericEstimator true (fun l => .fin (l.map fun s => |s.1 - s.2.1| * s.2.2).sum) (fun _ _ => 1)],
    plainSetup.fit E (resample exData (Equiv.swap 0 1) 2 fun s => exData.w (Equiv.swap 0 1 s)) fuel =
      plainSetup.fit E exData fuel := by
  intro E hE
  refine C77_optimising plainSetup (by simp [plainSetup]) E ?_ exData (fun s _ => by simp [exData]) (Equiv.swap 0 1) ?_ fuel
  · rcases List.mem_cons.mp hE with rfl | hE
    · exact .quantile _ _ _
    · rw [List.mem_singleton] at hE
      subst hE
      exact .generic _ _ _ fun l l' h => by rw [(h.map _).sum_eq]
  · intro s
    show _ < 2 ↔ s < 2
    rcases s with _ | _ | s
    · simp
    · simp
    · rw [Equiv.swap_apply_of_ne_of_ne (by omega) (by omega)]

end CB
