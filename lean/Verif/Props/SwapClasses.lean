import Verif.Spec.SwapClasses
import Verif.Props.TargetUnitsSmoothers
import Verif.Props.Baseline
import Verif.Model.GenericFit

/-!
# C120: swapping the two classes
-/

set_option autoImplicit false
set_option linter.unusedSectionVars false

namespace CB
open Finset Spec

noncomputable section

variable {betaPpf : ℝ → ℝ → ℝ → ℝ} {coef : ℝ → ℝ}

theorem unlink_mirror (l : ℝ) : logitLink.unlink (-l) = 1 - logitLink.unlink l := by
  simp only [logitLink, neg_neg]
  have h := Real.exp_pos l
  rw [Real.exp_neg]
  field_simp
  ring

theorem unlink_inside (l : ℝ) : 0 < logitLink.unlink l ∧ logitLink.unlink l < 1 := by
  have h := Real.exp_pos (-l)
  simp only [logitLink]
  refine ⟨by positivity, ?_⟩
  rw [div_lt_one (by positivity)]
  linarith

theorem logit_mirror (x : ℝ) : logitLink.link (1 - x) = -logitLink.link x := by
  simp only [logitLink, sub_sub_cancel]
  rw [← Real.log_inv, inv_div]

theorem boostWeight_mirror (y l : ℝ) (hy : y = 0 ∨ y = 1) :
    boostWeight (1 - y) (logitLink.unlink (-l)) = boostWeight y (logitLink.unlink l) := by
  rw [unlink_mirror]
  obtain ⟨h0, h1⟩ := unlink_inside l
  generalize logitLink.unlink l = p at h0 h1
  have e0 : p ≠ 0 := h0.ne'
  have e1 : p ≠ 1 := h1.ne
  have e2 : 1 - p ≠ 0 := by intro h; apply e1; linarith
  have e3 : 1 - p ≠ 1 := by intro h; apply e0; linarith
  unfold boostWeight
  rcases hy with rfl | rfl <;> simp [e0, e1, e2, e3]

theorem classifierPosterior_mirror (n : ℕ) (codes : ℕ → ℕ) (y w pred : ℕ → ℝ) (hy : ∀ i < n, y i = 0 ∨ y i = 1) (b : ℕ) :
    classifierPosterior n codes (fun s => 1 - y s) w (fun s => -pred s) b =
      ((classifierPosterior n codes y w pred b).2, (classifierPosterior n codes y w pred b).1) := by
  have e1 : binSum n codes (fun i => w i * boostWeight (1 - y i) (logitLink.unlink (-pred i)) * (1 - y i)) b =
      binSum n codes (fun i => w i * boostWeight (y i) (logitLink.unlink (pred i)) * (1 - y i)) b :=
    sum_congr rfl fun i hi => by
      beta_reduce
      rw [boostWeight_mirror _ _ (hy i (mem_range.mp hi))]
  have e2 : binSum n codes (fun i => w i * boostWeight (1 - y i) (logitLink.unlink (-pred i)) * (1 - (1 - y i))) b =
      binSum n codes (fun i => w i * boostWeight (y i) (logitLink.unlink (pred i)) * y i) b :=
    sum_congr rfl fun i hi => by
      beta_reduce
      rw [boostWeight_mirror _ _ (hy i (mem_range.mp hi)), sub_sub_cancel]
  unfold classifierPosterior
  simp only [e1, e2, betaPriors]

theorem classifierPosterior_pos (n : ℕ) (codes : ℕ → ℕ) (y w pred : ℕ → ℝ) (b : ℕ) :
    0 < (classifierPosterior n codes y w pred b).1 ∧ 0 < (classifierPosterior n codes y w pred b).2 := by
  unfold classifierPosterior betaPriors
  dsimp only
  constructor <;> split_ifs with h <;> norm_num <;> linarith

/-- The normal distribution matched to the log odds of a beta distribution is mirrored with it. -/
theorem matching_mirror (hq : SymmetricQuantiles betaPpf coef) (α β : ℝ) (ha : 0 < α) (hb : 0 < β) :
    gaussianMatching (betaPpf β α) logitLink.link coef (percentiles β α).1 (percentiles β α).2 =
      (-(gaussianMatching (betaPpf α β) logitLink.link coef (percentiles α β).1 (percentiles α β).2).1,
        (gaussianMatching (betaPpf α β) logitLink.link coef (percentiles α β).1 (percentiles α β).2).2) := by
  have hsum : 0 < α + β := by linarith
  have hr : 0 < α / (α + β) ∧ α / (α + β) < 1 := ⟨by positivity, by rw [div_lt_one hsum]; linarith⟩
  have hs : β / (β + α) = 1 - α / (α + β) := by
    rw [add_comm β α]
    field_simp
    ring
  have p1 : (percentiles β α).1 = 1 - (percentiles α β).2 := by
    simp only [percentiles, hs]; ring
  have p2 : (percentiles β α).2 = 1 - (percentiles α β).1 := by
    simp only [percentiles, hs]; ring
  have i1 : 0 < (percentiles α β).1 ∧ (percentiles α β).1 < 1 := by
    simp only [percentiles]; constructor <;> norm_num <;> linarith [hr.1, hr.2]
  have i2 : 0 < (percentiles α β).2 ∧ (percentiles α β).2 < 1 := by
    simp only [percentiles]; constructor <;> norm_num <;> linarith [hr.1, hr.2]
  have i3 : (percentiles α β).2 < (percentiles α β).1 := by
    simp only [percentiles]; norm_num
  have hcoef := hq.normalStrict _ _ i2.1 i3 i1.2
  unfold gaussianMatching
  dsimp only
  rw [p1, p2, hq.beta α β _ ha hb i2.1 i2.2, hq.beta α β _ ha hb i1.1 i1.2, logit_mirror, logit_mirror,
    hq.normal _ i1.1 i1.2, hq.normal _ i2.1 i2.2]
  generalize logitLink.link (betaPpf α β (percentiles α β).1) = q1
  generalize logitLink.link (betaPpf α β (percentiles α β).2) = q2
  generalize coef (percentiles α β).1 = a1 at *
  generalize coef (percentiles α β).2 = a2 at *
  have hd : a1 - a2 ≠ 0 := by intro h; linarith
  have hd' : -a2 - -a1 = a1 - a2 := by ring
  rw [hd']
  refine Prod.ext ?_ ?_
  · dsimp only
    field_simp
    ring
  · dsimp only
    ring

/-- The estimate of a bin changes its sign if the classes are swapped and the predictions so far are mirrored, its uncertainty stays. -/
theorem C120_bins (hq : SymmetricQuantiles betaPpf coef) (n : ℕ) (codes : ℕ → ℕ) (y w pred : ℕ → ℝ)
    (hy : ∀ i < n, y i = 0 ∨ y i = 1) (b : ℕ) :
    classifierCalcParameters betaPpf coef n codes (fun s => 1 - y s) w (fun s => -pred s) b =
      (-(classifierCalcParameters betaPpf coef n codes y w pred b).1, (classifierCalcParameters betaPpf coef n codes y w pred b).2) := by
  unfold classifierCalcParameters
  rw [classifierPosterior_mirror n codes y w pred hy b]
  obtain ⟨ha, hb⟩ := classifierPosterior_pos n codes y w pred b
  exact matching_mirror hq _ _ ha hb

/-- **C120, `CBGenericClassifier`.** The uncertainty of a bin of samples (class, weight) stays if the classes are swapped. -/
theorem C120_generic_uncertainty (hq : SymmetricQuantiles betaPpf coef) (samples : List (ℝ × ℝ))
    (h : ∀ s ∈ samples, (s.1 = 0 ∨ s.1 = 1) ∧ 0 ≤ s.2) :
    uncertaintyBeta betaPpf coef (samples.map fun s => (1 - s.1, s.2)) = uncertaintyBeta betaPpf coef samples := by
  have e1 : (samples.map fun s => (1 - s.1, s.2)).map (fun s : ℝ × ℝ => s.2 * s.1) = samples.map fun s => s.2 * (1 - s.1) := by
    rw [List.map_map]; rfl
  have e2 : (samples.map fun s => (1 - s.1, s.2)).map (fun s : ℝ × ℝ => s.2 * (1 - s.1)) = samples.map fun s => s.2 * s.1 := by
    rw [List.map_map]
    refine List.map_congr_left fun s _ => ?_
    simp only [Function.comp, sub_sub_cancel]
  have p1 : 0 ≤ (samples.map fun s => s.2 * s.1).sum := by
    refine List.sum_nonneg fun x hx => ?_
    obtain ⟨s, hs, rfl⟩ := List.mem_map.mp hx
    rcases h s hs with ⟨h1 | h1, h2⟩ <;> rw [h1] <;> simp [h2]
  have p2 : 0 ≤ (samples.map fun s => s.2 * (1 - s.1)).sum := by
    refine List.sum_nonneg fun x hx => ?_
    obtain ⟨s, hs, rfl⟩ := List.mem_map.mp hx
    rcases h s hs with ⟨h1 | h1, h2⟩ <;> rw [h1] <;> simp [h2]
  unfold uncertaintyBeta
  dsimp only
  have hp : betaPriors.2 = betaPriors.1 := rfl
  rw [e1, e2]
  have := matching_mirror hq ((samples.map fun s => s.2 * s.1).sum + betaPriors.1) ((samples.map fun s => s.2 * (1 - s.1)).sum + betaPriors.2)
    (by simp only [betaPriors]; norm_num; linarith) (by simp only [betaPriors]; norm_num; linarith)
  rw [hp] at this ⊢
  have h2 := congrArg Prod.snd this
  dsimp only at h2
  rw [h2]

variable {σ : Type*} (S : Setup σ) (D : TrainSet)

theorem classifier_oracle_mirror (hq : SymmetricQuantiles betaPpf coef) (hy : ∀ i < D.n, D.y i = 0 ∨ D.y i = 1)
    (hsm : MirroredSmoothers S D) :
    OracleScaled (-1) (S.oracle (classifierEstimator betaPpf coef) D) (S.oracle (classifierEstimator betaPpf coef) (swapClasses D)) := by
  refine ⟨?_, ?_, rfl, ?_, ?_⟩
  · intro it i p fs
    funext b
    simp only [Setup.oracle, swapClasses, Pred.scaled, neg_one_mul]
    cases S.features[i]? with
    | none => simp
    | some f =>
      simp only [classifierEstimator]
      rw [C120_bins hq D.n _ D.y D.w p.factors hy b]
  · intro it i p fs u
    funext b
    simp only [Setup.oracle, swapClasses, Pred.scaled, neg_one_mul]
    cases hf : S.features[i]? with
    | none => simp
    | some f =>
      simp only [classifierEstimator, C120_bins hq D.n _ D.y D.w p.factors hy]
      exact hsm f (List.mem_of_getElem? hf) _ u b
  · intro it i fs
    simp only [Setup.oracle, swapClasses]
    cases S.features[i]? with
    | none => rfl
    | some f => rfl
  · intro p
    simp only [Setup.oracle, classifierEstimator, squaredLoss, LinkKind.toLink, swapClasses, Pred.scaled, neg_one_mul, unlink_mirror]
    have : ∀ x, (1 - logitLink.unlink (p.factors x) - (1 - D.y x)) * (1 - logitLink.unlink (p.factors x) - (1 - D.y x)) * D.w x =
        (logitLink.unlink (p.factors x) - D.y x) * (logitLink.unlink (p.factors x) - D.y x) * D.w x := fun x => by ring
    simp only [this]
    unfold quotientFlt
    split_ifs <;> simp [lossScaled]

theorem classifier_params_mirror : ParamsScaled (-1) (S.paramsFor (classifierEstimator betaPpf coef)) (S.paramsFor (classifierEstimator betaPpf coef)) :=
  ⟨rfl, by simp [Setup.paramsFor, classifierEstimator], by simp [Setup.paramsFor, classifierEstimator], rfl, by simp, Iff.rfl, rfl, rfl, rfl⟩

/-- **C120, training.** If training starts from mirrored log odds, it is mirrored by swapping the classes: it ends alike, after the
same number of iterations, and for every new sample whose starting log odds are mirrored the probability of class 1 is the former
probability of class 0.

Missing for the full claim: the starting log odds of the code are not mirrored (`C120_baseline`). -/
theorem C120_training_partial (hq : SymmetricQuantiles betaPpf coef) (hy : ∀ i < D.n, D.y i = 0 ∨ D.y i = 1)
    (hsm : MirroredSmoothers S D) (start : ℕ → ℝ) (fuel : ℕ) :
    let E := classifierEstimator betaPpf coef
    let train := fun (D : TrainSet) (start : ℕ → ℝ) => fitMain (S.paramsFor E) (S.oracle E D) (S.cfgs D) start fuel
    let probability := fun (r : FitResult ℝ) (start : ℕ → ℝ) (X : Table ℝ) (s : ℕ) => logitLink.unlink
      ((predictExtended start (fittedFeatures D.X D.n (S.features.map (·.1)) r.factors) X).factors s)
    (train D start = none ↔ train (swapClasses D) (fun s => -start s) = none) ∧
    (∀ e, train D start = some (.error e) ↔ train (swapClasses D) (fun s => -start s) = some (.error e)) ∧
    (∀ r, train D start = some (.ok r) → ∃ r', train (swapClasses D) (fun s => -start s) = some (.ok r') ∧
      r'.iterations = r.iterations ∧
      ∀ (new : ℕ → ℝ) (X : Table ℝ) (s : ℕ), probability r' (fun s => -new s) X s = 1 - probability r new X s) := by
  intro E train probability
  have hsim := scaled_fitMain (by norm_num) (classifier_params_mirror S (betaPpf := betaPpf) (coef := coef))
    (classifier_oracle_mirror S D hq hy hsm) (S.cfgs D) start (.inl (by norm_num)) fuel
  simp only [neg_one_mul] at hsim
  have hcf : S.cfgs (swapClasses D) = S.cfgs D := rfl
  simp only [train, hcf]
  rcases hsim with ⟨g1, g2⟩ | ⟨e, g1, g2⟩ | ⟨r, r', g1, g2, hfac, hit, -⟩
  · rw [g1, g2]; exact ⟨by simp, by simp, by simp⟩
  · rw [g1, g2]; exact ⟨by simp, by simp, by simp⟩
  · rw [g1, g2]
    refine ⟨by simp, by simp, ?_⟩
    intro r0 hr0
    simp only [Option.some.injEq, Except.ok.injEq] at hr0
    subst hr0
    refine ⟨r', rfl, hit, fun new X s => ?_⟩
    simp only [probability]
    rw [hfac, ← unlink_mirror]
    congr 1
    have := predictExtended_scaled (-1) X (S.features.map (·.1)) D.n D.X r.factors new (fun s => -new s) s (by ring)
    simpa only [neg_one_mul] using this

/-- **C120, where it fails.** The probability from which training starts is the share of class 1 plus 0.001, for both ways to name
the classes: the two probabilities sum to 1.002 and not to 1. -/
theorem C120_baseline (a a' : ℝ)
    (h : (classifierEstimator betaPpf coef).scale D.n D.y D.w = .fin a)
    (h' : (classifierEstimator betaPpf coef).scale (swapClasses D).n (swapClasses D).y (swapClasses D).w = .fin a') :
    logitLink.unlink a + logitLink.unlink a' = 1.002 := by
  have hsum : ∑ i ∈ range D.n, D.w i ≠ 0 := by
    intro h0
    simp [classifierEstimator, globalScaleLink, quotientFlt, h0, Flt.addFin, linkFlt] at h
  have key : ∀ (y : ℕ → ℝ) (a : ℝ), globalScaleLink .logit D.n y D.w = .fin a →
      logitLink.unlink a = (∑ i ∈ range D.n, y i * D.w i) / (∑ i ∈ range D.n, D.w i) + 1 / 1000 := by
    intro y a h
    rw [scaleArg .logit D.n y D.w hsum] at h
    have e : wmean D.n y D.w = (∑ i ∈ range D.n, y i * D.w i) / ∑ i ∈ range D.n, D.w i := by
      unfold wmean
      simp only [mul_comm]
    rw [e] at h
    generalize (∑ i ∈ range D.n, y i * D.w i) / (∑ i ∈ range D.n, D.w i) + 1 / 1000 = p at h ⊢
    simp only [linkFlt] at h
    split_ifs at h with h1 h2
    rw [Flt.fin.injEq] at h
    rw [← h]
    have h3 : 1 - p ≠ 0 := sub_ne_zero.mpr (Ne.symm h1)
    simp only [logitLink, Real.exp_neg, Real.exp_log h2, inv_div]
    have h4 : p ≠ 0 := by rintro rfl; simp at h2
    field_simp
    ring
  have h1 := key D.y a h
  have h2 := key (swapClasses D).y a' h'
  rw [h1, h2]
  have : ∑ i ∈ range D.n, (swapClasses D).y i * D.w i = (∑ i ∈ range D.n, D.w i) - ∑ i ∈ range D.n, D.y i * D.w i := by
    rw [← sum_sub_distrib]
    exact sum_congr rfl fun i _ => by simp only [swapClasses]; ring
  rw [this]
  field_simp
  norm_num
  ring

/-- **C120, smoothers.** The smoothers of the package that follow a change of the sign. -/
theorem C120_smoothers (O : OpenSmoothers) (S : Setup (List (FitRow ℝ) × List ℝ)) (D : TrainSet)
    (hS : S.base = packageSmoothers O) (hf : ∀ f ∈ S.features, followsSign f.2 = true) : MirroredSmoothers S D := by
  intro f hfm u v b
  have := C118_smoothers_mirror O S D hS hf f hfm u v b
  simpa only [abs_neg, abs_one, one_mul, neg_one_mul] using this

theorem mem_le_sum : ∀ (l : List ℕ) (a : ℕ), a ∈ l → a ≤ l.sum
  | [], a, h => by simp at h
  | b :: l, a, h => by
    rw [List.sum_cons]
    rcases List.mem_cons.mp h with rfl | h
    · omega
    · have := mem_le_sum l a h; omega

/-- Bin numbers that are larger than all of the training data contribute nothing. -/
theorem unseen_contributes_nothing (hg : ∀ f ∈ S.features, f.1.group ≠ []) (factors : List (ℕ → ℝ)) (N : ℕ)
    (hN : ∀ f ∈ S.features, ∀ k ∈ (bindData D.X D.n f.1.group none).2, k ≤ N) (start : ℕ → ℝ) (s : ℕ) :
    (predictExtended start (fittedFeatures D.X D.n (S.features.map (·.1)) factors) fun _ _ => .fin (N : ℝ)).factors s = start s := by
  rw [(C24_link_space _ _ _ _).1]
  have h0 : ∀ g ∈ fittedFeatures D.X D.n (S.features.map (·.1)) factors, g.predict (Table.row (fun _ _ => .fin (N : ℝ)) g.group s) = 0 := by
    intro g hgm
    obtain ⟨f, hf, hg1, hg2⟩ : ∃ f ∈ S.features, g.group = f.1.group ∧ g.nBins = (bindData D.X D.n f.1.group none).2 := by
      unfold fittedFeatures at hgm
      obtain ⟨k, hk, hk'⟩ := List.mem_iff_getElem.mp hgm
      rw [List.getElem_zipWith] at hk'
      rw [List.length_zipWith, List.length_map] at hk
      refine ⟨S.features[k]'(by omega), List.getElem_mem _, ?_, ?_⟩ <;> rw [← hk'] <;> simp
    have hlen : g.nBins.length = g.group.length := by rw [hg1, hg2, bindData_length]
    have hpos : 1 ≤ g.group.length := by
      rw [hg1]
      exact List.length_pos_iff.mpr (hg f hf)
    have hr : (Table.row (fun _ _ => (.fin (N : ℝ) : Flt ℝ)) g.group s).length = g.group.length := by simp [Table.row]
    refine C25_unseen g hpos hlen _ hr ?_ 0 (by omega) (by omega) N ?_ ?_
    · intro b hb
      simp only [Table.row, List.mem_map] at hb
      obtain ⟨_, -, rfl⟩ := hb
      exact ⟨N, rfl, by positivity⟩
    · simp [Table.row]
    · have : g.nBins[0]'(by omega) ∈ (bindData D.X D.n f.1.group none).2 := hg2 ▸ List.getElem_mem _
      exact_mod_cast hN f hf _ this
  have : contributionSum false (fittedFeatures D.X D.n (S.features.map (·.1)) factors) (fun _ _ => .fin (N : ℝ)) s = 0 := by
    revert h0
    generalize fittedFeatures D.X D.n (S.features.map (·.1)) factors = l
    intro h0
    unfold contributionSum
    rw [List.map_congr_left (g := fun _ => (0 : ℝ)) fun g hgm => h0 g (List.mem_filter.mp hgm).1]
    simp
  rw [this, add_zero]

/-- **C120, the full claim fails for every classifier.** However the two fits end up, there is a new sample (with bin numbers that
did not occur in training) whose probabilities of class 1 from the two models sum to 1.002 and not to 1. -/
theorem C120_full_claim_fails (hg : ∀ f ∈ S.features, f.1.group ≠ []) (fuel : ℕ) (m m' : FittedModel)
    (h : S.fit (classifierEstimator betaPpf coef) D fuel = some (.ok m))
    (h' : S.fit (classifierEstimator betaPpf coef) (swapClasses D) fuel = some (.ok m')) :
    ∃ X : Table ℝ, ∀ s, m.predict none X s + m'.predict none X s = 1.002 := by
  obtain ⟨a, r, -, hs, -, rfl⟩ := fit_ok S _ D fuel m h
  obtain ⟨a', r', -, hs', -, rfl⟩ := fit_ok S _ (swapClasses D) fuel m' h'
  set N := (S.features.map fun f => (bindData D.X D.n f.1.group none).2.sum).sum
  have hN : ∀ f ∈ S.features, ∀ k ∈ (bindData D.X D.n f.1.group none).2, k ≤ N := fun f hf k hk =>
    (mem_le_sum _ k hk).trans (mem_le_sum _ _ (List.mem_map_of_mem hf))
  refine ⟨fun _ _ => .fin (N : ℝ), fun s => ?_⟩
  unfold FittedModel.predict
  dsimp only
  rw [unseen_contributes_nothing S D hg r.factors N hN, show (swapClasses D).X = D.X from rfl, show (swapClasses D).n = D.n from rfl,
    unseen_contributes_nothing S D hg r'.factors N hN]
  exact C120_baseline D a a' hs hs'

end
end CB
