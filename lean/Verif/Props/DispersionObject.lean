import Verif.Props.DispersionFitExample

/-!
# C95: start values and objects of the dispersion model
-/

set_option autoImplicit false
set_option linter.unusedSectionVars false

namespace CB
open Finset Spec

section
variable {σ : Type*}

/-- **C95**, start: training and prediction start from the prior prediction of the sample if it is strictly between 0 and 1, and
from the dispersion 1/2 otherwise, also if it is infinite or missing. -/
theorem C95_start (q : ℕ → Flt ℝ) (i : ℕ) :
    (∀ p : ℝ, q i = .fin p → 0 < p → p < 1 →
      1 / (1 + Real.exp (-(priorPrediction .logit (.fin 0) (.fin 0) (some fun s => clipUnit (q s)) i).getFin)) = p) ∧
    ((∀ p : ℝ, q i = .fin p → p ≤ 0 ∨ 1 ≤ p) →
      1 / (1 + Real.exp (-(priorPrediction .logit (.fin 0) (.fin 0) (some fun s => clipUnit (q s)) i).getFin)) = 1 / 2) := by
  have half : (1 : ℝ) / (1 + Real.exp (-0)) = 1 / 2 := by norm_num
  constructor
  · intro p hp h0 h1
    have hd : 0 < 1 - p := by linarith
    have hq : 0 < p / (1 - p) := by positivity
    have hc : clipTo p 0 1 = p := by
      unfold clipTo
      rw [max_eq_left h0.le, min_eq_left h1.le]
    simp only [priorPrediction, hp, clipUnit, hc, linkFlt, if_neg h1.ne, if_pos hq, Flt.add, add_zero, Flt.isFinite, if_true, Flt.getFin]
    rw [← Real.log_inv, Real.exp_log (by positivity)]
    field_simp
    ring
  · intro h
    cases hq : q i with
    | fin p =>
      rcases h p hq with h0 | h1
      · have hc : clipTo p 0 1 = 0 := by
          unfold clipTo
          rw [max_eq_right h0, min_eq_left zero_le_one]
        simp [priorPrediction, hq, clipUnit, hc, linkFlt, Flt.add, Flt.isFinite, Flt.getFin]
        norm_num
      · have hc : clipTo p 0 1 = 1 := by
          unfold clipTo
          rw [max_eq_left (zero_le_one.trans h1), min_eq_right h1]
        simp [priorPrediction, hq, clipUnit, hc, linkFlt, Flt.add, Flt.isFinite, Flt.getFin]
        norm_num
    | nan =>
      simp [priorPrediction, hq, clipUnit, linkFlt, Flt.add, Flt.isFinite, Flt.getFin]
      norm_num
    | pinf =>
      simp [priorPrediction, hq, clipUnit, linkFlt, Flt.add, Flt.isFinite, Flt.getFin]
      norm_num
    | ninf =>
      simp [priorPrediction, hq, clipUnit, linkFlt, Flt.add, Flt.isFinite, Flt.getFin]
      norm_num

/-- Witness for C95_start: prior predictions 0.3, 7 and minus infinity. -/
example : 1 / (1 + Real.exp (-(priorPrediction .logit (.fin 0) (.fin 0) (some fun s => clipUnit (if s = 0 then .fin 0.3 else .ninf)) 0).getFin)) = 0.3 ∧
    1 / (1 + Real.exp (-(priorPrediction .logit (.fin 0) (.fin 0) (some fun _ => clipUnit (.fin 7)) 0).getFin)) = 1 / 2 ∧
    1 / (1 + Real.exp (-(priorPrediction .logit (.fin 0) (.fin 0) (some fun s => clipUnit (if s = 0 then .fin 0.3 else .ninf)) 1).getFin)) = 1 / 2 :=
  ⟨(C95_start (fun s => if s = 0 then .fin 0.3 else .ninf) 0).1 0.3 rfl (by norm_num) (by norm_num),
    (C95_start (fun _ => .fin 7) 0).2 (fun p hp => by rw [Flt.fin.injEq] at hp; subst hp; right; norm_num),
    (C95_start (fun s => if s = 0 then .fin 0.3 else .ninf) 1).2 (fun p hp => by simp at hp)⟩

theorem dispersionObject_ok (C : Config σ) (A : DispersionArgs) (o o' : DispersionObject) (F : DataFrame) (y : ℕ → ℝ) (fuel : ℕ)
    (h : o.fit C A F y fuel = some (o', .ok ())) :
    ∃ fs m, createFeatures C.choice C.props (o.base.groupsFor C F) = .ok fs ∧
      dispersionFit (C.setup fs) A (A.mean F) (C.trainSet F y) fuel = some (.ok m) ∧
      o'.base.features = some fs ∧ o'.base.status = .fitted m ∧ o'.mu = none := by
  unfold DispersionObject.fit at h
  split_ifs at h
  · simp at h
  · split at h
    · simp at h
    · rename_i b fs hi
      obtain ⟨h1, h2, -⟩ := initFit_ok C _ o.base b F y fs hi
      split at h
      · cases h
      · simp at h
      · rename_i m hm
        simp only [Option.some.injEq, Prod.mk.injEq, and_true] at h
        subst h
        refine ⟨fs, m, h1, hm, ?_, rfl, rfl⟩
        rw [h2]

/-- **C95**, objects: after a successful fit of an object, whatever happened to it before, the predictions for the training table
have penalised negative log-likelihood, with the means of the rows taken from the column of means, at most that of the predictions
that training started from. -/
theorem C95_object (C : Config σ) (A : DispersionArgs) (o o' : DispersionObject) (F : DataFrame) (y : ℕ → ℝ) (counts : ℕ → ℕ)
    (fuel : ℕ) (h : o.fit C A F y fuel = some (o', .ok ())) (mu : ℕ → ℝ) (hmean : ∀ s, F.X s A.meanColumn = .fin (mu s))
    (hb : A.bayes = false) (hga : 0 ≤ A.gamma) (hmu : ∀ i < F.n, 0 < mu i)
    (hy : ∀ i < F.n, y i = counts i) (hagg : C.params.aggregate = true)
    (hlr : C.learnRate = some fun _ => 1)
    (hg : ∀ g ∈ o.base.groupsFor C F, g ≠ [])
    (hsm : ∀ fs, createFeatures C.choice C.props (o.base.groupsFor C F) = .ok fs → KeepingSmoothers (C.setup fs) (C.trainSet F y))
    (hint : ∀ c, [c] ∈ o.base.groupsFor C F → ∀ i < F.n, ∀ x : ℝ, F.X i c = .fin x → ∃ k : ℤ, x = (k : ℝ))
    (p : ℕ → ℝ) (hp : o'.predict C F = some (.ok p)) :
    dispersionCost A.gamma F.n counts mu p ≤ dispersionCost A.gamma F.n counts mu fun i =>
      1 / (1 + Real.exp (-(priorPrediction .logit (.fin 0) (.fin 0) ((C.prior F).map fun q s => clipUnit (q s)) i).getFin)) := by
  obtain ⟨fs, m, h1, h2, h3, h4, -⟩ := dispersionObject_ok C A o o' F y fuel h
  have hmem : ∀ f ∈ fs, f.1.group ∈ o.base.groupsFor C F := by
    intro f hf
    rw [← createFeatures_columns C.choice C.props _ fs h1]
    exact List.mem_map.mpr ⟨f, hf, rfl⟩
  have hm : A.mean F = mu := by
    funext s
    unfold DispersionArgs.mean
    rw [hmean s]; rfl
  rw [hm] at h2
  have hlr' : ∀ k, (C.setup fs).learnRate k = 1 := by
    intro k
    show C.rate k = 1
    unfold Config.rate
    rw [hlr]
    split <;> simp [constantLearnRateOne]
  have := C95_training_cost (C.setup fs) A mu (C.trainSet F y) counts hb hga hmu hy hagg hlr' (fun f hf => hg _ (hmem f hf)) (hsm fs h1)
    (fun f hf c hc i hi x hx => hint c (hc ▸ hmem f hf) i hi x hx) fuel m h2
  have hpe : p = dispersionPredict m (C.prior F) F.X := by
    unfold DispersionObject.predict EstimatorObject.checkFitted at hp
    rw [h3, h4] at hp
    simp only [Option.isNone_some, Bool.false_eq_true, if_false] at hp
    split_ifs at hp
    · simp only [Option.some.injEq, Except.ok.injEq] at hp
      exact hp.symm
    · simp at hp
  rw [hpe]
  exact this

/-- **C93**, where it fails: after a successful fit, `fit_transform` of a dispersion model never succeeds, not even for the same
table. -/
theorem C93_dispersion_after_fit (C : Config σ) (A : DispersionArgs) (o o' : DispersionObject) (F : DataFrame) (y : ℕ → ℝ) (fuel : ℕ)
    (h : o.fit C A F y fuel = some (o', .ok ())) (G : DataFrame) (z : ℕ → ℝ) :
    ∃ o'' e, o'.fitTransform C A G z = some (o'', .error e) := by
  obtain ⟨fs, m, -, -, -, -, h5⟩ := dispersionObject_ok C A o o' F y fuel h
  exact C93_dispersion_counterexample C A o' h5 G z

end

/-- Witness: the counts 0 and 2 with means 1 are fitted and not predicted worse than with the dispersion 1/2; afterwards
`fit_transform` fails. -/
example : ∃ o p, dispNew.fit dispConfig dispArgs dispFrame (fun s => 2 * s) 5 = some (o, .ok ()) ∧
    o.predict dispConfig dispFrame = some (.ok p) ∧
    (dispersionCost (1 / 10) 2 (fun s => 2 * s) (fun _ => 1) p ≤
      dispersionCost (1 / 10) 2 (fun s => 2 * s) (fun _ => 1) fun _ => 1 / 2) ∧
    ∃ o' e, o.fitTransform dispConfig dispArgs dispFrame (fun s => 2 * s) = some (o', .error e) := by
  obtain ⟨o, h, p, hp⟩ := dispObject_fits
  refine ⟨o, p, h, hp, ?_, C93_dispersion_after_fit _ _ _ o _ _ _ h _ _⟩
  have := C95_object dispConfig dispArgs dispNew o dispFrame (fun s => 2 * s) (fun s => 2 * s) 5 h (fun _ => 1)
    (fun s => by simp [dispArgs]) rfl (by norm_num [dispArgs]) (fun _ _ => one_pos) (fun i _ => by simp) rfl rfl
    (by simp [EstimatorObject.groupsFor]) (by
      intro fs hfs
      have hfs' : createFeatures plainChoice none [["a"]] = .ok fs := hfs
      rw [show createFeatures plainChoice none [["a"]] = .ok plainSetup.features from rfl, Except.ok.injEq] at hfs'
      subst hfs'
      rw [dispSetup]
      exact noSmoothing_keeps plainSetup noOpen plainChoice none [["a"]] rfl plainFeatures rfl _) (by
      intro c hc i hi x hx
      have hc' : c = "a" := by simpa [EstimatorObject.groupsFor] using hc
      subst hc'
      simp only [show ("a" : String) ≠ "m" from by decide, if_false, Flt.fin.injEq] at hx
      refine ⟨if i = 0 then 0 else 1, ?_⟩
      rw [← hx]
      split_ifs <;> simp) p hp
  refine le_trans this (le_of_eq ?_)
  show dispersionCost _ _ _ _ _ = _
  congr 1
  funext i
  simp [priorPrediction, Config.prior, Flt.getFin]
  norm_num

end CB
