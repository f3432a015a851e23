import Verif.Props.PriceApi
import Verif.Props.PriceExample
import Verif.Props.PriceExponent
import Verif.Props.ApiImportance

/-!
# C28 for the price model, and witnesses
-/

set_option autoImplicit false
set_option linter.unusedSectionVars false

namespace CB
open Finset Spec Filter Topology

section
variable {σ : Type*} (S : Setup σ) (A : PriceArgs) (D : TrainSet)

/-- The features of a fitted price model. -/
theorem priceFit_groups (fuel : ℕ) (m : FittedModel) (h : S.priceFit A D fuel = some (.ok m)) :
    m.features.map (fun f => f.group) = S.features.map fun f => f.1.group := by
  obtain ⟨a, r, -, -, -, hmain, rfl⟩ := priceFit_ok S A D fuel m h
  have hl := fitMain_factors_length _ _ _ _ _ r hmain
  rw [Setup.cfgs, List.length_map] at hl
  dsimp only
  unfold fittedFeatures
  generalize S.features = fs at hl
  generalize r.factors = l at hl
  induction fs generalizing l with
  | nil => simp
  | cons f fs ih =>
    cases l with
    | nil => simp at hl
    | cons x l =>
      simp only [List.map_cons, List.zipWith_cons_cons, List.cons.injEq, true_and]
      exact ih l (by simpa using hl)

/-- **C28, price model.** After the fit of a new price model the importances are the shares of the features, demand and external
ones alike, in the total mean absolute contribution in link space. -/
theorem C28_price (P : PriceConfig σ) (o o' : PriceObject) (hnew : P.construct = .ok o) (F : DataFrame) (y : ℕ → ℝ) (fuel : ℕ)
    (h : o.fit P F y fuel = some (o', .ok ())) (hg : ∀ i ∈ o.ids, i.group ≠ [])
    (hnames : (o.ids.map fun i => "_".intercalate i.group).Nodup)
    (hint : ∀ i ∈ o.ids, ∀ c, i.group = [c] → ∀ s < F.n, ∀ x : ℝ, F.X s c = .fin x → ∃ k : ℤ, x = k) :
    ∃ m, o'.status = .fitted m ∧ m.features.map (fun f => f.group) = o.ids.map (fun i => i.group) ∧
      (1 / 2000000 < (m.features.map (meanContribution F)).sum →
        getFeatureImportances o'.importances = .ok (m.features.map fun f => ("_".intercalate f.group,
          meanContribution F f / (m.features.map (meanContribution F)).sum))) := by
  obtain ⟨hids, hne, -, -, himp⟩ := priceConstruct_ok P o hnew
  obtain ⟨fs, m, -, hfs, hm, rfl⟩ := priceFit_object_ok P o o' F y fuel h
  have hmg : m.features.map (fun f => f.group) = o.ids.map (fun i => i.group) := by
    rw [priceFit_groups _ _ _ fuel m hm]
    have h1 := congrArg (List.map Prod.fst) (typedFeatures_ids _ _ _ _ hfs)
    rw [List.map_map, List.map_map] at h1
    exact h1
  refine ⟨m, rfl, hmg, fun ht => ?_⟩
  have hlast : (modelImportances F m).map (fun f => (f.1, binWeightedAverage f.2.1 f.2.2.1 f.2.2.2)) =
      m.features.map fun f => (f.group, meanContribution F f) := by
    unfold modelImportances
    rw [List.map_map]
    refine List.map_congr_left fun f hf => ?_
    have hfg : f.group ∈ o.ids.map (fun i => i.group) := by rw [← hmg]; exact List.mem_map.mpr ⟨f, hf, rfl⟩
    obtain ⟨i, hi, hig⟩ := List.mem_map.mp hfg
    obtain ⟨a, r, -, -, -, -, hmm⟩ := priceFit_ok _ _ _ fuel m hm
    rw [hmm] at hf
    obtain ⟨j, sp, fac, -, -, rfl⟩ := fittedFeatures_get _ _ _ _ _ hf
    dsimp only at hig
    have := modelImportance_eq F sp (hig ▸ hg i hi) fac (fun c hc => hint i hi c (hig.trans hc))
    exact congrArg (Prod.mk sp.group) this
  have hround : roundedNonzero (m.features.map (meanContribution F)).sum = true := by
    unfold roundedNonzero
    rw [decide_eq_true_eq]
    exact lt_of_lt_of_le ht (le_abs_self _)
  have := getFeatureImportances_blocks (o.ids.map fun i => i.group) (by simpa using hne) (by rw [List.map_map]; exact hnames) []
    (m.features.map fun f => (f.group, meanContribution F f)) (by simp) (by rw [List.map_map]; exact hmg)
  unfold setFeatureImportances
  dsimp only
  rw [himp, hlast]
  rw [List.flatten_nil] at this
  have hs : ((m.features.map fun f => (f.group, meanContribution F f)).map Prod.snd).sum = (m.features.map (meanContribution F)).sum := by
    rw [List.map_map]
    rfl
  rw [List.nil_append, hs, hround] at this
  rw [List.nil_append, this, List.map_map]
  rfl

end

/-! ### Witnesses -/

noncomputable section

/-- The external feature. -/
abbrev prSpec : FeatureSpec := prSetup.features[1].1

/-- Witness for C59_training, C59_zero and C59_estimate: the bin of the second sample, which has the price ratio 2, at the running
prediction 1 with exponent -1. -/
example : HasDerivAt (fun t => ∑ i ∈ range 2,
      if (fun s : ℕ => s) i = 1 then exponentCost prArgs prData ⟨fun _ => 0, fun _ => 0⟩
        (∑ j ∈ range 2, if (fun s : ℕ => s) j = 1 then 1 else 0) t i else 0)
    ((prArgs.expoData prData ⟨fun _ => 0, fun _ => 0⟩ fun s => s).jac (fun _ => 1) 1) 1 ∧
    Tendsto (fun t => (prArgs.expoData prData ⟨fun _ => 0, fun _ => 0⟩ fun s => s).jac (Function.update (fun _ => 1) 1 t) 1)
      (𝓝[>] 0) atBot :=
  ⟨C59_training prArgs prData ⟨fun _ => 0, fun _ => 0⟩ (fun s => s) (fun _ => 1) 1 one_pos
      (fun _ _ => by simp [priorExponentOf, prArgs]),
    (C59_zero prArgs prData ⟨fun _ => 0, fun _ => 0⟩ (fun s => s) (fun _ => 1) 1 (by norm_num [prArgs]) ⟨1, by decide, rfl⟩).1⟩

example : ∃ l : ℝ, 0 ≤ l ∧ l ≤ 2048 ∧
    ((∃ v : ℝ, 0 < v ∧ prArgs.parameters prData ⟨fun _ => 0, fun _ => 0⟩ prSpec 0 =
      calcFactorsAndUncertainties prArgs.gammaincinv (l ^ 2 / v) (l / v)) ∨
      prArgs.parameters prData ⟨fun _ => 0, fun _ => 0⟩ prSpec 0 = calcFactorsAndUncertainties prArgs.gammaincinv 0 0) := by
  obtain ⟨l, h1, h2, -, h3⟩ := C59_estimate prArgs prData ⟨fun _ => 0, fun _ => 0⟩ prSpec rfl 0 (Nat.zero_le _)
  exact ⟨l, h1, h2, h3⟩

/-- Witness for C59_weights and C59_loss: the weight of the first sample, which has no price ratio, and the loss. -/
example : (prSetup.priceOracle prArgs { prData with w := fun s => if s = 0 then 7 else prData.w s }).estimate 0 1 ⟨fun _ => 0, fun _ => 0⟩ FState.init
      = (prSetup.priceOracle prArgs prData).estimate 0 1 ⟨fun _ => 0, fun _ => 0⟩ FState.init ∧
    ∃ x, (prSetup.priceOracle prArgs prData).loss ⟨fun _ => 0, fun _ => 0⟩ = .fin x := by
  refine ⟨(C59_weights prSetup prArgs prData _ _ (fun s hs => ?_) 1 0 prSetup.features[1] rfl rfl _).1, _, C59_loss _ _ _ _ ?_⟩
  · by_cases h : s = 0
    · subst h
      simp [prData, prArgs, Flt.isFinite] at hs
    · rw [if_neg h]
  · simp [prData]

/-- Witness for C24_price and C28_price: the fitted object. -/
example : ∃ o m p, prNew.fit prConfig prFrame (fun s => 2 * s + 1) 1 = some (o, .ok ()) ∧ o.status = .fitted m ∧
    o.predict prConfig prFrame = some (.ok p) ∧ m.features.map (fun f => f.group) = [["a"], ["b"]] ∧
    p 0 = Real.exp (priorPrediction m.link m.scale m.offset none 0).getFin
      * ((m.features.filter fun f => !f.external).map fun f => Real.exp (f.predict (prFrame.X.row f.group 0))).prod := by
  obtain ⟨o, m, h, hm⟩ := prFit
  have hp : ∃ p, o.predict prConfig prFrame = some (.ok p) := by
    obtain ⟨fs, m', -, hfs, -, rfl⟩ := priceFit_object_ok prConfig prNew o _ _ _ h
    have : fs = prSetup.features := by
      have e : createTypedFeatures prConfig.config.choice prConfig.config.props prNew.ids = .ok prSetup.features := rfl
      rw [e, Except.ok.injEq] at hfs
      exact hfs.symm
    subst this
    exact ⟨_, rfl⟩
  obtain ⟨p, hp⟩ := hp
  obtain ⟨m', hm', hgr, -⟩ := C28_price prConfig prNew o prConstruct prFrame _ 1 h (by simp [prIds]) (by decide) (by
    intro i hi c hc s hs x hx
    simp only [prNew, prIds, List.mem_cons, List.not_mem_nil, or_false] at hi
    refine ⟨if s = 0 then 0 else 1, ?_⟩
    rcases hi with rfl | rfl <;>
    · simp only [List.cons.injEq, and_true] at hc
      subst hc
      simp [prFrame, prData] at hx
      rw [← hx]
      split_ifs <;> simp)
  have hmm : m' = m := by
    rw [hm] at hm'
    simpa using hm'.symm
  subst hmm
  refine ⟨o, m', p, h, hm, hp, hgr, ?_⟩
  have := C24_price prConfig o m' hm prFrame p hp 0
  have hb : externalBase (prFrame.X 0 prConfig.args.externalColumn) = 0 := by
    simp [prFrame, prData, prArgs, externalBase]
  rw [hb, mul_zero, Real.exp_zero, mul_one] at this
  exact this

end

end CB
