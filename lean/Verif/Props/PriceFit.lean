import Verif.Props.WholeFit
import Verif.Props.Price
import Verif.Props.Rows
import Verif.Spec.PriceFit

/-!
# Whole fits of the price model
-/

set_option autoImplicit false
set_option linter.unusedSectionVars false

namespace CB
open Finset Spec

section
variable {σ : Type*} (S : Setup σ) (A : PriceArgs) (D : TrainSet) (fuel : ℕ)

/-- A successful fit of a price model. -/
theorem priceFit_ok (m : FittedModel) (h : S.priceFit A D fuel = some (.ok m)) :
    ∃ a r, (∀ i < D.n, 0 ≤ D.y i) ∧ A.estimator.scale D.n D.y D.w = .fin a ∧
      S.priceFitMain A D fuel = some (.ok r) ∧
      fitMain (S.paramsFor A.estimator) (S.priceOracle A D) (S.cfgs D) (baseline A.estimator D a) fuel = some (.ok r) ∧
      m = ⟨.log, .fin a, A.estimator.offset D, fittedFeatures D.X D.n (S.features.map (·.1)) r.factors, r.iterations⟩ := by
  unfold Setup.priceFit at h
  dsimp only at h
  by_cases hv : ∀ i < D.n, A.estimator.valid (D.y i)
  · rw [if_pos hv] at h
    cases hs : A.estimator.scale D.n D.y D.w with
    | fin a =>
      rw [hs, if_pos (by rfl)] at h
      split at h
      · cases h
      · simp at h
      · rename_i r hr
        simp only [Option.some.injEq, Except.ok.injEq] at h
        refine ⟨a, r, hv, rfl, hr, ?_, h.symm⟩
        unfold Setup.priceFitMain at hr
        dsimp only at hr
        rw [hs] at hr
        exact hr
    | nan => rw [hs, if_neg (by simp [Flt.isFinite])] at h; simp at h
    | pinf => rw [hs, if_neg (by simp [Flt.isFinite])] at h; simp at h
    | ninf => rw [hs, if_neg (by simp [Flt.isFinite])] at h; simp at h
  · rw [if_neg hv] at h; simp at h

/-- **C21, price model.** A fit needs at most four more iterations than the limit that applies without divergence. -/
theorem C21_price (hf : normalIterations S.params + 4 ≤ fuel) : ∃ r, S.priceFit A D fuel = some r := by
  unfold Setup.priceFit
  dsimp only
  split
  · split
    · have : ∃ r, S.priceFitMain A D fuel = some r :=
        (C21_terminates (S.paramsFor A.estimator) (S.priceOracle A D) (S.cfgs D) _).2 fuel hf
      obtain ⟨r, hr⟩ := this
      rw [hr]
      cases r with
      | error e => exact ⟨_, rfl⟩
      | ok r => exact ⟨_, rfl⟩
    · exact ⟨_, rfl⟩
  · exact ⟨_, rfl⟩

/-- **C19, price model.** `predict` on the training table reproduces the in-sample prediction, demand and price effects
included. -/
theorem C19_price (hagg : S.params.aggregate = true) (m : FittedModel) (h : S.priceFit A D fuel = some (.ok m)) (s : ℕ) (hs : s < D.n)
    (hg : ∀ f ∈ S.features, f.1.group ≠ [])
    (hint : ∀ f ∈ S.features, ∀ c, f.1.group = [c] → ∀ x : ℝ, D.X s c = .fin x → ∃ k : ℤ, x = k) :
    ∃ r, S.priceFitMain A D fuel = some (.ok r) ∧ A.predict m D.prior D.X s = Real.exp (A.linkOf D.X r.prediction s) := by
  obtain ⟨a, r, -, hsc, hr, hr', rfl⟩ := priceFit_ok S A D fuel m h
  refine ⟨r, hr, ?_⟩
  have hc : S.cfgs D = (S.features.map (·.1)).map (fun f => f.cfg D.X D.n) := by
    unfold Setup.cfgs
    rw [List.map_map]; rfl
  rw [hc] at hr'
  obtain ⟨h1, h2⟩ := C19_predict_train (S.paramsFor A.estimator) hagg (S.priceOracle A D) D.X D.n (S.features.map (·.1))
    (baseline A.estimator D a) fuel r hr' s hs
    (fun f hf => by obtain ⟨q, hq, rfl⟩ := List.mem_map.mp hf; exact hg q hq)
    (fun f hf c hc x hx => by obtain ⟨q, hq, rfl⟩ := List.mem_map.mp hf; exact hint q hq c hc x hx)
  unfold PriceArgs.predict priceModelPredict pricePredict PriceArgs.linkOf PriceArgs.base
  dsimp only
  rw [← h1, ← h2]
  rfl

/-- **C23, price model.** In a price model whose training never diverged, every demand feature multiplies every prediction by
0.01 to 1000 (interactions: 0.1 to 100), and every external feature multiplies the exponent by 0.05 to 20 (interactions: 0.1
to 5). -/
theorem C23_price (hagg : S.params.aggregate = true) (hc : S.params.consts = realConsts) (m : FittedModel)
    (h : S.priceFit A D fuel = some (.ok m)) (hnd : PriceNeverDiverges S A D) (g : FittedFeature ℝ) (hg : g ∈ m.features)
    (row : List (Flt ℝ)) :
    (g.external = false →
      (if g.group.length = 1 then 0.01 else 0.1) ≤ Real.exp (g.predict row) ∧
        Real.exp (g.predict row) ≤ (if g.group.length = 1 then 1000 else 100)) ∧
    (g.external = true →
      (if g.group.length = 1 then 0.05 else 0.1) ≤ Real.exp (g.predict row) ∧
        Real.exp (g.predict row) ≤ (if g.group.length = 1 then 20 else 5)) := by
  obtain ⟨a, r, -, hs, -, hr, rfl⟩ := priceFit_ok S A D fuel m h
  dsimp only at hg
  obtain ⟨j, f, fac, hj, hfj, rfl⟩ := fittedFeatures_get _ _ _ _ _ hg
  obtain ⟨past, s, htr, hst⟩ := final_stored fuel _ _ _ _ r hr
  have hjc : (S.cfgs D)[j]? = some (f.cfg D.X D.n) := by
    rw [List.getElem?_map] at hj
    unfold Setup.cfgs
    rw [List.getElem?_map]
    cases hS : S.features[j]? with
    | none => rw [hS] at hj; simp at hj
    | some q => rw [hS] at hj; simp only [Option.map_some, Option.some.injEq] at hj ⊢; rw [hj]
  obtain ⟨fs, hfs, hb, -⟩ := C23_factor_bounds (S.paramsFor A.estimator) hagg
    (by simp [Setup.paramsFor, PriceArgs.estimator, nbinomEstimator]) hc (S.priceOracle A D) (S.cfgs D) _
    past s htr (hnd a hs past s htr) j _ hjc
  have hfac := hst j fac fs hfj hfs
  rw [hfac] at hb
  have hb' : ∀ b, minFactor f.external (f.group.length == 1) ≤ Real.exp (fac b) ∧
      Real.exp (fac b) ≤ maxFactor f.external (f.group.length == 1) := hb
  have hl : ∀ (P : Bool → Prop), P (f.group.length == 1) → (f.group.length = 1 → P true) ∧ (f.group.length ≠ 1 → P false) := by
    intro P hP
    refine ⟨fun h => ?_, fun h => ?_⟩
    · rwa [show (f.group.length == 1) = true by simpa using h] at hP
    · rwa [show (f.group.length == 1) = false by simpa using h] at hP
  obtain ⟨h1, h2⟩ := hl (fun t => ∀ b, minFactor f.external t ≤ Real.exp (fac b) ∧ Real.exp (fac b) ≤ maxFactor f.external t) hb'
  dsimp only at h1 h2 ⊢
  refine ⟨fun he => ?_, fun he => ?_⟩
  all_goals
    rw [he] at h1 h2
    simp only [minFactor, maxFactor] at h1 h2
    rcases predict_factor_or_zero ⟨f.group, f.external, (bindData D.X D.n f.group none).2, fac⟩ row with h0 | ⟨b, h0⟩
    · rw [h0, Real.exp_zero]
      by_cases hlen : f.group.length = 1
      · rw [if_pos hlen, if_pos hlen]; norm_num
      · rw [if_neg hlen, if_neg hlen]; norm_num
    · rw [h0]
      by_cases hlen : f.group.length = 1
      · rw [if_pos hlen, if_pos hlen]; exact h1 hlen b
      · rw [if_neg hlen, if_neg hlen]; exact h2 hlen b

/-- What the external features multiply the exponent with. -/
theorem exponent_product (features : List (FittedFeature ℝ)) (X : Table ℝ) (s : ℕ) :
    Real.exp (contributionSum true features X s)
      = ((features.filter fun f => f.external).map fun f => Real.exp (f.predict (X.row f.group s))).prod := by
  unfold contributionSum
  simp only [beq_true]
  induction features.filter fun f => f.external with
  | nil => simp
  | cons f fs ih => rw [List.map_cons, List.sum_cons, Real.exp_add, ih, List.map_cons, List.prod_cons]

/-- Products of numbers between positive bounds. -/
theorem prod_between {α : Type*} (l : List α) (lo x hi : α → ℝ) (h : ∀ a ∈ l, 0 < lo a ∧ lo a ≤ x a ∧ x a ≤ hi a) :
    0 < (l.map lo).prod ∧ (l.map lo).prod ≤ (l.map x).prod ∧ (l.map x).prod ≤ (l.map hi).prod := by
  induction l with
  | nil => simp
  | cons a l ih =>
    obtain ⟨h0, h1, h2⟩ := ih fun b hb => h b (List.mem_cons_of_mem _ hb)
    obtain ⟨k0, k1, k2⟩ := h a List.mem_cons_self
    simp only [List.map_cons, List.prod_cons]
    refine ⟨mul_pos k0 h0, mul_le_mul k1 h1 h0.le (k0.le.trans k1), mul_le_mul k2 h2 (h0.le.trans h1) ?_⟩
    exact k0.le.trans (k1.trans k2)

/-- The columns and types of the features of a fitted model are those of the configuration. -/
theorem fittedFeatures_specs (X : Table ℝ) (n : ℕ) (g : List String → Bool → ℝ) :
    ∀ (specs : List FeatureSpec) (factors : List (ℕ → ℝ)), factors.length = specs.length →
      ((fittedFeatures X n specs factors).filter fun f => f.external).map (fun f => g f.group f.external)
        = (specs.filter fun f => f.external).map fun f => g f.group f.external := by
  intro specs
  induction specs with
  | nil => intro factors _; simp [fittedFeatures]
  | cons f specs ih =>
    intro factors hl
    cases factors with
    | nil => simp at hl
    | cons fac factors =>
      have := ih factors (by simpa using hl)
      unfold fittedFeatures at this ⊢
      rw [List.zipWith_cons_cons]
      cases he : f.external
      · rw [List.filter_cons_of_neg (by simp [he]), List.filter_cons_of_neg (by simp [he])]
        exact this
      · rw [List.filter_cons_of_pos (by simp [he]), List.filter_cons_of_pos (by simp [he]), List.map_cons, List.map_cons, this]
        rw [he]

/-- The prior exponent of the model is that of the specification. -/
theorem priorExponent_eq (X : Table ℝ) (i : ℕ) : priorExponentOf A X i = A.exponent X i := by
  unfold priorExponentOf PriceArgs.exponent
  cases A.exponentColumn <;> rfl

/-- The price effect of a fitted price model: an exponential law. -/
theorem priceLaw (m : FittedModel) (h : S.priceFit A D fuel = some (.ok m))
    (hcol : ∀ f ∈ S.features, A.externalColumn ∉ f.1.group) (hexp : A.exponentColumn ≠ some A.externalColumn)
    (prior : Option (ℕ → Flt ℝ)) (X : Table ℝ) (s : ℕ) (r : ℝ) :
    A.predict m prior (setEntry X s A.externalColumn (.fin r)) s
      = A.predict m prior (setEntry X s A.externalColumn .nan) s
        * Real.exp (A.exponent X s * Real.exp (contributionSum true m.features X s) * (r - 1)) := by
  obtain ⟨a, q, -, -, -, hr, hm⟩ := priceFit_ok S A D fuel m h
  have hfe : m.features = fittedFeatures D.X D.n (S.features.map (·.1)) q.factors := by rw [hm]
  have hgr : ∀ f ∈ m.features, A.externalColumn ∉ f.group := by
    intro g hg
    rw [hfe] at hg
    obtain ⟨j, f, fac, hj, -, rfl⟩ := fittedFeatures_get _ _ _ _ _ hg
    obtain ⟨f', hf', rfl⟩ := List.mem_map.mp (List.mem_of_getElem? hj)
    exact hcol f' hf'
  have hrow : ∀ v, ∀ f ∈ m.features, (setEntry X s A.externalColumn v).row f.group s = X.row f.group s := by
    intro v f hf
    unfold Table.row
    refine List.map_congr_left fun c hc => ?_
    unfold setEntry
    rw [if_neg]
    rintro ⟨-, rfl⟩
    exact hgr f hf hc
  have hsum : ∀ v e, contributionSum e m.features (setEntry X s A.externalColumn v) s = contributionSum e m.features X s := by
    intro v e
    unfold contributionSum
    congr 1
    refine List.map_congr_left fun f hf => ?_
    rw [hrow v f (List.mem_of_mem_filter hf)]
  have hk : ∀ v, A.exponent (setEntry X s A.externalColumn v) s = A.exponent X s := by
    intro v
    unfold PriceArgs.exponent
    cases hx : A.exponentColumn with
    | none => rfl
    | some c =>
      dsimp only
      unfold setEntry
      rw [if_neg]
      rintro ⟨-, rfl⟩
      exact hexp hx
  have hv : ∀ v, setEntry X s A.externalColumn v s A.externalColumn = v := by
    intro v
    unfold setEntry
    rw [if_pos ⟨rfl, rfl⟩]
  unfold PriceArgs.predict priceModelPredict pricePredict priceLinkOf priceExponent
  dsimp only
  rw [(C24_link_space _ _ _ _).1, (C24_link_space _ _ _ _).2, (C24_link_space _ _ _ _).1, (C24_link_space _ _ _ _).2,
    hsum, hsum, hsum, hsum, hk, hk, hv, hv, ← Real.exp_add]
  unfold externalBase
  dsimp only
  congr 1
  ring

/-- **C96.** The price effect in a fitted price model whose training never diverged. For every row of any table, whatever its
other columns hold, there is one factor for the prior exponent, the same for all prices, such that demand follows the
exponential law with that exponent: the prediction at the price ratio `r` is the prediction without price times
`exp(exponent * k * (r - 1))`. The factor is at least 0.05 and at most 20 for a single external feature of one column; with
several external features the bounds multiply. -/
theorem C96_elasticity (hagg : S.params.aggregate = true) (hc : S.params.consts = realConsts) (m : FittedModel)
    (h : S.priceFit A D fuel = some (.ok m)) (hnd : PriceNeverDiverges S A D)
    (hcol : ∀ f ∈ S.features, A.externalColumn ∉ f.1.group) (hexp : A.exponentColumn ≠ some A.externalColumn)
    (prior : Option (ℕ → Flt ℝ)) (X : Table ℝ) (s : ℕ) :
    ∃ k, lowestExponent (S.features.map (·.1)) ≤ k ∧ k ≤ highestExponent (S.features.map (·.1)) ∧
      ∀ r : ℝ, A.predict m prior (setEntry X s A.externalColumn (.fin r)) s
        = A.predict m prior (setEntry X s A.externalColumn .nan) s * Real.exp (priorExponentOf A X s * k * (r - 1)) := by
  obtain ⟨a, q, -, -, -, hr, hm⟩ := priceFit_ok S A D fuel m h
  have hlen : q.factors.length = (S.features.map (·.1)).length := by
    obtain ⟨past, st, htr, -, hf, -⟩ := fitMain_ok _ _ _ _ _ q hr
    have h1 := congrArg List.length hf
    rw [List.length_map, List.length_map, ← (trace_WF _ _ _ _ _ _ htr).1] at h1
    rw [← h1]
    simp [Setup.cfgs]
  have hfe : m.features = fittedFeatures D.X D.n (S.features.map (·.1)) q.factors := by rw [hm]
  have hb := prod_between (m.features.filter fun f => f.external) (fun f => if f.group.length = 1 then (0.05 : ℝ) else 0.1)
    (fun f => Real.exp (f.predict (X.row f.group s))) (fun f => if f.group.length = 1 then (20 : ℝ) else 5)
    (fun g hg => by
      rw [List.mem_filter] at hg
      obtain ⟨h1, h2⟩ := (C23_price S A D fuel hagg hc m h hnd g hg.1 (X.row g.group s)).2 hg.2
      refine ⟨by split <;> norm_num, h1, h2⟩)
  have hlo := fittedFeatures_specs D.X D.n (fun g _ => if g.length = 1 then (0.05 : ℝ) else 0.1) _ _ hlen
  have hhi := fittedFeatures_specs D.X D.n (fun g _ => if g.length = 1 then (20 : ℝ) else 5) _ _ hlen
  rw [← hfe] at hlo hhi
  rw [hlo, hhi, ← exponent_product] at hb
  refine ⟨Real.exp (contributionSum true m.features X s), hb.2.1, hb.2.2, by
    rw [priorExponent_eq]; exact priceLaw S A D fuel m h hcol hexp prior X s⟩

/-- **C96**, direction of the price effect, in every fitted price model: with a negative prior exponent (the default is -1)
predictions strictly decrease with the price ratio, with a positive one they strictly increase, and with exponent 0 they do not
depend on it. Rows without price ratio are predicted as rows with price ratio 1. -/
theorem C96_direction (m : FittedModel) (h : S.priceFit A D fuel = some (.ok m))
    (hcol : ∀ f ∈ S.features, A.externalColumn ∉ f.1.group) (hexp : A.exponentColumn ≠ some A.externalColumn)
    (prior : Option (ℕ → Flt ℝ)) (X : Table ℝ) (s : ℕ) :
    (∀ r r' : ℝ, r < r' →
      (priorExponentOf A X s < 0 → A.predict m prior (setEntry X s A.externalColumn (.fin r')) s
        < A.predict m prior (setEntry X s A.externalColumn (.fin r)) s) ∧
      (0 < priorExponentOf A X s → A.predict m prior (setEntry X s A.externalColumn (.fin r)) s
        < A.predict m prior (setEntry X s A.externalColumn (.fin r')) s) ∧
      (priorExponentOf A X s = 0 → A.predict m prior (setEntry X s A.externalColumn (.fin r)) s
        = A.predict m prior (setEntry X s A.externalColumn (.fin r')) s)) ∧
    A.predict m prior (setEntry X s A.externalColumn (.fin 1)) s = A.predict m prior (setEntry X s A.externalColumn .nan) s := by
  rw [priorExponent_eq]
  have hlaw := priceLaw S A D fuel m h hcol hexp prior X s
  have hpos : 0 < A.predict m prior (setEntry X s A.externalColumn .nan) s := by
    unfold PriceArgs.predict priceModelPredict pricePredict
    exact Real.exp_pos _
  have hk := Real.exp_pos (contributionSum true m.features X s)
  refine ⟨fun r r' hr => ?_, by rw [hlaw 1]; simp⟩
  rw [hlaw r, hlaw r']
  refine ⟨fun he => ?_, fun he => ?_, fun he => ?_⟩
  · refine mul_lt_mul_of_pos_left (Real.exp_lt_exp.mpr ?_) hpos
    exact mul_lt_mul_of_neg_left (by linarith) (mul_neg_of_neg_of_pos he hk)
  · refine mul_lt_mul_of_pos_left (Real.exp_lt_exp.mpr ?_) hpos
    exact mul_lt_mul_of_pos_left (by linarith) (mul_pos he hk)
  · rw [he]; simp

end

end CB
