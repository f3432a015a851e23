import Verif.Spec.ColumnOrder
import Verif.Lemmas.ColumnOrder
import Verif.Lemmas.RelabelEstimators
import Verif.Props.Predict
import Verif.Props.Relabel
import Verif.Props.CalibrationExample

/-!
# C134: the order of the columns of an interaction does not matter
-/

set_option autoImplicit false
set_option linter.unusedSectionVars false

namespace CB
open Finset Spec

/-- What the proof uses of a feature with reordered columns. -/
def Reordered (base : SmootherKind → Smoother ℝ (List (FitRow ℝ) × List ℝ)) (f f' : FeatureSpec × SmootherKind) : Prop :=
  f'.1.external = f.1.external ∧ f'.1.missingNotLearned = f.1.missingNotLearned ∧ f'.2 = f.2 ∧
    (f'.1.group = f.1.group ∨
      2 ≤ f.1.group.length ∧ f.1.group.Nodup ∧ f'.1.group.Perm f.1.group ∧
      ∀ (ns ns' : List ℕ) (β : Equiv.Perm ℕ) (w w' u u' v v' : ℕ → ℝ), ns ≠ [] → ns' ≠ [] → ns'.prod = ns.prod → IsNumbering β ns.prod →
        (∀ b, w' (β b) = w b) → (∀ b, u' (β b) = u b) → (∀ b, v' (β b) = v b) → ∀ b < ns.prod,
        smoothAtCentres base f.2 ns' w' u' v' (β b) = smoothAtCentres base f.2 ns w u v b)

section
variable (S : Setup (List (FitRow ℝ) × List ℝ)) (features' : List (FeatureSpec × SmootherKind)) (D : TrainSet)
  (hgroups : ∀ f ∈ S.features, f.1.group ≠ []) (hf : List.Forall₂ (Reordered S.base) S.features features')

open Classical in
/-- The renumbering of the bins of a feature. -/
noncomputable def columnNumbering (D : TrainSet) (f f' : FeatureSpec × SmootherKind) : Equiv.Perm ℕ :=
  if h : f'.1.group ≠ f.1.group ∧ f.1.group.Nodup ∧ f'.1.group.Perm f.1.group then
    reorderPerm (columnBins D.X (usableSamples D.X D.n f.1.group)) h.2.1 h.2.2
  else 1

/-- The renumberings of the bins of the features. -/
noncomputable def columnNumberings (D : TrainSet) (l l' : List (FeatureSpec × SmootherKind)) (i : ℕ) : Equiv.Perm ℕ :=
  match l[i]?, l'[i]? with
  | some f, some f' => columnNumbering D f f'
  | _, _ => 1

theorem columnNumbering_same (f f' : FeatureSpec × SmootherKind) (h : f'.1.group = f.1.group) : columnNumbering D f f' = 1 :=
  dif_neg fun h' => h'.1 h

theorem columnNumbering_other (f f' : FeatureSpec × SmootherKind) (h : f'.1.group ≠ f.1.group) (hg : f.1.group.Nodup)
    (hp : f'.1.group.Perm f.1.group) :
    columnNumbering D f f' = reorderPerm (columnBins D.X (usableSamples D.X D.n f.1.group)) hg hp :=
  dif_pos ⟨h, hg, hp⟩

theorem columnOrder_cfg (base : SmootherKind → Smoother ℝ (List (FitRow ℝ) × List ℝ)) (H : Option (List (List String))) (hH : OrderFreeHierarchy H) (f f' : FeatureSpec × SmootherKind)
    (hne : f.1.group ≠ []) (h : Reordered base f f') :
    CfgRel H D.n (columnNumbering D f f') (f.1.cfg D.X D.n) (f'.1.cfg D.X D.n) := by
  obtain ⟨h1, h2, -, h4⟩ := h
  by_cases he : f'.1.group = f.1.group
  · rw [columnNumbering_same D f f' he]
    have e : f'.1 = f.1 := by
      cases hf : f.1
      cases hf' : f'.1
      rw [hf, hf'] at h1 h2 he
      simp_all
    rw [e]
    exact
      { columns := rfl
        hierarchical := fun _ _ => rfl
        external := rfl
        nFinite := rfl
        missing := rfl
        numbering := ⟨rfl, fun _ => Iff.rfl⟩
        bin := fun _ _ => rfl }
  · rcases h4 with h4 | ⟨-, hg, hp, -⟩
    · exact absurd h4 he
    rw [columnNumbering_other D f f' he hg hp]
    exact
      { columns := hp.length_eq
        hierarchical := fun groups hgr => by
          have := hH groups hgr f.1.group f'.1.group (.inr ⟨hg, hp⟩)
          show groups.contains f'.1.group = groups.contains f.1.group
          rw [Bool.eq_iff_iff, List.contains_iff_mem, List.contains_iff_mem]
          exact this
        external := h1
        nFinite := by
          show (bindData D.X D.n f'.1.group none).2.prod = (bindData D.X D.n f.1.group none).2.prod
          rw [bindData_reorder D.X D.n hp, bindData_columns, reorder_prod _ hp]
        missing := h2
        numbering := by
          show IsNumbering _ (bindData D.X D.n f.1.group none).2.prod
          rw [bindData_columns]
          exact reorderPerm_numbering _ hg hp
        bin := fun s hs => code_reorder D.X D.n hne hg hp s hs }

theorem columnNumberings_cons (f f' : FeatureSpec × SmootherKind) (l l' : List (FeatureSpec × SmootherKind)) (i : ℕ) :
    columnNumberings D (f :: l) (f' :: l') (i + 1) = columnNumberings D l l' i := by
  unfold columnNumberings
  simp

theorem columnOrder_cfgs (H : Option (List (List String))) (hH : OrderFreeHierarchy H) (base : SmootherKind → Smoother ℝ (List (FitRow ℝ) × List ℝ))
    (l l' : List (FeatureSpec × SmootherKind)) (h : List.Forall₂ (Reordered base) l l') (hne : ∀ f ∈ l, f.1.group ≠ []) (β : ℕ → Equiv.Perm ℕ) (i : ℕ)
    (hβ : ∀ j, β (i + j) = columnNumberings D l l' j) :
    CfgsRel H D.n β i (l.map fun f => f.1.cfg D.X D.n) (l'.map fun f => f.1.cfg D.X D.n) := by
  induction h generalizing i with
  | nil => exact trivial
  | @cons f f' l l' hf _ ih =>
    refine ⟨?_, ih (fun f hf => hne f (List.mem_cons_of_mem _ hf)) (i + 1) fun j => ?_⟩
    · have := hβ 0
      rw [Nat.add_zero] at this
      rw [this]
      exact columnOrder_cfg D base H hH f f' (hne f (List.mem_cons_self ..)) hf
    · rw [Nat.add_right_comm, Nat.add_assoc, hβ (j + 1)]
      exact columnNumberings_cons D f f' l l' j

include hgroups hf in
theorem columnOrder_oracle (hH : OrderFreeHierarchy none) (E : Estimator) (hE : Numberless E) :
    OracleRel D.n (columnNumberings D S.features features') (S.cfgs D) (S.oracle E D) ({ S with features := features' }.oracle E D) := by
  have hlen := hf.length_eq
  have hget : ∀ (i : ℕ) f, S.features[i]? = some f → ∃ f', features'[i]? = some f' ∧ Reordered S.base f f' ∧
      CfgRel none D.n (columnNumberings D S.features features' i) (f.1.cfg D.X D.n) (f'.1.cfg D.X D.n) := by
    intro i f hi
    obtain ⟨hi1, hi2⟩ := List.getElem?_eq_some_iff.mp hi
    have hi3 : i < features'.length := by rw [← hlen]; exact hi1
    have hr : Reordered S.base f features'[i] := by
      have := (List.forall₂_iff_get.mp hf).2 i hi1 hi3
      rw [← hi2]
      exact this
    refine ⟨features'[i], List.getElem?_eq_getElem hi3, hr, ?_⟩
    have e : columnNumberings D S.features features' i = columnNumbering D f features'[i] := by
      unfold columnNumberings
      rw [hi, List.getElem?_eq_getElem hi3]
    rw [e]
    exact columnOrder_cfg D S.base none hH f _ (hgroups f (List.mem_of_getElem? hi)) hr
  have hnone : ∀ i : ℕ, S.features[i]? = none → features'[i]? = none := by
    intro i hi
    rw [List.getElem?_eq_none_iff] at hi ⊢
    omega
  constructor
  · intro it i p p' fs b hp
    unfold Setup.oracle
    dsimp only
    cases hi : S.features[i]? with
    | none => rw [hnone i hi]
    | some f =>
      obtain ⟨f', hi', -, hr⟩ := hget i f hi
      rw [hi']
      dsimp only
      rw [hE.parameters ⟨hr.bin⟩ fun s hs => (hp s hs).1]
  · intro it i c hc p p' fs u b hp hb
    unfold Setup.cfgs at hc
    rw [List.getElem?_map] at hc
    unfold Setup.oracle
    dsimp only
    cases hi : S.features[i]? with
    | none => rw [hnone i hi]
    | some f =>
      rw [hi] at hc
      simp only [Option.map_some, Option.some.injEq] at hc
      subst hc
      obtain ⟨f', hi', hR, hr⟩ := hget i f hi
      rw [hi']
      dsimp only
      have hmem := List.mem_of_getElem? hi
      have hw : ∀ b, binSum D.n (f'.1.cfg D.X D.n).bin D.w (columnNumberings D S.features features' i b) = binSum D.n (f.1.cfg D.X D.n).bin D.w b :=
        fun b => SameBins.binSum ⟨hr.bin⟩ (fun _ _ => rfl) b
      have hu : ∀ b, (E.parameters it D.n (f'.1.cfg D.X D.n).bin D.y D.w p'.factors (columnNumberings D S.features features' i b)).2
          = (E.parameters it D.n (f.1.cfg D.X D.n).bin D.y D.w p.factors b).2 :=
        fun b => by rw [hE.parameters ⟨hr.bin⟩ fun s hs => (hp s hs).1]
      have e : columnNumberings D S.features features' i = columnNumbering D f f' := by
        unfold columnNumberings
        rw [hi, hi']
      obtain ⟨-, -, h3, h4⟩ := hR
      rw [h3]
      by_cases he : f'.1.group = f.1.group
      · rw [e, columnNumbering_same D f f' he] at hw hu ⊢
        have hw' := funext hw
        have hu' := funext hu
        simp only [Equiv.Perm.coe_one, id_eq] at hw' hu'
        rw [show binSum D.n (f'.1.cfg D.X D.n).bin D.w = binSum D.n (f.1.cfg D.X D.n).bin D.w from hw', hu', he]
        rfl
      · rcases h4 with h4 | ⟨-, -, hpm, h4⟩
        · exact absurd h4 he
        have hne := hgroups f hmem
        have hne' : f'.1.group ≠ [] := fun h => hne (by rw [h] at hpm; exact hpm.symm.eq_nil)
        have hl : ∀ g : List String, g ≠ [] → (bindData D.X D.n g none).2 ≠ [] := by
          intro g hg h0
          have := bindData_length D.X D.n g
          rw [h0] at this
          exact hg (List.length_eq_zero_iff.mp this.symm)
        exact h4 _ _ _ _ _ _ _ _ _ (hl _ hne) (hl _ hne') hr.nFinite hr.numbering hw hu (fun b => by rw [Equiv.symm_apply_apply]) b hb
  · rfl
  · intro it i c hc fs b
    unfold Setup.oracle
    dsimp only
    cases hi : S.features[i]? with
    | none => rw [hnone i hi]; exact congrArg fs.factors (Equiv.symm_apply_apply _ b)
    | some f =>
      obtain ⟨f', hi', -, hr⟩ := hget i f hi
      rw [hi']
      exact hE.calibrate hr.numbering hr.nFinite hr.missing (SameBins.binSum ⟨hr.bin⟩ fun _ _ => rfl) b
  · intro p p' hp
    exact hE.loss fun s hs => by rw [(hp s hs).1]

theorem columnOrder_contribution (base : SmootherKind → Smoother ℝ (List (FitRow ℝ) × List ℝ)) (Y : Table ℝ) (s : ℕ)
    (l l' : List (FeatureSpec × SmootherKind)) (h : List.Forall₂ (Reordered base) l l') (β : ℕ → Equiv.Perm ℕ) (i : ℕ)
    (hβ : ∀ j, β (i + j) = columnNumberings D l l' j) (facs : List (ℕ → ℝ)) :
    contributionSum false (fittedFeatures D.X D.n (l'.map (·.1)) (relabelFactors β i facs)) Y s
      = contributionSum false (fittedFeatures D.X D.n (l.map (·.1)) facs) Y s := by
  induction h generalizing i facs with
  | nil => cases facs <;> rfl
  | @cons f f' l l' hR _ ih =>
    cases facs with
    | nil => rfl
    | cons a facs =>
      have ih' := ih (i + 1) (fun j => by
        rw [Nat.add_right_comm, Nat.add_assoc, hβ (j + 1)]
        exact columnNumberings_cons D f f' l l' j) facs
      have hi : β i = columnNumbering D f f' := hβ 0
      obtain ⟨h1, h2, -, h4⟩ := hR
      have hp : (⟨f'.1.group, f'.1.external, (bindData D.X D.n f'.1.group none).2, fun b => a ((β i).symm b)⟩ : FittedFeature ℝ).predict
          (Y.row f'.1.group s) = (⟨f.1.group, f.1.external, (bindData D.X D.n f.1.group none).2, a⟩ : FittedFeature ℝ).predict (Y.row f.1.group s) := by
        by_cases he : f'.1.group = f.1.group
        · rw [hi, columnNumbering_same D f f' he, he, h1]
          rfl
        · rcases h4 with h4 | ⟨h2, hg, hpm, -⟩
          · exact absurd h4 he
          rw [hi, columnNumbering_other D f f' he hg hpm, bindData_reorder D.X D.n hpm, bindData_columns, h1]
          exact predict_reorder _ h2 hg hpm _ a Y s
      unfold contributionSum fittedFeatures at *
      simp only [relabelFactors, List.map_cons, List.zipWith_cons_cons, List.filter_cons]
      rw [h1] at hp ⊢
      split
      · simp only [List.map_cons, List.sum_cons]
        rw [ih', hp]
      · exact ih'

include hgroups hf in
/-- Training with reordered columns, for features that are given one by one. -/
theorem columnOrder_fit (hH : OrderFreeHierarchy S.params.hierarchical) (E : Estimator) (hE : Modelled E ∨ Optimising E) (fuel : ℕ) :
    ({ S with features := features' }.fit E D fuel = none ∧ S.fit E D fuel = none) ∨
    (∃ e, { S with features := features' }.fit E D fuel = some (.error e) ∧ S.fit E D fuel = some (.error e)) ∨
    ∃ m m', S.fit E D fuel = some (.ok m) ∧ { S with features := features' }.fit E D fuel = some (.ok m') ∧
      m'.iterations = m.iterations ∧ ∀ prior Y s, m'.predict prior Y s = m.predict prior Y s := by
  have hn : Numberless E := hE.elim (modelled_numberless E) (optimising_numberless E)
  have hor := columnOrder_oracle S features' D hgroups hf (fun _ h => nomatch h) E hn
  have hcf : CfgsRel (S.paramsFor E).hierarchical D.n (columnNumberings D S.features features') 0 (S.cfgs D)
      ({ S with features := features' }.cfgs D) :=
    columnOrder_cfgs D _ hH S.base S.features features' hf hgroups _ 0 fun j => by rw [Nat.zero_add]
  unfold Setup.fit
  dsimp only
  split
  · split
    · rcases relabel_fitMain (S.paramsFor E) (S.cfgs D) ({ S with features := features' }.cfgs D) hor hcf _
        (fun s => (priorPrediction E.link (E.scale D.n D.y D.w) (E.offset D) D.prior s).getFin) (fun _ _ => rfl) fuel with
        ⟨e1, e2⟩ | ⟨e, e1, e2⟩ | ⟨r, r', e1, e2, e3, e4, -⟩
      · left
        rw [e1, show ({ S with features := features' } : Setup _).paramsFor E = S.paramsFor E from rfl, e2]
        exact ⟨rfl, rfl⟩
      · right; left
        rw [e1, show ({ S with features := features' } : Setup _).paramsFor E = S.paramsFor E from rfl, e2]
        exact ⟨_, rfl, rfl⟩
      · right; right
        rw [e1, show ({ S with features := features' } : Setup _).paramsFor E = S.paramsFor E from rfl, e2]
        refine ⟨_, _, rfl, rfl, e4, fun prior Y s => ?_⟩
        unfold FittedModel.predict
        dsimp only
        rw [(C24_link_space _ _ _ _).1, (C24_link_space _ _ _ _).1, e3,
          columnOrder_contribution D S.base Y s S.features features' hf _ 0 fun j => by rw [Nat.zero_add]]
    · right; left; exact ⟨_, rfl, rfl⟩
  · right; left; exact ⟨_, rfl, rfl⟩

end

/-! ### The smoothers of interactions -/

theorem interaction_wrapped (O : OpenSmoothers) (s : SmootherKind) (hs : s = .weightedMeanMulti ∨ s = .binValuesMany) (un : Bool) (t : Option RegType)
    (ns ns' : List ℕ) (β : Equiv.Perm ℕ) (w w' u u' v v' : ℕ → ℝ) (hn : ns ≠ []) (hn' : ns' ≠ []) (hprod : ns'.prod = ns.prod)
    (hβ : IsNumbering β ns.prod) (hw : ∀ b, w' (β b) = w b) (hu : ∀ b, u' (β b) = u b) (hv : ∀ b, v' (β b) = v b) (b : ℕ) (hb : b < ns.prod) :
    smoothAtCentres (packageSmoothers O) (metaSmoother s un t) ns' w' u' v' (β b)
      = smoothAtCentres (packageSmoothers O) (metaSmoother s un t) ns w u v b := by
  have hb' : β b < ns'.prod := by rw [hprod]; exact (hβ.finite b).mpr hb
  rcases hs with rfl | rfl
  · rw [weightedMean_eq O _ ns (.many ns hn) un t w u v b hb, weightedMean_eq O _ ns' (.many ns' hn') un t w' u' v' (β b) hb', hprod,
      pullTarget_numberless hβ un hw hv, hw,
      regularize_numberless hβ (x := fun i => v i - pullTarget un ns.prod w v)
        (x' := fun i => v' i - pullTarget un ns.prod w v) (fun b => by rw [hv]) hu]
  · rw [meta_centre_eq (packageSmoothers O) .binValuesMany (fun _ _ _ => rfl) un t ns hn w u v b hb _ (binValuesMulti_at ns w u _ b hb),
      meta_centre_eq (packageSmoothers O) .binValuesMany (fun _ _ _ => rfl) un t ns' hn' w' u' v' (β b) hb' _
        (binValuesMulti_at ns' w' u' _ (β b) hb'), hprod, pullTarget_numberless hβ un hw hv, hw, hv]

theorem regTypeTuple_perm {l l' : List ℕ} (h : l'.Perm l) : regTypeTuple l' = regTypeTuple l := by
  have hc : ∀ t, (l'.map regTypeSingle).contains t = (l.map regTypeSingle).contains t := by
    intro t
    rw [Bool.eq_iff_iff, List.contains_iff_mem, List.contains_iff_mem]
    exact (h.map regTypeSingle).mem_iff
  unfold regTypeTuple
  dsimp only
  rw [hc, hc]

/-- The smoother of an interaction. -/
theorem interaction_smoother (c : Choice) (hc : TreatsColumnsAlike c) (g : List String) (hg : 2 ≤ g.length) (fps : List ℕ) :
    c.choose g fps = .ok (metaSmoother (if c.kind = .noSmoother then .binValuesMany else .weightedMeanMulti) c.useNormalization
      (if c.useRegressionType then some (regTypeTuple fps) else none)) := by
  have hex : c.explicitFor g = none := by
    unfold Choice.explicitFor
    rw [Option.map_eq_none_iff, List.find?_eq_none]
    intro e he hcon
    have h1 := hc.2 e he
    rw [of_decide_eq_true hcon] at h1
    omega
  obtain ⟨hk, -⟩ := hc
  unfold Choice.choose Choice.raw Choice.wrap
  rw [hex]
  cases hkind : c.kind with
  | groupBy => exact absurd hkind hk
  | weightedMean =>
    dsimp only
    rw [if_pos (show 1 < g.length by omega)]
    rfl
  | noSmoother =>
    dsimp only
    rw [if_neg (show g.length ≠ 1 by omega)]
    rfl

/-- Creating the features of groups with reordered columns. -/
theorem createFeatures_reordered (O : OpenSmoothers) (c : Choice) (hc : TreatsColumnsAlike c) (props : Option (List (String × ℕ)))
    (groups groups' : List (List String)) (h : SameGroups groups groups') :
    (∃ e, createFeatures c props groups = .error e ∧ createFeatures c props groups' = .error e) ∨
    ∃ fs fs', createFeatures c props groups = .ok fs ∧ createFeatures c props groups' = .ok fs' ∧
      List.Forall₂ (Reordered (packageSmoothers O)) fs fs' := by
  induction h with
  | nil => exact .inr ⟨[], [], rfl, rfl, .nil⟩
  | @cons g g' gs gs' hg _ ih =>
    have key : smootherForGroup c props g' = smootherForGroup c props g ∧
        ((readFeatureProperty props g' Flags.HAS_MISSING).any fun fp => Flags.isSet fp Flags.MISSING_NOT_LEARNED)
          = ((readFeatureProperty props g Flags.HAS_MISSING).any fun fp => Flags.isSet fp Flags.MISSING_NOT_LEARNED) ∧
        (g' = g ∨ 2 ≤ g.length ∧ g.Nodup ∧ g'.Perm g ∧ ∃ s un t, smootherForGroup c props g = .ok (metaSmoother s un t) ∧
          (s = .weightedMeanMulti ∨ s = .binValuesMany)) := by
      by_cases he : g' = g
      · rw [he]
        exact ⟨rfl, rfl, .inl rfl⟩
      · rcases hg with hg | ⟨hnd, hp⟩
        · exact absurd hg he
        have h2 : 2 ≤ g.length := by
          by_contra hlt
          have hl := hp.length_eq
          match g, g', hl with
          | [], [], _ => exact he rfl
          | [a], [a'], _ => exact he (by rw [List.singleton_perm_singleton.mp hp])
          | _ :: _ :: _, _, _ => exact hlt (by simp)
        have hr : (readFeatureProperty props g' Flags.HAS_MISSING).Perm (readFeatureProperty props g Flags.HAS_MISSING) := hp.map _
        refine ⟨?_, ?_, .inr ⟨h2, hnd, hp, _, _, _, interaction_smoother c hc g h2 _, ?_⟩⟩
        · unfold smootherForGroup
          rw [interaction_smoother c hc g h2, interaction_smoother c hc g' (by rw [hp.length_eq]; exact h2), regTypeTuple_perm hr]
        · rw [Bool.eq_iff_iff, List.any_eq_true, List.any_eq_true]
          simp only [hr.mem_iff]
        · split
          · exact .inr rfl
          · exact .inl rfl
    obtain ⟨k1, k2, k3⟩ := key
    unfold createFeatures
    rw [k1, k2]
    cases hs : smootherForGroup c props g with
    | error e => exact .inl ⟨e, rfl, rfl⟩
    | ok kind =>
      rcases ih with ⟨e, e1, e2⟩ | ⟨fs, fs', e1, e2, e3⟩
      · rw [e1, e2]
        exact .inl ⟨e, rfl, rfl⟩
      · rw [e1, e2]
        refine .inr ⟨_, _, rfl, rfl, .cons ⟨rfl, rfl, rfl, ?_⟩ e3⟩
        rcases k3 with k3 | ⟨h2, hnd, hp, s, un, t, hk, hs'⟩
        · exact .inl k3
        · rw [hk] at hs
          injection hs with hs
          exact .inr ⟨h2, hnd, hp, fun ns ns' β w w' u u' v v' => by
            dsimp only
            rw [← hs]
            exact interaction_wrapped O s hs' un t ns ns' β w w' u u' v v'⟩

/-- **C134.** The order in which the columns of an interaction are listed does not matter: creating the features succeeds or fails alike, and
training ends the same way, after the same number of iterations, with a model that predicts the same for every sample. -/
theorem C134_column_order (O : OpenSmoothers) (S : Setup (List (FitRow ℝ) × List ℝ)) (hbase : S.base = packageSmoothers O)
    (c : Choice) (hc : TreatsColumnsAlike c) (props : Option (List (String × ℕ))) (groups groups' : List (List String))
    (hsame : SameGroups groups groups') (hgroups : ∀ g ∈ groups, g ≠ []) (hH : OrderFreeHierarchy S.params.hierarchical) :
    (∃ e, createFeatures c props groups = .error e ∧ createFeatures c props groups' = .error e) ∨
    ∃ fs fs', createFeatures c props groups = .ok fs ∧ createFeatures c props groups' = .ok fs' ∧
      ∀ (E : Estimator), Modelled E ∨ Optimising E → ∀ (D : TrainSet) (fuel : ℕ),
        ({ S with features := fs }.fit E D fuel = none ∧ { S with features := fs' }.fit E D fuel = none) ∨
        (∃ e, { S with features := fs }.fit E D fuel = some (.error e) ∧ { S with features := fs' }.fit E D fuel = some (.error e)) ∨
        ∃ m m', { S with features := fs }.fit E D fuel = some (.ok m) ∧ { S with features := fs' }.fit E D fuel = some (.ok m') ∧
          m'.iterations = m.iterations ∧ ∀ prior Y s, m'.predict prior Y s = m.predict prior Y s := by
  rcases createFeatures_reordered O c hc props groups groups' hsame with h | ⟨fs, fs', e1, e2, e3⟩
  · exact .inl h
  · refine .inr ⟨fs, fs', e1, e2, fun E hE D fuel => ?_⟩
    have hmem := createFeatures_mem c props groups fs e1
    have := columnOrder_fit { S with features := fs } fs' D (fun f hf => hgroups _ (hmem f hf).1)
      (by rw [show ({ S with features := fs } : Setup _).base = packageSmoothers O from hbase]; exact e3) hH E hE fuel
    rcases this with ⟨h1, h2⟩ | ⟨e, h1, h2⟩ | h
    · exact .inl ⟨h2, h1⟩
    · exact .inr (.inl ⟨e, h2, h1⟩)
    · exact .inr (.inr h)

/-- Witness for C134: the interaction of "a" and "b" in both orders, after a feature of its own for "a", with the default smoothers and the
Poisson regressor. -/
example (O : OpenSmoothers) (g : ℝ → ℝ) (D : TrainSet) (fuel : ℕ) :
    ∃ fs fs', createFeatures defaultChoice (some [("a", Flags.IS_UNORDERED)]) [["a"], ["a", "b"]] = .ok fs ∧
      createFeatures defaultChoice (some [("a", Flags.IS_UNORDERED)]) [["a"], ["b", "a"]] = .ok fs' ∧
      fs.map (·.1.group) = [["a"], ["a", "b"]] ∧ fs'.map (·.1.group) = [["a"], ["b", "a"]] ∧
      (({ numSetup O with features := fs }.fit (poissonEstimator g) D fuel = none ∧
          { numSetup O with features := fs' }.fit (poissonEstimator g) D fuel = none) ∨
        (∃ e, { numSetup O with features := fs }.fit (poissonEstimator g) D fuel = some (.error e) ∧
          { numSetup O with features := fs' }.fit (poissonEstimator g) D fuel = some (.error e)) ∨
        ∃ m m', { numSetup O with features := fs }.fit (poissonEstimator g) D fuel = some (.ok m) ∧
          { numSetup O with features := fs' }.fit (poissonEstimator g) D fuel = some (.ok m') ∧
          m'.iterations = m.iterations ∧ ∀ prior Y s, m'.predict prior Y s = m.predict prior Y s) := by
  have hsame : SameGroups [["a"], ["a", "b"]] [["a"], ["b", "a"]] :=
    .cons (.inl rfl) (.cons (.inr ⟨by decide, List.Perm.swap ..⟩) .nil)
  have h1 : createFeatures defaultChoice (some [("a", Flags.IS_UNORDERED)]) [["a"], ["a", "b"]] = .ok (numSetup O).features := rfl
  have h2 : createFeatures defaultChoice (some [("a", Flags.IS_UNORDERED)]) [["a"], ["b", "a"]]
      = .ok [(⟨["a"], false, false⟩, metaSmoother .weightedMean true (some .discontinuous)),
        (⟨["b", "a"], false, false⟩, metaSmoother .weightedMeanMulti true (some .discontinuous))] := rfl
  rcases C134_column_order O (numSetup O) rfl defaultChoice ⟨by decide, by simp [defaultChoice]⟩ (some [("a", Flags.IS_UNORDERED)]) _ _ hsame
    (by simp) (fun _ h => nomatch h) with ⟨e, he, -⟩ | ⟨fs, fs', e1, e2, h⟩
  · exact absurd (h1.symm.trans he) (by simp)
  · refine ⟨fs, fs', e1, e2, ?_, ?_, h _ (.inl (.poisson g)) D fuel⟩
    · rw [h1] at e1; injection e1 with e1; rw [← e1]; rfl
    · rw [h2] at e2; injection e2 with e2; rw [← e2]; rfl

/-- The group-by choice of smoothers is rightly excluded in C134: it smooths along the last column, so the order of the columns decides which
smoother is used. -/
theorem C134_group_by :
    smootherForGroup ⟨.groupBy, false, false, []⟩ (some [("a", Flags.IS_LINEAR), ("b", Flags.IS_CONTINUOUS)]) ["a", "b"]
      = .ok (.groupByCB .orthogonalPolynomial 2) ∧
    smootherForGroup ⟨.groupBy, false, false, []⟩ (some [("a", Flags.IS_LINEAR), ("b", Flags.IS_CONTINUOUS)]) ["b", "a"]
      = .ok (.groupByCB .linearExtrapolator 2) := by
  decide +kernel

end CB
