import Verif.Lemmas.RelabelEstimators
import Verif.Props.Predict
import Verif.Props.WholeFitExample
import Verif.Props.SmootherCentres

/-!
# C103: the numbering of categories does not matter

A categorical column enters the estimator as numbers `0, …, m - 1` that an encoder hands out. Training on the same data with
other numbers for the same categories gives the same predictions, if the features made of that column are smoothed by weighted
means.
-/

set_option autoImplicit false
set_option linter.unusedSectionVars false

namespace CB
open Finset Spec

section
variable (O : OpenSmoothers) (S : Setup (List (FitRow ℝ) × List ℝ)) (hbase : S.base = packageSmoothers O)
  (hgroups : ∀ f ∈ S.features, f.1.group ≠ []) (D : TrainSet) (X' : Table ℝ) (π : String → Equiv.Perm ℕ) (m : String → ℕ)
  (hπ : ∀ c k, π c k < m c ↔ k < m c) (hrec : Recoded π D.X X') (hf : ∀ f ∈ S.features, Unordered π m D f)

include hπ hf in
theorem unordered_categories (f : FeatureSpec × SmootherKind) (h : f ∈ S.features) :
    ∀ c ∈ f.1.group, π c ≠ 1 → HoldsCategories D.X D.n f.1.group c (m c) := by
  rcases hf f h with h1 | ⟨h1, -⟩
  · exact fun c hc hne => absurd (h1 c hc) hne
  · exact h1

include hπ hf in
theorem unordered_keeps (f : FeatureSpec × SmootherKind) (h : f ∈ S.features) :
    KeepsRanges π f.1.group (bindData D.X D.n f.1.group none).2 :=
  recoded_keeps D.n f.1.group m hπ (unordered_categories S D π m hπ hf f h)

include hπ hrec hf in
theorem unordered_bins (f : FeatureSpec × SmootherKind) (h : f ∈ S.features) :
    (bindData X' D.n f.1.group none).2 = (bindData D.X D.n f.1.group none).2 :=
  recoded_bins hrec D.n f.1.group m hπ (unordered_categories S D π m hπ hf f h)

open Classical in
/-- The numbering of the bins of one feature. -/
noncomputable def featureNumbering (π : String → Equiv.Perm ℕ) (D : TrainSet) (f : FeatureSpec × SmootherKind) : Equiv.Perm ℕ :=
  if h : KeepsRanges π f.1.group (bindData D.X D.n f.1.group none).2 then binPerm π f.1.group _ h else 1

/-- The numberings of the bins of the features. -/
noncomputable def numberings (l : List (FeatureSpec × SmootherKind)) (π : String → Equiv.Perm ℕ) (D : TrainSet) (i : ℕ) :
    Equiv.Perm ℕ :=
  match l[i]? with
  | some f => featureNumbering π D f
  | none => 1

include hgroups hπ hrec hf in
theorem unordered_cfg (H : Option (List (List String))) (f : FeatureSpec × SmootherKind) (h : f ∈ S.features) :
    CfgRel H D.n (featureNumbering π D f) (f.1.cfg D.X D.n) (f.1.cfg X' D.n) := by
  have hk := unordered_keeps S D π m hπ hf f h
  have hb := unordered_bins S D X' π m hπ hrec hf f h
  have e : featureNumbering π D f = binPerm π f.1.group _ hk := dif_pos hk
  rw [e]
  exact
    { columns := rfl
      hierarchical := fun _ _ => rfl
      external := rfl
      nFinite := by show (bindData X' D.n f.1.group none).2.prod = _; rw [hb]; rfl
      missing := rfl
      numbering := binPerm_numbering π f.1.group _ hk
      bin := fun s hs => recoded_code hrec D.n f.1.group (hgroups f h) hb hk s hs }

theorem numberings_cfgs (H : Option (List (List String))) (X : Table ℝ) (n : ℕ) (β : ℕ → Equiv.Perm ℕ) (l : List (FeatureSpec × SmootherKind)) (i : ℕ)
    (h : ∀ j f, l[j]? = some f → CfgRel H n (β (i + j)) (f.1.cfg X n) (f.1.cfg X' n)) :
    CfgsRel H n β i (l.map fun f => f.1.cfg X n) (l.map fun f => f.1.cfg X' n) := by
  induction l generalizing i with
  | nil => exact trivial
  | cons f l ih =>
    refine ⟨h 0 f rfl, ih (i + 1) fun j g hg => ?_⟩
    have := h (j + 1) g hg
    rwa [← Nat.add_assoc, Nat.add_right_comm] at this

include hbase hgroups hπ hrec hf in
theorem unordered_oracle (E : Estimator) (hE : Numberless E) :
    OracleRel D.n (numberings S.features π D) (S.cfgs D) (S.oracle E D) (S.oracle E { D with X := X' }) := by
  have hcfg : ∀ i f, S.features[i]? = some f → CfgRel none D.n (numberings S.features π D i) (f.1.cfg D.X D.n) (f.1.cfg X' D.n) := by
    intro i f hi
    have e : numberings S.features π D i = featureNumbering π D f := by unfold numberings; rw [hi]
    rw [e]
    exact unordered_cfg S hgroups D X' π m hπ hrec hf _ f (List.mem_of_getElem? hi)
  constructor
  · intro it i p p' fs b hp
    unfold Setup.oracle
    dsimp only
    cases hi : S.features[i]? with
    | none => rfl
    | some f =>
      dsimp only
      rw [hE.parameters ⟨(hcfg i f hi).bin⟩ fun s hs => (hp s hs).1]
  · intro it i c hc p p' fs u b hp hb
    unfold Setup.cfgs at hc
    rw [List.getElem?_map] at hc
    unfold Setup.oracle
    dsimp only
    cases hi : S.features[i]? with
    | none => rfl
    | some f =>
      rw [hi] at hc
      simp only [Option.map_some, Option.some.injEq] at hc
      subst hc
      dsimp only
      have hr := hcfg i f hi
      have hmem := List.mem_of_getElem? hi
      rw [unordered_bins S D X' π m hπ hrec hf f hmem]
      have hw : ∀ b, binSum D.n (f.1.cfg X' D.n).bin D.w (numberings S.features π D i b) = binSum D.n (f.1.cfg D.X D.n).bin D.w b :=
        fun b => SameBins.binSum ⟨hr.bin⟩ (fun _ _ => rfl) b
      have hu : ∀ b, (E.parameters it D.n (f.1.cfg X' D.n).bin D.y D.w p'.factors (numberings S.features π D i b)).2
          = (E.parameters it D.n (f.1.cfg D.X D.n).bin D.y D.w p.factors b).2 :=
        fun b => by rw [hE.parameters ⟨hr.bin⟩ fun s hs => (hp s hs).1]
      rcases hf f hmem with h1 | ⟨-, s, un, t, ht, hs⟩
      · have e1 : numberings S.features π D i = 1 := by
          unfold numberings featureNumbering
          rw [hi]
          dsimp only
          split
          · exact binPerm_one _ _ _ _ h1
          · rfl
        rw [e1] at hw hu ⊢
        have hw' := funext hw
        have hu' := funext hu
        simp only [Equiv.Perm.coe_one, id_eq] at hw' hu'
        rw [show binSum D.n (f.1.cfg X' D.n).bin D.w = binSum D.n (f.1.cfg D.X D.n).bin D.w from hw', hu']
        rfl
      · rw [hbase, ht]
        refine weightedMean_numberless O s _ ?_ un t hr.numbering hw hu (fun b => by rw [Equiv.symm_apply_apply]) b hb
        have hl := bindData_length D.X D.n f.1.group
        rcases hs with ⟨rfl, h1⟩ | rfl
        · obtain ⟨k, hk⟩ := List.length_eq_one_iff.mp (hl.trans h1)
          rw [hk]
          exact .one k
        · refine .many _ fun h0 => hgroups f hmem ?_
          rw [h0] at hl
          exact List.length_eq_zero_iff.mp hl.symm
  · rfl
  · intro it i c hc fs b
    unfold Setup.oracle
    dsimp only
    cases hi : S.features[i]? with
    | none => exact congrArg fs.factors (Equiv.symm_apply_apply _ b)
    | some f =>
      have hr := hcfg i f hi
      exact hE.calibrate hr.numbering hr.nFinite hr.missing (SameBins.binSum ⟨hr.bin⟩ fun _ _ => rfl) b
  · intro p p' hp
    exact hE.loss fun s hs => by rw [(hp s hs).1]

include hgroups hπ hrec hf in
theorem unordered_contribution {Y Y' : Table ℝ} (hY : Recoded π Y Y') (facs : List (ℕ → ℝ)) (s : ℕ) :
    contributionSum false (fittedFeatures X' D.n (S.features.map (·.1)) (relabelFactors (numberings S.features π D) 0 facs)) Y' s
      = contributionSum false (fittedFeatures D.X D.n (S.features.map (·.1)) facs) Y s := by
  have key : ∀ (l : List (FeatureSpec × SmootherKind)) (β : ℕ → Equiv.Perm ℕ) (i : ℕ) (facs : List (ℕ → ℝ)),
      (∀ f ∈ l, f ∈ S.features) → (∀ j f, l[j]? = some f → β (i + j) = featureNumbering π D f) →
      contributionSum false (fittedFeatures X' D.n (l.map (·.1)) (relabelFactors β i facs)) Y' s
        = contributionSum false (fittedFeatures D.X D.n (l.map (·.1)) facs) Y s := by
    intro l
    induction l with
    | nil => intro β i facs _ _; cases facs <;> rfl
    | cons f l ih =>
      intro β i facs hl hβ
      cases facs with
      | nil => rfl
      | cons g facs =>
        have ih' := ih β (i + 1) facs (fun f hf => hl f (List.mem_cons_of_mem _ hf)) fun j f' hj => by
          have := hβ (j + 1) f' hj
          rwa [← Nat.add_assoc, Nat.add_right_comm] at this
        have hm := hl f (List.mem_cons_self ..)
        have hk := unordered_keeps S D π m hπ hf f hm
        have e : β i = binPerm π f.1.group _ hk := (hβ 0 f rfl).trans (dif_pos hk)
        have hp := recoded_predict hY f.1.group (hgroups f hm) f.1.external _ hk g s
        unfold contributionSum fittedFeatures at *
        simp only [relabelFactors, List.map_cons, List.zipWith_cons_cons, List.filter_cons]
        rw [unordered_bins S D X' π m hπ hrec hf f hm, e]
        split
        · simp only [List.map_cons, List.sum_cons]
          rw [ih', hp]
        · exact ih'
  exact key S.features _ 0 facs (fun _ h => h) fun j f hj => by
    rw [Nat.zero_add]; unfold numberings; rw [hj]

include hbase hgroups hπ hrec hf in
/-- **C103.** Training on data whose categories are numbered differently ends the same way: it needs the same number of
iterations and gives a model that predicts the same for every sample, encoded with the same new numbers. -/
theorem C103_numbering (E : Estimator) (hE : Modelled E ∨ Optimising E) (fuel : ℕ) :
    (S.fit E D fuel = none ∧ S.fit E { D with X := X' } fuel = none) ∨
    (∃ e, S.fit E D fuel = some (.error e) ∧ S.fit E { D with X := X' } fuel = some (.error e)) ∨
    ∃ m₁ m₂, S.fit E D fuel = some (.ok m₁) ∧ S.fit E { D with X := X' } fuel = some (.ok m₂) ∧
      m₂.iterations = m₁.iterations ∧
      ∀ prior Y Y', Recoded π Y Y' → ∀ s, m₂.predict prior Y' s = m₁.predict prior Y s := by
  have hn : Numberless E := hE.elim (modelled_numberless E) (optimising_numberless E)
  have hor := unordered_oracle O S hbase hgroups D X' π m hπ hrec hf E hn
  have hcf : CfgsRel (S.paramsFor E).hierarchical D.n (numberings S.features π D) 0 (S.cfgs D) (S.cfgs { D with X := X' }) := by
    refine numberings_cfgs X' _ D.X D.n _ S.features 0 fun j f hj => ?_
    have e : numberings S.features π D (0 + j) = featureNumbering π D f := by
      rw [Nat.zero_add]; unfold numberings; rw [hj]
    rw [e]
    exact unordered_cfg S hgroups D X' π m hπ hrec hf _ f (List.mem_of_getElem? hj)
  have hoff : E.offset { D with X := X' } = E.offset D := rfl
  unfold Setup.fit
  dsimp only
  rw [hoff]
  split
  · split
    · rcases relabel_fitMain (S.paramsFor E) (S.cfgs D) (S.cfgs { D with X := X' }) hor hcf _
        (fun s => (priorPrediction E.link (E.scale D.n D.y D.w) (E.offset D) D.prior s).getFin) (fun _ _ => rfl) fuel with
        ⟨e1, e2⟩ | ⟨e, e1, e2⟩ | ⟨r, r', e1, e2, e3, e4, -⟩
      · left; rw [e1, e2]; exact ⟨rfl, rfl⟩
      · right; left; rw [e1, e2]; exact ⟨_, rfl, rfl⟩
      · right; right
        rw [e1, e2]
        refine ⟨_, _, rfl, rfl, e4, fun prior Y Y' hY s => ?_⟩
        unfold FittedModel.predict
        dsimp only
        rw [(C24_link_space _ _ _ _).1, (C24_link_space _ _ _ _).1, e3,
          unordered_contribution S hgroups D X' π m hπ hrec hf hY]
    · right; left; exact ⟨_, rfl, rfl⟩
  · right; left; exact ⟨_, rfl, rfl⟩

end

/-- The smoother of a feature made of one unordered column or of several columns. -/
theorem declared_smoother (props : List (String × ℕ)) (group : List String) (fp : ℕ)
    (h : 2 ≤ group.length ∨ ∃ c, group = [c] ∧ props.lookup c = some fp ∧ simplifyFlags fp = .ok Flags.IS_UNORDERED)
    (kind : SmootherKind) (hk : smootherForGroup defaultChoice (some props) group = .ok kind) :
    ∃ s useNorm t, kind = metaSmoother s useNorm t ∧ (s = .weightedMean ∧ group.length = 1 ∨ s = .weightedMeanMulti) := by
  rcases h with h | ⟨c, rfl, h1, h2⟩
  · have hraw : ∀ fps, defaultChoice.raw group fps = .ok .weightedMeanMulti := by
      intro fps
      unfold Choice.raw defaultChoice
      dsimp only
      rw [if_pos (by omega)]
    unfold smootherForGroup Choice.choose at hk
    rw [hraw] at hk
    injection hk with hk
    exact ⟨_, _, _, hk.symm, .inr rfl⟩
  · have hraw : defaultChoice.raw [c] [fp] = .ok .weightedMean := by
      unfold Choice.raw Choice.onedim
      simp only [defaultChoice, List.length_singleton, lt_irrefl, if_false, List.head?_cons, Choice.explicitFor, List.find?_nil,
        Option.map_none, h2]
      rfl
    have hread : readFeatureProperty (some props) [c] Flags.HAS_MISSING = [fp] := by
      simp [readFeatureProperty, h1]
    unfold smootherForGroup Choice.choose at hk
    rw [hread, hraw] at hk
    injection hk with hk
    exact ⟨_, _, _, hk.symm, .inl ⟨rfl, rfl⟩⟩

/-- **C103 for declared columns.** With the default smoothers, the numbers of the categories of a column do not matter if the
column is declared unordered, or is used only together with other columns. -/
theorem C103_declared (O : OpenSmoothers) (S : Setup (List (FitRow ℝ) × List ℝ)) (hbase : S.base = packageSmoothers O)
    (props : List (String × ℕ)) (groups : List (List String))
    (hcreate : createFeatures defaultChoice (some props) groups = .ok S.features) (hgroups : ∀ g ∈ groups, g ≠ [])
    (D : TrainSet) (X' : Table ℝ) (π : String → Equiv.Perm ℕ) (m : String → ℕ) (hπ : ∀ c k, π c k < m c ↔ k < m c)
    (hrec : Recoded π D.X X')
    (hcat : ∀ g ∈ groups, ∀ c ∈ g, π c ≠ 1 → HoldsCategories D.X D.n g c (m c) ∧
      (g = [c] → ∃ fp, props.lookup c = some fp ∧ simplifyFlags fp = .ok Flags.IS_UNORDERED))
    (E : Estimator) (hE : Modelled E ∨ Optimising E) (fuel : ℕ) :
    (S.fit E D fuel = none ∧ S.fit E { D with X := X' } fuel = none) ∨
    (∃ e, S.fit E D fuel = some (.error e) ∧ S.fit E { D with X := X' } fuel = some (.error e)) ∨
    ∃ m₁ m₂, S.fit E D fuel = some (.ok m₁) ∧ S.fit E { D with X := X' } fuel = some (.ok m₂) ∧
      m₂.iterations = m₁.iterations ∧
      ∀ prior Y Y', Recoded π Y Y' → ∀ s, m₂.predict prior Y' s = m₁.predict prior Y s := by
  have hmem := createFeatures_mem defaultChoice (some props) groups S.features hcreate
  refine C103_numbering O S hbase (fun f hf => hgroups _ (hmem f hf).1) D X' π m hπ hrec (fun f hf => ?_) E hE fuel
  obtain ⟨hg, -, hk⟩ := hmem f hf
  by_cases h1 : ∀ c ∈ f.1.group, π c = 1
  · exact .inl h1
  · refine .inr ⟨fun c hc hne => (hcat _ hg c hc hne).1, ?_⟩
    push Not at h1
    obtain ⟨c, hc, hne⟩ := h1
    by_cases h2 : 2 ≤ f.1.group.length
    · exact declared_smoother props f.1.group 0 (.inl h2) f.2 hk
    · have hl : f.1.group.length = 1 := by
        have := List.length_pos_of_mem hc; omega
      obtain ⟨d, hd⟩ := List.length_eq_one_iff.mp hl
      have hcd : c = d := by rw [hd] at hc; exact List.mem_singleton.mp hc
      subst hcd
      obtain ⟨fp, h3, h4⟩ := (hcat _ hg c hc hne).2 hd
      exact declared_smoother props f.1.group fp (.inr ⟨c, hd, h3, h4⟩) f.2 hk

/-- Columns "a" (unordered) and the pair of "a" and "b". -/
noncomputable def numSetup (O : OpenSmoothers) : Setup (List (FitRow ℝ) × List ℝ) where
  features := [(⟨["a"], false, false⟩, metaSmoother .weightedMean true (some .discontinuous)),
    (⟨["a", "b"], false, false⟩, metaSmoother .weightedMeanMulti true (some .discontinuous))]
  base := packageSmoothers O
  learnRate _ := 1
  params := exSetup.params

/-- Categories 0, 1, 2 in the column "a"; the column "b" holds the same numbers. -/
noncomputable def numData : TrainSet := ⟨fun s _ => .fin (s : ℝ), 3, fun s => s, fun _ => 1, none⟩

/-- Other numbers for the categories of "a": 0 and 2 are exchanged. -/
def numPerm (c : String) : Equiv.Perm ℕ := if c = "a" then Equiv.swap 0 2 else 1

noncomputable def numTable : Table ℝ := fun s c => .fin (numPerm c s : ℕ)

theorem numPerm_range (c : String) (k : ℕ) : numPerm c k < 3 ↔ k < 3 := by
  unfold numPerm
  split
  · rw [Equiv.swap_apply_def]
    split_ifs <;> omega
  · rfl

/-- Witness for C103: three categories in other order, alone and with a second column, for the Poisson regressor. The numbers
do change. -/
example (O : OpenSmoothers) (g : ℝ → ℝ) (fuel : ℕ) : numTable 0 "a" ≠ numData.X 0 "a" ∧
    (((numSetup O).fit (poissonEstimator g) numData fuel = none ∧
        (numSetup O).fit (poissonEstimator g) { numData with X := numTable } fuel = none) ∨
      (∃ e, (numSetup O).fit (poissonEstimator g) numData fuel = some (.error e) ∧
        (numSetup O).fit (poissonEstimator g) { numData with X := numTable } fuel = some (.error e)) ∨
      ∃ m₁ m₂, (numSetup O).fit (poissonEstimator g) numData fuel = some (.ok m₁) ∧
        (numSetup O).fit (poissonEstimator g) { numData with X := numTable } fuel = some (.ok m₂) ∧
        m₂.iterations = m₁.iterations ∧
        ∀ prior Y Y', Recoded numPerm Y Y' → ∀ s, m₂.predict prior Y' s = m₁.predict prior Y s) := by
  refine ⟨by simp [numTable, numData, numPerm], ?_⟩
  refine C103_declared O (numSetup O) rfl [("a", Flags.IS_UNORDERED)] [["a"], ["a", "b"]] rfl (by simp) numData numTable numPerm
    (fun _ => 3) numPerm_range (fun s c => .inl ⟨s, rfl, rfl⟩) ?_ _ (.inl (.poisson g)) fuel
  intro grp _ c _ hne
  refine ⟨⟨fun s hs x hx => ?_, fun k hk => ⟨k, hk, rfl, fun d _ => ⟨k, Nat.cast_nonneg _, rfl⟩⟩⟩, fun _ => ?_⟩
  · have : (s : ℝ) = x := by simpa [numData] using hx
    rw [← this]
    exact_mod_cast hs
  · have hc : c = "a" := by
      by_contra h
      exact hne (if_neg h)
    exact ⟨Flags.IS_UNORDERED, by rw [hc]; rfl, by decide⟩

end CB
