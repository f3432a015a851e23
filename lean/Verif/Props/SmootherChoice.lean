import Verif.Model.SmootherChoice
import Verif.Lemmas.Explicit
import Verif.Props.Flags

/-!
# C53: the choice of smoothers
-/

set_option autoImplicit false
set_option linter.unusedSectionVars false

namespace CB

open Flags

/-- A property without any flag that selects a smoother. -/
def Spec.NoOrderFlag (fp : ℕ) : Prop :=
  fp.testBit 8 = false ∧ fp.testBit 9 = false ∧ fp.testBit 0 = false ∧ fp.testBit 1 = false ∧ fp.testBit 2 = false

/-- The documented precedence, in terms of the bits of the property: linear (8), seasonal (9),
monotonic (0 and 3; increasing 11, decreasing 12), continuous (0), ordered (1), otherwise unordered. -/
def Spec.defaultSmoother (useNormalization : Bool) (fp : ℕ) : SmootherKind :=
  if fp.testBit 8 then .linearExtrapolator
  else if fp.testBit 9 then .seasonal (!useNormalization)
  else if fp.testBit 0 && fp.testBit 3 then
    .isotonic (if fp.testBit 11 then some true else if fp.testBit 12 then some false else none)
  else if fp.testBit 0 then .orthogonalPolynomial
  else if fp.testBit 1 then .weightedMeanNeighbors
  else .weightedMean

theorem flagsToString_ok_iff (fp : ℕ) : (∃ s, flagsToString fp = .ok s) ↔ ∃ names, toNames fp = .ok names := by
  unfold flagsToString
  cases h : toNames fp with
  | ok names => simp [Except.map]
  | error e => simp [Except.map]

/-- The property is so unusual that reporting it fails: no flag for a smoother, no flag for missing
values, and a bit that has no name. -/
def Spec.Unreportable (fp : ℕ) : Prop :=
  Spec.NoOrderFlag fp ∧ fp.testBit 4 = false ∧ ¬ ∃ names, toNames fp = .ok names

theorem simplify_lookup (useNorm : Bool) (fp : ℕ) :
    (¬ Spec.Unreportable fp → ∃ key, simplifyFlags fp = .ok key ∧
      (defaultSmootherTypes useNorm).lookup key = some (Spec.defaultSmoother useNorm fp)) ∧
    (Spec.Unreportable fp → ∃ e, simplifyFlags fp = .error e) := by
  unfold Spec.Unreportable Spec.NoOrderFlag Spec.defaultSmoother simplifyFlags
  rw [show isSet fp IS_LINEAR = fp.testBit 8 from isSet_bit fp 8,
    show isSet fp IS_SEASONAL = fp.testBit 9 from isSet_bit fp 9,
    show isSet fp IS_CONTINUOUS = fp.testBit 0 from isSet_bit fp 0,
    show isSet fp IS_ORDERED = fp.testBit 1 from isSet_bit fp 1,
    show isSet fp IS_UNORDERED = fp.testBit 2 from isSet_bit fp 2,
    show isSet fp IS_MONOTONIC = (fp.testBit 0 && fp.testBit 3) from isSet_bits fp 0 3,
    show isSet fp INCREASING = fp.testBit 11 from isSet_bit fp 11,
    show isSet fp DECREASING = fp.testBit 12 from isSet_bit fp 12,
    show isSet fp HAS_MISSING = fp.testBit 4 from isSet_bit fp 4]
  rw [← flagsToString_ok_iff]
  generalize flagsToString fp = r
  cases h8 : fp.testBit 8
  case true => exact ⟨fun _ => ⟨_, rfl, rfl⟩, fun h => by simp at h⟩
  cases h9 : fp.testBit 9
  case true => exact ⟨fun _ => ⟨_, rfl, rfl⟩, fun h => by simp at h⟩
  cases h0 : fp.testBit 0
  case true =>
    cases h3 : fp.testBit 3
    case false => exact ⟨fun _ => ⟨_, rfl, rfl⟩, fun h => by simp at h⟩
    cases h11 : fp.testBit 11
    case true => exact ⟨fun _ => ⟨_, rfl, rfl⟩, fun h => by simp at h⟩
    cases h12 : fp.testBit 12
    case true => exact ⟨fun _ => ⟨_, rfl, rfl⟩, fun h => by simp at h⟩
    exact ⟨fun _ => ⟨_, rfl, rfl⟩, fun h => by simp at h⟩
  cases h1 : fp.testBit 1
  case true => exact ⟨fun _ => ⟨_, rfl, rfl⟩, fun h => by simp at h⟩
  cases h2 : fp.testBit 2
  case true => exact ⟨fun _ => ⟨_, rfl, rfl⟩, fun h => by simp at h⟩
  cases h4 : fp.testBit 4
  case true => exact ⟨fun _ => ⟨_, rfl, rfl⟩, fun h => by simp at h⟩
  cases r with
  | ok s => exact ⟨fun _ => ⟨_, rfl, rfl⟩, fun h => by simp at h⟩
  | error e => exact ⟨fun h => by simp at h, fun _ => ⟨_, rfl⟩⟩

/-- **C53, one column.**  Without an explicit smoother for the column, the choice follows the
documented precedence of the flags; it fails exactly for the properties that cannot be
reported. -/
theorem C53_onedim (c : Choice) (fp : ℕ) (name : String) (hex : Spec.NoExplicit c [name]) :
    (¬ Spec.Unreportable fp → c.onedim fp name = .ok (Spec.defaultSmoother c.useNormalization fp)) ∧
    (Spec.Unreportable fp → ∃ e, c.onedim fp name = .error e) := by
  obtain ⟨h1, h2⟩ := simplify_lookup c.useNormalization fp
  unfold Choice.onedim
  rw [noExplicit_iff.mpr hex]
  refine ⟨fun h => ?_, fun h => ?_⟩
  · obtain ⟨key, hk, hl⟩ := h1 h
    simp only [hk, hl]
  · obtain ⟨e, he⟩ := h2 h
    exact ⟨e, by simp only [he]⟩

/-- A property that the consistency check accepts, and the default property HAS_MISSING, can
always be reported. -/
theorem C53_consistent_reportable (fp : ℕ) (h : checkConsistency fp = .ok () ∨ fp.testBit 4 = true) :
    ¬ Spec.Unreportable fp := by
  rintro ⟨⟨-, -, h0, h1, h2⟩, h4, -⟩
  rcases h with h | h
  · rw [C14_accepts_iff] at h
    rw [h0, h1, h2] at h
    simp at h
  · rw [h4] at h; cases h

theorem onedim_total (c : Choice) (fp : ℕ) (name : String) (h : ¬ Spec.Unreportable fp) :
    ∃ s, c.onedim fp name = .ok s := by
  cases hex : c.explicitFor [name] with
  | some s => exact ⟨s, by unfold Choice.onedim; rw [hex]⟩
  | none => exact ⟨_, (C53_onedim c fp name (noExplicit_iff.mp hex)).1 h⟩

theorem wrap_total (c : Choice) (s : SmootherKind) (fps : List ℕ) (hne : fps ≠ []) :
    ∃ t, c.wrap s fps = .ok t := by
  unfold Choice.wrap
  cases c.kind with
  | groupBy =>
    dsimp only
    split_ifs
    · exact ⟨_, rfl⟩
    · rw [List.getLast?_eq_some_getLast hne]; exact ⟨_, rfl⟩
    · rw [List.getLast?_eq_some_getLast hne]; exact ⟨_, rfl⟩
  | weightedMean => exact ⟨_, rfl⟩
  | noSmoother => exact ⟨_, rfl⟩

/-- **C53, total.**  For every kind of choice, every mapping of explicit smoothers and every
feature group, a smoother is chosen if all properties can be reported; with
`C53_consistent_reportable` this covers all properties that pass the consistency check and
the default. -/
theorem C53_total (c : Choice) (group : List String) (fps : List ℕ) (hg : group ≠ [])
    (hlen : fps.length = group.length) (h : ∀ fp ∈ fps, ¬ Spec.Unreportable fp) :
    ∃ s, c.choose group fps = .ok s := by
  have hf : fps ≠ [] := by
    intro e; rw [e] at hlen; exact hg (List.length_eq_zero_iff.mp hlen.symm)
  have hraw : ∀ c : Choice, ∃ s, c.raw group fps = .ok s := by
    intro c
    unfold Choice.raw
    cases c.kind with
    | groupBy =>
      simp only [List.getLast?_eq_some_getLast hf, List.getLast?_eq_some_getLast hg]
      obtain ⟨s, hs⟩ := onedim_total c (fps.getLast hf) (group.getLast hg) (h _ (List.getLast_mem hf))
      rw [hs]
      dsimp only
      split_ifs
      · obtain ⟨t, ht⟩ := wrap_total c s fps hf
        rw [ht]; exact ⟨_, rfl⟩
      · exact ⟨_, rfl⟩
    | weightedMean =>
      dsimp only
      split_ifs
      · exact ⟨_, rfl⟩
      · cases fps with
        | nil => exact absurd rfl hf
        | cons fp fps =>
          cases group with
          | nil => exact absurd rfl hg
          | cons name group => exact onedim_total c fp name (h fp (by simp))
    | noSmoother =>
      dsimp only
      split_ifs
      · exact ⟨_, rfl⟩
      · cases fps with
        | nil => exact absurd rfl hf
        | cons fp fps =>
          cases group with
          | nil => exact absurd rfl hg
          | cons name group => exact onedim_total c fp name (h fp (by simp))
  obtain ⟨r, hr⟩ := hraw c
  unfold Choice.choose
  cases hk : c.kind with
  | noSmoother => exact wrap_total c _ fps hf
  | weightedMean =>
    dsimp only
    cases c.explicitFor group with
    | some s => exact wrap_total c s fps hf
    | none => simp only [hr]; exact wrap_total c r fps hf
  | groupBy =>
    dsimp only
    cases c.explicitFor group with
    | some s => exact wrap_total c s fps hf
    | none => simp only [hr]; exact wrap_total c r fps hf

/-- **C53, features.**  With any dictionary of properties that pass the consistency check, every
feature group gets a smoother, also columns without an entry. -/
theorem C53_features_total (c : Choice) (props : Option (List (String × ℕ))) (group : List String)
    (hg : group ≠ []) (h : ∀ d, props = some d → ∀ p ∈ d, checkConsistency p.2 = .ok ()) :
    ∃ s, smootherForGroup c props group = .ok s := by
  unfold smootherForGroup
  apply C53_total c group _ hg (by unfold readFeatureProperty; simp)
  intro fp hfp
  unfold readFeatureProperty at hfp
  rw [List.mem_map] at hfp
  obtain ⟨col, -, rfl⟩ := hfp
  apply C53_consistent_reportable
  cases props with
  | none => right; show HAS_MISSING.testBit 4 = true; decide
  | some d =>
    cases hl : d.lookup col with
    | none => right; simp only [hl, Option.getD_none]; decide
    | some v =>
      left
      simp only [hl, Option.getD_some]
      have : ∃ p ∈ d, p.2 = v := by
        clear h
        induction d with
        | nil => cases hl
        | cons a d ih =>
          obtain ⟨k, x⟩ := a
          rw [List.lookup_cons] at hl
          split at hl
          · cases hl; exact ⟨_, List.mem_cons_self, rfl⟩
          · obtain ⟨p, hp, e⟩ := ih hl
            exact ⟨p, List.mem_cons_of_mem _ hp, e⟩
      obtain ⟨p, hp, rfl⟩ := this
      exact h d rfl p hp

/-- **C53, counterexample.**  A property like INCREASING alone makes the choice fail, although
every other property without an order flag is treated as unordered. -/
theorem C53_increasing_alone_fails (c : Choice) (name : String) (hex : Spec.NoExplicit c [name]) :
    ∃ e, c.onedim INCREASING name = .error e := by
  apply (C53_onedim c INCREASING name hex).2
  refine ⟨by unfold Spec.NoOrderFlag; decide, by decide, ?_⟩
  exact C15_increasing_not_printable INCREASING (Or.inl (by decide))

/-- **C53, explicit smoothers.**  A smoother given for exactly this feature group is used, whatever
the properties are; it is wrapped like a chosen one. -/
theorem C53_explicit_overrides (c : Choice) (group : List String) (fps : List ℕ) (s : SmootherKind)
    (hk : c.kind ≠ .noSmoother) (hex : Spec.IsExplicit c group s) :
    c.choose group fps = c.wrap s fps := by
  unfold Choice.choose
  cases hkk : c.kind with
  | noSmoother => exact absurd hkk hk
  | weightedMean => simp only [isExplicit_some hex]
  | groupBy => simp only [isExplicit_some hex]

/-- **C53, explicit smoothers of a single column** are also used inside a group-by smoother of a
group that ends with this column. -/
theorem C53_explicit_innermost (c : Choice) (hk : c.kind = .groupBy) (init : List String) (name : String)
    (hi : init ≠ []) (fps : List ℕ) (fp : ℕ) (s : SmootherKind) (hex : Spec.IsExplicit c [name] s)
    (hng : s.isGroupByCB = false) (hg : Spec.NoExplicit c (init ++ [name])) :
    c.choose (init ++ [name]) (fps ++ [fp]) = .ok (.groupByCB
      (metaSmoother s c.useNormalization (if c.useRegressionType then some (regTypeSingle fp) else none))
      (init.length + 1)) := by
  have hl : 1 < (init ++ [name]).length := by
    cases init with
    | nil => exact absurd rfl hi
    | cons a l => simp
  have hone : c.onedim fp name = .ok s := by unfold Choice.onedim; rw [isExplicit_some hex]
  have hw : c.wrap s (fps ++ [fp]) = .ok (metaSmoother s c.useNormalization
      (if c.useRegressionType then some (regTypeSingle fp) else none)) := by
    unfold Choice.wrap
    simp only [hk, hng, List.getLast?_append, List.getLast?_singleton, Option.some_or]
    rfl
  have hraw : c.raw (init ++ [name]) (fps ++ [fp]) = .ok (.groupByCB
      (metaSmoother s c.useNormalization (if c.useRegressionType then some (regTypeSingle fp) else none))
      (init.length + 1)) := by
    unfold Choice.raw
    simp only [hk, List.getLast?_append, List.getLast?_singleton, Option.some_or, hone, hw]
    rw [if_pos hl]
    simp
  unfold Choice.choose
  simp only [hk, noExplicit_iff.mpr hg, hraw]
  unfold Choice.wrap
  simp only [hk, SmootherKind.isGroupByCB, if_true]

/-- **C53, group-by.**  Only the property of the last column matters. -/
theorem C53_groupBy_last_property (c : Choice) (hk : c.kind = .groupBy) (group : List String)
    (fps fps' : List ℕ) (h : fps.getLast? = fps'.getLast?) : c.choose group fps = c.choose group fps' := by
  have hw : ∀ s, c.wrap s fps = c.wrap s fps' := by
    intro s; unfold Choice.wrap; simp only [hk, h]
  have hr : c.raw group fps = c.raw group fps' := by
    unfold Choice.raw; simp only [hk, h, hw]
  unfold Choice.choose
  simp only [hk, hr, hw]

/-! ### Regression types -/

/-- **C53.**  A group is extrapolated exactly if all its columns are linear, and interpolated
exactly if all columns are linear, seasonal or continuous, but not all are linear. -/
theorem C53_reg_type (fps : List ℕ) :
    (regTypeTuple fps = .extrapolating ↔ ∀ fp ∈ fps, fp.testBit 8 = true) ∧
    (regTypeTuple fps = .discontinuous ↔
      ∃ fp ∈ fps, fp.testBit 8 = false ∧ fp.testBit 9 = false ∧ fp.testBit 0 = false) := by
  have hs : ∀ fp, regTypeSingle fp = if fp.testBit 8 then .extrapolating
      else if fp.testBit 9 || fp.testBit 0 then .interpolating else .discontinuous := by
    intro fp
    unfold regTypeSingle
    rw [show isSet fp IS_LINEAR = fp.testBit 8 from isSet_bit fp 8,
      show isSet fp IS_SEASONAL = fp.testBit 9 from isSet_bit fp 9,
      show isSet fp IS_CONTINUOUS = fp.testBit 0 from isSet_bit fp 0]
  have hE : ∀ fp, regTypeSingle fp = .extrapolating ↔ fp.testBit 8 = true := by
    intro fp; rw [hs]
    cases fp.testBit 8 <;> cases fp.testBit 9 <;> cases fp.testBit 0 <;> simp
  have hD : ∀ fp, regTypeSingle fp = .discontinuous ↔
      (fp.testBit 8 = false ∧ fp.testBit 9 = false ∧ fp.testBit 0 = false) := by
    intro fp; rw [hs]
    cases fp.testBit 8 <;> cases fp.testBit 9 <;> cases fp.testBit 0 <;> simp
  have hmem : ∀ t, (fps.map regTypeSingle).contains t = true ↔ ∃ fp ∈ fps, regTypeSingle fp = t := by
    intro t
    rw [List.contains_iff_mem, List.mem_map]
  have hdisc : (fps.map regTypeSingle).contains .discontinuous = true ↔
      ∃ fp ∈ fps, fp.testBit 8 = false ∧ fp.testBit 9 = false ∧ fp.testBit 0 = false := by
    rw [hmem]
    simp only [hD]
  unfold regTypeTuple
  dsimp only
  constructor
  · split_ifs with h1 h2
    · rw [hmem] at h1
      obtain ⟨fp, hfp, h⟩ := h1
      rw [false_iff]
      intro hall
      have := hall fp hfp
      rw [← hE, h] at this
      cases this
    · rw [hmem] at h2
      obtain ⟨fp, hfp, h⟩ := h2
      rw [false_iff]
      intro hall
      have := hall fp hfp
      rw [← hE, h] at this
      cases this
    · simp only [true_iff]
      intro fp hfp
      rw [← hE]
      rw [hmem] at h1 h2
      cases h : regTypeSingle fp with
      | extrapolating => rfl
      | interpolating => exact absurd ⟨fp, hfp, h⟩ h2
      | discontinuous => exact absurd ⟨fp, hfp, h⟩ h1
  · rw [← hdisc]
    by_cases h1 : (fps.map regTypeSingle).contains .discontinuous = true
    · rw [if_pos h1]
      exact ⟨fun _ => h1, fun _ => rfl⟩
    · rw [if_neg h1]
      refine ⟨fun h => ?_, fun h => absurd h h1⟩
      by_cases h2 : (fps.map regTypeSingle).contains .interpolating = true
      · rw [if_pos h2] at h; cases h
      · rw [if_neg h2] at h; cases h

/-! ### Witnesses -/

example : (Choice.choose ⟨.weightedMean, true, true, []⟩ ["a"] [IS_CONTINUOUS]).toOption
    = some (.normalizationRegressionType .orthogonalPolynomial .interpolating) := by decide +kernel

example : (Choice.choose ⟨.groupBy, true, false, []⟩ ["a", "b"] [IS_UNORDERED, IS_LINEAR]).toOption
    = some (.groupByCB (.regressionType .linearExtrapolator .extrapolating) 2) := by decide +kernel

example : (Choice.choose ⟨.weightedMean, false, false, [(["a"], .explicit "mine" false)]⟩ ["a"] [INCREASING]).toOption
    = some (.explicit "mine" false) := by decide +kernel

example : ¬ Spec.Unreportable IS_ORDERED := C53_consistent_reportable _ (Or.inl (by decide))

/-- **C53, wrapping.**  A smoother is wrapped for normalisation exactly if this is asked for, and for the regression type exactly
if that is asked for; the regression type is that of all columns of the group. -/
theorem C53_wrapping (c : Choice) (hk : c.kind ≠ .groupBy) (s : SmootherKind) (fps : List ℕ) :
    (c.useNormalization = false → c.useRegressionType = false → c.wrap s fps = .ok s) ∧
    (c.useNormalization = true → c.useRegressionType = false → c.wrap s fps = .ok (.normalization s)) ∧
    (c.useRegressionType = true → ∃ t : RegType,
      (t = .extrapolating ↔ ∀ fp ∈ fps, fp.testBit 8 = true) ∧
      (t = .discontinuous ↔ ∃ fp ∈ fps, fp.testBit 8 = false ∧ fp.testBit 9 = false ∧ fp.testBit 0 = false) ∧
      (c.useNormalization = false → c.wrap s fps = .ok (.regressionType s t)) ∧
      (c.useNormalization = true → c.wrap s fps = .ok (.normalizationRegressionType s t))) := by
  have hw : c.wrap s fps = .ok (metaSmoother s c.useNormalization
      (if c.useRegressionType then some (regTypeTuple fps) else none)) := by
    unfold Choice.wrap
    cases h : c.kind with
    | groupBy => exact absurd h hk
    | weightedMean => rfl
    | noSmoother => rfl
  refine ⟨?_, ?_, ?_⟩
  · intro h1 h2; rw [hw, h1, h2]; rfl
  · intro h1 h2; rw [hw, h1, h2]; rfl
  · intro h
    refine ⟨regTypeTuple fps, (C53_reg_type fps).1, (C53_reg_type fps).2, ?_, ?_⟩
    · intro h1; rw [hw, h1, h]; rfl
    · intro h1; rw [hw, h1, h]; rfl

/-- Witness: default choice, normalised, two columns of which one is linear and one ordered. -/
example : (Choice.wrap ⟨.weightedMean, true, true, []⟩ .weightedMean [IS_LINEAR, IS_ORDERED])
    = .ok (.normalizationRegressionType .weightedMean .discontinuous) := by decide

end CB
