import Verif.Spec.SharedArrays
import Mathlib.Tactic.Linarith
import Mathlib.Tactic.NormNum

/-!
# C168: calls leave the table of the caller as it was
-/

set_option autoImplicit false
set_option linter.unusedSectionVars false

namespace CB
open Spec

section
variable {B : List (List (Flt ℝ))} {m : SharedArrays} {t : SharedTable}

theorem alloc_prefix (h : B <+: m.buffers) (xs : List (Flt ℝ)) : B <+: (m.alloc xs).1.buffers ∧ B.length ≤ (m.alloc xs).2 :=
  ⟨h.trans (List.prefix_append _ _), h.length_le⟩

theorem overwrite_prefix (h : B <+: m.buffers) (a : ℕ) (ha : B.length ≤ a) (f : List (Flt ℝ) → List (Flt ℝ)) :
    B <+: (m.overwrite a f).buffers := by
  obtain ⟨r, hr⟩ := h
  unfold SharedArrays.overwrite
  dsimp only
  rw [← hr, List.set_append_right _ _ ha]
  exact List.prefix_append _ _

theorem read_alloc (m : SharedArrays) (xs : List (Flt ℝ)) : (m.alloc xs).1.read (m.alloc xs).2 = xs := by
  simp [SharedArrays.read, SharedArrays.alloc]

theorem read_overwrite (m : SharedArrays) (a : ℕ) (h : a < m.buffers.length) (f : List (Flt ℝ) → List (Flt ℝ)) :
    (m.overwrite a f).read a = f (m.read a) := by
  unfold SharedArrays.overwrite SharedArrays.read
  simp [List.getElem?_set, h]

theorem read_prefix (h : B <+: m.buffers) (a : ℕ) (ha : a < B.length) : m.read a = B.getD a [] := by
  obtain ⟨r, hr⟩ := h
  unfold SharedArrays.read
  rw [← hr, List.getD_append _ _ _ _ ha]

theorem alloc_lt (m : SharedArrays) (xs : List (Flt ℝ)) : (m.alloc xs).2 < (m.alloc xs).1.buffers.length := by
  simp [SharedArrays.alloc]

theorem overwrite_length (m : SharedArrays) (a : ℕ) (f : List (Flt ℝ) → List (Flt ℝ)) :
    (m.overwrite a f).buffers.length = m.buffers.length := by
  simp [SharedArrays.overwrite]

theorem weights_prefix (h : B <+: m.buffers) (t : SharedTable) : B <+: (m.initWeights t).1.buffers := by
  unfold SharedArrays.initWeights
  cases t.weight with
  | none => exact (alloc_prefix h _).1
  | some c => exact h

theorem external_prefix (h : B <+: m.buffers) (t : SharedTable) (g : SharedFunctions) (w : Option ℕ) :
    B <+: (m.initExternal t g w).1.buffers := by
  unfold SharedArrays.initExternal
  dsimp only
  have h1 := alloc_prefix h (g.minusOne (m.read t.price))
  have h2 := overwrite_prefix h1.1 _ h1.2 g.repair
  cases w with
  | none => exact h2
  | some w =>
    have h3 := alloc_prefix h2 (List.replicate t.rows (Flt.fin 1))
    exact overwrite_prefix h3.1 _ h3.2 _

theorem base_prefix (h : B <+: m.buffers) (t : SharedTable) (g : SharedFunctions) : B <+: (m.basePrior t g).1.buffers := by
  unfold SharedArrays.basePrior
  cases t.prior with
  | none => exact (alloc_prefix h _).1
  | some c =>
    dsimp only
    have h1 := alloc_prefix h (g.link (m.read c))
    have h2 := alloc_prefix h1.1 (g.shift ((m.alloc (g.link (m.read c))).1.read (m.alloc (g.link (m.read c))).2))
    exact overwrite_prefix h2.1 _ h2.2 _

theorem run_prefix (h : B <+: m.buffers) (g : SharedFunctions) (a : ℕ) : B <+: (m.runPrediction g a).1.buffers := by
  unfold SharedArrays.runPrediction
  dsimp only
  have h1 := alloc_prefix h (m.read a)
  exact overwrite_prefix h1.1 _ h1.2 _

/-- What the prior predictions are made of. -/
theorem base_value (t : SharedTable) (g : SharedFunctions) :
    (m.basePrior t g).1.read (m.basePrior t g).2 =
      (match t.prior with
        | none => List.replicate t.rows g.neutral
        | some c => g.repair (g.shift (g.link (m.read c)))) ∧
    (m.basePrior t g).2 < (m.basePrior t g).1.buffers.length := by
  unfold SharedArrays.basePrior
  cases t.prior with
  | none => exact ⟨read_alloc _ _, alloc_lt _ _⟩
  | some c =>
    dsimp only
    refine ⟨?_, ?_⟩
    · rw [read_overwrite _ _ (alloc_lt _ _), read_alloc, read_alloc]
    · rw [overwrite_length]
      exact alloc_lt _ _

/-- The dispersion model clips the column of the table. -/
theorem dispersion_prefix (hclip : ∀ c, t.prior = some c → c < B.length) (h : B <+: m.buffers) (g : SharedFunctions) :
    (match t.prior with
      | none => B
      | some c => B.set c ((B.getD c []).map clipUnit)) <+: (m.dispersionPrior t g).1.buffers := by
  unfold SharedArrays.dispersionPrior
  cases hp : t.prior with
  | none => exact (alloc_prefix h _).1
  | some c =>
    have hc := hclip c hp
    dsimp only
    have h0 : B.set c ((B.getD c []).map clipUnit) <+: (m.overwrite c fun xs => xs.map clipUnit).buffers := by
      have hr := read_prefix h c hc
      obtain ⟨r, hr'⟩ := h
      unfold SharedArrays.overwrite
      dsimp only
      rw [hr, ← hr', List.set_append_left _ _ hc]
      exact List.prefix_append _ _
    have h1 := alloc_prefix h0 (g.link ((m.overwrite c fun xs => xs.map clipUnit).read c))
    exact overwrite_prefix h1.1 _ h1.2 _

theorem dispersion_value (hclip : ∀ c, t.prior = some c → c < m.buffers.length) (g : SharedFunctions) :
    (m.dispersionPrior t g).1.read (m.dispersionPrior t g).2 =
      (match t.prior with
        | none => List.replicate t.rows g.neutral
        | some c => g.repair (g.link ((m.read c).map clipUnit))) ∧
    (m.dispersionPrior t g).2 < (m.dispersionPrior t g).1.buffers.length := by
  unfold SharedArrays.dispersionPrior
  cases hp : t.prior with
  | none => exact ⟨read_alloc _ _, alloc_lt _ _⟩
  | some c =>
    dsimp only
    refine ⟨?_, ?_⟩
    · rw [read_overwrite _ _ (alloc_lt _ _), read_alloc, read_overwrite _ _ (hclip c hp)]
    · rw [overwrite_length]
      exact alloc_lt _ _

theorem clipUnit_idem (x : Flt ℝ) : clipUnit (clipUnit x) = clipUnit x := by
  cases x with
  | fin x =>
    simp only [clipUnit, clipTo]
    congr 1
    rcases le_total x 0 with h | h <;> rcases le_total x 1 with h' | h' <;> simp [h, h', max_def, min_def]
  | nan => rfl
  | pinf => simp [clipUnit, clipTo]
  | ninf => simp [clipUnit, clipTo]

/-- The columns after a call: clipped for the dispersion model. -/
noncomputable def tableAfter (kind : KeeperKind) (t : SharedTable) (B : List (List (Flt ℝ))) : List (List (Flt ℝ)) :=
  match kind, t.prior with
  | .dispersion, some c => B.set c ((B.getD c []).map clipUnit)
  | _, _ => B

theorem tableAfter_length (kind : KeeperKind) : (tableAfter kind t B).length = B.length := by
  unfold tableAfter
  cases kind <;> cases t.prior <;> simp

theorem tableAfter_idem (kind : KeeperKind) (hB : ∀ c, t.prior = some c → c < B.length) :
    tableAfter kind t (tableAfter kind t B) = tableAfter kind t B := by
  unfold tableAfter
  cases kind with
  | plain => rfl
  | price => rfl
  | dispersion =>
    cases hp : t.prior with
    | none => rfl
    | some c =>
      have hc := hB c hp
      dsimp only
      rw [List.set_set]
      congr 1
      simp [List.getD_eq_getElem?_getD, hc, List.map_map, Function.comp_def, clipUnit_idem]

/-- A call keeps a prefix of the memory, up to the clipping. -/
theorem call_prefix (kind : KeeperKind) (isFit : Bool) (g : SharedFunctions) (h : B <+: m.buffers)
    (hB : ∀ c, t.prior = some c → c < B.length) : tableAfter kind t B <+: (callMemory kind isFit t g m).1.buffers := by
  unfold callMemory
  dsimp only
  have hw : B <+: (if isFit then m.initWeights t else (m, 0)).1.buffers := by
    split_ifs
    · exact weights_prefix h t
    · exact h
  cases kind with
  | plain => exact run_prefix (base_prefix hw t g) g _
  | dispersion =>
    refine run_prefix ?_ g _
    have := dispersion_prefix (t := t) hB hw g
    unfold tableAfter
    cases hp : t.prior with
    | none => simpa [hp] using this
    | some c => simpa [hp] using this
  | price =>
    have he := external_prefix hw t g (if isFit then some (if isFit then m.initWeights t else (m, 0)).2 else none)
    have hb := base_prefix he t g
    cases hx : t.exponent with
    | none => exact run_prefix hb g _
    | some c => exact run_prefix (alloc_prefix hb _).1 g _

theorem after_prefix (kind : KeeperKind) (history : List (Bool × SharedFunctions)) (h : tableAfter kind t B <+: m.buffers)
    (hB : ∀ c, t.prior = some c → c < B.length) : tableAfter kind t B <+: (memoryAfter kind t history m).buffers := by
  induction history generalizing m with
  | nil => exact h
  | cons c history ih =>
    have h1 := call_prefix kind c.1 c.2 h (by rw [tableAfter_length]; exact hB)
    rw [tableAfter_idem kind hB] at h1
    exact ih h1

end

/-- What a history leaves in the columns of the table. -/
theorem columns_after (kind : KeeperKind) (t : SharedTable) (m : SharedArrays) (ht : TableIn t m)
    (history : List (Bool × SharedFunctions)) (hne : history ≠ []) :
    tableAfter kind t m.buffers <+: (memoryAfter kind t history m).buffers := by
  cases history with
  | nil => exact absurd rfl hne
  | cons c history => exact after_prefix kind history (call_prefix kind c.1 c.2 (List.prefix_refl _) ht.prior) ht.prior

theorem getElem?_prefix {B B' : List (List (Flt ℝ))} (h : B <+: B') (a : ℕ) (ha : a < B.length) : B'[a]? = B[a]? := by
  obtain ⟨r, rfl⟩ := h
  rw [List.getElem?_append_left ha]

/-- **C168 (partial).** All estimators but the dispersion model: no history of fits and predictions with a table, whatever is computed in
them, changes an array that existed before, in particular none of the columns of the table. Missing for the full claim: the dispersion model
with prior predictions (`C168_dispersion_counterexample`). -/
theorem C168_unchanged_partial (kind : KeeperKind) (hk : kind ≠ .dispersion) (t : SharedTable) (m : SharedArrays) (ht : TableIn t m)
    (history : List (Bool × SharedFunctions)) (a : ℕ) (ha : a < m.buffers.length) : Unchanged m (memoryAfter kind t history m) a := by
  by_cases hne : history = []
  · subst hne
    rfl
  · have h := columns_after kind t m ht history hne
    have e : tableAfter kind t m.buffers = m.buffers := by
      cases kind
      · rfl
      · exact absurd rfl hk
      · rfl
    rw [e] at h
    exact getElem?_prefix h a ha

/-- **C168**, the dispersion model: all arrays but the column of prior predictions stay. That column is clipped to values from 0 to 1: once
there was a call, these are its values, whatever the number of calls. -/
theorem C168_dispersion_partial (t : SharedTable) (m : SharedArrays) (ht : TableIn t m) (history : List (Bool × SharedFunctions))
    (hne : history ≠ []) :
    (∀ a < m.buffers.length, t.prior ≠ some a → Unchanged m (memoryAfter .dispersion t history m) a) ∧
    ∀ c, t.prior = some c → (memoryAfter .dispersion t history m).read c = (m.read c).map clipUnit := by
  have h := columns_after .dispersion t m ht history hne
  refine ⟨fun a ha hap => ?_, fun c hc => ?_⟩
  · unfold Unchanged
    rw [getElem?_prefix h a (by rw [tableAfter_length]; exact ha)]
    unfold tableAfter
    cases hp : t.prior with
    | none => rfl
    | some c =>
      dsimp only
      rw [List.getElem?_set_ne]
      rintro rfl
      exact hap hp
  · have hlt := ht.prior c hc
    rw [read_prefix h c (by rw [tableAfter_length]; exact hlt)]
    unfold tableAfter SharedArrays.read
    rw [hc]
    simp [List.getD_eq_getElem?_getD, hlt]

/-- **C168**, without prior predictions, or with prior predictions from 0 to 1 (or NaN), the dispersion model does not change the table
either. -/
theorem C168_dispersion_unchanged (t : SharedTable) (m : SharedArrays) (ht : TableIn t m)
    (hr : ∀ c, t.prior = some c → ∀ x ∈ m.read c, x = .nan ∨ ∃ v : ℝ, x = .fin v ∧ 0 ≤ v ∧ v ≤ 1)
    (history : List (Bool × SharedFunctions)) (a : ℕ) (ha : a < m.buffers.length) : Unchanged m (memoryAfter .dispersion t history m) a := by
  by_cases hne : history = []
  · subst hne
    rfl
  · have h := columns_after .dispersion t m ht history hne
    have e : tableAfter .dispersion t m.buffers = m.buffers := by
      unfold tableAfter
      cases hp : t.prior with
      | none => rfl
      | some c =>
        have hlt := ht.prior c hp
        have hid : (m.buffers.getD c []).map clipUnit = m.buffers.getD c [] := by
          conv_rhs => rw [← List.map_id (m.buffers.getD c [])]
          refine List.map_congr_left fun x hx => ?_
          rcases hr c hp x hx with rfl | ⟨v, rfl, h0, h1⟩
          · rfl
          · simp [clipUnit, clipTo, h0, h1]
        dsimp only
        rw [hid]
        simp [List.getD_eq_getElem?_getD, hlt]
    rw [e] at h
    exact getElem?_prefix h a ha

/-- The predictions of a call, from the columns. -/
theorem call_value (kind : KeeperKind) (isFit : Bool) (t : SharedTable) (g : SharedFunctions) (m : SharedArrays) (ht : TableIn t m) :
    (callMemory kind isFit t g m).1.read (callMemory kind isFit t g m).2 = g.run
      (match t.prior, kind with
        | none, _ => List.replicate t.rows g.neutral
        | some c, .dispersion => g.repair (g.link ((m.read c).map clipUnit))
        | some c, _ => g.repair (g.shift (g.link (m.read c)))) := by
  have hrun : ∀ (m' : SharedArrays) (a : ℕ), (m'.runPrediction g a).1.read (m'.runPrediction g a).2 = g.run (m'.read a) := by
    intro m' a
    unfold SharedArrays.runPrediction
    dsimp only
    rw [read_overwrite _ _ (alloc_lt _ _), read_alloc]
  unfold callMemory
  dsimp only
  have hw : m.buffers <+: (if isFit then m.initWeights t else (m, 0)).1.buffers := by
    split_ifs
    · exact weights_prefix (List.prefix_refl _) t
    · exact List.prefix_refl _
  have hread : ∀ (m' : SharedArrays), m.buffers <+: m'.buffers → ∀ c, t.prior = some c → m'.read c = m.read c := fun m' h c hc =>
    read_prefix h c (ht.prior c hc)
  rw [hrun]
  congr 1
  cases kind with
  | plain =>
    dsimp only
    rw [(base_value t g).1]
    cases hp : t.prior with
    | none => rfl
    | some c =>
      dsimp only
      rw [hread _ hw c hp]
  | dispersion =>
    dsimp only
    rw [(dispersion_value (fun c hc => lt_of_lt_of_le (ht.prior c hc) hw.length_le) g).1]
    cases hp : t.prior with
    | none => rfl
    | some c =>
      dsimp only
      rw [hread _ hw c hp]
  | price =>
    have he := external_prefix hw t g (if isFit then some (if isFit then m.initWeights t else (m, 0)).2 else none)
    have hb := base_value (m := ((if isFit then m.initWeights t else (m, 0)).1.initExternal t g
      (if isFit then some (if isFit then m.initWeights t else (m, 0)).2 else none)).1) t g
    have hgoal : ((((if isFit then m.initWeights t else (m, 0)).1.initExternal t g
        (if isFit then some (if isFit then m.initWeights t else (m, 0)).2 else none)).1.basePrior t g).1).read
        ((((if isFit then m.initWeights t else (m, 0)).1.initExternal t g
        (if isFit then some (if isFit then m.initWeights t else (m, 0)).2 else none)).1.basePrior t g).2) =
        (match t.prior with
          | none => List.replicate t.rows g.neutral
          | some c => g.repair (g.shift (g.link (m.read c)))) := by
      rw [hb.1]
      cases hp : t.prior with
      | none => rfl
      | some c =>
        dsimp only
        rw [hread _ he c hp]
    have hgoal' : (match t.prior, KeeperKind.price with
        | none, _ => List.replicate t.rows g.neutral
        | some c, .dispersion => g.repair (g.link ((m.read c).map clipUnit))
        | some c, _ => g.repair (g.shift (g.link (m.read c)))) =
        (match t.prior with
          | none => List.replicate t.rows g.neutral
          | some c => g.repair (g.shift (g.link (m.read c)))) := by
      cases t.prior <;> rfl
    rw [hgoal', ← hgoal]
    cases hx : t.exponent with
    | none => rfl
    | some c =>
      dsimp only
      rw [read_prefix (alloc_prefix (List.prefix_refl _) _).1 _ hb.2]
      rfl

/-- **C168**, predictions: a call gives the same predictions after any history of calls with the same table as before, for all estimators: the
clipping of the dispersion model does not matter for itself. -/
theorem C168_same_predictions (kind : KeeperKind) (isFit : Bool) (t : SharedTable) (g : SharedFunctions) (m : SharedArrays)
    (ht : TableIn t m) (history : List (Bool × SharedFunctions)) :
    (callMemory kind isFit t g (memoryAfter kind t history m)).1.read (callMemory kind isFit t g (memoryAfter kind t history m)).2 =
      (callMemory kind isFit t g m).1.read (callMemory kind isFit t g m).2 := by
  by_cases hne : history = []
  · subst hne
    rfl
  have h := columns_after kind t m ht history hne
  have hlen : m.buffers.length ≤ (memoryAfter kind t history m).buffers.length := by
    rw [← tableAfter_length kind (t := t)]
    exact h.length_le
  have ht' : TableIn t (memoryAfter kind t history m) := ⟨fun c hc => lt_of_lt_of_le (ht.weight c hc) hlen,
    fun c hc => lt_of_lt_of_le (ht.prior c hc) hlen, lt_of_lt_of_le ht.mean hlen, lt_of_lt_of_le ht.price hlen,
    fun c hc => lt_of_lt_of_le (ht.exponent c hc) hlen⟩
  rw [call_value kind isFit t g _ ht', call_value kind isFit t g m ht]
  congr 1
  cases hp : t.prior with
  | none => rfl
  | some c =>
    have hlt := ht.prior c hp
    have hr := read_prefix h c (by rw [tableAfter_length]; exact hlt)
    cases kind with
    | plain =>
      dsimp only
      rw [hr]
      rfl
    | price =>
      dsimp only
      rw [hr]
      rfl
    | dispersion =>
      dsimp only
      rw [(C168_dispersion_partial t m ht history hne).2 c hp, List.map_map]
      congr 2
      exact List.map_congr_left fun x _ => clipUnit_idem x

/-- **C168**, what does not hold: a prediction of the dispersion model turns the prior prediction 2 in the table of the caller into 1. -/
theorem C168_dispersion_counterexample (g : SharedFunctions) :
    ¬ Unchanged ⟨[[.fin 2], [.fin 5]]⟩ (memoryAfter .dispersion ⟨1, none, some 0, 1, 1, none⟩ [(false, g)] ⟨[[.fin 2], [.fin 5]]⟩) 0 := by
  intro hu
  have ht : TableIn ⟨1, none, some 0, 1, 1, none⟩ ⟨[[.fin 2], [.fin 5]]⟩ :=
    ⟨by simp, by simp, by simp, by simp, by simp⟩
  have h := (C168_dispersion_partial _ _ ht [(false, g)] (by simp)).2 0 rfl
  unfold Unchanged at hu
  unfold SharedArrays.read at h
  rw [List.getD_eq_getElem?_getD, hu] at h
  simp [clipUnit, clipTo] at h

/-- Witness: the price model with weights, prior predictions, prices and prior exponents, and prior predictions outside of [0, 1]. -/
example (g : SharedFunctions) (history : List (Bool × SharedFunctions)) (a : ℕ) (ha : a < 4) :
    Unchanged ⟨[[.fin 2, .nan], [.fin 1, .fin 3], [.pinf, .fin 1], [.fin (-1), .fin (-2)]]⟩
      (memoryAfter .price ⟨2, some 1, some 0, 0, 2, some 3⟩ ((true, g) :: history)
        ⟨[[.fin 2, .nan], [.fin 1, .fin 3], [.pinf, .fin 1], [.fin (-1), .fin (-2)]]⟩) a :=
  C168_unchanged_partial .price (by decide) _ _ ⟨by simp, by simp, by simp, by simp, by simp⟩ _ a ha

end CB
