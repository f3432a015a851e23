import Verif.Model.BinnerObject
import Verif.Spec.BinnerObject
import Verif.Lemmas.BinnedFit

set_option autoImplicit false
set_option linter.unusedSectionVars false

namespace CB

theorem binColumns_eq (o : BinnerObject) (F : DataFrame) :
    (o.featureColumns F).filter (fun c => (o.cfg.props.lookup c).isSome) =
      Spec.binColumns o.cfg.props o.weightColumn F.columns := by
  classical
  unfold BinnerObject.featureColumns Spec.binColumns
  rw [List.filter_filter]
  apply List.filter_congr
  intro c _
  rw [Bool.eq_iff_iff]
  rw [Bool.and_eq_true, Option.isSome_iff_exists, decide_eq_true_eq]
  exact ⟨fun h => decide_eq_true ⟨h.2, h.1⟩, fun h => ⟨(of_decide_eq_true h).2, (of_decide_eq_true h).1⟩⟩

theorem checkInput_error (o : BinnerObject) (L : List (String × ColFit ℝ)) (F : DataFrame) (h : o.bins = some L)
    (hl : (Spec.binColumns o.cfg.props o.weightColumn F.columns).length ≠ L.length) : o.checkInput F = .error .valueError := by
  rw [← binColumns_eq] at hl
  unfold BinnerObject.checkInput
  rw [h]
  exact if_pos hl

theorem checkInput_ok (o : BinnerObject) (L : List (String × ColFit ℝ)) (F : DataFrame) (h : o.bins = some L)
    (hl : (Spec.binColumns o.cfg.props o.weightColumn F.columns).length = L.length) : o.checkInput F = .ok L := by
  rw [← binColumns_eq] at hl
  unfold BinnerObject.checkInput
  rw [h]
  exact if_neg (not_not.mpr hl)

/-! ### The loop of fit -/

theorem fitLoop_spec (o : BinnerObject) (F : DataFrame) (w : List ℝ) (cols : List String) (acc : List (String × ColFit ℝ)) :
    ∃ L, (o.fitLoop F w cols acc).1 = acc ++ L ∧ (∀ p ∈ L, o.fitOne F w p.1 = some (.ok p.2)) ∧
      ((o.fitLoop F w cols acc).2 = none → L.map Prod.fst = cols.filter fun c => (o.cfg.props.lookup c).isSome) ∧
      ((o.fitLoop F w cols acc).2 ≠ none → L.length < (cols.filter fun c => (o.cfg.props.lookup c).isSome).length) := by
  induction cols generalizing acc with
  | nil => exact ⟨[], by simp [BinnerObject.fitLoop]⟩
  | cons c cs ih =>
    rw [BinnerObject.fitLoop]
    cases h : o.fitOne F w c with
    | none =>
      have hl : o.cfg.props.lookup c = none := by
        unfold BinnerObject.fitOne at h
        cases hp : o.cfg.props.lookup c with
        | none => rfl
        | some fp =>
          rw [hp] at h
          dsimp only at h
          cases hc : Flags.checkConsistency fp <;> rw [hc] at h <;> cases h
      obtain ⟨L, h1, h2, h3, h4⟩ := ih acc
      refine ⟨L, h1, h2, ?_, ?_⟩
      · intro hn; rw [h3 hn]; simp [hl]
      · intro hn; simpa [hl] using h4 hn
    | some r =>
      have hl : (o.cfg.props.lookup c).isSome := by
        unfold BinnerObject.fitOne at h
        cases hp : o.cfg.props.lookup c with
        | none => rw [hp] at h; cases h
        | some fp => rfl
      cases r with
      | error e =>
        refine ⟨[], by simp, by simp, by simp, ?_⟩
        intro _
        simp [hl]
      | ok f =>
        obtain ⟨L, h1, h2, h3, h4⟩ := ih (acc ++ [(c, f)])
        refine ⟨(c, f) :: L, by dsimp only; rw [h1]; simp, ?_, ?_, ?_⟩
        · intro p hp
          rcases List.mem_cons.mp hp with rfl | hp
          · exact h
          · exact h2 p hp
        · intro hn
          rw [List.map_cons, h3 hn, List.filter_cons, if_pos hl]
        · intro hn
          rw [List.filter_cons, if_pos hl]
          simpa using h4 hn

/-- What is in `bins_and_cdfs_` after `fit`. -/
theorem fit_spec (o : BinnerObject) (F : DataFrame) :
    ∃ L, (o.fit F).1 = { o with bins := some L } ∧
      ((o.fit F).2 = none → F.n ≠ 0 ∧ F.columns ≠ [] ∧ ∃ w, o.weights F = .ok w ∧ (∀ p ∈ L, o.fitOne F w p.1 = some (.ok p.2)) ∧
        L.map Prod.fst = Spec.binColumns o.cfg.props o.weightColumn F.columns) ∧
      ((o.fit F).2 ≠ none → L = [] ∨ L.length < (Spec.binColumns o.cfg.props o.weightColumn F.columns).length) := by
  unfold BinnerObject.fit
  by_cases h : F.n = 0 ∨ F.columns = []
  · rw [if_pos h]; exact ⟨[], rfl, by simp, by simp⟩
  · rw [if_neg h]
    push Not at h
    cases hw : o.weights F with
    | error e => exact ⟨[], rfl, by simp, by simp⟩
    | ok w =>
      obtain ⟨L, h1, h2, h3, h4⟩ := fitLoop_spec o F w (o.featureColumns F) []
      rw [List.nil_append] at h1
      refine ⟨L, ?_, ?_, ?_⟩
      · dsimp only; rw [h1]
      · intro hn
        dsimp only at hn
        exact ⟨h.1, h.2, w, rfl, h2, by rw [h3 hn, binColumns_eq]⟩
      · intro hn
        dsimp only at hn
        right
        rw [← binColumns_eq]
        exact h4 hn

/-! ### The loop of transform -/

theorem transformLoop_other (o : BinnerObject) (a : ℕ) (L : List (String × ColFit ℝ)) (m : Memory) (b : ℕ) (hb : b ≠ a) :
    (o.transformLoop a L m).1.frames b = m.frames b := by
  induction L generalizing m with
  | nil => rfl
  | cons p L ih =>
    obtain ⟨c, f⟩ := p
    rw [BinnerObject.transformLoop]
    cases o.cfg.props.lookup c with
    | none => exact ih m
    | some fp =>
      dsimp only
      split_ifs
      · rw [ih]; simp [Memory.setColumn, hb]
      · rfl
      · rfl

theorem transformLoop_next (o : BinnerObject) (a : ℕ) (L : List (String × ColFit ℝ)) (m : Memory) :
    (o.transformLoop a L m).1.next = m.next := by
  induction L generalizing m with
  | nil => rfl
  | cons p L ih =>
    obtain ⟨c, f⟩ := p
    rw [BinnerObject.transformLoop]
    cases o.cfg.props.lookup c with
    | none => exact ih m
    | some fp =>
      dsimp only
      split_ifs
      · rw [ih]; rfl
      · rfl
      · rfl

/-- The columns with these bins never raise an exception. -/
def GoodBins (B : Binner) (L : List (String × ColFit ℝ)) : Prop :=
  ∀ p ∈ L, ∃ fp, B.props.lookup p.1 = some fp ∧ ∀ x, ∃ i, binNumber (Flags.isSet fp Flags.IS_CONTINUOUS)
    (Flags.isSet fp Flags.HAS_MAGIC_INT_MISSING) p.2.eps (p.2.table.map Prod.fst) x = .ok i

theorem transformLoop_ok (o : BinnerObject) (a : ℕ) (L : List (String × ColFit ℝ)) (hgood : GoodBins o.cfg L)
    (hnd : (L.map Prod.fst).Nodup) (m : Memory) (hcols : ∀ p ∈ L, p.1 ∈ (m.frames a).columns) :
    ∃ m', o.transformLoop a L m = (m', .ok a) ∧ (m'.frames a).columns = (m.frames a).columns ∧ (m'.frames a).n = (m.frames a).n ∧
      ∀ s c, .ok ((m'.frames a).X s c) = o.cfg.cell L c ((m.frames a).X s c) := by
  induction L generalizing m with
  | nil => exact ⟨m, rfl, rfl, rfl, fun s c => by simp [Binner.cell]⟩
  | cons p L ih =>
    obtain ⟨c, f⟩ := p
    obtain ⟨fp, hfp, hi⟩ := hgood (c, f) (by simp)
    rw [BinnerObject.transformLoop, hfp]
    dsimp only at hi ⊢
    rw [if_pos (hcols (c, f) (by simp)), if_pos fun s _ => hi _]
    rw [List.map_cons, List.nodup_cons] at hnd
    have hc : c ∉ L.map Prod.fst := hnd.1
    obtain ⟨m', h1, h2, h3, h4⟩ := ih (fun p hp => hgood p (List.mem_cons_of_mem _ hp)) hnd.2
      (m.setColumn a c fun s => match binNumber (Flags.isSet fp Flags.IS_CONTINUOUS) (Flags.isSet fp Flags.HAS_MAGIC_INT_MISSING) f.eps
          (f.table.map Prod.fst) ((m.frames a).X s c) with
        | .ok i => .fin (i : ℝ)
        | .error _ => .nan)
      (fun p hp => by simpa [Memory.setColumn] using hcols p (List.mem_cons_of_mem _ hp))
    refine ⟨m', h1, by rw [h2]; simp [Memory.setColumn], by rw [h3]; simp [Memory.setColumn], ?_⟩
    intro s d
    rw [h4 s d]
    by_cases hd : d = c
    · subst hd
      have hl : L.lookup d = none := by
        rw [List.lookup_eq_none_iff]
        intro p hp
        have : p.1 ∈ L.map Prod.fst := List.mem_map_of_mem hp
        have hne : d ≠ p.1 := by rintro rfl; exact hc this
        simpa using hne
      obtain ⟨i, hi'⟩ := hi ((m.frames a).X s d)
      unfold Binner.cell
      rw [hl, List.lookup_cons_self, hfp]
      dsimp only
      rw [hi']
      simp [Memory.setColumn, hi']
    · have : (List.lookup d ((c, f) :: L)) = L.lookup d := by
        rw [List.lookup_cons]
        have : (d == c) = false := by simpa using hd
        rw [this]
      unfold Binner.cell
      rw [this]
      simp [Memory.setColumn, hd]

theorem transformLoop_keyError (o : BinnerObject) (a : ℕ) (L : List (String × ColFit ℝ)) (hgood : GoodBins o.cfg L)
    (m : Memory) (hcols : ∃ p ∈ L, p.1 ∉ (m.frames a).columns) :
    (o.transformLoop a L m).2 = .error .keyError := by
  induction L generalizing m with
  | nil => obtain ⟨p, hp, -⟩ := hcols; simp at hp
  | cons p L ih =>
    obtain ⟨c, f⟩ := p
    obtain ⟨fp, hfp, hi⟩ := hgood (c, f) (by simp)
    rw [BinnerObject.transformLoop, hfp]
    dsimp only at hi ⊢
    by_cases hc : c ∈ (m.frames a).columns
    · rw [if_pos hc, if_pos fun s _ => hi _]
      apply ih fun p hp => hgood p (List.mem_cons_of_mem _ hp)
      obtain ⟨q, hq, hq'⟩ := hcols
      rcases List.mem_cons.mp hq with rfl | hq
      · exact absurd hc hq'
      · exact ⟨q, hq, by simpa [Memory.setColumn] using hq'⟩
    · rw [if_neg hc]

theorem lookup_of_mem (L : List (String × ColFit ℝ)) (hnd : (L.map Prod.fst).Nodup) (p : String × ColFit ℝ) (hp : p ∈ L) :
    L.lookup p.1 = some p.2 := by
  induction L with
  | nil => simp at hp
  | cons q L ih =>
    rw [List.map_cons, List.nodup_cons] at hnd
    rw [List.lookup_cons]
    rcases List.mem_cons.mp hp with rfl | hp
    · simp
    · have hne : p.1 ≠ q.1 := fun h => hnd.1 (h ▸ List.mem_map_of_mem hp)
      have : (p.1 == q.1) = false := by simpa using hne
      rw [this]
      exact ih hnd.2 hp

/-! ### Fitted columns never fail -/

theorem weights_spec (o : BinnerObject) (F : DataFrame) (w : List ℝ) (h : o.weights F = .ok w)
    (hpos : Spec.PositiveWeights o.weightColumn F) : w.length = F.n ∧ ∀ v ∈ w, 0 < v := by
  unfold BinnerObject.weights at h
  cases hc : o.weightColumn with
  | none =>
    rw [hc] at h
    cases h
    refine ⟨by simp, fun v hv => ?_⟩
    rw [List.eq_of_mem_replicate hv]; exact one_pos
  | some c =>
    rw [hc] at h
    dsimp only at h
    split_ifs at h
    cases h
    refine ⟨by simp, fun v hv => ?_⟩
    obtain ⟨s, hs, rfl⟩ := List.mem_map.mp hv
    obtain ⟨x, hx, hx'⟩ := hpos c hc s (List.mem_range.mp hs)
    rw [hx]; exact hx'

theorem isWeights_iff (o : BinnerObject) (F : DataFrame) (hpos : Spec.PositiveWeights o.weightColumn F) (w : List ℝ) :
    Spec.IsWeights o.weightColumn F w ↔ o.weights F = .ok w := by
  unfold BinnerObject.weights Spec.IsWeights
  cases hc : o.weightColumn with
  | none =>
    simp only [true_implies, reduceCtorEq, false_implies, implies_true, and_true, Except.ok.injEq]
    rw [← List.eq_replicate_iff]
    exact eq_comm
  | some c =>
    simp only [reduceCtorEq, false_implies, true_and, Option.some.injEq, forall_eq']
    constructor
    · rintro ⟨h1, h2, h3⟩
      rw [if_pos h2, Except.ok.injEq]
      apply List.ext_getElem (by simp [h1])
      intro s hs hs'
      simp only [List.getElem_map, List.getElem_range]
      rw [h3 s hs']
      rfl
    · intro h
      split_ifs at h with hcol
      rw [Except.ok.injEq] at h
      subst h
      refine ⟨by simp, hcol, fun s hs => ?_⟩
      obtain ⟨v, hv, -⟩ := hpos c hc s (by simpa using hs)
      simp only [List.getElem_map, List.getElem_range]
      rw [hv]
      rfl

theorem fitOne_ok (o : BinnerObject) (F : DataFrame) (w : List ℝ) (c : String) (f : ColFit ℝ) (h : o.fitOne F w c = some (.ok f)) :
    ∃ fp, o.cfg.props.lookup c = some fp ∧ (∃ u, Flags.checkConsistency fp = .ok u) ∧
      fitColumn (Flags.isSet fp Flags.IS_ORDERED || Flags.isSet fp Flags.IS_UNORDERED) (F.X.column F.n c) w (o.cfg.nBins c)
        o.cfg.epsilon o.cfg.tolerance = .ok f := by
  unfold BinnerObject.fitOne at h
  cases hp : o.cfg.props.lookup c with
  | none => rw [hp] at h; cases h
  | some fp =>
    rw [hp] at h
    dsimp only at h
    cases hc : Flags.checkConsistency fp with
    | error e => rw [hc] at h; cases h
    | ok u =>
      rw [hc] at h
      dsimp only at h
      exact ⟨fp, rfl, ⟨u, hc⟩, by simpa using h⟩

theorem fitOne_good (o : BinnerObject) (htol : 0 ≤ o.cfg.tolerance) (F : DataFrame) (w : List ℝ) (hw : o.weights F = .ok w)
    (hpos : Spec.PositiveWeights o.weightColumn F) (L : List (String × ColFit ℝ)) (h : ∀ p ∈ L, o.fitOne F w p.1 = some (.ok p.2)) :
    GoodBins o.cfg L := by
  intro p hp
  obtain ⟨fp, hfp, -, hfit⟩ := fitOne_ok o F w p.1 p.2 (h p hp)
  obtain ⟨hl, hpw⟩ := weights_spec o F w hw hpos
  refine ⟨fp, hfp, fun x => ?_⟩
  rcases fitColumn_shape _ _ _ (PosWeights.of_pos _ w (by rw [column_length, hl]) hpw) _ _ _ htol p.2 hfit with
    ⟨ht, -⟩ | ⟨b0, upper, cdf, ht, hs, hne, -⟩
  · exact ⟨-1, by rw [ht]; rfl⟩
  · obtain ⟨i, hi, -⟩ := C04_range (Flags.isSet fp Flags.IS_CONTINUOUS) (Flags.isSet fp Flags.HAS_MAGIC_INT_MISSING) p.2.eps b0 upper
      hs hne x
    exact ⟨i, by rw [ht]; exact hi⟩

end CB
