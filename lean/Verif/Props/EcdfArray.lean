import Verif.Lemmas.ArrayBinning

/-!
# C142: what the transformation to cumulative probabilities does to the arrays it is called with
-/

set_option autoImplicit false
set_option linter.unusedSectionVars false

namespace CB

theorem ecdfLoop_other (o : BinnerObject) (a : ℕ) (L : List (String × ColFit ℝ)) (m : ArrayMemory) (b : ℕ) (hb : b ≠ a) :
    (o.ecdfLoop a L m).1.arrays b = m.arrays b := by
  induction L generalizing m with
  | nil => rfl
  | cons p L ih =>
    obtain ⟨c, f⟩ := p
    rw [BinnerObject.ecdfLoop]
    cases o.cfg.props.lookup c with
    | none => exact ih m
    | some fp =>
      dsimp only
      split_ifs
      · rw [ih]; simp [ArrayMemory.setColumn, hb]
      · rfl
      · rfl

theorem ecdfLoop_address (o : BinnerObject) (a : ℕ) (L : List (String × ColFit ℝ)) (m : ArrayMemory) (a' : ℕ)
    (h : (o.ecdfLoop a L m).2 = .ok a') : a' = a := by
  induction L generalizing m with
  | nil =>
    have : Except.ok (ε := TransformErr) a = .ok a' := h
    simpa using this.symm
  | cons p L ih =>
    obtain ⟨c, f⟩ := p
    rw [BinnerObject.ecdfLoop] at h
    cases hl : o.cfg.props.lookup c with
    | none => rw [hl] at h; exact ih m h
    | some fp =>
      rw [hl] at h
      dsimp only at h
      split_ifs at h
      exact ih _ h

theorem ecdfLoop_entries (o : BinnerObject) (a : ℕ) (L : List (String × ColFit ℝ)) (hnd : (L.map Prod.fst).Nodup) (m : ArrayMemory) (a' : ℕ)
    (h : (o.ecdfLoop a L m).2 = .ok a') :
    ((o.ecdfLoop a L m).1.arrays a).frame.n = (m.arrays a).frame.n ∧
    ((o.ecdfLoop a L m).1.arrays a).frame.columns = (m.arrays a).frame.columns ∧
    ∀ s < (m.arrays a).frame.n, ∀ c,
      (L.lookup c = none → ((o.ecdfLoop a L m).1.arrays a).frame.X s c = (m.arrays a).frame.X s c) ∧
      (∀ f fp, L.lookup c = some f → o.cfg.props.lookup c = some fp →
        ecdfValue (Flags.isSet fp Flags.IS_CONTINUOUS) f.eps f.table ((m.arrays a).frame.X s c) =
          .ok (((o.ecdfLoop a L m).1.arrays a).frame.X s c)) := by
  induction L generalizing m with
  | nil => exact ⟨rfl, rfl, fun s _ c => ⟨fun _ => rfl, fun f fp hf => by simp at hf⟩⟩
  | cons p L ih =>
    obtain ⟨c, f⟩ := p
    rw [List.map_cons, List.nodup_cons] at hnd
    have hlc : L.lookup c = none := by
      rw [List.lookup_eq_none_iff]
      intro p hp
      have : p.1 ∈ L.map Prod.fst := List.mem_map_of_mem hp
      have hne : c ≠ p.1 := by rintro rfl; exact hnd.1 this
      simpa using hne
    have hlk : ∀ d, d ≠ c → List.lookup d ((c, f) :: L) = L.lookup d := by
      intro d hd
      rw [List.lookup_cons]
      have : (d == c) = false := by simpa using hd
      rw [this]
    rw [BinnerObject.ecdfLoop] at h ⊢
    cases hl : o.cfg.props.lookup c with
    | none =>
      rw [hl] at h
      obtain ⟨h1, h2, h3⟩ := ih hnd.2 m h
      refine ⟨h1, h2, fun s hs d => ?_⟩
      by_cases hd : d = c
      · subst hd
        refine ⟨fun hn => (by rw [List.lookup_cons_self] at hn; cases hn), fun f' fp' _ hp => (by rw [hl] at hp; cases hp)⟩
      · rw [hlk d hd]; exact h3 s hs d
    | some fp =>
      rw [hl] at h
      dsimp only at h ⊢
      split_ifs at h with hc hall
      rw [if_pos hc, if_pos hall]
      obtain ⟨h1, h2, h3⟩ := ih hnd.2 _ h
      refine ⟨by rw [h1]; simp [ArrayMemory.setColumn], by rw [h2]; simp [ArrayMemory.setColumn], fun s hs d => ?_⟩
      obtain ⟨h4, h5⟩ := h3 s (by simpa [ArrayMemory.setColumn] using hs) d
      by_cases hd : d = c
      · subst hd
        refine ⟨fun hn => (by rw [List.lookup_cons_self] at hn; cases hn), fun f' fp' hf hp => ?_⟩
        rw [List.lookup_cons_self, Option.some.injEq] at hf
        subst hf
        rw [hl, Option.some.injEq] at hp
        subst hp
        rw [h4 hlc]
        obtain ⟨v, hv⟩ := hall s hs
        simp [ArrayMemory.setColumn, hv]
      · rw [hlk d hd]
        have hX : ∀ v, (((m.setColumn a c v).arrays a).frame.X s d) = (m.arrays a).frame.X s d := by
          intro v
          simp [ArrayMemory.setColumn, hd]
        rw [hX] at h4 h5
        exact ⟨h4, h5⟩

/-- **C142.** The arrays other than the one that is passed are not changed. -/
theorem C142_others (o : BinnerObject) (m : ArrayMemory) (a b : ℕ) (hb : b < m.next) (hab : b ≠ a) :
    (o.transformEcdf m a).1.arrays b = m.arrays b := by
  unfold BinnerObject.transformEcdf
  cases o.checkInput (m.arrays a).frame with
  | error e => rfl
  | ok bins =>
    dsimp only
    split_ifs
    · rfl
    · unfold ArrayMemory.asFloat
      cases (m.arrays a).type with
      | float => exact ecdfLoop_other o a bins m b hab
      | int lo hi =>
        dsimp only
        rw [ecdfLoop_other _ _ _ _ _ (by omega)]
        simp [show b ≠ m.next by omega]

/-- **C142 (partial).** `ECdfTransformer.transform` leaves the array it is called with as it is, and returns another array, if it holds integers.
Missing for the full claim: arrays of floats. They are overwritten, see `C142_overwritten` and `C142_counterexample`. -/
theorem C142_unchanged_partial (o : BinnerObject) (m : ArrayMemory) (a : ℕ) (ha : a < m.next) (lo hi : ℤ) (ht : (m.arrays a).type = .int lo hi) :
    (o.transformEcdf m a).1.arrays a = m.arrays a := by
  unfold BinnerObject.transformEcdf
  cases o.checkInput (m.arrays a).frame with
  | error e => rfl
  | ok bins =>
    dsimp only
    split_ifs
    · rfl
    · unfold ArrayMemory.asFloat
      rw [ht]
      dsimp only
      rw [ecdfLoop_other _ _ _ _ _ (by omega)]
      simp [show a ≠ m.next by omega]

/-- **C142.** An array of floats is overwritten: the array that is returned is the one that was passed. -/
theorem C142_overwritten (o : BinnerObject) (m : ArrayMemory) (a a' : ℕ) (ht : (m.arrays a).type = .float)
    (h : (o.transformEcdf m a).2 = .ok a') : a' = a := by
  unfold BinnerObject.transformEcdf at h
  cases hc : o.checkInput (m.arrays a).frame with
  | error e => rw [hc] at h; cases h
  | ok bins =>
    rw [hc] at h
    dsimp only at h
    split_ifs at h
    · simpa using h.symm
    · unfold ArrayMemory.asFloat at h
      rw [ht] at h
      exact ecdfLoop_address _ _ _ _ _ h

/-- **C142.** The array that is returned, if the passed one was not empty: after a fit that did not raise, its columns that were fitted hold the
cumulative probabilities of the entries before the call, and the other columns their entries. -/
theorem C142_result (o : BinnerObject) (F : DataFrame) (hnd : F.columns.Nodup) (hpos : Spec.PositiveWeights o.weightColumn F)
    (h : (o.fit F).2 = none) (m : ArrayMemory) (a a' : ℕ)
    (hn : (m.arrays a).frame.n ≠ 0) (hcols : (m.arrays a).frame.columns ≠ []) (hok : ((o.fit F).1.transformEcdf m a).2 = .ok a') :
    let G := (((o.fit F).1.transformEcdf m a).1.arrays a').frame
    G.n = (m.arrays a).frame.n ∧ G.columns = (m.arrays a).frame.columns ∧
    ∀ s < G.n, ∀ c,
      (c ∉ Spec.binColumns o.cfg.props o.weightColumn F.columns → G.X s c = (m.arrays a).frame.X s c) ∧
      (c ∈ Spec.binColumns o.cfg.props o.weightColumn F.columns → ∃ property weights bins, o.cfg.props.lookup c = some property ∧
        Spec.IsWeights o.weightColumn F weights ∧
        fitColumn (Flags.isSet property Flags.IS_ORDERED || Flags.isSet property Flags.IS_UNORDERED) (F.X.column F.n c) weights
          (o.cfg.nBins c) o.cfg.epsilon o.cfg.tolerance = .ok bins ∧
        ecdfValue (Flags.isSet property Flags.IS_CONTINUOUS) bins.eps bins.table ((m.arrays a).frame.X s c) = .ok (G.X s c)) := by
  classical
  intro G
  obtain ⟨L, h1, h2, -⟩ := fit_spec o F
  obtain ⟨-, -, w, hw, hL, hLc⟩ := h2 h
  have hndf : (L.map Prod.fst).Nodup := by rw [hLc]; exact hnd.filter _
  set q : BinnerObject := { o with bins := some L } with hq
  have hG : G = ((q.transformEcdf m a).1.arrays a').frame := by
    change (((o.fit F).1.transformEcdf m a).1.arrays a').frame = _
    rw [h1]
  rw [h1] at hok
  have hcheck : q.checkInput (m.arrays a).frame = .ok L := by
    by_cases hl : (Spec.binColumns q.cfg.props q.weightColumn (m.arrays a).frame.columns).length = L.length
    · exact checkInput_ok q L _ rfl hl
    · unfold BinnerObject.transformEcdf at hok
      rw [checkInput_error q L _ rfl hl] at hok
      cases hok
  have hempty : ¬ ((m.arrays a).frame.n = 0 ∨ (m.arrays a).frame.columns = []) := by simp [hn, hcols]
  have hres : q.transformEcdf m a = q.ecdfLoop (m.asFloat a).2 L (m.asFloat a).1 := by
    unfold BinnerObject.transformEcdf
    rw [hcheck]
    dsimp only
    rw [if_neg hempty]
  have hfr : ((m.asFloat a).1.arrays (m.asFloat a).2).frame = (m.arrays a).frame := by
    unfold ArrayMemory.asFloat
    cases (m.arrays a).type with
    | float => rfl
    | int lo hi => simp
  rw [hres] at hok
  have haddr := ecdfLoop_address _ _ _ _ _ hok
  obtain ⟨e1, e2, e3⟩ := ecdfLoop_entries q (m.asFloat a).2 L hndf (m.asFloat a).1 a' hok
  rw [hres, haddr] at hG
  rw [← hG] at e1 e2 e3
  rw [hfr] at e1 e2 e3
  refine ⟨e1, e2, fun s hs c => ?_⟩
  obtain ⟨e4, e5⟩ := e3 s (by rw [← e1]; exact hs) c
  constructor
  · intro hc
    apply e4
    rw [List.lookup_eq_none_iff]
    intro p hp
    have hne : c ≠ p.1 := by
      rintro rfl
      apply hc
      rw [← hLc]
      exact List.mem_map_of_mem hp
    simpa using hne
  · intro hc
    rw [← hLc] at hc
    obtain ⟨p, hp, rfl⟩ := List.mem_map.mp hc
    obtain ⟨fp, hfp, -, hfit⟩ := fitOne_ok o F w p.1 p.2 (hL p hp)
    exact ⟨fp, w, p.2, hfp, (isWeights_iff o F hpos w).mpr hw, hfit, e5 p.2 fp (lookup_of_mem L hndf p hp) hfp⟩

end CB
