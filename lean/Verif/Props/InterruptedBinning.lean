import Verif.Model.InterruptedBinning
import Verif.Props.BinnerObjectExample

/-!
# C174: a binner whose `fit` or `transform` did not finish
-/

set_option autoImplicit false
set_option linter.unusedSectionVars false

namespace CB

namespace Spec

/-- Two calls have the same outcome: they raise the same exception, or return tables with the same content. -/
def SameTable (r r' : Memory × Except TransformErr ℕ) : Prop :=
  (∃ e, r.2 = .error e ∧ r'.2 = .error e) ∨ ∃ a a', r.2 = .ok a ∧ r'.2 = .ok a' ∧ r.1.frames a = r'.1.frames a'

/-- The table without the columns the loop over the features has not reached (the weight column stays). -/
def reached (weight : Option String) (F : DataFrame) (k : ℕ) : DataFrame :=
  { F with columns := F.columns.filter fun c => decide (some c = weight ∨ c ∈ (F.columns.filter fun d => decide (some d ≠ weight)).take k) }

/-- The entry `y` is the bin number of the value `x` for the bins of a fit of this column of the table `F`. -/
def BinnedAs (o : BinnerObject) (F : DataFrame) (c : String) (x y : Flt ℝ) : Prop :=
  ∃ property weights bins, ∃ i : ℤ, o.cfg.props.lookup c = some property ∧ Spec.IsWeights o.weightColumn F weights ∧
    fitColumn (Flags.isSet property Flags.IS_ORDERED || Flags.isSet property Flags.IS_UNORDERED) (F.X.column F.n c) weights
      (o.cfg.nBins c) o.cfg.epsilon o.cfg.tolerance = .ok bins ∧
    binNumber (Flags.isSet property Flags.IS_CONTINUOUS) (Flags.isSet property Flags.HAS_MAGIC_INT_MISSING) bins.eps
      (bins.table.map Prod.fst) x = .ok i ∧ y = .fin (i : ℝ)

end Spec

/-! ### Interrupted fits -/

theorem filter_take_nodup (cols : List String) (hnd : cols.Nodup) (p : String → Bool) (k : ℕ) :
    (cols.filter fun c => decide (c ∈ (cols.filter p).take k)) = (cols.filter p).take k := by
  induction cols generalizing k with
  | nil => simp
  | cons c cs ih =>
    rw [List.nodup_cons] at hnd
    by_cases hp : p c = true
    · cases k with
      | zero => simp
      | succ k =>
        rw [List.filter_cons_of_pos (p := p) hp, List.take_succ_cons, List.filter_cons_of_pos (by simp)]
        congr 1
        rw [← ih hnd.2 k]
        apply List.filter_congr
        intro d hd
        have hne : d ≠ c := fun e => hnd.1 (e ▸ hd)
        simp [hne, ih hnd.2 k]
    · have h1 : (c :: cs).filter p = cs.filter p := List.filter_cons_of_neg hp
      rw [h1, List.filter_cons_of_neg, ih hnd.2 k]
      simp only [decide_eq_true_eq]
      intro h
      exact hnd.1 (List.mem_filter.mp (List.mem_of_mem_take h)).1

/-- **C174.** An interrupted fit leaves the binner a complete fit of the table with only the columns it had reached leaves. -/
theorem C174_interrupted_fit (o : BinnerObject) (F : DataFrame) (hnd : F.columns.Nodup) (k : ℕ) :
    o.fitUntil F k = (o.fit (Spec.reached o.weightColumn F k)).1 := by
  set G := Spec.reached o.weightColumn F k with hG
  have hfc : o.featureColumns G = (o.featureColumns F).take k := by
    unfold BinnerObject.featureColumns
    rw [← filter_take_nodup F.columns hnd (fun c => decide (some c ≠ o.weightColumn)) k, hG, Spec.reached]
    dsimp only
    rw [List.filter_filter]
    apply List.filter_congr
    intro c hc
    have himp : c ∈ (F.columns.filter fun d => decide (some d ≠ o.weightColumn)).take k → some c ≠ o.weightColumn := fun h =>
      of_decide_eq_true (List.mem_filter.mp (List.mem_of_mem_take h)).2
    by_cases h : c ∈ (F.columns.filter fun d => decide (some d ≠ o.weightColumn)).take k
    · have := himp h
      simp only [h, or_true, decide_true, Bool.and_true]
      exact decide_eq_true this
    · by_cases h' : some c = o.weightColumn <;> simp only [h, h'] <;> simp
  have hw : o.weights G = o.weights F := by
    unfold BinnerObject.weights
    cases hwc : o.weightColumn with
    | none => rfl
    | some w =>
      have : w ∈ G.columns ↔ w ∈ F.columns := by
        rw [hG]; simp [Spec.reached, hwc]
      simp only [this]
      rfl
  have hone : ∀ w c, o.fitOne G w c = o.fitOne F w c := fun _ _ => rfl
  have hloop : ∀ w cols acc, o.fitLoop G w cols acc = o.fitLoop F w cols acc := by
    intro w cols
    induction cols with
    | nil => intro acc; rfl
    | cons c cs ih =>
      intro acc
      rw [BinnerObject.fitLoop, BinnerObject.fitLoop, hone]
      cases o.fitOne F w c with
      | none => exact ih acc
      | some r =>
        cases r with
        | error e => rfl
        | ok f => exact ih _
  unfold BinnerObject.fitUntil BinnerObject.fit
  rw [hw, hfc]
  by_cases hn : F.n = 0
  · rw [if_pos (.inl hn), if_pos (.inl hn)]
  by_cases hc : F.columns = []
  · rw [if_pos (.inr hc), if_pos (.inr (by rw [hG]; simp [Spec.reached, hc]))]
  rw [if_neg (by tauto)]
  by_cases hg : G.columns = []
  · rw [if_pos (.inr hg)]
    cases o.weights F with
    | error e => rfl
    | ok w =>
      have : (o.featureColumns F).take k = [] := by
        rw [← hfc]; unfold BinnerObject.featureColumns; rw [hg]; rfl
      dsimp only
      rw [this]
      rfl
  · rw [if_neg (by rw [not_or]; exact ⟨hn, hg⟩)]
    cases o.weights F with
    | error e => rfl
    | ok w => dsimp only; rw [hloop]

/-- **C174.** A fit that was interrupted before the last column to be binned is noticed: every table with at least as many columns to be binned
as the training table is refused, and nothing is changed. -/
theorem C174_noticed (o : BinnerObject) (F : DataFrame) (hnd : F.columns.Nodup) (k : ℕ) (c : String)
    (hc : c ∈ Spec.binColumns o.cfg.props o.weightColumn F.columns) (hk : c ∉ (Spec.reached o.weightColumn F k).columns) (m : Memory) (a : ℕ)
    (hG : (Spec.binColumns o.cfg.props o.weightColumn F.columns).length ≤
      (Spec.binColumns o.cfg.props o.weightColumn (m.frames a).columns).length) :
    (o.fitUntil F k).transform m a = (m, .error .valueError) := by
  classical
  rw [C174_interrupted_fit o F hnd k]
  obtain ⟨L, h1, h2, h3⟩ := fit_spec o (Spec.reached o.weightColumn F k)
  have hlt : (Spec.binColumns o.cfg.props o.weightColumn (Spec.reached o.weightColumn F k).columns).length <
      (Spec.binColumns o.cfg.props o.weightColumn F.columns).length := by
    have hsub : Spec.binColumns o.cfg.props o.weightColumn (Spec.reached o.weightColumn F k).columns ⊆
        (Spec.binColumns o.cfg.props o.weightColumn F.columns).erase c := by
      intro d hd
      obtain ⟨hd1, hd2⟩ := List.mem_filter.mp hd
      have hne : d ≠ c := fun e => hk (e ▸ hd1)
      exact (List.mem_erase_of_ne hne).mpr (List.mem_filter.mpr ⟨(List.mem_filter.mp hd1).1, hd2⟩)
    have hndr : (Spec.binColumns o.cfg.props o.weightColumn (Spec.reached o.weightColumn F k).columns).Nodup := (hnd.filter _).filter _
    have h := (List.subperm_of_subset hndr hsub).length_le
    rw [List.length_erase_of_mem hc] at h
    have := List.length_pos_of_mem hc
    omega
  have hL : L.length < (Spec.binColumns o.cfg.props o.weightColumn F.columns).length := by
    by_cases hr : (o.fit (Spec.reached o.weightColumn F k)).2 = none
    · obtain ⟨-, -, w, -, -, hLc⟩ := h2 hr
      rw [← List.length_map (f := Prod.fst), hLc]; exact hlt
    · rcases h3 hr with rfl | h
      · exact List.length_pos_of_mem hc
      · omega
  rw [h1]
  unfold BinnerObject.transform
  rw [checkInput_error ({ o with bins := some L } : BinnerObject) L _ rfl (fun e => by
    have : (Spec.binColumns o.cfg.props o.weightColumn (m.frames a).columns).length = L.length := e
    omega)]

/-! ### Interrupted transformations -/

theorem transformLoop_local (o : BinnerObject) (L : List (String × ColFit ℝ)) (a b : ℕ) (m m' : Memory) (h : m.frames a = m'.frames b) :
    (o.transformLoop a L m).1.frames a = (o.transformLoop b L m').1.frames b ∧
    ((∃ e, (o.transformLoop a L m).2 = .error e ∧ (o.transformLoop b L m').2 = .error e) ∨
      ((o.transformLoop a L m).2 = .ok a ∧ (o.transformLoop b L m').2 = .ok b)) := by
  classical
  induction L generalizing m m' with
  | nil => exact ⟨h, .inr ⟨rfl, rfl⟩⟩
  | cons p L ih =>
    obtain ⟨c, f⟩ := p
    rw [BinnerObject.transformLoop, BinnerObject.transformLoop]
    cases o.cfg.props.lookup c with
    | none => exact ih m m' h
    | some fp =>
      dsimp only
      rw [h]
      split_ifs
      · exact ih _ _ (by simp [Memory.setColumn, h])
      · exact ⟨h, .inl ⟨_, rfl, rfl⟩⟩
      · exact ⟨h, .inl ⟨_, rfl, rfl⟩⟩

/-- **C174.** Without `inplace` a transformation that was interrupted, at whatever point, changes no table that existed before, and can be
repeated: the repetition raises the same exception, or returns the same table, as the call would have without interruption. -/
theorem C174_repeat (o : BinnerObject) (hi : o.inplace = false) (m : Memory) (a : ℕ) (ha : a < m.next) (k : ℕ) :
    (∀ b < m.next, (o.transformUntil m a k).frames b = m.frames b) ∧
    Spec.SameTable (o.transform (o.transformUntil m a k) a) (o.transform m a) := by
  classical
  have h1 : ∀ b < m.next, (o.transformUntil m a k).frames b = m.frames b := by
    intro b hb
    have hne : b ≠ m.next := by omega
    unfold BinnerObject.transformUntil
    cases o.checkInput (m.frames a) with
    | error e => rfl
    | ok L =>
      dsimp only
      rw [hi]
      simp only [Bool.false_eq_true, if_false, Memory.copy]
      split_ifs
      · simp [hne]
      · rw [transformLoop_other _ _ _ _ _ hne]; simp [hne]
  refine ⟨h1, ?_⟩
  have hfr := h1 a ha
  generalize o.transformUntil m a k = m₁ at hfr
  unfold BinnerObject.transform
  rw [hfr]
  cases o.checkInput (m.frames a) with
  | error e => exact .inl ⟨e, rfl, rfl⟩
  | ok L =>
    dsimp only
    rw [hi]
    simp only [Bool.false_eq_true, if_false, Memory.copy, Function.update_self, hfr]
    split_ifs
    · exact .inr ⟨_, _, rfl, rfl, by simp⟩
    · exact .inl ⟨_, rfl, rfl⟩
    · obtain ⟨e1, e2⟩ := transformLoop_local o L m₁.next m.next ⟨Function.update m₁.frames m₁.next (m.frames a), m₁.next + 1⟩
        ⟨Function.update m.frames m.next (m.frames a), m.next + 1⟩ (by simp)
      rcases e2 with ⟨e, h2, h3⟩ | ⟨h2, h3⟩
      · exact .inl ⟨e, h2, h3⟩
      · exact .inr ⟨_, _, h2, h3, e1⟩

theorem cell_binnedAs (o : BinnerObject) (F : DataFrame) (hpos : Spec.PositiveWeights o.weightColumn F) (w : List ℝ) (hw : o.weights F = .ok w)
    (L : List (String × ColFit ℝ)) (hL : ∀ p ∈ L, o.fitOne F w p.1 = some (.ok p.2)) (hndf : (L.map Prod.fst).Nodup)
    (hgood : GoodBins o.cfg L) (c : String) (hc : c ∈ L.map Prod.fst) (x y : Flt ℝ) (h : .ok y = o.cfg.cell L c x) :
    Spec.BinnedAs o F c x y := by
  obtain ⟨p, hp, rfl⟩ := List.mem_map.mp hc
  obtain ⟨fp, hfp, -, hfit⟩ := fitOne_ok o F w p.1 p.2 (hL p hp)
  have hlk : L.lookup p.1 = some p.2 := lookup_of_mem L hndf p hp
  obtain ⟨fp', hfp', hgi⟩ := hgood p hp
  rw [hfp] at hfp'
  cases hfp'
  obtain ⟨i, hi⟩ := hgi x
  refine ⟨fp, w, p.2, i, hfp, (isWeights_iff o F hpos w).mpr hw, hfit, hi, ?_⟩
  unfold Binner.cell at h
  rw [hlk, hfp] at h
  dsimp only at h
  rw [hi] at h
  simpa using h

theorem cell_other (B : Binner) (L : List (String × ColFit ℝ)) (c : String) (hc : c ∉ L.map Prod.fst) (x y : Flt ℝ)
    (h : .ok y = B.cell L c x) : y = x := by
  have hlk : L.lookup c = none := by
    rw [List.lookup_eq_none_iff]
    intro p hp
    have hne : c ≠ p.1 := by
      rintro rfl
      exact hc (List.mem_map_of_mem hp)
    simpa using hne
  unfold Binner.cell at h
  rw [hlk] at h
  simpa using h

/-- The bins an interrupted or complete loop over the columns uses, with everything known about them. -/
theorem fitted_bins_known (o : BinnerObject) (htol : 0 ≤ o.cfg.tolerance) (F : DataFrame) (hnd : F.columns.Nodup)
    (hpos : Spec.PositiveWeights o.weightColumn F) (h : (o.fit F).2 = none) :
    ∃ L w, (o.fit F).1 = { o with bins := some L } ∧ o.weights F = .ok w ∧ (∀ p ∈ L, o.fitOne F w p.1 = some (.ok p.2)) ∧
      L.map Prod.fst = Spec.binColumns o.cfg.props o.weightColumn F.columns ∧ (L.map Prod.fst).Nodup ∧ GoodBins o.cfg L := by
  classical
  obtain ⟨L, h1, h2, -⟩ := fit_spec o F
  obtain ⟨-, -, w, hw, hL, hLc⟩ := h2 h
  exact ⟨L, w, h1, hw, hL, hLc, by rw [hLc]; exact hnd.filter _, fitOne_good o htol F w hw hpos L hL⟩

/-- **C174 (partial: with `inplace` the table of the caller is not as before).** A transformation in place that was interrupted after `k`
columns leaves a table in which these `k` columns hold bin numbers and all others their values. -/
theorem C174_inplace_partial (o : BinnerObject) (hi : o.inplace = true) (htol : 0 ≤ o.cfg.tolerance) (F : DataFrame) (hnd : F.columns.Nodup)
    (hpos : Spec.PositiveWeights o.weightColumn F) (h : (o.fit F).2 = none) (m : Memory) (a k : ℕ) (hn : (m.frames a).n ≠ 0)
    (hlen : (Spec.binColumns o.cfg.props o.weightColumn (m.frames a).columns).length =
      (Spec.binColumns o.cfg.props o.weightColumn F.columns).length)
    (hcols : ∀ c ∈ (Spec.binColumns o.cfg.props o.weightColumn F.columns).take k, c ∈ (m.frames a).columns) :
    let before := m.frames a
    let after := ((o.fit F).1.transformUntil m a k).frames a
    let done := (Spec.binColumns o.cfg.props o.weightColumn F.columns).take k
    after.columns = before.columns ∧ after.n = before.n ∧
      ∀ s c, (c ∈ done → Spec.BinnedAs o F c (before.X s c) (after.X s c)) ∧ (c ∉ done → after.X s c = before.X s c) := by
  classical
  intro before after done
  obtain ⟨L, w, h1, hw, hL, hLc, hndf, hgood⟩ := fitted_bins_known o htol F hnd hpos h
  have hdone : (L.take k).map Prod.fst = done := by rw [List.map_take, hLc]
  have hndk : ((L.take k).map Prod.fst).Nodup := by rw [List.map_take]; exact hndf.sublist (List.take_sublist _ _)
  have hgk : GoodBins o.cfg (L.take k) := fun p hp => hgood p (List.mem_of_mem_take hp)
  obtain ⟨m', e1, e2, e3, e4⟩ := transformLoop_ok ({ o with bins := some L } : BinnerObject) a (L.take k) hgk hndk m (fun p hp => by
    apply hcols
    change p.1 ∈ done
    rw [← hdone]
    exact List.mem_map_of_mem hp)
  have hcheck : ({ o with bins := some L } : BinnerObject).checkInput (m.frames a) = .ok L :=
    checkInput_ok _ L _ rfl (by rw [← List.length_map (f := Prod.fst) (as := L), hLc]; exact hlen)
  have hafter : after = if (m.frames a).columns = [] then m.frames a else m'.frames a := by
    change ((o.fit F).1.transformUntil m a k).frames a = _
    rw [h1]
    unfold BinnerObject.transformUntil
    rw [hcheck]
    dsimp only
    rw [hi]
    simp only [if_true]
    by_cases hc : (m.frames a).columns = []
    · rw [if_pos (.inr hc), if_pos hc]
    · rw [if_neg (by tauto), if_neg hc]
      rw [hi] at e1
      rw [e1]
  by_cases hc : (m.frames a).columns = []
  · rw [if_pos hc] at hafter
    rw [hafter]
    refine ⟨rfl, rfl, fun s c => ⟨fun hd => ?_, fun _ => rfl⟩⟩
    have := hcols c hd
    rw [hc] at this
    simp at this
  · rw [if_neg hc] at hafter
    rw [hafter]
    refine ⟨e2, e3, fun s c => ⟨fun hd => ?_, fun hd => ?_⟩⟩
    · exact cell_binnedAs o F hpos w hw (L.take k) (fun p hp => hL p (List.mem_of_mem_take hp)) hndk hgk c (by rw [hdone]; exact hd) _ _
        (e4 s c)
    · exact cell_other o.cfg (L.take k) c (by rw [hdone]; exact hd) _ _ (e4 s c)

/-- A transformation that returns is one that is interrupted after its last column. -/
theorem transform_until (o : BinnerObject) (hi : o.inplace = true) (L : List (String × ColFit ℝ)) (hb : o.bins = some L) (m : Memory) (a : ℕ)
    (hn : (m.frames a).n ≠ 0) (hc : (m.frames a).columns ≠ []) :
    (o.transform m a).1 = o.transformUntil m a L.length := by
  unfold BinnerObject.transform BinnerObject.transformUntil
  cases hch : o.checkInput (m.frames a) with
  | error e => rfl
  | ok L' =>
    have : L' = L := by
      unfold BinnerObject.checkInput at hch
      rw [hb] at hch
      dsimp only at hch
      split_ifs at hch
      cases hch
      rfl
    subst this
    dsimp only
    rw [hi]
    simp only [if_true]
    rw [if_neg (by tauto), if_neg (by tauto), List.take_length]

/-- **C174 (partial: the repetition is not what the call would have returned without interruption).** A transformation in place that was
interrupted after `k` columns and is repeated on the same table: these `k` columns hold the bin numbers of bin numbers, the other columns to be
binned the bin numbers of their values. -/
theorem C174_inplace_repeat_partial (o : BinnerObject) (hi : o.inplace = true) (htol : 0 ≤ o.cfg.tolerance) (F : DataFrame)
    (hnd : F.columns.Nodup) (hpos : Spec.PositiveWeights o.weightColumn F) (h : (o.fit F).2 = none) (m : Memory) (a k : ℕ)
    (hn : (m.frames a).n ≠ 0) (hc0 : (m.frames a).columns ≠ [])
    (hlen : (Spec.binColumns o.cfg.props o.weightColumn (m.frames a).columns).length =
      (Spec.binColumns o.cfg.props o.weightColumn F.columns).length)
    (hcols : ∀ c ∈ Spec.binColumns o.cfg.props o.weightColumn F.columns, c ∈ (m.frames a).columns) :
    let before := m.frames a
    let fitted := Spec.binColumns o.cfg.props o.weightColumn F.columns
    let again := ((o.fit F).1.transform ((o.fit F).1.transformUntil m a k) a).1.frames a
    ∀ s c, (c ∈ fitted.take k → ∃ y, Spec.BinnedAs o F c (before.X s c) y ∧ Spec.BinnedAs o F c y (again.X s c)) ∧
      (c ∈ fitted → c ∉ fitted.take k → Spec.BinnedAs o F c (before.X s c) (again.X s c)) ∧
      (c ∉ fitted → again.X s c = before.X s c) := by
  classical
  intro before fitted again s c
  obtain ⟨L, w, h1, hw, hL, hLc, hndf, hgood⟩ := fitted_bins_known o htol F hnd hpos h
  obtain ⟨e1, e2, e3⟩ := C174_inplace_partial o hi htol F hnd hpos h m a k hn hlen (fun c hc => hcols c (List.mem_of_mem_take hc))
  set m₁ := (o.fit F).1.transformUntil m a k with hm₁
  have hagain : again = ((o.fit F).1.transformUntil m₁ a L.length).frames a := by
    change ((o.fit F).1.transform m₁ a).1.frames a = _
    rw [h1, transform_until ({ o with bins := some L } : BinnerObject) hi L rfl m₁ a (by rw [e2]; exact hn) (by rw [e1]; exact hc0)]
  have hfl : fitted.take L.length = fitted := by
    rw [← List.length_map (f := Prod.fst) (as := L), hLc]; exact List.take_length
  obtain ⟨-, -, f3⟩ := C174_inplace_partial o hi htol F hnd hpos h m₁ a L.length (by rw [e2]; exact hn) (by rw [e1]; exact hlen)
    (fun c hc => by rw [e1]; exact hcols c (List.mem_of_mem_take hc))
  rw [← hagain] at f3
  obtain ⟨g1, g2⟩ := e3 s c
  obtain ⟨g3, g4⟩ := f3 s c
  change (c ∈ fitted.take L.length → _) at g3
  change (c ∉ fitted.take L.length → _) at g4
  rw [hfl] at g3 g4
  refine ⟨fun hk => ⟨_, g1 hk, g3 (List.mem_of_mem_take hk)⟩, fun hf hk => ?_, fun hf => ?_⟩
  · have := g3 hf
    rw [g2 hk] at this
    exact this
  · rw [g4 hf, g2 fun hk => hf (List.mem_of_mem_take hk)]

theorem transformLoop_stops (o : BinnerObject) (a : ℕ) (L : List (String × ColFit ℝ)) (hgood : GoodBins o.cfg L) (m : Memory)
    (hmiss : ∃ p ∈ L, p.1 ∉ (m.frames a).columns) :
    ∃ k, ∃ hk : k < L.length, L[k].1 ∉ (m.frames a).columns ∧ (∀ p ∈ L.take k, p.1 ∈ (m.frames a).columns) ∧
      o.transformLoop a L m = ((o.transformLoop a (L.take k) m).1, .error .keyError) := by
  classical
  induction L generalizing m with
  | nil => obtain ⟨p, hp, -⟩ := hmiss; simp at hp
  | cons p L ih =>
    obtain ⟨c, f⟩ := p
    obtain ⟨fp, hfp, hok⟩ := hgood (c, f) (by simp)
    by_cases hc : c ∈ (m.frames a).columns
    · obtain ⟨m₁, hcolm, hstep⟩ : ∃ m₁ : Memory, (m₁.frames a).columns = (m.frames a).columns ∧
          ∀ L', o.transformLoop a ((c, f) :: L') m = o.transformLoop a L' m₁ := by
        choose number hnumber using hok
        refine ⟨m.setColumn a c fun s => .fin (number ((m.frames a).X s c) : ℝ), by simp [Memory.setColumn], fun L' => ?_⟩
        rw [BinnerObject.transformLoop]
        simp only [hfp]
        rw [if_pos hc, if_pos fun s _ => ⟨_, hnumber _⟩]
        simp only [hnumber]
      obtain ⟨k, hk, g1, g2, g3⟩ := ih (fun p hp => hgood p (List.mem_cons_of_mem _ hp)) m₁ (by
        rw [hcolm]
        obtain ⟨p, hp, hpc⟩ := hmiss
        rcases List.mem_cons.mp hp with rfl | hp
        · exact absurd hc hpc
        · exact ⟨p, hp, hpc⟩)
      rw [hcolm] at g1 g2
      refine ⟨k + 1, by simpa using hk, by simpa using g1, ?_, ?_⟩
      · intro p hp
        rw [List.take_succ_cons] at hp
        rcases List.mem_cons.mp hp with rfl | hp
        · exact hc
        · exact g2 p hp
      · rw [List.take_succ_cons, hstep, hstep, g3]
    · refine ⟨0, by simp, by simpa using hc, by simp, ?_⟩
      rw [BinnerObject.transformLoop, hfp]
      dsimp only
      rw [if_neg hc]
      rfl

/-- **C174.** An exception is such an interruption: a transformation in place of a table in which columns are missing raises KeyError after it
has replaced the columns before the first missing one. -/
theorem C174_raised (o : BinnerObject) (hi : o.inplace = true) (htol : 0 ≤ o.cfg.tolerance) (F : DataFrame) (hnd : F.columns.Nodup)
    (hpos : Spec.PositiveWeights o.weightColumn F) (h : (o.fit F).2 = none) (m : Memory) (a : ℕ) (hn : (m.frames a).n ≠ 0)
    (hc0 : (m.frames a).columns ≠ [])
    (hlen : (Spec.binColumns o.cfg.props o.weightColumn (m.frames a).columns).length =
      (Spec.binColumns o.cfg.props o.weightColumn F.columns).length)
    (hmiss : ∃ c ∈ Spec.binColumns o.cfg.props o.weightColumn F.columns, c ∉ (m.frames a).columns) :
    let fitted := Spec.binColumns o.cfg.props o.weightColumn F.columns
    ∃ k, (∃ c, fitted[k]? = some c ∧ c ∉ (m.frames a).columns) ∧ (∀ c ∈ fitted.take k, c ∈ (m.frames a).columns) ∧
      (o.fit F).1.transform m a = ((o.fit F).1.transformUntil m a k, .error .keyError) := by
  classical
  intro fitted
  obtain ⟨L, w, h1, hw, hL, hLc, hndf, hgood⟩ := fitted_bins_known o htol F hnd hpos h
  have hcheck : ({ o with bins := some L } : BinnerObject).checkInput (m.frames a) = .ok L :=
    checkInput_ok _ L _ rfl (by rw [← List.length_map (f := Prod.fst) (as := L), hLc]; exact hlen)
  obtain ⟨k, hk, g1, g2, g3⟩ := transformLoop_stops ({ o with bins := some L } : BinnerObject) a L hgood m (by
    obtain ⟨c, hc, hcm⟩ := hmiss
    rw [← hLc] at hc
    obtain ⟨p, hp, rfl⟩ := List.mem_map.mp hc
    exact ⟨p, hp, hcm⟩)
  have hfit : fitted = L.map Prod.fst := hLc.symm
  refine ⟨k, ⟨L[k].1, by rw [hfit]; simp [hk], g1⟩, ?_, ?_⟩
  · intro c hc
    rw [hfit, ← List.map_take] at hc
    obtain ⟨p, hp, rfl⟩ := List.mem_map.mp hc
    exact g2 p hp
  · rw [h1]
    unfold BinnerObject.transform BinnerObject.transformUntil
    rw [hcheck]
    dsimp only
    rw [hi]
    simp only [if_true]
    rw [if_neg (by tauto), if_neg (by tauto)]
    rw [hi] at g3
    exact g3

/-! ### The counterexample -/

/-- Two tables in memory, both the training table with the categories 10 and 30. -/
def catMemory : Memory := ⟨fun _ => catFrame, 2⟩

theorem catObject_inplace : ((BinnerObject.new catBinner none true).fit catFrame).1.inplace = true := by
  rw [(C140_pipeline_fit catBinner true catFrame _).mpr catBins]

/-- **C174.** The full claim is false with `inplace`: the category 10 is replaced by 0; if this transformation is interrupted after the column
(or simply repeated), the repetition takes the 0 for an unknown category and returns -1. -/
theorem C174_counterexample :
    let B := ((BinnerObject.new catBinner none true).fit catFrame).1
    (B.transform catMemory 0).2 = .ok 0 ∧ ((B.transform catMemory 0).1.frames 0).X 0 "a" = .fin 0 ∧
    (B.transform (B.transformUntil catMemory 0 1) 0).2 = .ok 0 ∧
    ((B.transform (B.transformUntil catMemory 0 1) 0).1.frames 0).X 0 "a" = .fin (-1) := by
  intro B
  have hcol : catFrame.X.column catFrame.n "a" = [some 10, some 30] := exColumn
  have hrow : catFrame.X 0 "a" = .fin 10 := by
    simp [catFrame, exRaw]
  have key : ∀ m : Memory, (m.frames 0).columns = ["a"] → (m.frames 0).n = 2 → (B.transform m 0).2 = .ok 0 ∧
      ((m.frames 0).X 0 "a" = .fin 10 → ((B.transform m 0).1.frames 0).X 0 "a" = .fin 0) ∧
      ((m.frames 0).X 0 "a" = .fin 0 → ((B.transform m 0).1.frames 0).X 0 "a" = .fin (-1)) := by
    intro m hmc hmn
    have hb : Spec.binColumns catBinner.props none (m.frames 0).columns = ["a"] := by rw [hmc]; exact cat_binColumns
    obtain ⟨-, -, h3⟩ := C140_transform (BinnerObject.new catBinner none true) (by norm_num [BinnerObject.new, catBinner]) catFrame
      (by simp [catFrame]) (fun c hc => by cases hc) (catObject_fit true) [] (by simp) m m 0 (by rw [hmc]; simp)
    have hl : (Spec.binColumns catBinner.props none (m.frames 0).columns).length =
        (Spec.binColumns catBinner.props none catFrame.columns).length := by rw [hb, cat_binColumns]
    have hcs : ∀ c ∈ Spec.binColumns catBinner.props none catFrame.columns, c ∈ (m.frames 0).columns := by
      rw [cat_binColumns, hmc]; simp
    obtain ⟨a', G, h4, h5, h6, h7, h8⟩ := h3 hl hcs
    rw [List.foldl_nil] at h4 h5
    have ha : a' = 0 := C140_inplace B catObject_inplace m 0 a' (by rw [hmn]; norm_num) (by rw [hmc]; simp) h4
    subst ha
    have hcat := C140_categories (BinnerObject.new catBinner none true) (by norm_num [BinnerObject.new, catBinner])
      (by norm_num [BinnerObject.new, catBinner]) (by norm_num [BinnerObject.new, catBinner]) catFrame
      (by simp [catFrame]) (fun c hc => by cases hc) (catObject_fit true) m 0 0 (by rw [hmc]; simp) hl hcs h4 "a" (by rw [hmc]; simp)
      (by simp [BinnerObject.new]) (Flags.IS_UNORDERED ||| Flags.MISSING_NOT_LEARNED) (by simp [BinnerObject.new, catBinner]) (by decide)
      (by decide) (by decide) ⟨10, by rw [hcol]; simp⟩ 0 (by rw [hmn]; norm_num)
    refine ⟨h4, fun h => ?_, fun h => ?_⟩
    · have := hcat.1 10 h (by rw [hcol]; simp)
      rw [hcol] at this
      refine this.trans ?_
      congr 1
      unfold Spec.rankIn
      have : ((([some (10 : ℝ), some 30].filterMap id).toFinset).filter (· < 10)) = ∅ := by
        ext x
        simp only [List.filterMap_cons, id, List.filterMap_nil, List.toFinset_cons, List.toFinset_nil, Finset.mem_filter, Finset.mem_insert,
          Finset.notMem_empty, or_false, iff_false]
        rintro ⟨rfl | rfl, h⟩ <;> norm_num at h
      rw [this]
      simp
    · refine hcat.2.1 0 h ⟨10, 30, by rw [hcol]; simp, by rw [hcol]; simp, by norm_num, ?_⟩
      rw [hcol]
      intro t ht
      have : t = 10 ∨ t = 30 := by simpa using ht
      rcases this with rfl | rfl <;> norm_num [BinnerObject.new, catBinner, abs_of_pos, abs_of_neg]
  obtain ⟨k1, k2, -⟩ := key catMemory rfl rfl
  have hlen : (Spec.binColumns catBinner.props none (catMemory.frames 0).columns).length =
      (Spec.binColumns catBinner.props none catFrame.columns).length := rfl
  obtain ⟨e1, e2, -⟩ := C174_inplace_partial (BinnerObject.new catBinner none true) rfl (by norm_num [BinnerObject.new, catBinner]) catFrame
    (by simp [catFrame]) (fun c hc => by cases hc) (catObject_fit true) catMemory 0 1 (by simp [catMemory, catFrame]) hlen (by
      intro c hc
      exact (List.mem_filter.mp (List.mem_of_mem_take hc)).1)
  obtain ⟨k3, -, k4⟩ := key (B.transformUntil catMemory 0 1) e1 e2
  have hsame : B.transformUntil catMemory 0 1 = (B.transform catMemory 0).1 := by
    obtain ⟨L, w, h1, -, -, hLc, -⟩ := fitted_bins_known (BinnerObject.new catBinner none true) (by norm_num [BinnerObject.new, catBinner]) catFrame
      (by simp [catFrame]) (fun c hc => by cases hc) (catObject_fit true)
    have hone : L.length = 1 := by
      rw [← List.length_map (f := Prod.fst) (as := L), hLc]
      exact congrArg List.length cat_binColumns
    change ((BinnerObject.new catBinner none true).fit catFrame).1.transformUntil catMemory 0 1 =
      (((BinnerObject.new catBinner none true).fit catFrame).1.transform catMemory 0).1
    rw [h1, transform_until _ rfl L rfl catMemory 0 (by simp [catMemory, catFrame]) (by simp [catMemory, catFrame]), hone]
  exact ⟨k1, k2 hrow, k3, k4 (by rw [hsame]; exact k2 hrow)⟩

/-! ### Witnesses -/

/-- A fit that was interrupted before its only column: tables with this column are refused. -/
example (m : Memory) (h : m.frames 0 = catFrame) : ((BinnerObject.new catBinner none false).fitUntil catFrame 0).transform m 0 =
    (m, .error .valueError) :=
  C174_noticed (BinnerObject.new catBinner none false) catFrame (by simp [catFrame]) 0 "a"
    (by change "a" ∈ Spec.binColumns catBinner.props none catFrame.columns; rw [cat_binColumns]; simp)
    (by simp [Spec.reached, BinnerObject.new]) m 0 (by rw [h])

/-- A binner with feature properties for two columns. -/
noncomputable def twoBinner : Binner := { catBinner with props := catBinner.props ++ [("b", Flags.IS_UNORDERED)] }

theorem twoBinner_fit : ((BinnerObject.new twoBinner none true).fit catFrame).2 = none := by
  have hone : ∀ w, (BinnerObject.new twoBinner none true).fitOne catFrame w "a" = (BinnerObject.new catBinner none true).fitOne catFrame w "a" := by
    intro w
    simp [BinnerObject.fitOne, BinnerObject.new, twoBinner, catBinner]
  have h := catObject_fit true
  unfold BinnerObject.fit at h ⊢
  have hne : ¬ (catFrame.n = 0 ∨ catFrame.columns = []) := by simp [catFrame]
  rw [if_neg hne] at h ⊢
  have hf : ∀ B : Binner, (BinnerObject.new B none true).featureColumns catFrame = ["a"] := by
    intro B; simp [BinnerObject.featureColumns, BinnerObject.new, catFrame]
  have hw : ∀ B : Binner, (BinnerObject.new B none true).weights catFrame = .ok (List.replicate 2 1) := fun _ => rfl
  rw [hw, hf] at h ⊢
  dsimp only at h ⊢
  rw [BinnerObject.fitLoop, hone]
  rw [BinnerObject.fitLoop] at h
  cases hr : (BinnerObject.new catBinner none true).fitOne catFrame (List.replicate 2 1) "a" with
  | none => rfl
  | some r =>
    rw [hr] at h
    cases r with
    | error e => simp at h
    | ok f => rfl

/-- The hypotheses of `C174_raised` are met: the table has the column "b" instead of "a". -/
example (m : Memory) (h : m.frames 0 = { catFrame with columns := ["b"] }) :
    (((BinnerObject.new twoBinner none true).fit catFrame).1.transform m 0).2 = .error .keyError := by
  classical
  have ha : Spec.ToBin twoBinner.props none "a" := ⟨by simp, _, by simp [twoBinner, catBinner]; rfl⟩
  have hb : Spec.ToBin twoBinner.props none "b" := ⟨by simp, Flags.IS_UNORDERED, by simp [twoBinner, catBinner, List.lookup]⟩
  obtain ⟨k, -, -, hk⟩ := C174_raised (BinnerObject.new twoBinner none true) rfl (by norm_num [BinnerObject.new, twoBinner, catBinner]) catFrame
    (by simp [catFrame]) (fun c hc => by cases hc) twoBinner_fit m 0 (by rw [h]; simp [catFrame]) (by rw [h]; simp)
    (by rw [h]; simp [Spec.binColumns, catFrame, BinnerObject.new, ha, hb])
    ⟨"a", by simp [Spec.binColumns, catFrame, BinnerObject.new, ha], by rw [h]; simp⟩
  rw [hk]

end CB
