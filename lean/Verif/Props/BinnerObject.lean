import Verif.Lemmas.BinnerObject

/-!
# C140: the binner as an object
-/

set_option autoImplicit false
set_option linter.unusedSectionVars false

namespace CB

/-! ### Histories of calls -/

/-- Calls do not change the settings of the binner. -/
theorem run_settings (calls : List BinnerCall) (s : BinnerObject × Memory) :
    (calls.foldl BinnerCall.run s).1 = { s.1 with bins := (calls.foldl BinnerCall.run s).1.bins } := by
  induction calls generalizing s with
  | nil => rfl
  | cons c calls ih =>
    rw [List.foldl_cons, ih]
    cases c with
    | fit F =>
      obtain ⟨L, h, -⟩ := fit_spec s.1 F
      simp only [BinnerCall.run]
      rw [h]
    | transform a => rfl

theorem run_transforms (calls : List BinnerCall) (hcalls : ∀ c ∈ calls, ∃ a, c = .transform a) (s : BinnerObject × Memory) :
    (calls.foldl BinnerCall.run s).1 = s.1 := by
  induction calls generalizing s with
  | nil => rfl
  | cons c calls ih =>
    obtain ⟨a, rfl⟩ := hcalls c (by simp)
    rw [List.foldl_cons, ih fun c hc => hcalls c (List.mem_cons_of_mem _ hc)]
    rfl

theorem fit_bins_irrelevant (o : BinnerObject) (bins : Option (List (String × ColFit ℝ))) (F : DataFrame) :
    ({ o with bins := bins } : BinnerObject).fit F = o.fit F := by
  have h1 : ∀ (w : List ℝ) (c : String), ({ o with bins := bins } : BinnerObject).fitOne F w c = o.fitOne F w c := fun _ _ => rfl
  have h2 : ∀ (w : List ℝ) (cols : List String) (acc : List (String × ColFit ℝ)),
      ({ o with bins := bins } : BinnerObject).fitLoop F w cols acc = o.fitLoop F w cols acc := by
    intro w cols
    induction cols with
    | nil => intro acc; rfl
    | cons c cs ih =>
      intro acc
      rw [BinnerObject.fitLoop, BinnerObject.fitLoop, h1]
      cases o.fitOne F w c with
      | none => exact ih acc
      | some r =>
        cases r with
        | error e => rfl
        | ok f => exact ih _
  have h3 : ({ o with bins := bins } : BinnerObject).weights F = o.weights F := rfl
  have h4 : ({ o with bins := bins } : BinnerObject).featureColumns F = o.featureColumns F := rfl
  unfold BinnerObject.fit
  rw [h3, h4]
  split_ifs
  · rfl
  · cases o.weights F with
    | error e => rfl
    | ok w => dsimp only; rw [h2]

/-! ### The properties -/

/-- **C140.** A binner that was never fitted says so, whatever it was asked to transform before. -/
theorem C140_unfitted (B : Binner) (weight : Option String) (inplace : Bool) (calls : List BinnerCall)
    (hcalls : ∀ c ∈ calls, ∃ a, c = .transform a) (m0 : Memory) (m : Memory) (a : ℕ) :
    (calls.foldl BinnerCall.run (BinnerObject.new B weight inplace, m0)).1.transform m a = (m, .error .runtimeError) := by
  rw [run_transforms calls hcalls]
  rfl

/-- **C140.** A fit forgets what was fitted before: after any history it leaves the same object, and raises the same exception, as the first fit
of a new binner. -/
theorem C140_refit (B : Binner) (weight : Option String) (inplace : Bool) (calls : List BinnerCall) (m0 : Memory) (F : DataFrame) :
    (calls.foldl BinnerCall.run (BinnerObject.new B weight inplace, m0)).1.fit F = (BinnerObject.new B weight inplace).fit F := by
  rw [run_settings, fit_bins_irrelevant]

/-- **C140.** If `fit` raised, then `transform` raises for every table with at least as many columns to be binned, and changes nothing, as long
as there was something to bin. -/
theorem C140_failed_fit (o : BinnerObject) (F : DataFrame) (e : BinErr) (h : (o.fit F).2 = some e)
    (hF : Spec.binColumns o.cfg.props o.weightColumn F.columns ≠ []) (calls : List BinnerCall)
    (hcalls : ∀ c ∈ calls, ∃ a, c = .transform a) (m0 m : Memory) (a : ℕ)
    (hG : (Spec.binColumns o.cfg.props o.weightColumn F.columns).length ≤
      (Spec.binColumns o.cfg.props o.weightColumn (m.frames a).columns).length) :
    (calls.foldl BinnerCall.run ((o.fit F).1, m0)).1.transform m a = (m, .error .valueError) := by
  rw [run_transforms calls hcalls]
  obtain ⟨L, h1, -, h3⟩ := fit_spec o F
  have hlt : L.length < (Spec.binColumns o.cfg.props o.weightColumn F.columns).length := by
    rcases h3 (by rw [h]; simp) with rfl | h3
    · exact List.length_pos_iff.mpr hF
    · exact h3
  dsimp only
  rw [h1]
  unfold BinnerObject.transform
  rw [checkInput_error _ L _ rfl (by dsimp only; omega)]

/-- **C140.** After a fit that did not raise (with positive weights), whatever happened before and was transformed since, `transform` does
exactly this: it raises ValueError if the table has not as many columns to be binned as the one of the fit; otherwise KeyError if a column that
was fitted is not there; otherwise it returns a table with the same columns and rows, in which every column to be binned holds the bin numbers
of its values for the bins of this fit, and all other columns are as they were. -/
theorem C140_transform (o : BinnerObject) (htol : 0 ≤ o.cfg.tolerance) (F : DataFrame) (hnd : F.columns.Nodup)
    (hpos : Spec.PositiveWeights o.weightColumn F) (h : (o.fit F).2 = none) (calls : List BinnerCall)
    (hcalls : ∀ c ∈ calls, ∃ a, c = .transform a) (m0 m : Memory) (a : ℕ) (hnd' : (m.frames a).columns.Nodup) :
    let fitted := Spec.binColumns o.cfg.props o.weightColumn F.columns
    let now := Spec.binColumns o.cfg.props o.weightColumn (m.frames a).columns
    let result := (calls.foldl BinnerCall.run ((o.fit F).1, m0)).1.transform m a
    (now.length ≠ fitted.length → result = (m, .error .valueError)) ∧
    (now.length = fitted.length → (∃ c ∈ fitted, c ∉ (m.frames a).columns) → result.2 = .error .keyError) ∧
    (now.length = fitted.length → (∀ c ∈ fitted, c ∈ (m.frames a).columns) →
      ∃ a' G, result.2 = .ok a' ∧ result.1.frames a' = G ∧ G.columns = (m.frames a).columns ∧ G.n = (m.frames a).n ∧
        ∀ s < G.n, ∀ c ∈ G.columns,
          (¬ Spec.ToBin o.cfg.props o.weightColumn c → G.X s c = (m.frames a).X s c) ∧
          (Spec.ToBin o.cfg.props o.weightColumn c → ∃ property weights bins, ∃ i : ℤ, o.cfg.props.lookup c = some property ∧
            Spec.IsWeights o.weightColumn F weights ∧
            fitColumn (Flags.isSet property Flags.IS_ORDERED || Flags.isSet property Flags.IS_UNORDERED) (F.X.column F.n c) weights
              (o.cfg.nBins c) o.cfg.epsilon o.cfg.tolerance = .ok bins ∧
            binNumber (Flags.isSet property Flags.IS_CONTINUOUS) (Flags.isSet property Flags.HAS_MAGIC_INT_MISSING) bins.eps
              (bins.table.map Prod.fst) ((m.frames a).X s c) = .ok i ∧
            G.X s c = .fin (i : ℝ))) := by
  classical
  intro fitted now result
  obtain ⟨L, h1, h2, -⟩ := fit_spec o F
  obtain ⟨-, -, w, hw, hL, hLc⟩ := h2 h
  have hlen : L.length = fitted.length := by rw [← List.length_map (f := Prod.fst), hLc]
  have hgood := fitOne_good o htol F w hw hpos L hL
  have hres : result = ({ o with bins := some L } : BinnerObject).transform m a := by
    change (calls.foldl BinnerCall.run ((o.fit F).1, m0)).1.transform m a = _
    rw [run_transforms calls hcalls, h1]
  have hcheck : now.length = fitted.length →
      ({ o with bins := some L } : BinnerObject).checkInput (m.frames a) = .ok L := by
    intro hl
    exact checkInput_ok _ L _ rfl (hl.trans hlen.symm)
  have hfst : ∀ p : String × ColFit ℝ, p ∈ L → p.1 ∈ fitted := fun p hp => by
    change p.1 ∈ Spec.binColumns o.cfg.props o.weightColumn F.columns
    rw [← hLc]
    exact List.mem_map_of_mem hp
  have hmem : ∀ c, c ∈ fitted → ∃ p ∈ L, p.1 = c := by
    intro c hc
    have : c ∈ L.map Prod.fst := by rw [hLc]; exact hc
    simpa using List.mem_map.mp this
  have hndf : (L.map Prod.fst).Nodup := by rw [hLc]; exact hnd.filter _
  refine ⟨?_, ?_, ?_⟩
  · intro hl
    rw [hres]
    unfold BinnerObject.transform
    rw [checkInput_error ({ o with bins := some L } : BinnerObject) L _ rfl (fun e => hl (e.trans hlen))]
  · rintro hl ⟨c, hc, hc'⟩
    obtain ⟨p, hp, rfl⟩ := hmem c hc
    rw [hres]
    unfold BinnerObject.transform
    rw [hcheck hl]
    dsimp only
    cases o.inplace with
    | true =>
      simp only [if_true]
      split_ifs with hn hall
      · exact absurd (hall p hp) hc'
      · rfl
      · exact transformLoop_keyError ({ o with bins := some L, inplace := true } : BinnerObject) a L hgood m ⟨p, hp, hc'⟩
    | false =>
      simp only [Bool.false_eq_true, if_false, Memory.copy, Function.update_self]
      split_ifs with hn hall
      · exact absurd (hall p hp) hc'
      · rfl
      · exact transformLoop_keyError ({ o with bins := some L, inplace := false } : BinnerObject) _ L hgood _ ⟨p, hp, by simpa using hc'⟩
  · intro hl hall
    -- both lists of columns are the same up to order
    have hnow : ∀ c ∈ now, c ∈ fitted := by
      have hsub : fitted ⊆ now := by
        intro c hc
        refine List.mem_filter.mpr ⟨hall c hc, ?_⟩
        exact (List.mem_filter.mp hc).2
      have hperm : fitted.Perm now :=
        (List.subperm_of_subset (hnd.filter _) hsub).perm_of_length_le hl.le
      exact fun c hc => hperm.symm.subset hc
    have key : ∃ a' m', (({ o with bins := some L } : BinnerObject).transform m a) = (m', .ok a') ∧
        (m'.frames a').columns = (m.frames a).columns ∧ (m'.frames a').n = (m.frames a).n ∧
        ∀ s < (m.frames a).n, ∀ c, .ok ((m'.frames a').X s c) = o.cfg.cell L c ((m.frames a).X s c) := by
      have hallL : ∀ p ∈ L, p.1 ∈ (m.frames a).columns := fun p hp => hall _ (hfst p hp)
      have hempty : (m.frames a).n = 0 ∨ (m.frames a).columns = [] →
          ∀ s < (m.frames a).n, ∀ c, .ok ((m.frames a).X s c) = o.cfg.cell L c ((m.frames a).X s c) := by
        rintro (hn | hn)
        · intro s hs; omega
        · intro s _ c
          have : L = [] := by
            rw [← List.map_eq_nil_iff (f := Prod.fst), hLc]
            rw [List.eq_nil_iff_forall_not_mem]
            intro c hc
            have := hall c hc
            rw [hn] at this
            simp at this
          rw [this]
          simp [Binner.cell]
      unfold BinnerObject.transform
      rw [hcheck hl]
      dsimp only
      cases o.inplace with
      | true =>
        simp only [if_true]
        by_cases hn : (m.frames a).n = 0 ∨ (m.frames a).columns = []
        · rw [if_pos hn, if_pos hallL]
          exact ⟨_, _, rfl, by simp [Memory.copy], by simp [Memory.copy], by
            intro s hs c
            simpa [Memory.copy] using hempty hn s hs c⟩
        · rw [if_neg hn]
          obtain ⟨m', e1, e2, e3, e4⟩ := transformLoop_ok ({ o with bins := some L, inplace := true } : BinnerObject) a L hgood hndf m hallL
          exact ⟨a, m', e1, e2, e3, fun s _ c => e4 s c⟩
      | false =>
        simp only [Bool.false_eq_true, if_false, Memory.copy, Function.update_self]
        by_cases hn : (m.frames a).n = 0 ∨ (m.frames a).columns = []
        · rw [if_pos hn, if_pos hallL]
          exact ⟨_, _, rfl, by simp, by simp, by
            intro s hs c
            simpa using hempty hn s hs c⟩
        · rw [if_neg hn]
          obtain ⟨m', e1, e2, e3, e4⟩ := transformLoop_ok ({ o with bins := some L, inplace := false } : BinnerObject) m.next L hgood hndf
            ⟨Function.update m.frames m.next (m.frames a), m.next + 1⟩ (by simpa using hallL)
          refine ⟨m.next, m', e1, by simpa using e2, by simpa using e3, fun s _ c => ?_⟩
          have := e4 s c
          simpa using this
    obtain ⟨a', m', hk, hk1, hk2, hk3⟩ := key
    refine ⟨a', m'.frames a', by rw [hres, hk], by rw [hres, hk], hk1, hk2, ?_⟩
    intro s hs c hc
    have hcell := hk3 s (by rw [← hk2]; exact hs) c
    constructor
    · intro hnot
      have hlk : L.lookup c = none := by
        rw [List.lookup_eq_none_iff]
        intro p hp
        have hne : c ≠ p.1 := by
          rintro rfl
          exact hnot (of_decide_eq_true (List.mem_filter.mp (hfst p hp)).2)
        simpa using hne
      unfold Binner.cell at hcell
      rw [hlk] at hcell
      simpa using hcell
    · intro hto
      have hcf : c ∈ fitted := hnow c (List.mem_filter.mpr ⟨by rw [← hk1]; exact hc, decide_eq_true hto⟩)
      obtain ⟨p, hp, rfl⟩ := hmem c hcf
      obtain ⟨fp, hfp, -, hfit⟩ := fitOne_ok o F w p.1 p.2 (hL p hp)
      have hlk : L.lookup p.1 = some p.2 := lookup_of_mem L hndf p hp
      obtain ⟨fp', hfp', hgi⟩ := hgood p hp
      rw [hfp] at hfp'
      cases hfp'
      obtain ⟨i, hi⟩ := hgi ((m.frames a).X s p.1)
      refine ⟨fp, w, p.2, i, hfp, (isWeights_iff o F hpos w).mpr hw, hfit, hi, ?_⟩
      unfold Binner.cell at hcell
      rw [hlk, hfp] at hcell
      dsimp only at hcell
      rw [hi] at hcell
      simpa using hcell

/-- **C140.** Tables in memory: whether it raises or not, `transform` changes no table that existed before, except the one it is called with if
`inplace` is set. -/
theorem C140_untouched (o : BinnerObject) (m : Memory) (a : ℕ) (b : ℕ) (hb : b < m.next) (h : o.inplace = false ∨ b ≠ a) :
    (o.transform m a).1.frames b = m.frames b := by
  classical
  have hne : b ≠ m.next := by omega
  unfold BinnerObject.transform
  cases o.checkInput (m.frames a) with
  | error e => rfl
  | ok L =>
    dsimp only
    cases hi : o.inplace with
    | true =>
      have hba : b ≠ a := h.resolve_left (by rw [hi]; simp)
      simp only [if_true]
      split_ifs
      · simp [Memory.copy, hne]
      · rfl
      · exact transformLoop_other o a L m b hba
    | false =>
      simp only [Bool.false_eq_true, if_false, Memory.copy, Function.update_self]
      split_ifs
      · have : b ≠ m.next + 1 := by omega
        simp [hne, this]
      · simp [hne]
      · rw [transformLoop_other o m.next L _ b hne]
        simp [hne]

theorem transform_next (o : BinnerObject) (m : Memory) (a : ℕ) : m.next ≤ (o.transform m a).1.next := by
  classical
  unfold BinnerObject.transform
  cases o.checkInput (m.frames a) with
  | error e => exact le_rfl
  | ok L =>
    dsimp only
    cases hi : o.inplace with
    | true =>
      simp only [if_true]
      split_ifs
      · simp [Memory.copy]
      · exact le_rfl
      · rw [transformLoop_next]
    | false =>
      simp only [Bool.false_eq_true, if_false, Memory.copy, Function.update_self]
      split_ifs
      · dsimp only; omega
      · dsimp only; omega
      · rw [transformLoop_next]; dsimp only; omega

/-- **C140.** Over a whole history of calls of a binner without `inplace`, all tables that existed before stay as they were. -/
theorem C140_untouched_history (o : BinnerObject) (hi : o.inplace = false) (calls : List BinnerCall) (m : Memory) (b : ℕ)
    (hb : b < m.next) : (calls.foldl BinnerCall.run (o, m)).2.frames b = m.frames b := by
  induction calls generalizing o m with
  | nil => rfl
  | cons c calls ih =>
    rw [List.foldl_cons]
    cases c with
    | fit F =>
      obtain ⟨L, h, -⟩ := fit_spec o F
      simp only [BinnerCall.run]
      rw [h]
      exact ih { o with bins := some L } hi m hb
    | transform a =>
      simp only [BinnerCall.run]
      rw [ih o hi _ (lt_of_lt_of_le hb (transform_next o m a))]
      exact C140_untouched o m a b hb (.inl hi)

/-- **C140.** With `inplace` the table that is passed, if it has rows, is what is returned. -/
theorem C140_inplace (o : BinnerObject) (hi : o.inplace = true) (m : Memory) (a a' : ℕ) (hn : (m.frames a).n ≠ 0)
    (hc : (m.frames a).columns ≠ []) (h : (o.transform m a).2 = .ok a') : a' = a := by
  classical
  have hloop : ∀ (L : List (String × ColFit ℝ)) (m : Memory), (o.transformLoop a L m).2 = .ok a' → a' = a := by
    intro L
    induction L with
    | nil => intro m h; simpa [BinnerObject.transformLoop, eq_comm] using h
    | cons p L ih =>
      obtain ⟨c, f⟩ := p
      intro m h
      rw [BinnerObject.transformLoop] at h
      cases hp : o.cfg.props.lookup c with
      | none => rw [hp] at h; exact ih m h
      | some fp =>
        rw [hp] at h
        dsimp only at h
        split_ifs at h
        exact ih _ h
  unfold BinnerObject.transform at h
  cases hch : o.checkInput (m.frames a) with
  | error e => rw [hch] at h; simp at h
  | ok L =>
    rw [hch] at h
    dsimp only at h
    simp only [hi, if_true] at h
    rw [if_neg (by tauto)] at h
    exact hloop L m h

/-! ### The binner of the model of a pipeline -/

theorem fitLoop_fitColumns (o : BinnerObject) (F : DataFrame) (cols : List String) (acc L : List (String × ColFit ℝ)) :
    o.fitLoop F (List.replicate F.n 1) cols acc = (acc ++ L, none) ↔ o.cfg.fitColumns F.X F.n cols = .ok L := by
  have hone : ∀ c, o.fitOne F (List.replicate F.n 1) c = o.cfg.fitOne F.X F.n c := by
    intro c
    unfold BinnerObject.fitOne Binner.fitOne
    rfl
  induction cols generalizing acc L with
  | nil =>
    rw [BinnerObject.fitLoop, Binner.fitColumns, Except.ok.injEq]
    constructor
    · intro h; simpa using h
    · rintro rfl; simp
  | cons c cs ih =>
    rw [BinnerObject.fitLoop, Binner.fitColumns, hone]
    cases o.cfg.fitOne F.X F.n c with
    | none => exact ih acc L
    | some r =>
      cases r with
      | error e => simp
      | ok f =>
        dsimp only
        constructor
        · intro h
          obtain ⟨L', h1, -⟩ := fitLoop_spec o F (List.replicate F.n 1) cs (acc ++ [(c, f)])
          have e : L = (c, f) :: L' := by
            rw [h] at h1
            simpa using h1
          subst e
          have : o.cfg.fitColumns F.X F.n cs = .ok L' := (ih (acc ++ [(c, f)]) L').mp (by rw [h]; simp)
          rw [this]
        · intro h
          cases hr : o.cfg.fitColumns F.X F.n cs with
          | error e => rw [hr] at h; simp at h
          | ok L' =>
            rw [hr] at h
            simp only [Except.ok.injEq] at h
            subst h
            rw [(ih (acc ++ [(c, f)]) L').mpr hr]
            simp

/-- **C140.** The binner in the model of a pipeline is this one without weight column: `fit` leaves the same bins, and raises in the same
cases. -/
theorem C140_pipeline_fit (B : Binner) (inplace : Bool) (F : DataFrame) (L : List (String × ColFit ℝ)) :
    (BinnerObject.new B none inplace).fit F = (⟨B, none, inplace, some L⟩, none) ↔ B.fit F.columns F.X F.n = .ok L := by
  unfold BinnerObject.fit Binner.fit
  by_cases h : F.n = 0 ∨ F.columns = []
  · simp [h]
  · rw [if_neg h, if_neg h]
    have hw : (BinnerObject.new B none inplace).weights F = .ok (List.replicate F.n 1) := rfl
    have hc : (BinnerObject.new B none inplace).featureColumns F = F.columns := by
      simp [BinnerObject.featureColumns, BinnerObject.new]
    rw [hw, hc]
    dsimp only
    have := fitLoop_fitColumns (BinnerObject.new B none inplace) F F.columns [] L
    rw [List.nil_append] at this
    change _ ↔ (BinnerObject.new B none inplace).cfg.fitColumns F.X F.n F.columns = .ok L
    rw [← this]
    constructor
    · intro h
      rw [Prod.mk.injEq] at h
      refine Prod.ext ?_ h.2
      have := congrArg BinnerObject.bins h.1
      simpa using this
    · intro h
      rw [h]
      rfl

/-- **C140.** And `transform` puts the numbers into the columns of the table that the model of a pipeline works with. -/
theorem C140_pipeline_transform (B : Binner) (htol : 0 ≤ B.tolerance) (inplace : Bool) (F : DataFrame) (hnd : F.columns.Nodup)
    (L : List (String × ColFit ℝ)) (h : B.fit F.columns F.X F.n = .ok L) (m : Memory) (a : ℕ) (hnd' : (m.frames a).columns.Nodup)
    (hlen : (Spec.binColumns B.props none (m.frames a).columns).length = (Spec.binColumns B.props none F.columns).length)
    (hcols : ∀ c ∈ Spec.binColumns B.props none F.columns, c ∈ (m.frames a).columns) :
    ∃ a' m' Xt, ((BinnerObject.new B none inplace).fit F).1.transform m a = (m', .ok a') ∧
      B.transform L (m.frames a).X (m.frames a).n = .ok Xt ∧ (m'.frames a').columns = (m.frames a).columns ∧
      (m'.frames a').n = (m.frames a).n ∧ ∀ s < (m.frames a).n, ∀ c ∈ (m.frames a).columns, (m'.frames a').X s c = Xt s c := by
  have hfit := (C140_pipeline_fit B inplace F L).mpr h
  obtain ⟨Xt, hXt⟩ := transform_ok B htol F.columns F.X F.n L h (m.frames a).X (m.frames a).n
  obtain ⟨-, -, h3⟩ := C140_transform (BinnerObject.new B none inplace) htol F hnd (fun c hc => by cases hc) (by rw [hfit]) [] (by simp) m
    m a hnd'
  obtain ⟨a', G, h4, h5, h6, h7, h8⟩ := h3 hlen hcols
  rw [List.foldl_nil] at h4 h5
  refine ⟨a', _, Xt, Prod.ext rfl h4, hXt, ?_, ?_, ?_⟩
  · rw [h5]; exact h6
  · rw [h5]; exact h7
  · intro s hs c hc
    rw [h5]
    obtain ⟨hno, hyes⟩ := h8 s (by rw [h7]; exact hs) c (by rw [h6]; exact hc)
    have hcell := transform_cell B L _ Xt _ hXt s hs c
    by_cases hto : Spec.ToBin B.props none c
    · obtain ⟨fp, w, f, i, e1, e2, e3, e4, e5⟩ := hyes hto
      have hmem : c ∈ F.columns := by
        classical
        have hsub : Spec.binColumns B.props none F.columns ⊆ Spec.binColumns B.props none (m.frames a).columns := fun d hd =>
          List.mem_filter.mpr ⟨hcols d hd, (List.mem_filter.mp hd).2⟩
        have hperm := (List.subperm_of_subset (hnd.filter _) hsub).perm_of_length_le hlen.le
        exact (List.mem_filter.mp (hperm.symm.subset (List.mem_filter.mpr ⟨hc, decide_eq_true hto⟩))).1
      obtain ⟨f', hf'⟩ := binner_fit_mem B F.columns F.X F.n L h c hmem fp e1
      obtain ⟨fp', g1, -, g2⟩ := binner_fit_column B F.columns F.X F.n L h c f' hf'
      change B.props.lookup c = some fp at e1
      rw [e1, Option.some.injEq] at g1
      subst g1
      have hw : w = List.replicate F.n 1 := by
        have : (BinnerObject.new B none inplace).weights F = .ok (List.replicate F.n 1) := rfl
        rw [isWeights_iff (BinnerObject.new B none inplace) F (fun c hc => by cases hc), this] at e2
        simpa [eq_comm] using e2
      subst hw
      change fitColumn _ _ _ (B.nBins c) B.epsilon B.tolerance = .ok f at e3
      rw [e3, Except.ok.injEq] at g2
      subst g2
      rw [cell_fitted B L c f hf' fp e1 _ i e4, Except.ok.injEq] at hcell
      rw [e5, hcell]
    · rw [hno hto]
      have hnone : B.props.lookup c = none := by
        by_contra hne
        exact hto ⟨by simp, Option.ne_none_iff_exists'.mp hne⟩
      unfold Binner.cell at hcell
      rw [hnone] at hcell
      cases hlk : L.lookup c <;> rw [hlk] at hcell <;> simpa using hcell

/-- **C140.** For a column of categories: a value of the training table is replaced by the number of smaller ones among the different values of
this column of the training table, a missing or unknown value by -1. -/
theorem C140_categories (o : BinnerObject) (htol : 0 ≤ o.cfg.tolerance) (heps : 0 ≤ o.cfg.epsilon) (heps1 : o.cfg.epsilon < 1)
    (F : DataFrame) (hnd : F.columns.Nodup) (hpos : Spec.PositiveWeights o.weightColumn F) (h : (o.fit F).2 = none) (m : Memory) (a a' : ℕ)
    (hnd' : (m.frames a).columns.Nodup)
    (hlen : (Spec.binColumns o.cfg.props o.weightColumn (m.frames a).columns).length =
      (Spec.binColumns o.cfg.props o.weightColumn F.columns).length)
    (hcols : ∀ c ∈ Spec.binColumns o.cfg.props o.weightColumn F.columns, c ∈ (m.frames a).columns)
    (hres : ((o.fit F).1.transform m a).2 = .ok a')
    (c : String) (hc : c ∈ (m.frames a).columns) (hw : some c ≠ o.weightColumn) (property : ℕ) (hp : o.cfg.props.lookup c = some property)
    (hd : (Flags.isSet property Flags.IS_ORDERED || Flags.isSet property Flags.IS_UNORDERED) = true)
    (hcont : Flags.isSet property Flags.IS_CONTINUOUS = false) (hmagic : Flags.isSet property Flags.HAS_MAGIC_INT_MISSING = false)
    (hval : ∃ v, some v ∈ F.X.column F.n c) (s : ℕ) (hs : s < (m.frames a).n) :
    let entry := (((o.fit F).1.transform m a).1.frames a').X s c
    (∀ v : ℝ, (m.frames a).X s c = .fin v → some v ∈ F.X.column F.n c → entry = .fin (Spec.rankIn (F.X.column F.n c) v)) ∧
    (∀ v : ℝ, (m.frames a).X s c = .fin v → (∃ u u', some u ∈ F.X.column F.n c ∧ some u' ∈ F.X.column F.n c ∧ u ≠ u' ∧
      ∀ t, some t ∈ F.X.column F.n c → o.cfg.epsilon * |u - u'| < |t - v|) → entry = .fin (-1)) ∧
    ((m.frames a).X s c = .nan → entry = .fin (-1)) := by
  intro entry
  obtain ⟨-, -, h3⟩ := C140_transform o htol F hnd hpos h [] (by simp) m m a hnd'
  obtain ⟨a'', G, h4, h5, h6, h7, h8⟩ := h3 hlen hcols
  rw [List.foldl_nil] at h4 h5
  have haa : a'' = a' := by
    have := h4.symm.trans hres
    simpa using this
  subst haa
  obtain ⟨-, hyes⟩ := h8 s (by rw [h7]; exact hs) c (by rw [h6]; exact hc)
  obtain ⟨fp, w, f, i, e1, e2, e3, e4, e5⟩ := hyes ⟨hw, property, hp⟩
  rw [isWeights_iff o F hpos] at e2
  rw [hp, Option.some.injEq] at e1
  subst e1
  have hentry : entry = .fin (i : ℝ) := by
    change (((o.fit F).1.transform m a).1.frames a'').X s c = _
    rw [h5]; exact e5
  rw [hcont, hmagic] at e4
  obtain ⟨hl, hpw⟩ := weights_spec o F w e2 hpos
  rw [hd] at e3
  obtain ⟨e, table, g1, g2, g3⟩ := C03_rank (F.X.column F.n c) w (PosWeights.of_pos _ w (by rw [column_length, hl]) hpw) (o.cfg.nBins c)
    o.cfg.epsilon o.cfg.tolerance heps heps1 hval
  rw [e3, Except.ok.injEq] at g1
  subst g1
  refine ⟨?_, ?_, ?_⟩
  · intro v hv hin
    rw [hv] at e4
    have := (g3 false v (by simp)).1 hin
    rw [Option.map_some, this, Except.ok.injEq] at e4
    rw [hentry, ← e4]
    simp
  · rintro v hv ⟨u, u', hu, hu', hne, hfar⟩
    rw [hv] at e4
    have := (g3 false v (by simp)).2 (fun t ht => lt_of_le_of_lt (g2 u u' hu hu' hne) (hfar t ht))
    rw [Option.map_some, this, Except.ok.injEq] at e4
    rw [hentry, ← e4]
    simp
  · intro hv
    rw [hv, C04_missing _ _ _ _ _ (.inl rfl), Except.ok.injEq] at e4
    rw [hentry, ← e4]
    simp

end CB
