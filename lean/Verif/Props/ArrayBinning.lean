import Verif.Lemmas.ArrayBinning
import Verif.Props.BinnerObject

/-!
# C141: arrays are binned like tables
-/

set_option autoImplicit false
set_option linter.unusedSectionVars false

namespace CB

/-- **C141.** What `transform` does with an array after a fit that did not raise. It differs from a table in two ways: a missing column raises
IndexError instead of KeyError, and a bin number that the element type of the array cannot hold is replaced by what the overflow makes of it. -/
theorem C141_array (o : BinnerObject) (htol : 0 ≤ o.cfg.tolerance) (F : DataFrame) (hnd : F.columns.Nodup)
    (hpos : Spec.PositiveWeights o.weightColumn F) (h : (o.fit F).2 = none) (overflow : ℤ → ℤ) (A : ArrayObj)
    (hnd' : A.frame.columns.Nodup) :
    let fitted := Spec.binColumns o.cfg.props o.weightColumn F.columns
    let now := Spec.binColumns o.cfg.props o.weightColumn A.frame.columns
    let result := (o.fit F).1.transformArray overflow A
    (now.length ≠ fitted.length → result = .error .valueError) ∧
    (now.length = fitted.length → A.frame.n ≠ 0 → A.frame.columns ≠ [] → (∃ c ∈ fitted, c ∉ A.frame.columns) →
      result = .error (.binning .indexError)) ∧
    (now.length = fitted.length → (∀ c ∈ fitted, c ∈ A.frame.columns) →
      ∃ G, result = .ok G ∧ G.columns = A.frame.columns ∧ G.n = A.frame.n ∧
        ∀ s < G.n, ∀ c ∈ G.columns,
          (¬ Spec.ToBin o.cfg.props o.weightColumn c → G.X s c = A.frame.X s c) ∧
          (Spec.ToBin o.cfg.props o.weightColumn c → ∃ property weights bins, ∃ i : ℤ, o.cfg.props.lookup c = some property ∧
            Spec.IsWeights o.weightColumn F weights ∧
            fitColumn (Flags.isSet property Flags.IS_ORDERED || Flags.isSet property Flags.IS_UNORDERED) (F.X.column F.n c) weights
              (o.cfg.nBins c) o.cfg.epsilon o.cfg.tolerance = .ok bins ∧
            binNumber (Flags.isSet property Flags.IS_CONTINUOUS) (Flags.isSet property Flags.HAS_MAGIC_INT_MISSING) bins.eps
              (bins.table.map Prod.fst) (A.frame.X s c) = .ok i ∧
            (A.type.Holds i → G.X s c = .fin (i : ℝ)) ∧ (¬ A.type.Holds i → G.X s c = .fin (overflow i : ℝ)))) := by
  classical
  intro fitted now result
  obtain ⟨L, h1, h2, -⟩ := fit_spec o F
  obtain ⟨-, -, w, hw, hL, hLc⟩ := h2 h
  have hlen : L.length = fitted.length := by rw [← List.length_map (f := Prod.fst), hLc]
  have hgood := fitOne_good o htol F w hw hpos L hL
  have hres : result = ({ o with bins := some L } : BinnerObject).transformArray overflow A := by
    change (o.fit F).1.transformArray overflow A = _
    rw [h1]
  have hcheck : now.length = fitted.length → ({ o with bins := some L } : BinnerObject).checkInput A.frame = .ok L := by
    intro hl
    exact checkInput_ok _ L _ rfl (hl.trans hlen.symm)
  have hfst : ∀ p : String × ColFit ℝ, p ∈ L → p.1 ∈ fitted := fun p hp => by
    change p.1 ∈ Spec.binColumns o.cfg.props o.weightColumn F.columns
    rw [← hLc]
    exact List.mem_map_of_mem hp
  have hmem : ∀ c, c ∈ fitted → ∃ p ∈ L, p.1 = c := by
    intro c hc
    have : c ∈ L.map Prod.fst := by rw [hLc]; exact hc
    simpa using List.mem_map.mp this
  have hndf : (L.map Prod.fst).Nodup := by rw [hLc]; exact hnd.filter _
  refine ⟨?_, ?_, ?_⟩
  · intro hl
    rw [hres]
    unfold BinnerObject.transformArray
    rw [checkInput_error ({ o with bins := some L } : BinnerObject) L _ rfl (fun e => hl (e.trans hlen))]
  · rintro hl hn0 hcol ⟨c, hc, hc'⟩
    obtain ⟨p, hp, rfl⟩ := hmem c hc
    rw [hres]
    unfold BinnerObject.transformArray
    rw [hcheck hl]
    dsimp only
    rw [if_neg (by simp [hn0, hcol])]
    exact arrayLoop_indexError ({ o with bins := some L } : BinnerObject) _ _ L hgood _ ⟨p, hp, hc'⟩
  · intro hl hall
    have hnow : ∀ c ∈ now, c ∈ fitted := by
      have hsub : fitted ⊆ now := by
        intro c hc
        refine List.mem_filter.mpr ⟨hall c hc, ?_⟩
        exact (List.mem_filter.mp hc).2
      have hperm : fitted.Perm now :=
        (List.subperm_of_subset (hnd.filter _) hsub).perm_of_length_le hl.le
      exact fun c hc => hperm.symm.subset hc
    have hallL : ∀ p ∈ L, p.1 ∈ A.frame.columns := fun p hp => hall _ (hfst p hp)
    have key : ∃ G, ({ o with bins := some L } : BinnerObject).transformArray overflow A = .ok G ∧ G.columns = A.frame.columns ∧
        G.n = A.frame.n ∧ ∀ s < G.n, ∀ c ∈ G.columns, G.X s c = arrayCell o.cfg A.type overflow L c (A.frame.X s c) := by
      unfold BinnerObject.transformArray
      rw [hcheck hl]
      dsimp only
      split_ifs with hn
      · refine ⟨A.frame, rfl, rfl, rfl, fun s hs c hc => ?_⟩
        rcases hn with hn | hn
        · omega
        · rw [hn] at hc; simp at hc
      · obtain ⟨G, e1, e2, e3, e4⟩ := arrayLoop_ok ({ o with bins := some L } : BinnerObject) A.type overflow L hgood hndf A.frame hallL
        exact ⟨G, e1, e2, e3, fun s _ c _ => e4 s c⟩
    obtain ⟨G, hk, hk1, hk2, hk3⟩ := key
    refine ⟨G, by rw [hres, hk], hk1, hk2, ?_⟩
    intro s hs c hc
    have hcell := hk3 s hs c hc
    constructor
    · intro hnot
      have hlk : L.lookup c = none := by
        rw [List.lookup_eq_none_iff]
        intro p hp
        have hne : c ≠ p.1 := by
          rintro rfl
          exact hnot (of_decide_eq_true (List.mem_filter.mp (hfst p hp)).2)
        simpa using hne
      rw [hcell]
      unfold arrayCell
      rw [hlk]
    · intro hyes
      have hcnow : c ∈ now := List.mem_filter.mpr ⟨by rw [← hk1]; exact hc, by simpa using hyes⟩
      obtain ⟨p, hp, rfl⟩ := hmem c (hnow c hcnow)
      obtain ⟨fp, hfp, -, hfit⟩ := fitOne_ok o F w p.1 p.2 (hL p hp)
      obtain ⟨fp', hfp', hi⟩ := hgood p hp
      rw [hfp, Option.some.injEq] at hfp'
      subst hfp'
      obtain ⟨i, hi⟩ := hi (A.frame.X s p.1)
      have hcell' : G.X s p.1 = .fin (A.type.store overflow i : ℝ) := by
        rw [hcell]
        unfold arrayCell
        rw [lookup_of_mem L hndf p hp, hfp]
        dsimp only
        rw [hi]
      refine ⟨fp, w, p.2, i, hfp, (isWeights_iff o F hpos w).mpr hw, hfit, hi, ?_, ?_⟩
      · intro hh
        rw [hcell', ElementType.store, if_pos hh]
      · intro hh
        rw [hcell', ElementType.store, if_neg hh]

/-- **C141 (partial).** If the element type of the array is a float type or a signed integer type with room for all bin numbers, the array is
binned like the table with the same entries. Missing for the full claim: other element types. It is false for them, see
`C141_unsigned_counterexample` and `C141_int8_counterexample`. -/
theorem C141_like_table_partial (o : BinnerObject) (htol : 0 ≤ o.cfg.tolerance) (F : DataFrame) (hnd : F.columns.Nodup)
    (hpos : Spec.PositiveWeights o.weightColumn F) (h : (o.fit F).2 = none) (overflow : ℤ → ℤ) (A : ArrayObj)
    (hnd' : A.frame.columns.Nodup) (htype : Spec.LargeEnough A.type o.cfg o.weightColumn F)
    (m : Memory) (a a' : ℕ) (ha : m.frames a = A.frame) (hok : ((o.fit F).1.transform m a).2 = .ok a') :
    ∃ G, (o.fit F).1.transformArray overflow A = .ok G ∧
      G.columns = (((o.fit F).1.transform m a).1.frames a').columns ∧ G.n = (((o.fit F).1.transform m a).1.frames a').n ∧
      ∀ s < G.n, ∀ c ∈ G.columns, G.X s c = (((o.fit F).1.transform m a).1.frames a').X s c := by
  obtain ⟨t1, t2, t3⟩ := C140_transform o htol F hnd hpos h [] (by simp) m m a (by rw [ha]; exact hnd')
  obtain ⟨-, -, a3⟩ := C141_array o htol F hnd hpos h overflow A hnd'
  rw [List.foldl_nil] at t1 t2 t3
  dsimp only at t1 t2 t3 a3
  rw [ha] at t1 t2 t3
  by_cases hl : (Spec.binColumns o.cfg.props o.weightColumn A.frame.columns).length =
      (Spec.binColumns o.cfg.props o.weightColumn F.columns).length
  swap
  · rw [t1 hl] at hok; cases hok
  by_cases hall : ∀ c ∈ Spec.binColumns o.cfg.props o.weightColumn F.columns, c ∈ A.frame.columns
  swap
  · push Not at hall
    rw [t2 hl hall] at hok; cases hok
  obtain ⟨b, G', e1, e2, e3, e4, e5⟩ := t3 hl hall
  have hb : b = a' := by
    have := e1.symm.trans hok
    simpa using this
  subst hb
  rw [e2]
  obtain ⟨G, g1, g2, g3, g4⟩ := a3 hl hall
  refine ⟨G, g1, by rw [g2, e3], by rw [g3, e4], fun s hs c hc => ?_⟩
  obtain ⟨p1, p2⟩ := g4 s hs c hc
  obtain ⟨q1, q2⟩ := e5 s (by rw [e4, ← g3]; exact hs) c (by rw [e3, ← g2]; exact hc)
  by_cases hb : Spec.ToBin o.cfg.props o.weightColumn c
  swap
  · rw [p1 hb, q1 hb]
  obtain ⟨fp, w, f, i, r1, r2, r3, r4, r5, -⟩ := p2 hb
  obtain ⟨fp', w', f', i', u1, u2, u3, u4, u5⟩ := q2 hb
  rw [isWeights_iff o F hpos] at r2 u2
  rw [r1, Option.some.injEq] at u1
  subst u1
  rw [r2, Except.ok.injEq] at u2
  subst u2
  rw [r3, Except.ok.injEq] at u3
  subst u3
  rw [r4, Except.ok.injEq] at u4
  subst u4
  rw [u5]
  apply r5
  obtain ⟨hwl, hpw⟩ := weights_spec o F w r2 hpos
  obtain ⟨v1, v2, v3⟩ := binNumber_bound _ _ _ (PosWeights.of_pos _ w (by rw [column_length, hwl]) hpw) _ _ _ htol f r3 _ _ _ i r4
  rcases htype with ht | ⟨lo, hi, ht, hlo, hc'⟩
  · rw [ht]; trivial
  rw [ht]
  have hcF : c ∈ F.columns := by
    classical
    have hsub : Spec.binColumns o.cfg.props o.weightColumn F.columns ⊆ Spec.binColumns o.cfg.props o.weightColumn A.frame.columns := by
      intro c hc
      exact List.mem_filter.mpr ⟨hall c hc, (List.mem_filter.mp hc).2⟩
    have hperm := (List.subperm_of_subset (hnd.filter _) hsub).perm_of_length_le hl.le
    have : c ∈ Spec.binColumns o.cfg.props o.weightColumn A.frame.columns :=
      List.mem_filter.mpr ⟨by rw [← g2]; exact hc, by simpa using hb⟩
    exact (List.mem_filter.mp (hperm.symm.subset this)).1
  obtain ⟨x1, x2⟩ := hc' c fp hcF hb.1 r1
  refine ⟨by omega, ?_⟩
  cases hd : (Flags.isSet fp Flags.IS_ORDERED || Flags.isSet fp Flags.IS_UNORDERED) with
  | true => have := v2 hd; have := x1 hd; omega
  | false => have := v3 hd; have := x2 hd; omega

end CB
