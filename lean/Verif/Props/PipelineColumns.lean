import Verif.Props.PipelineObjectExample

/-!
# C176: a pipeline finds the columns by their names
-/

set_option autoImplicit false
set_option linter.unusedSectionVars false

namespace CB
variable {σ : Type*}

namespace Spec

/-- The columns that matter for a pipeline: those with a property, which are binned, those of the features, and the columns of the weights and of
the prior predictions. Predictions do not need the weights. -/
def PipelineColumn (B : Binner) (C : Config σ) (gs : List (List String)) (training : Bool) (c : String) : Prop :=
  (∃ property, B.props.lookup c = some property) ∨ (training = true ∧ C.weightColumn = some c) ∨ C.priorColumn = some c ∨ ∃ g ∈ gs, c ∈ g

end Spec

theorem fitLoop_succeeds (o : BinnerObject) (F : DataFrame) (w : List ℝ) (cols : List String) (acc : List (String × ColFit ℝ))
    (h : ∀ c ∈ cols, ∀ e, o.fitOne F w c ≠ some (.error e)) : (o.fitLoop F w cols acc).2 = none := by
  induction cols generalizing acc with
  | nil => rfl
  | cons c cs ih =>
    rw [BinnerObject.fitLoop]
    have h' := h c (by simp)
    cases hc : o.fitOne F w c with
    | none => exact ih acc fun c hc => h c (List.mem_cons_of_mem _ hc)
    | some r =>
      cases r with
      | error e => exact absurd hc (h' e)
      | ok f => exact ih _ fun c hc => h c (List.mem_cons_of_mem _ hc)

theorem column_congr (X X' : Table ℝ) (n : ℕ) (c : String) (h : ∀ s < n, X' s c = X s c) : X'.column n c = X.column n c := by
  unfold Table.column
  refine List.map_congr_left fun s hs => ?_
  rw [h s (List.mem_range.mp hs)]

/-- Whether the binner can be fitted does not depend on the order of the columns, and not on those without property. -/
theorem binner_fit_columns (B : Binner) (inplace : Bool) (F F' : DataFrame)
    (h : Spec.SameColumns (fun c => ∃ property, B.props.lookup c = some property) F F') (hF' : F'.columns ≠ [])
    (hok : ((BinnerObject.new B none inplace).fit F).2 = none) : ((BinnerObject.new B none inplace).fit F').2 = none := by
  classical
  obtain ⟨L, -, h2, -⟩ := fit_spec (BinnerObject.new B none inplace) F
  obtain ⟨hn, -, w, hw, hL, hLc⟩ := h2 hok
  have hw' : (BinnerObject.new B none inplace).weights F' = .ok w := by
    rw [← hw]
    change Except.ok (List.replicate F'.n 1) = Except.ok (List.replicate F.n 1)
    rw [h.rows]
  unfold BinnerObject.fit
  rw [if_neg (by rw [h.rows]; push Not; exact ⟨hn, hF'⟩), hw']
  dsimp only
  refine fitLoop_succeeds _ _ _ _ _ fun c hc e he => ?_
  have hc' : c ∈ F'.columns := (List.mem_filter.mp hc).1
  cases hp : B.props.lookup c with
  | none =>
    unfold BinnerObject.fitOne at he
    rw [show (BinnerObject.new B none inplace).cfg.props.lookup c = none from hp] at he
    cases he
  | some q =>
    have hcF : c ∈ F.columns := (h.present c ⟨q, hp⟩).mp hc'
    have hmem : c ∈ L.map Prod.fst := by
      rw [hLc]
      unfold Spec.binColumns
      exact List.mem_filter.mpr ⟨hcF, decide_eq_true ⟨by simp [BinnerObject.new], q, hp⟩⟩
    obtain ⟨p, hpL, rfl⟩ := List.mem_map.mp hmem
    have hone := hL p hpL
    have hcol := column_congr F.X F'.X F.n p.1 fun s hs => h.entries p.1 ⟨q, hp⟩ s hs
    unfold BinnerObject.fitOne at hone he
    rw [h.rows, hcol] at he
    rw [hone] at he
    cases he

theorem binColumns_length (props : List (String × ℕ)) (F F' : DataFrame) (hnd : F.columns.Nodup) (hnd' : F'.columns.Nodup)
    (h : Spec.SameColumns (fun c => ∃ property, props.lookup c = some property) F F') :
    (Spec.binColumns props none F'.columns).length = (Spec.binColumns props none F.columns).length := by
  classical
  unfold Spec.binColumns
  refine List.Perm.length_eq ((List.perm_ext_iff_of_nodup (hnd'.filter _) (hnd.filter _)).mpr fun c => ?_)
  simp only [List.mem_filter, decide_eq_true_eq]
  constructor
  · rintro ⟨h1, h2⟩
    exact ⟨(h.present c h2.2).mp h1, h2⟩
  · rintro ⟨h1, h2⟩
    exact ⟨(h.present c h2.2).mpr h1, h2⟩

/-- Tables that agree on the columns that are binned and on others are binned alike. -/
theorem binned_columns (B : Binner) (htol : 0 ≤ B.tolerance) (inplace : Bool) (F F' : DataFrame) (hnd : F.columns.Nodup) (hnd' : F'.columns.Nodup)
    (hF : Spec.SameColumns (fun c => ∃ property, B.props.lookup c = some property) F F')
    (hok : ((BinnerObject.new B none inplace).fit F).2 = none) (hok' : ((BinnerObject.new B none inplace).fit F').2 = none)
    (T T' : DataFrame) (hT : T.columns.Nodup) (hT' : T'.columns.Nodup)
    (hTT : Spec.SameColumns (fun c => ∃ property, B.props.lookup c = some property) T T') (G : DataFrame)
    (hG : ((BinnerObject.new B none inplace).fit F).1.binnedTable T = .ok G) :
    G.n = T.n ∧ G.columns = T.columns ∧
      ∃ G', ((BinnerObject.new B none inplace).fit F').1.binnedTable T' = .ok G' ∧ G'.n = G.n ∧ G'.columns = T'.columns ∧
        (∀ c ∈ T.columns, B.props.lookup c = none → ∀ s < T.n, G.X s c = T.X s c) ∧
        ∀ c ∈ T.columns, c ∈ T'.columns → (∀ s < T.n, T'.X s c = T.X s c) → ∀ s < T.n, G'.X s c = G.X s c := by
  classical
  obtain ⟨t1, t2, t3⟩ := C140_transform (BinnerObject.new B none inplace) htol F hnd (fun c hc => by cases hc) hok [] (by simp)
    ⟨fun _ => T, 1⟩ ⟨fun _ => T, 1⟩ 0 hT
  obtain ⟨-, -, t3'⟩ := C140_transform (BinnerObject.new B none inplace) htol F' hnd' (fun c hc => by cases hc) hok' [] (by simp)
    ⟨fun _ => T', 1⟩ ⟨fun _ => T', 1⟩ 0 hT'
  rw [List.foldl_nil] at t1 t2 t3 t3'
  dsimp only at t1 t2 t3 t3'
  have hlen : (Spec.binColumns B.props none T.columns).length = (Spec.binColumns B.props none F.columns).length := by
    by_contra hl
    have := t1 hl
    unfold BinnerObject.binnedTable at hG
    rw [this] at hG
    cases hG
  have hall : ∀ c ∈ Spec.binColumns B.props none F.columns, c ∈ T.columns := by
    by_contra hc
    push Not at hc
    have := t2 hlen hc
    unfold BinnerObject.binnedTable at hG
    rcases hr : ((BinnerObject.new B none inplace).fit F).1.transform ⟨fun _ => T, 1⟩ 0 with ⟨m', r⟩
    rw [hr] at hG this
    dsimp only at this hG
    subst this
    cases hG
  obtain ⟨a, G0, u1, u2, u3, u4, u5⟩ := t3 hlen hall
  have hG0 : G0 = G := by
    unfold BinnerObject.binnedTable at hG
    rcases hr : ((BinnerObject.new B none inplace).fit F).1.transform ⟨fun _ => T, 1⟩ 0 with ⟨m', r⟩
    rw [hr] at hG u1 u2
    dsimp only at u1 u2 hG
    subst u1
    dsimp only at hG
    rw [u2, Except.ok.injEq] at hG
    exact hG
  subst hG0
  obtain ⟨a', G', v1, v2, v3, v4, v5⟩ := t3' (by
    change (Spec.binColumns B.props none T'.columns).length = (Spec.binColumns B.props none F'.columns).length
    rw [binColumns_length B.props T T' hT hT' hTT, binColumns_length B.props F F' hnd hnd' hF, hlen]) (by
    intro c hc
    obtain ⟨q1, q2⟩ := List.mem_filter.mp hc
    have q2 := of_decide_eq_true q2
    refine (hTT.present c q2.2).mpr (hall c ?_)
    exact List.mem_filter.mpr ⟨(hF.present c q2.2).mp q1, decide_eq_true q2⟩)
  refine ⟨u4, u3, G', ?_, by rw [v4, u4, hTT.rows], v3, ?_, ?_⟩
  · unfold BinnerObject.binnedTable
    rcases hr : ((BinnerObject.new B none inplace).fit F').1.transform ⟨fun _ => T', 1⟩ 0 with ⟨m', r⟩
    rw [hr] at v1 v2
    dsimp only at v1 v2
    subst v1
    dsimp only
    rw [v2]
  · intro c hc hp s hs
    refine (u5 s (by rw [u4]; exact hs) c (by rw [u3]; exact hc)).1 ?_
    rintro ⟨-, q, hq⟩
    rw [show (BinnerObject.new B none inplace).cfg.props.lookup c = none from hp] at hq
    cases hq
  · intro c hc hc' he s hs
    obtain ⟨x1, x2⟩ := u5 s (by rw [u4]; exact hs) c (by rw [u3]; exact hc)
    obtain ⟨y1, y2⟩ := v5 s (by rw [v4, hTT.rows]; exact hs) c (by rw [v3]; exact hc')
    by_cases hb : Spec.ToBin B.props none c
    · obtain ⟨q, w, bins, i, k1, k2, k3, k4, k5⟩ := x2 hb
      obtain ⟨q', w', bins', i', l1, l2, l3, l4, l5⟩ := y2 hb
      have hq : q' = q := by
        rw [k1, Option.some.injEq] at l1
        exact l1.symm
      subst hq
      have hw : w' = w := by
        rw [List.eq_replicate_iff.mpr ⟨k2.1, k2.2.1 rfl⟩, List.eq_replicate_iff.mpr ⟨l2.1.trans hF.rows, l2.2.1 rfl⟩]
      subst hw
      rw [hF.rows, column_congr F.X F'.X F.n c fun s hs => hF.entries c ⟨q', k1⟩ s hs, k3, Except.ok.injEq] at l3
      subst l3
      have he' := he s hs
      rw [he', k4, Except.ok.injEq] at l4
      subst l4
      rw [k5, l5]
    · rw [x1 hb, y1 hb]
      exact he s hs

/-- **C176.** With given feature groups, a pipeline finds the columns of a table by their names. If it can be fitted to a table then also to one with
the columns in another order and with other columns without property, whatever either pipeline was fitted to before, and the two predict the
same for tables that differ in these ways. -/
theorem C176_columns (B : Binner) (htol : 0 ≤ B.tolerance) (inplace : Bool) (C : Config σ) (E : Estimator) (gs : List (List String))
    (hgs : C.groups = some gs) (hne : ∀ g ∈ gs, g ≠ []) (new : EstimatorObject) (hnew : C.construct = .ok new)
    (P P' : PipelineObject) (hP : Spec.PipelineHistory B inplace C E P) (hP' : Spec.PipelineHistory B inplace C E P')
    (F F' : DataFrame) (hF : F.columns.Nodup) (hF' : F'.columns.Nodup) (hFF : Spec.SameColumns (Spec.PipelineColumn B C gs true) F F')
    (hE : Spec.Modelled E ∨ Spec.Optimising E ∧ ∀ c, C.weightColumn = some c → B.props.lookup c = none ∧ ∀ s < F.n, 0 ≤ (F.X s c).getFin)
    (y y' : ℕ → ℝ) (hy : ∀ s < F.n, y' s = y s) (fuel : ℕ) (Q : PipelineObject) (hfit : P.fit C E F y fuel = some (Q, .ok ())) :
    ∃ Q', P'.fit C E F' y' fuel = some (Q', .ok ()) ∧
      ∀ T T' : DataFrame, T.columns.Nodup → T'.columns.Nodup → Spec.SameColumns (Spec.PipelineColumn B C gs false) T T' →
        (∀ c, (C.priorColumn = some c ∨ ∃ g ∈ gs, c ∈ g) → c ∈ T.columns) → ∀ p, Q.predict C T = some (.ok p) →
        ∃ p', Q'.predict C T' = some (.ok p') ∧ ∀ s < T.n, p' s = p s := by
  have hcols : ∀ c, (C.weightColumn = some c ∨ C.priorColumn = some c ∨ ∃ g ∈ gs, c ∈ g) → Spec.PipelineColumn B C gs true c := by
    rintro c (hc | hc)
    · exact .inr (.inl ⟨rfl, hc⟩)
    · exact .inr (.inr hc)
  have hsame : ∀ {t : Bool} {A A' : DataFrame}, Spec.SameColumns (Spec.PipelineColumn B C gs t) A A' →
      Spec.SameColumns (fun c => ∃ property, B.props.lookup c = some property) A A' := fun h =>
    ⟨h.rows, fun c hc => h.present c (.inl hc), fun c hc => h.entries c (.inl hc)⟩
  obtain ⟨b1, h1⟩ := pipeline_history B inplace C E P hP
  obtain ⟨b2, h2⟩ := pipeline_history B inplace C E P' hP'
  have hb : P.binner.fit F = (BinnerObject.new B none inplace).fit F := by rw [b1, fit_bins_irrelevant]
  have hb' : P'.binner.fit F' = (BinnerObject.new B none inplace).fit F' := by rw [b2, fit_bins_irrelevant]
  obtain ⟨f1, f2⟩ := pipeline_fit P Q C E F y fuel _ hfit
  rcases f2 with ⟨-, e, he⟩ | ⟨G, f3, f4, ⟨e, -, he⟩ | ⟨f5, -⟩⟩
  · cases he
  · cases he
  rw [hb] at f1 f3 f4
  obtain ⟨o, ho, hop⟩ := (C91_refit C E gs hgs P.estimator new h1 hnew G y fuel).2 _ f5
  have hGc : ∀ c, (C.weightColumn = some c ∨ C.priorColumn = some c ∨ ∃ g ∈ gs, c ∈ g) → c ∈ G.columns := by
    intro c hc
    by_contra hn
    exact C92_missing C E new (.constructed _ hnew) gs hgs G y fuel c hc hn o ho
  have hGF : G.columns = F.columns := by
    obtain ⟨G1, q1, -, q3⟩ := binned_training (BinnerObject.new B none inplace) htol F hF (fun c hc => by cases hc) f3
    rw [f4, Except.ok.injEq] at q1
    rw [q1, q3]
  have hF'ne : F'.columns ≠ [] := by
    have hgsne : gs ≠ [] := by
      intro h0
      unfold Config.construct at hnew
      rw [if_pos (by rw [hgs, h0])] at hnew
      cases hnew
    obtain ⟨g, hg⟩ := List.exists_mem_of_ne_nil _ hgsne
    obtain ⟨c, hc⟩ := List.exists_mem_of_ne_nil _ (hne g hg)
    have : c ∈ F.columns := by rw [← hGF]; exact hGc c (.inr (.inr ⟨g, hg, hc⟩))
    exact List.ne_nil_of_mem ((hFF.present c (.inr (.inr (.inr ⟨g, hg, hc⟩)))).mpr this)
  have f3' := binner_fit_columns B inplace F F' (hsame hFF) hF'ne f3
  obtain ⟨g1, g2, G', g3, g4, g5, g6, g7⟩ := binned_columns B htol inplace F F' hF hF' (hsame hFF) f3 f3' F F' hF hF' (hsame hFF) G f4
  have hGG : Spec.SameColumns (fun c => C.weightColumn = some c ∨ C.priorColumn = some c ∨ ∃ g ∈ gs, c ∈ g) G G' := by
    refine ⟨g4, fun c hc => ?_, fun c hc s hs => ?_⟩
    · rw [g5, g2]
      exact hFF.present c (hcols c hc)
    · have hcF : c ∈ F.columns := by rw [← hGF]; exact hGc c hc
      exact g7 c hcF ((hFF.present c (hcols c hc)).mpr hcF) (hFF.entries c (hcols c hc)) s (by rw [← g1]; exact hs)
  have ho' : new.fit C E G' y' fuel = some (o, .ok ()) := by
    rw [← ho]
    refine C92_fit_columns_partial C E new (.constructed _ hnew) gs hgs hne G G' hGG y y' (fun s hs => hy s (by rw [← g1]; exact hs)) ?_ fuel
    refine hE.imp id fun h => ⟨h.1, fun c hc s hs => ?_⟩
    rw [g6 c (by rw [← hGF]; exact hGc c (.inl hc)) (h.2 c hc).1 s (by rw [← g1]; exact hs)]
    exact (h.2 c hc).2 s (by rw [← g1]; exact hs)
  obtain ⟨r1, r2⟩ := C91_refit C E gs hgs P'.estimator new h2 hnew G' y' fuel
  rw [ho'] at r1
  cases hf : P'.estimator.fit C E G' y' fuel with
  | none => rw [hf] at r1; cases r1
  | some r =>
    obtain ⟨o2, r⟩ := r
    rw [hf] at r1
    simp only [Option.map_some, Option.some.injEq] at r1
    subst r1
    obtain ⟨o3, ho3, hp3⟩ := r2 o2 hf
    rw [ho', Option.some.injEq, Prod.mk.injEq] at ho3
    obtain ⟨rfl, -⟩ := ho3
    refine ⟨⟨((BinnerObject.new B none inplace).fit F').1, o2⟩, ?_, ?_⟩
    · unfold PipelineObject.fit
      rw [hb']
      rcases hbb : (BinnerObject.new B none inplace).fit F' with ⟨b, eb⟩
      rw [hbb] at f3' g3
      dsimp only at f3' g3
      subst f3'
      dsimp only
      rw [g3]
      dsimp only
      rw [hf]
    · intro T T' hT hT' hTT hTc p hp
      unfold PipelineObject.predict at hp ⊢
      rw [f1] at hp
      cases hH : ((BinnerObject.new B none inplace).fit F).1.binnedTable T with
      | error e => rw [hH] at hp; cases hp
      | ok H =>
        rw [hH] at hp
        dsimp only at hp ⊢
        obtain ⟨k1, k2, H', k3, k4, k5, k6, k7⟩ := binned_columns B htol inplace F F' hF hF' (hsame hFF) f3 f3' T T' hT hT' (hsame hTT) H hH
        rw [k3]
        dsimp only
        rw [← hop H] at hp
        rw [← hp3 H']
        cases hq : o.predict C H with
        | none => rw [hq] at hp; cases hp
        | some q =>
          rw [hq] at hp
          cases q with
          | error e => cases hp
          | ok q =>
            dsimp only at hp
            rw [Option.some.injEq, Except.ok.injEq] at hp
            subst hp
            obtain ⟨p', hp1, hp2⟩ := C92_predict_columns C E new o (.constructed _ hnew) gs hgs G y fuel ho H H' (by
              refine ⟨k4, fun c hc => ?_, fun c hc s hs => ?_⟩
              · rw [k5, k2]
                exact hTT.present c (.inr (.inr hc))
              · exact k7 c (hTc c hc) ((hTT.present c (.inr (.inr hc))).mpr (hTc c hc)) (hTT.entries c (.inr (.inr hc))) s
                  (by rw [← k1]; exact hs)) q hq
            rw [hp1]
            exact ⟨p', rfl, fun s hs => hp2 s (by rw [k1]; exact hs)⟩

/-- **C176.** A fitted pipeline refuses every table in which a column with a property is missing that was there in training, or is there that was
missing in training, also if no feature needs it. -/
theorem C176_refused (B : Binner) (htol : 0 ≤ B.tolerance) (inplace : Bool) (C : Config σ) (E : Estimator) (P : PipelineObject)
    (hP : Spec.PipelineHistory B inplace C E P) (F : DataFrame) (hF : F.columns.Nodup) (y : ℕ → ℝ) (fuel : ℕ) (Q : PipelineObject)
    (hfit : P.fit C E F y fuel = some (Q, .ok ())) (T : DataFrame) (hT : T.columns.Nodup) (c : String)
    (hc : ∃ property, B.props.lookup c = some property) (hne : ¬ (c ∈ T.columns ↔ c ∈ F.columns)) :
    ∃ e, (e = .valueError ∨ e = .keyError) ∧ Q.predict C T = some (.error (.binnerTransform e)) := by
  classical
  obtain ⟨b1, -⟩ := pipeline_history B inplace C E P hP
  have hb : P.binner.fit F = (BinnerObject.new B none inplace).fit F := by rw [b1, fit_bins_irrelevant]
  obtain ⟨f1, f2⟩ := pipeline_fit P Q C E F y fuel _ hfit
  have hok : ((BinnerObject.new B none inplace).fit F).2 = none := by
    rcases f2 with ⟨-, e, he⟩ | ⟨G, f3, -⟩
    · cases he
    · rw [← hb]; exact f3
  rw [hb] at f1
  obtain ⟨t1, t2, -⟩ := C140_transform (BinnerObject.new B none inplace) htol F hF (fun c hc => by cases hc) hok [] (by simp)
    ⟨fun _ => T, 1⟩ ⟨fun _ => T, 1⟩ 0 hT
  rw [List.foldl_nil] at t1 t2
  dsimp only at t1 t2
  have hmem : ∀ cs : List String, c ∈ Spec.binColumns B.props none cs ↔ c ∈ cs := by
    intro cs
    unfold Spec.binColumns
    rw [List.mem_filter, decide_eq_true_eq]
    exact ⟨fun h => h.1, fun h => ⟨h, by simp, hc⟩⟩
  by_cases hl : (Spec.binColumns B.props none T.columns).length = (Spec.binColumns B.props none F.columns).length
  · have hex : ∃ d ∈ Spec.binColumns B.props none F.columns, d ∉ T.columns := by
      by_contra hall
      push Not at hall
      have hsub : Spec.binColumns B.props none F.columns ⊆ Spec.binColumns B.props none T.columns := by
        intro d hd
        exact List.mem_filter.mpr ⟨hall d hd, (List.mem_filter.mp hd).2⟩
      have hperm := (List.subperm_of_subset (hF.filter _) hsub).perm_of_length_le hl.le
      exact hne (((hmem _).symm.trans hperm.mem_iff.symm).trans (hmem _))
    have := t2 hl hex
    refine ⟨.keyError, .inr rfl, ?_⟩
    unfold PipelineObject.predict BinnerObject.binnedTable
    rw [f1]
    rcases hr : ((BinnerObject.new B none inplace).fit F).1.transform ⟨fun _ => T, 1⟩ 0 with ⟨m', r⟩
    rw [hr] at this
    dsimp only at this
    subst this
    rfl
  · have := t1 hl
    refine ⟨.valueError, .inl rfl, ?_⟩
    unfold PipelineObject.predict BinnerObject.binnedTable
    rw [f1, this]

/-- Witness for C176_columns: the columns "w", "z" and "a" instead of "a" and "w"; the tables to be predicted have one column or two. -/
example : ∃ P₀ Q Q' : PipelineObject, PipelineObject.construct exBinner false mixConfig = .ok P₀ ∧
    P₀.fit mixConfig (gbsEstimator 0) mixFrame (fun s => 2 * s) 1 = some (Q, .ok ()) ∧
    P₀.fit mixConfig (gbsEstimator 0) { mixFrame with columns := ["w", "z", "a"] } (fun s => 2 * s) 1 = some (Q', .ok ()) ∧
    ∃ p, Q'.predict mixConfig ⟨["z", "a"], fun _ c => if c = "a" then .fin 30 else .nan, 1⟩ = some (.ok p) ∧ p 0 = 3 / 2 := by
  obtain ⟨P₀, Q, -, h1, h2, -, ⟨p, hp, hp0⟩, -⟩ := C175_counterexample
  have hcola : ∀ c, Spec.PipelineColumn exBinner mixConfig [["a"]] false c → c = "a" := by
    rintro c (⟨q, hq⟩ | ⟨hc, -⟩ | hc | ⟨g, hg, hc⟩)
    · by_contra hca
      have : exProps.lookup c = none := by simp [exProps, List.lookup, beq_eq_false_iff_ne.mpr hca]
      rw [show exBinner.props.lookup c = none from this] at hq
      cases hq
    · cases hc
    · cases hc
    · rw [List.mem_singleton] at hg
      subst hg
      exact List.mem_singleton.mp hc
  have hcol : ∀ c, Spec.PipelineColumn exBinner mixConfig [["a"]] true c → c = "a" ∨ c = "w" := by
    rintro c (⟨q, hq⟩ | ⟨-, hc⟩ | hc | ⟨g, hg, hc⟩)
    · left
      by_contra hca
      have : exProps.lookup c = none := by simp [exProps, List.lookup, beq_eq_false_iff_ne.mpr hca]
      rw [show exBinner.props.lookup c = none from this] at hq
      cases hq
    · right
      exact (Option.some.inj hc).symm
    · cases hc
    · left
      rw [List.mem_singleton] at hg
      subst hg
      exact List.mem_singleton.mp hc
  obtain ⟨Q', h3, h4⟩ := C176_columns exBinner (by norm_num [exBinner]) false mixConfig (gbsEstimator 0) [["a"]] rfl (by simp) mixNew mixConstruct
    P₀ P₀ (.constructed _ h1) (.constructed _ h1) mixFrame { mixFrame with columns := ["w", "z", "a"] } (by decide) (by decide)
    ⟨rfl, fun c hc => by rcases hcol c hc with rfl | rfl <;> simp, fun _ _ _ _ => rfl⟩ (.inl (.gbs 0)) _ (fun s => 2 * s) (fun _ _ => rfl) 1 Q h2
  obtain ⟨p', h5, h6⟩ := h4 ⟨["a"], fun _ _ => .fin 30, 1⟩ ⟨["z", "a"], fun _ c => if c = "a" then .fin 30 else .nan, 1⟩ (by decide) (by decide) (by
    refine ⟨rfl, fun c hc => ?_, fun c hc s hs => ?_⟩
    · rw [hcola c hc]; simp
    · rw [hcola c hc]; simp) (by
    rintro c (hc | ⟨g, hg, hc⟩)
    · cases hc
    · rw [List.mem_singleton] at hg
      subst hg
      exact hc) p hp
  exact ⟨P₀, Q, Q', h1, h2, h3, p', h5, by rw [h6 0 (by simp), hp0]⟩

/-- Witness for C176_refused: the column "a" is missing. -/
example : ∃ P₀ Q : PipelineObject, PipelineObject.construct exBinner false mixConfig = .ok P₀ ∧
    P₀.fit mixConfig (gbsEstimator 0) mixFrame (fun s => 2 * s) 1 = some (Q, .ok ()) ∧
    ∃ e, (e = .valueError ∨ e = .keyError) ∧ Q.predict mixConfig { mixFrame with columns := ["w", "b"] } = some (.error (.binnerTransform e)) := by
  obtain ⟨P₀, Q, -, h1, h2, -⟩ := C175_counterexample
  exact ⟨P₀, Q, h1, h2, C176_refused exBinner (by norm_num [exBinner]) false mixConfig (gbsEstimator 0) P₀ (.constructed _ h1) mixFrame (by decide) _ 1
    Q h2 { mixFrame with columns := ["w", "b"] } (by decide) "a" ⟨_, rfl⟩ (by simp)⟩

end CB
