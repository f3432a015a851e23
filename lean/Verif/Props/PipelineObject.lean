import Verif.Model.PipelineObject
import Verif.Props.BinnerObject
import Verif.Props.Api
import Verif.Props.TargetDomain

/-!
# C175: a pipeline with a history, and fits that raise
-/

set_option autoImplicit false
set_option linter.unusedSectionVars false

namespace CB
variable {σ : Type*}

namespace Spec

/-- The pipelines that can be reached from the constructor by calls of `fit`, successful or not. -/
inductive PipelineHistory (B : Binner) (inplace : Bool) (C : Config σ) (E : Estimator) : PipelineObject → Prop
  | constructed (P : PipelineObject) (h : PipelineObject.construct B inplace C = .ok P) : PipelineHistory B inplace C E P
  | fit (P P' : PipelineObject) (h : PipelineHistory B inplace C E P) (F : DataFrame) (y : ℕ → ℝ) (fuel : ℕ)
      (r : Except PipelineFailure Unit) (hr : P.fit C E F y fuel = some (P', r)) : PipelineHistory B inplace C E P'

end Spec

theorem pipeline_construct (B : Binner) (inplace : Bool) (C : Config σ) (P : PipelineObject)
    (h : PipelineObject.construct B inplace C = .ok P) : P.binner = BinnerObject.new B none inplace ∧ C.construct = .ok P.estimator := by
  unfold PipelineObject.construct at h
  cases hc : C.construct with
  | error e => rw [hc] at h; cases h
  | ok o => rw [hc] at h; cases h; exact ⟨rfl, rfl⟩

/-- What a call of `fit` does to the steps. -/
theorem pipeline_fit (P P' : PipelineObject) (C : Config σ) (E : Estimator) (F : DataFrame) (y : ℕ → ℝ) (fuel : ℕ)
    (r : Except PipelineFailure Unit) (h : P.fit C E F y fuel = some (P', r)) :
    P'.binner = (P.binner.fit F).1 ∧
    ((P'.estimator = P.estimator ∧ ∃ e, r = .error e) ∨
      ∃ G, (P.binner.fit F).2 = none ∧ (P.binner.fit F).1.binnedTable F = .ok G ∧
        ((∃ e, P.estimator.fit C E G y fuel = some (P'.estimator, .error e) ∧ r = .error (.estimator e)) ∨
          (P.estimator.fit C E G y fuel = some (P'.estimator, .ok ()) ∧ r = .ok ()))) := by
  unfold PipelineObject.fit at h
  rcases hb : P.binner.fit F with ⟨b, eb⟩
  rw [hb] at h
  cases eb with
  | some e => dsimp only at h; cases h; exact ⟨rfl, .inl ⟨rfl, _, rfl⟩⟩
  | none =>
    dsimp only at h ⊢
    cases ht : b.binnedTable F with
    | error e => rw [ht] at h; dsimp only at h; cases h; exact ⟨rfl, .inl ⟨rfl, _, rfl⟩⟩
    | ok G =>
      rw [ht] at h
      dsimp only at h
      cases hf : P.estimator.fit C E G y fuel with
      | none => rw [hf] at h; cases h
      | some q =>
        obtain ⟨o, q⟩ := q
        rw [hf] at h
        cases q with
        | error e => dsimp only at h; cases h; exact ⟨rfl, .inr ⟨G, rfl, rfl, .inl ⟨e, hf, rfl⟩⟩⟩
        | ok u => dsimp only at h; cases h; exact ⟨rfl, .inr ⟨G, rfl, rfl, .inr ⟨hf, rfl⟩⟩⟩

theorem pipeline_history (B : Binner) (inplace : Bool) (C : Config σ) (E : Estimator) (P : PipelineObject)
    (h : Spec.PipelineHistory B inplace C E P) :
    P.binner = { BinnerObject.new B none inplace with bins := P.binner.bins } ∧ Spec.History C E (fun _ => True) P.estimator := by
  induction h with
  | constructed P h =>
    obtain ⟨h1, h2⟩ := pipeline_construct B inplace C P h
    exact ⟨by rw [h1], .constructed _ h2⟩
  | fit P P' _ F y fuel r hr ih =>
    obtain ⟨h1, h2⟩ := pipeline_fit P P' C E F y fuel r hr
    refine ⟨?_, ?_⟩
    · obtain ⟨L, hL, -⟩ := fit_spec P.binner F
      rw [h1, hL, ih.1]
    · rcases h2 with ⟨h2, -⟩ | ⟨G, -, -, ⟨e, h2, -⟩ | ⟨h2, -⟩⟩
      · rw [h2]; exact ih.2
      · exact .fit _ _ ih.2 G trivial y fuel _ h2
      · exact .fit _ _ ih.2 G trivial y fuel _ h2

/-- **C175.** A fit of a pipeline forgets everything before: whatever it was fitted to, and whichever of these fits raised, a fit that succeeds
leaves a pipeline that predicts (or raises) for every table as a new pipeline after this fit. -/
theorem C175_refit (B : Binner) (inplace : Bool) (C : Config σ) (E : Estimator) (gs : List (List String)) (hgs : C.groups = some gs)
    (P new : PipelineObject) (h : Spec.PipelineHistory B inplace C E P) (hnew : PipelineObject.construct B inplace C = .ok new)
    (F : DataFrame) (y : ℕ → ℝ) (fuel : ℕ) (P' : PipelineObject) (hfit : P.fit C E F y fuel = some (P', .ok ())) :
    ∃ new', new.fit C E F y fuel = some (new', .ok ()) ∧ ∀ G, P'.predict C G = new'.predict C G := by
  obtain ⟨h1, h2⟩ := pipeline_history B inplace C E P h
  obtain ⟨h3, h4⟩ := pipeline_construct B inplace C new hnew
  obtain ⟨h5, h6⟩ := pipeline_fit P P' C E F y fuel _ hfit
  have hb : P.binner.fit F = new.binner.fit F := by rw [h1, fit_bins_irrelevant, h3]
  rcases h6 with ⟨-, e, he⟩ | ⟨G, h7, h8, ⟨e, -, he⟩ | ⟨h9, -⟩⟩
  · cases he
  · cases he
  · obtain ⟨-, hr⟩ := C91_refit C E gs hgs P.estimator new.estimator h2 h4 G y fuel
    obtain ⟨o', ho, hp⟩ := hr _ h9
    refine ⟨⟨(new.binner.fit F).1, o'⟩, ?_, ?_⟩
    · unfold PipelineObject.fit
      rw [hb] at h7 h8
      rcases hbb : new.binner.fit F with ⟨b, eb⟩
      rw [hbb] at h7 h8
      dsimp only at h7 h8
      subst h7
      dsimp only
      rw [h8]
      dsimp only
      rw [ho]
    · intro G
      unfold PipelineObject.predict
      rw [h5, hb]
      simp only [hp]

/-- **C175.** After any history and a successful fit the pipeline predicts what its steps do if they are used one by one: a new binner is fitted
to the table and bins it, a new estimator is fitted to the binned table, and tables to be predicted are binned by this binner first. -/
theorem C175_steps (B : Binner) (inplace : Bool) (C : Config σ) (E : Estimator) (gs : List (List String)) (hgs : C.groups = some gs)
    (P : PipelineObject) (h : Spec.PipelineHistory B inplace C E P) (estimator : EstimatorObject) (hnew : C.construct = .ok estimator)
    (F : DataFrame) (y : ℕ → ℝ) (fuel : ℕ) (P' : PipelineObject) (hfit : P.fit C E F y fuel = some (P', .ok ())) :
    ∃ binner' estimator' G, (BinnerObject.new B none inplace).fit F = (binner', none) ∧ binner'.binnedTable F = .ok G ∧
      estimator.fit C E G y fuel = some (estimator', .ok ()) ∧
      ∀ T, (∀ e, binner'.binnedTable T = .error e → P'.predict C T = some (.error (.binnerTransform e))) ∧
        ∀ H, binner'.binnedTable T = .ok H →
          (∀ p, estimator'.predict C H = some (.ok p) → P'.predict C T = some (.ok p)) ∧
          ∀ e, estimator'.predict C H = some (.error e) → P'.predict C T = some (.error (.estimator e)) := by
  have hnewP : PipelineObject.construct B inplace C = .ok ⟨BinnerObject.new B none inplace, estimator⟩ := by
    unfold PipelineObject.construct
    rw [hnew]
  obtain ⟨new', h1, h2⟩ := C175_refit B inplace C E gs hgs P _ h hnewP F y fuel P' hfit
  obtain ⟨h3, h4⟩ := pipeline_fit _ new' C E F y fuel _ h1
  rcases h4 with ⟨-, e, he⟩ | ⟨G, h5, h6, ⟨e, -, he⟩ | ⟨h7, -⟩⟩
  · cases he
  · cases he
  · dsimp only at h3 h5 h6 h7
    refine ⟨((BinnerObject.new B none inplace).fit F).1, new'.estimator, G, by rw [← h5], h6, h7, fun T => ?_⟩
    rw [← h3, h2 T]
    refine ⟨fun e he => ?_, fun H hH => ⟨fun p hp => ?_, fun e he => ?_⟩⟩
    · unfold PipelineObject.predict
      rw [he]
    · unfold PipelineObject.predict
      rw [hH]
      dsimp only
      rw [hp]
    · unfold PipelineObject.predict
      rw [hH]
      dsimp only
      rw [he]

/-- **C175.** If the binner raises, and there was something to bin, the pipeline afterwards refuses every table with at least as many columns to
be binned, although its estimator may still be fitted. -/
theorem C175_binner_raised (P P' : PipelineObject) (C : Config σ) (E : Estimator) (F : DataFrame) (y : ℕ → ℝ) (fuel : ℕ) (e : BinErr)
    (h : P.fit C E F y fuel = some (P', .error (.binnerFit e)))
    (hF : Spec.binColumns P.binner.cfg.props P.binner.weightColumn F.columns ≠ []) (G : DataFrame)
    (hG : (Spec.binColumns P.binner.cfg.props P.binner.weightColumn F.columns).length ≤
      (Spec.binColumns P.binner.cfg.props P.binner.weightColumn G.columns).length) :
    P'.predict C G = some (.error (.binnerTransform .valueError)) := by
  obtain ⟨h1, -⟩ := pipeline_fit P P' C E F y fuel _ h
  have he : (P.binner.fit F).2 = some e := by
    unfold PipelineObject.fit at h
    rcases hb : P.binner.fit F with ⟨b, eb⟩
    rw [hb] at h
    cases eb with
    | some e' => dsimp only at h; cases h; rfl
    | none =>
      dsimp only at h
      cases ht : b.binnedTable F with
      | error e => rw [ht] at h; cases h
      | ok G =>
        rw [ht] at h
        dsimp only at h
        cases hf : P.estimator.fit C E G y fuel with
        | none => rw [hf] at h; cases h
        | some q =>
          obtain ⟨o, q⟩ := q
          rw [hf] at h
          cases q <;> cases h
  have := C140_failed_fit P.binner F e he hF [] (by simp) ⟨fun _ => G, 1⟩ ⟨fun _ => G, 1⟩ 0 hG
  rw [List.foldl_nil] at this
  unfold PipelineObject.predict BinnerObject.binnedTable
  rw [h1, this]

/-- The training table can be binned after a fit. -/
theorem binned_training (o : BinnerObject) (htol : 0 ≤ o.cfg.tolerance) (F : DataFrame) (hnd : F.columns.Nodup)
    (hpos : Spec.PositiveWeights o.weightColumn F) (h : (o.fit F).2 = none) :
    ∃ G, (o.fit F).1.binnedTable F = .ok G ∧ G.n = F.n ∧ G.columns = F.columns := by
  classical
  obtain ⟨-, -, h3⟩ := C140_transform o htol F hnd hpos h [] (by simp) ⟨fun _ => F, 1⟩ ⟨fun _ => F, 1⟩ 0 hnd
  obtain ⟨a', G, h4, h5, h6, h7, -⟩ := h3 rfl (fun c hc => (List.mem_filter.mp hc).1)
  rw [List.foldl_nil] at h4 h5
  refine ⟨G, ?_, h7, h6⟩
  unfold BinnerObject.binnedTable
  rcases hr : (o.fit F).1.transform ⟨fun _ => F, 1⟩ 0 with ⟨m', r⟩
  rw [hr] at h4 h5
  dsimp only at h4 h5
  subst h4
  dsimp only
  rw [h5]

/-- **C175 (partial: the pipeline is not as before).** If the estimator refuses the targets, fit raises a ValueError; the pipeline then has the
bins of the new table and the model of the last successful fit. -/
theorem C175_refused_partial (P : PipelineObject) (C : Config σ) (E : Estimator) (T : ℝ → Prop) (hT : Spec.MadeFor E T)
    (htol : 0 ≤ P.binner.cfg.tolerance) (F : DataFrame) (hnd : F.columns.Nodup) (hpos : Spec.PositiveWeights P.binner.weightColumn F)
    (hb : (P.binner.fit F).2 = none) (y : ℕ → ℝ) (i : ℕ) (hi : i < F.n) (hy : ¬ T (y i)) (fuel : ℕ) :
    P.fit C E F y fuel = some (⟨(P.binner.fit F).1, P.estimator⟩, .error (.estimator .valueError)) := by
  obtain ⟨G, hG, hn, -⟩ := binned_training P.binner htol F hnd hpos hb
  have hr := C144_refused C E T hT G y P.estimator i (by rw [hn]; exact hi) hy fuel
  unfold PipelineObject.fit
  rcases hbb : P.binner.fit F with ⟨b, eb⟩
  rw [hbb] at hG hb
  dsimp only at hG hb
  subst hb
  dsimp only
  rw [hG]
  dsimp only
  rw [hr]

/-- **C175.** In particular nothing changes if the estimator refuses the targets and the table is that of the last successful fit. -/
theorem C175_same_table (P₀ P : PipelineObject) (C : Config σ) (E : Estimator) (T : ℝ → Prop) (hT : Spec.MadeFor E T)
    (htol : 0 ≤ P₀.binner.cfg.tolerance) (F : DataFrame) (hnd : F.columns.Nodup) (hpos : Spec.PositiveWeights P₀.binner.weightColumn F)
    (y₀ : ℕ → ℝ) (fuel₀ : ℕ) (h : P₀.fit C E F y₀ fuel₀ = some (P, .ok ())) (y : ℕ → ℝ) (i : ℕ) (hi : i < F.n) (hy : ¬ T (y i)) (fuel : ℕ) :
    P.fit C E F y fuel = some (P, .error (.estimator .valueError)) := by
  obtain ⟨h1, h2⟩ := pipeline_fit P₀ P C E F y₀ fuel₀ _ h
  have hn : (P₀.binner.fit F).2 = none := by
    rcases h2 with ⟨-, e, he⟩ | ⟨G, h3, -⟩
    · cases he
    · exact h3
  obtain ⟨L, hL, -⟩ := fit_spec P₀.binner F
  have hsame : P.binner.fit F = P₀.binner.fit F := by rw [h1, hL, fit_bins_irrelevant]
  have hcfg : P.binner.cfg = P₀.binner.cfg ∧ P.binner.weightColumn = P₀.binner.weightColumn := by rw [h1, hL]; exact ⟨rfl, rfl⟩
  rw [C175_refused_partial P C E T hT (by rw [hcfg.1]; exact htol) F hnd (by rw [hcfg.2]; exact hpos) (by rw [hsame]; exact hn) y i hi hy fuel,
    hsame, ← h1]

end CB
