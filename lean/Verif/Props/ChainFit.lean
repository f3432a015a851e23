import Verif.Model.ChainFit
import Verif.Props.QpdChain

/-!
# C149: training of the quantile chain with arbitrary estimators
-/

set_option autoImplicit false
set_option linter.unusedSectionVars false

namespace CB

open Spec

namespace Spec

/-- The training rows together with their predicted medians. -/
def withMedian {R : Type} (table : List (R × ℝ)) (med : List ℝ) : List (MedianRow R) :=
  (table.zip med).map fun r => ⟨r.1.1, r.1.2, r.2⟩

/-- An estimator as scikit-learn has them: it is trained exactly by tables with at least one row and one target per row. -/
def AcceptsNonempty {R S : Type} (e : QuantileEstimator R S) : Prop :=
  ∀ s X y, (e.fit s X y).1 = none ↔ X ≠ [] ∧ X.length = y.length

/-- An estimator that returns one number per row. -/
def PredictsRows {R S : Type} (e : QuantileEstimator R S) : Prop :=
  ∀ s X, ∃ z, e.predict s X = .ok z ∧ z.length = X.length

end Spec

variable {R S₁ S₂ S₃ : Type} {em : QuantileEstimator R S₁} {el : QuantileEstimator R S₂} {eh : QuantileEstimator R S₃}
  {b : ChainBound} {l u : ℝ} {o o' : ChainObjects S₁ S₂ S₃} {table : List (R × ℝ)}

theorem withMedian_chain (z : List ℝ) :
    ((table.zip z).map fun r => (⟨r.1.1, r.1.2, chainMedian b l u r.2⟩ : MedianRow R))
      = withMedian table (z.map (chainMedian b l u)) := by
  unfold withMedian
  rw [List.zip_map_right, List.map_map]
  rfl

/-- A successful fit, step by step. -/
theorem chainFit_ok (h : chainFit em el eh b l u o table = (none, o')) :
    ∃ z z' t, em.fit o.median (table.map Prod.fst) (table.map fun r => chainMedianTarget b l u r.2) = (none, o'.median) ∧
      em.predict o'.median (table.map Prod.fst) = .ok z ∧ z.length = table.length ∧
      el.fit o.low ((chainLowTraining l (withMedian table (z.map (chainMedian b l u)))).map Prod.fst)
        ((chainLowTraining l (withMedian table (z.map (chainMedian b l u)))).map Prod.snd) = (none, o'.low) ∧
      el.predict o'.low (table.map Prod.fst) = .ok z' ∧ z'.length = table.length ∧
      chainHighTargets b u (((withMedian table (z.map (chainMedian b l u))).zip
        (((withMedian table (z.map (chainMedian b l u))).zip z').map fun r => chainLow l r.1.med r.2)).map
          fun r => ⟨r.1.y, r.1.med, r.2⟩) = .ok t ∧
      eh.fit o.high (chainHighFeatures (withMedian table (z.map (chainMedian b l u)))
        (((withMedian table (z.map (chainMedian b l u))).zip z').map fun r => chainLow l r.1.med r.2)) t
          = (none, o'.high) := by
  unfold chainFit at h
  dsimp only at h
  split at h
  · simp at h
  rename_i h1
  split at h
  · simp at h
  rename_i z hz
  split at h
  · simp at h
  rename_i hlen
  rw [withMedian_chain] at h
  split at h
  · simp at h
  rename_i h2
  split at h
  · simp at h
  rename_i z' hz'
  split at h
  · simp at h
  rename_i hlen'
  split at h
  · simp at h
  rename_i t ht
  simp only [Prod.mk.injEq] at h
  obtain ⟨h3, ho⟩ := h
  subst ho
  exact ⟨z, z', t, Prod.ext h1 rfl, hz, not_not.mp hlen, Prod.ext h2 rfl, hz', not_not.mp hlen', ht, Prod.ext h3 rfl⟩

/-- Predicted medians lie above the lower bound and, in mode "B", below the upper one. -/
theorem chainMedian_inside (hlu : b = .B → l < u) (z : ℝ) : l < chainMedian b l u z ∧ (b = .B → chainMedian b l u z < u) := by
  have := C41_no_crossing b l u z 0 0 hlu
  simp only [chainPredict] at this
  refine ⟨lt_trans this.1 this.2.1, fun hb => lt_trans this.2.2.1 (this.2.2.2 hb)⟩

theorem withMedian_mem {med : List ℝ} {r : MedianRow R} (h : r ∈ withMedian table med) : (r.x, r.y) ∈ table ∧ r.med ∈ med := by
  unfold withMedian at h
  obtain ⟨q, hq, rfl⟩ := List.mem_map.mp h
  exact List.of_mem_zip hq

theorem chainLowTraining_eq (rows : List (MedianRow R)) (h : ∀ r ∈ rows, 0 < r.med ∧ l < r.med ∧ l < r.y) :
    (chainLowTraining l rows).map Prod.fst = (rows.filter fun r => decide (r.y < r.med)).map (·.x) ∧
      List.Forall₂ (fun (r : MedianRow R) t => chainLow l r.med t = r.y) (rows.filter fun r => decide (r.y < r.med))
        ((chainLowTraining l rows).map Prod.snd) := by
  induction rows with
  | nil => simp [chainLowTraining]
  | cons r rows ih =>
    obtain ⟨h1, h2⟩ := ih fun q hq => h q (List.mem_cons_of_mem _ hq)
    obtain ⟨hm, hl, hy⟩ := h r (List.mem_cons_self)
    obtain ⟨hs, ht⟩ := C42_low_partial l r.y r.med hm hl hy
    unfold chainLowTraining at h1 h2 ⊢
    cases hc : chainLowTarget l r.y r.med with
    | none =>
      have hn : ¬ r.y < r.med := fun e => by rw [hc] at hs; simpa using hs.mpr e
      simp only [List.filterMap_cons, hc, Option.map_none, List.filter_cons, hn, decide_false]
      exact ⟨h1, h2⟩
    | some t =>
      have hp : r.y < r.med := hs.mp (by rw [hc]; rfl)
      simp only [List.filterMap_cons, hc, Option.map_some, List.filter_cons, hp, decide_true, if_true, List.map_cons]
      exact ⟨by rw [h1], List.Forall₂.cons (ht t hc) h2⟩

theorem chainHighFeatures_eq (rows : List (MedianRow R)) (z' : List ℝ) (hlen : z'.length = rows.length)
    (h : ∀ r ∈ rows, l < r.med) :
    chainHighFeatures rows ((rows.zip z').map fun r => chainLow l r.1.med r.2)
      = (rows.filter fun r => decide (r.med < r.y)).map (·.x) := by
  classical
  induction rows generalizing z' with
  | nil => simp [chainHighFeatures]
  | cons r rows ih =>
    cases z' with
    | nil => simp at hlen
    | cons z z' =>
      have ih := ih z' (by simpa using hlen) fun q hq => h q (List.mem_cons_of_mem _ hq)
      unfold chainHighFeatures at ih ⊢
      have hl := h r List.mem_cons_self
      have hlow : chainLow l r.med z < r.med := ((C43_bounded l r.med hl).2.1 z).2
      have hiff : chainHighScaled r.y r.med (chainLow l r.med z) > 0 ↔ r.med < r.y := by
        unfold chainHighScaled
        rw [gt_iff_lt, div_pos_iff_of_pos_right (by linarith)]
        exact sub_pos
      simp only [List.zip_cons_cons, List.map_cons, List.filter_cons, hiff]
      by_cases hc : r.med < r.y
      · simp only [hc, decide_true, if_true, List.map_cons, List.cons.injEq, true_and]
        simpa using ih
      · simp only [hc, decide_false, Bool.false_eq_true, if_false]
        simpa using ih

/-- **C149.** After a successful `fit` of a chain with a lower bound that is not negative, whatever the estimators are: the
median model was trained on all rows with targets that stand for `y`; the lower-quantile model was trained exactly on the
rows below their predicted median, in the order of the table, with targets that stand for `y`; the upper-quantile model was
trained exactly on the rows above their predicted median, in the order of the table. -/
theorem C149_training (hl : 0 ≤ l) (hlu : b = .B → l < u) (hy : ∀ r ∈ table, l < r.2 ∧ (b = .B → r.2 < u))
    (h : chainFit em el eh b l u o table = (none, o')) :
    ∃ z tm tl th, em.predict o'.median (table.map Prod.fst) = .ok z ∧ z.length = table.length ∧
      em.fit o.median (table.map Prod.fst) tm = (none, o'.median) ∧
      List.Forall₂ (fun (r : R × ℝ) t => chainMedian b l u t = r.2) table tm ∧
      el.fit o.low (((withMedian table (z.map (chainMedian b l u))).filter fun r => decide (r.y < r.med)).map (·.x)) tl
        = (none, o'.low) ∧
      List.Forall₂ (fun (r : MedianRow R) t => chainLow l r.med t = r.y)
        ((withMedian table (z.map (chainMedian b l u))).filter fun r => decide (r.y < r.med)) tl ∧
      eh.fit o.high (((withMedian table (z.map (chainMedian b l u))).filter fun r => decide (r.med < r.y)).map (·.x)) th
        = (none, o'.high) := by
  obtain ⟨z, z', t, h1, h2, h3, h4, h5, h6, h7, h8⟩ := chainFit_ok h
  have hmem : ∀ r ∈ withMedian table (z.map (chainMedian b l u)), 0 < r.med ∧ l < r.med ∧ l < r.y := by
    intro r hr
    obtain ⟨ht, hm⟩ := withMedian_mem hr
    obtain ⟨w, -, hw⟩ := List.mem_map.mp hm
    have := (chainMedian_inside (l := l) (u := u) hlu w).1
    rw [hw] at this
    exact ⟨by linarith, this, (hy _ ht).1⟩
  obtain ⟨e1, e2⟩ := chainLowTraining_eq (l := l) _ hmem
  have e3 := chainHighFeatures_eq (l := l) (withMedian table (z.map (chainMedian b l u))) z'
    (by simp [withMedian, h3, h6]) fun r hr => (hmem r hr).2.1
  refine ⟨z, _, _, t, h2, h3, h1, ?_, ?_, e2, ?_⟩
  · rw [List.forall₂_map_right_iff, List.forall₂_same]
    intro r hr
    exact C42_median b l u r.2 (hy r hr).1 (hy r hr).2
  · rw [← e1]; exact h4
  · rw [← e3]; exact h8

/-- **C149, counterexample.** In mode "B" training never succeeds, whatever the data and the predictions are, if the estimators refuse tables
without rows and tables with another number of targets than rows. -/
theorem C149_bounded_never_trains (hl : 0 ≤ l) (hlu : l < u) (hy : ∀ r ∈ table, l < r.2 ∧ r.2 < u)
    (hel : AcceptsNonempty el) (heh : AcceptsNonempty eh) :
    (chainFit em el eh .B l u o table).1 ≠ none := by
  classical
  intro hn
  obtain ⟨o', h⟩ : ∃ o', chainFit em el eh .B l u o table = (none, o') := ⟨_, Prod.ext hn rfl⟩
  obtain ⟨z, z', t, -, -, h3, h4, -, h6, h7, h8⟩ := chainFit_ok h
  set rows := withMedian table (z.map (chainMedian .B l u)) with hrows
  have hmem : ∀ r ∈ rows, 0 < r.med ∧ l < r.med ∧ l < r.y := by
    intro r hr
    obtain ⟨ht, hm⟩ := withMedian_mem hr
    obtain ⟨w, -, hw⟩ := List.mem_map.mp hm
    have := (chainMedian_inside (b := .B) (l := l) (u := u) (fun _ => hlu) w).1
    rw [hw] at this
    exact ⟨by linarith, this, (hy _ ht).1⟩
  have hlen : rows.length = table.length := by simp [hrows, withMedian, h3]
  obtain ⟨e1, -⟩ := chainLowTraining_eq (l := l) rows hmem
  have e3 := chainHighFeatures_eq (l := l) rows z' (by omega) fun r hr => (hmem r hr).2.1
  have a4 := (hel _ _ _).mp (congrArg Prod.fst h4)
  have a8 := (heh _ _ _).mp (congrArg Prod.fst h8)
  rw [e1] at a4
  rw [e3] at a8
  -- a row below its median exists, so not all rows are above
  have hbelow : (rows.filter fun r => decide (r.y < r.med)) ≠ [] := fun e => a4.1 (by rw [e]; rfl)
  have habove : (rows.filter fun r => decide (r.med < r.y)) ≠ [] := fun e => a8.1 (by rw [e]; rfl)
  have hlt : (rows.filter fun r => decide (r.med < r.y)).length < rows.length := by
    apply List.length_filter_lt_length_iff_exists.mpr
    obtain ⟨r, hr⟩ := List.exists_mem_of_ne_nil _ hbelow
    rw [List.mem_filter] at hr
    refine ⟨r, hr.1, ?_⟩
    have := of_decide_eq_true hr.2
    simp only [decide_eq_true_eq, not_lt]
    exact this.le
  have hpos : 0 < (rows.filter fun r => decide (r.med < r.y)).length := List.length_pos_iff.mpr habove
  -- the scaled targets are as many as the rows above
  set crows := ((rows.zip ((rows.zip z').map fun r => chainLow l r.1.med r.2)).map
    fun r => (⟨r.1.y, r.1.med, r.2⟩ : ChainRow)) with hcrows
  have hcl : crows.length = rows.length := by simp [hcrows]; omega
  have hcount : ((crows.filter fun r => decide (chainHighScaled r.y r.med r.low > 0))).length
      = (rows.filter fun r => decide (r.med < r.y)).length := by
    have := congrArg List.length e3
    unfold chainHighFeatures at this
    rw [List.length_map, List.length_map] at this
    rw [← this, hcrows, List.filter_map, List.length_map]
    rfl
  rw [List.length_map] at a8
  unfold chainHighTargets at h7
  simp only at h7
  unfold broadcast at h7
  simp only [List.length_map] at h7
  rw [hcount, hcl] at h7
  rw [if_neg (by omega)] at h7
  by_cases h1 : (rows.filter fun r => decide (r.med < r.y)).length = 1
  · rw [if_pos h1] at h7
    simp only [bind, Except.bind, Except.ok.injEq] at h7
    have := congrArg List.length h7
    simp only [List.length_map] at this
    omega
  · rw [if_neg h1, if_neg (by omega)] at h7
    simp [bind, Except.bind] at h7

/-- Targets of mode "S" are always computed. -/
theorem chainHighTargets_S (rows : List ChainRow) : ∃ t, chainHighTargets .S u rows = .ok t ∧
    t.length = (rows.filter fun r => @decide (chainHighScaled r.y r.med r.low > 0) (Classical.propDecidable _)).length := by
  unfold chainHighTargets
  exact ⟨_, rfl, by simp⟩

/-- **C149 (partial; full claim: in both modes).** In mode "S", with estimators that accept every nonempty table and predict one number per row, training succeeds
exactly if at least one training row lies below and at least one lies above the median predicted for it. -/
theorem C149_trains_semibounded_partial (hl : 0 ≤ l) (hy : ∀ r ∈ table, l < r.2)
    (hem : AcceptsNonempty em) (hel : AcceptsNonempty el) (heh : AcceptsNonempty eh)
    (pm : PredictsRows em) (pl : PredictsRows el) {s : S₁} {z : List ℝ}
    (hs : em.fit o.median (table.map Prod.fst) (table.map fun r => chainMedianTarget .S l u r.2) = (none, s))
    (hz : em.predict s (table.map Prod.fst) = .ok z) :
    (chainFit em el eh .S l u o table).1 = none ↔
      (∃ r ∈ withMedian table (z.map (chainMedian .S l u)), r.y < r.med) ∧
      (∃ r ∈ withMedian table (z.map (chainMedian .S l u)), r.med < r.y) := by
  classical
  have hzl : z.length = table.length := by
    obtain ⟨w, hw, hwl⟩ := pm s (table.map Prod.fst)
    rw [hz] at hw
    cases hw
    simpa using hwl
  set rows := withMedian table (z.map (chainMedian .S l u)) with hrows
  have hmem : ∀ r ∈ rows, 0 < r.med ∧ l < r.med ∧ l < r.y := by
    intro r hr
    obtain ⟨ht, hm⟩ := withMedian_mem hr
    obtain ⟨w, -, hw⟩ := List.mem_map.mp hm
    have := (chainMedian_inside (b := .S) (l := l) (u := u) (fun e => by cases e) w).1
    rw [hw] at this
    exact ⟨by linarith, this, hy _ ht⟩
  have hlen : rows.length = table.length := by simp [hrows, withMedian, hzl]
  obtain ⟨e1, -⟩ := chainLowTraining_eq (l := l) rows hmem
  have hb : ∀ p : MedianRow R → Prop, (rows.filter fun r => decide (p r)) ≠ [] ↔ ∃ r ∈ rows, p r := by
    intro p
    rw [Ne, List.filter_eq_nil_iff]
    simp
  constructor
  · intro hn
    obtain ⟨o', h⟩ : ∃ o', chainFit em el eh .S l u o table = (none, o') := ⟨_, Prod.ext hn rfl⟩
    obtain ⟨w, w', t, h1, h2, h3, h4, -, h6, -, h8⟩ := chainFit_ok h
    rw [hs] at h1
    simp only [Prod.mk.injEq, true_and] at h1
    rw [← h1, hz] at h2
    cases h2
    rw [← hrows] at h4 h8
    have e3 := chainHighFeatures_eq (l := l) rows w' (by omega) fun r hr => (hmem r hr).2.1
    have a4 := (hel _ _ _).mp (congrArg Prod.fst h4)
    have a8 := (heh _ _ _).mp (congrArg Prod.fst h8)
    rw [e1] at a4
    rw [e3] at a8
    exact ⟨(hb _).mp fun e => a4.1 (by rw [e]; rfl), (hb _).mp fun e => a8.1 (by rw [e]; rfl)⟩
  · rintro ⟨hbelow, habove⟩
    have hb1 := (hb _).mpr hbelow
    have hb2 := (hb _).mpr habove
    have f2 : (el.fit o.low ((chainLowTraining l rows).map Prod.fst) ((chainLowTraining l rows).map Prod.snd)).1 = none := by
      apply (hel _ _ _).mpr
      refine ⟨?_, by simp⟩
      rw [e1]
      exact fun e => hb1 (List.map_eq_nil_iff.mp e)
    unfold chainFit
    dsimp only
    simp only [hs, hz, hzl, ne_eq, not_true_eq_false, if_false]
    rw [withMedian_chain, ← hrows]
    simp only [f2]
    obtain ⟨z', hz', hzl'⟩ := pl (el.fit o.low ((chainLowTraining l rows).map Prod.fst)
      ((chainLowTraining l rows).map Prod.snd)).2 (table.map Prod.fst)
    rw [List.length_map] at hzl'
    simp only [hz', hzl', not_true_eq_false, if_false]
    obtain ⟨t, ht, htl⟩ := chainHighTargets_S (u := u) (((rows.zip ((rows.zip z').map fun r => chainLow l r.1.med r.2)).map
      fun r => (⟨r.1.y, r.1.med, r.2⟩ : ChainRow)))
    simp only [ht]
    apply (heh _ _ _).mpr
    have e3 := chainHighFeatures_eq (l := l) rows z' (by omega) fun r hr => (hmem r hr).2.1
    refine ⟨?_, ?_⟩
    · rw [e3]; exact fun e => hb2 (List.map_eq_nil_iff.mp e)
    · rw [htl]
      unfold chainHighFeatures
      rw [List.length_map, List.filter_map, List.length_map]
      rfl

/-- **C149.** The three quantiles that a chain predicts for a table are strictly ordered and inside the range for every row,
whatever the estimators are. -/
theorem C149_no_crossing {X : List R} {q : List (ℝ × ℝ × ℝ)} (hlu : b = .B → l < u)
    (h : chainPredictRows em el eh b l u o X = .ok q) :
    q.length = X.length ∧ ∀ r ∈ q, l < r.1 ∧ r.1 < r.2.1 ∧ r.2.1 < r.2.2 ∧ (b = .B → r.2.2 < u) := by
  unfold chainPredictRows at h
  simp only [bind, Except.bind] at h
  split at h
  · simp at h
  split at h
  · simp at h
  split at h
  · simp at h
  rename_i zm _ zl _ zh _
  split_ifs at h with hc
  push Not at hc
  simp only [Except.ok.injEq] at h
  subst h
  refine ⟨by simp [hc.1, hc.2.1, hc.2.2], fun r hr => ?_⟩
  obtain ⟨w, -, rfl⟩ := List.mem_map.mp hr
  exact C41_no_crossing b l u _ _ _ hlu

/-- Entry of three zipped lists. -/
theorem getElem?_zip_zip {α β γ : Type} (as : List α) (bs : List β) (cs : List γ) (i : ℕ) :
    (as.zip (bs.zip cs))[i]? = (as[i]?).bind fun a => (bs[i]?).bind fun b => (cs[i]?).map fun c => (a, b, c) := by
  induction as generalizing bs cs i with
  | nil => simp
  | cons a as ih =>
    cases bs with
    | nil => cases i <;> simp
    | cons b bs =>
      cases cs with
      | nil => cases i <;> simp
      | cons c cs =>
        cases i with
        | zero => rfl
        | succ i => simpa using ih bs cs i

/-- **C149.** The predicted median of a row comes from the median estimator alone, the lower quantile from the median and the
lower-quantile estimator, the upper quantile from the median and the upper-quantile estimator, all for that row. -/
theorem C149_predict {X : List R} {q : List (ℝ × ℝ × ℝ)} (h : chainPredictRows em el eh b l u o X = .ok q) :
    ∃ zm zl zh, em.predict o.median X = .ok zm ∧ el.predict o.low X = .ok zl ∧ eh.predict o.high X = .ok zh ∧
      ∀ i : ℕ, q[i]? = (zm[i]?).bind fun m => (zl[i]?).bind fun a => (zh[i]?).map fun c =>
        (chainLow l (chainMedian b l u m) a, chainMedian b l u m, chainHigh b u (chainMedian b l u m) c) := by
  unfold chainPredictRows at h
  simp only [bind, Except.bind] at h
  split at h
  · simp at h
  split at h
  · simp at h
  split at h
  · simp at h
  rename_i _ zm hm _ zl hl _ zh hh
  split_ifs at h with hc
  simp only [Except.ok.injEq] at h
  subst h
  refine ⟨zm, zl, zh, hm, hl, hh, fun i => ?_⟩
  rw [List.getElem?_map, getElem?_zip_zip zm zl zh i]
  cases zm[i]? <;> cases zl[i]? <;> cases zh[i]? <;> rfl

/-- Being below the predicted lower quantile, seen from the lower-quantile model. -/
theorem le_chainLow_iff {y med z : ℝ} (hm : 0 < med) (hl : l < med) (hy : l < y) :
    y ≤ chainLow l med z ↔ ∃ t, chainLowTarget l y med = some t ∧ t ≤ z := by
  obtain ⟨hs, ht⟩ := C42_low_partial l y med hm hl hy
  obtain ⟨-, hin, -, hmono⟩ := C43_bounded l med hl
  constructor
  · intro h
    have hlt : y < med := lt_of_le_of_lt h (hin z).2
    obtain ⟨t, hc⟩ := Option.isSome_iff_exists.mp (hs.mpr hlt)
    refine ⟨t, hc, ?_⟩
    by_contra hn
    have h1 := hmono z t (not_le.mp hn)
    have h2 := ht t hc
    unfold chainLow at h2 h
    rw [h2] at h1
    linarith
  · rintro ⟨t, hc, htz⟩
    rw [← ht t hc]
    rcases htz.lt_or_eq with h | h
    · exact (hmono t z h).le
    · rw [h]

/-- **C149.** Why the lower-quantile model has to be trained for the quantile `2 * alpha`: if half of the training rows lie
below their predicted median, and the share `2 * alpha` of the rows that the lower-quantile model was trained on lies at or
below its output, then the share `alpha` of all rows lies at or below the predicted lower quantile. -/
theorem C149_coverage (alpha : ℝ) (rows : List (MedianRow R × ℝ))
    (hr : ∀ r ∈ rows, 0 < r.1.med ∧ l < r.1.med ∧ l < r.1.y)
    (half : ((rows.filter fun r => decide (r.1.y < r.1.med)).length : ℝ) = rows.length / 2)
    (share : (((rows.filterMap fun r => (chainLowTarget l r.1.y r.1.med).map fun t => (t, r.2)).filter
        fun q => decide (q.1 ≤ q.2)).length : ℝ)
      = 2 * alpha * (rows.filterMap fun r => (chainLowTarget l r.1.y r.1.med).map fun t => (t, r.2)).length) :
    ((rows.filter fun r => decide (r.1.y ≤ chainLow l r.1.med r.2)).length : ℝ) = alpha * rows.length := by
  have e1 : ∀ rows : List (MedianRow R × ℝ), (∀ r ∈ rows, 0 < r.1.med ∧ l < r.1.med ∧ l < r.1.y) →
      (rows.filterMap fun r => (chainLowTarget l r.1.y r.1.med).map fun t => (t, r.2)).length
        = (rows.filter fun r => decide (r.1.y < r.1.med)).length ∧
      ((rows.filterMap fun r => (chainLowTarget l r.1.y r.1.med).map fun t => (t, r.2)).filter
        fun q => decide (q.1 ≤ q.2)).length
        = (rows.filter fun r => decide (r.1.y ≤ chainLow l r.1.med r.2)).length := by
    intro rows
    induction rows with
    | nil => simp
    | cons r rows ih =>
      intro hr
      obtain ⟨h1, h2⟩ := ih fun q hq => hr q (List.mem_cons_of_mem _ hq)
      obtain ⟨hm, hl, hy⟩ := hr r List.mem_cons_self
      obtain ⟨hs, -⟩ := C42_low_partial l r.1.y r.1.med hm hl hy
      have hiff := le_chainLow_iff (z := r.2) hm hl hy
      cases hc : chainLowTarget l r.1.y r.1.med with
      | none =>
        rw [hc] at hs hiff
        have hn : ¬ r.1.y < r.1.med := fun e => by simpa using hs.mpr e
        have hn' : ¬ r.1.y ≤ chainLow l r.1.med r.2 := fun e => by simpa using hiff.mp e
        simp only [List.filterMap_cons, hc, Option.map_none, List.filter_cons, hn, hn', decide_false, Bool.false_eq_true,
          if_false]
        exact ⟨h1, h2⟩
      | some t =>
        rw [hc] at hs hiff
        have hp : r.1.y < r.1.med := hs.mp rfl
        simp only [Option.some.injEq, exists_eq_left'] at hiff
        simp only [List.filterMap_cons, hc, Option.map_some, List.filter_cons, hp, decide_true, if_true, hiff,
          List.length_cons, h1, true_and]
        by_cases ht : t ≤ r.2
        · simp only [ht, decide_true, if_true, List.length_cons, h2]
        · simp only [ht, decide_false, Bool.false_eq_true, if_false, h2]
  obtain ⟨h1, h2⟩ := e1 rows hr
  rw [h1, half] at share
  rw [← h2, share]
  ring

/-! ### Witnesses -/

/-- An estimator that returns the same number for every row: the last one of its training targets. -/
noncomputable def lastTarget : QuantileEstimator Unit ℝ where
  fit s X y := if X ≠ [] ∧ X.length = y.length then (none, y.getLastD s) else (some "no rows", s)
  predict s X := .ok (X.map fun _ => s)

theorem lastTarget_accepts : AcceptsNonempty lastTarget := by
  intro s X y
  unfold lastTarget
  dsimp only
  split_ifs with h
  · simp [h]
  · simp [h]

theorem lastTarget_rows : PredictsRows lastTarget := fun s X => ⟨_, rfl, by simp⟩

/-- Three rows with targets 1, 5 and 2: the median model predicts 2, one row is below and one above, and the semi-bounded chain
is trained. -/
example : (chainFit lastTarget lastTarget lastTarget .S 0 1 ⟨0, 0, 0⟩ [((), 1), ((), 5), ((), 2)]).1 = none := by
  have hfit : lastTarget.fit 0 [(), (), ()] [transformFromSemiboundLower 1 0, transformFromSemiboundLower 5 0,
      transformFromSemiboundLower 2 0] = (none, transformFromSemiboundLower 2 0) := by
    unfold lastTarget; simp
  have hmed : chainMedian .S 0 1 (transformFromSemiboundLower 2 0) = 2 := C42_median .S 0 1 2 (by norm_num) (fun e => by cases e)
  refine (C149_trains_semibounded_partial (u := 1) (o := ⟨0, 0, 0⟩) (table := [((), 1), ((), 5), ((), 2)])
    (z := [(), (), ()].map fun _ => transformFromSemiboundLower 2 0) le_rfl ?_
    lastTarget_accepts lastTarget_accepts lastTarget_accepts lastTarget_rows lastTarget_rows hfit rfl).mpr ⟨?_, ?_⟩
  · intro r hr
    simp only [List.mem_cons, List.not_mem_nil, or_false] at hr
    rcases hr with rfl | rfl | rfl <;> norm_num
  · refine ⟨⟨(), 1, 2⟩, ?_, by norm_num⟩
    simp [withMedian, hmed]
  · refine ⟨⟨(), 5, 2⟩, ?_, by norm_num⟩
    simp [withMedian, hmed]

/-- The bounded chain is not trained by the same rows, nor by any others. -/
example : (chainFit lastTarget lastTarget lastTarget .B 0 10 ⟨0, 0, 0⟩ [((), 1), ((), 5), ((), 2)]).1 ≠ none := by
  apply C149_bounded_never_trains le_rfl (by norm_num) _ lastTarget_accepts lastTarget_accepts
  intro r hr
  simp only [List.mem_cons, List.not_mem_nil, or_false] at hr
  rcases hr with rfl | rfl | rfl <;> norm_num

/-- Four rows with median 4, two of them below; the lower-quantile model returns the target of the row with 1, so half of its
two rows are at or below its output: a quarter of the four rows is at or below the predicted lower quantile. -/
example : ∃ t, chainLowTarget 0 1 4 = some t ∧
    (([(⟨(), 1, 4⟩, t), (⟨(), 2, 4⟩, t), (⟨(), 5, 4⟩, t), (⟨(), 6, 4⟩, t)] : List (MedianRow Unit × ℝ)).filter
      fun r => decide (r.1.y ≤ chainLow 0 r.1.med r.2)).length = (1 / 4 : ℝ) * 4 := by
  obtain ⟨t, ht⟩ := Option.isSome_iff_exists.mp
    ((C42_low_partial 0 1 4 (by norm_num) (by norm_num) (by norm_num)).1.mpr (by norm_num))
  obtain ⟨t', ht'⟩ := Option.isSome_iff_exists.mp
    ((C42_low_partial 0 2 4 (by norm_num) (by norm_num) (by norm_num)).1.mpr (by norm_num))
  have n5 : chainLowTarget 0 5 4 = none := by unfold chainLowTarget; norm_num
  have n6 : chainLowTarget 0 6 4 = none := by unfold chainLowTarget; norm_num
  have hlt : ¬ t' ≤ t := by
    intro h
    have h1 := (le_chainLow_iff (l := 0) (y := 2) (med := 4) (z := t) (by norm_num) (by norm_num) (by norm_num)).mpr ⟨t', ht', h⟩
    rw [(C42_low_partial 0 1 4 (by norm_num) (by norm_num) (by norm_num)).2 t ht] at h1
    norm_num at h1
  refine ⟨t, ht, ?_⟩
  have := C149_coverage (l := 0) (1 / 4 : ℝ)
    ([(⟨(), 1, 4⟩, t), (⟨(), 2, 4⟩, t), (⟨(), 5, 4⟩, t), (⟨(), 6, 4⟩, t)] : List (MedianRow Unit × ℝ)) ?_ ?_ ?_
  · simpa using this
  · intro r hr
    simp only [List.mem_cons, List.not_mem_nil, or_false] at hr
    rcases hr with rfl | rfl | rfl | rfl <;> norm_num
  · norm_num [List.filter]
  · simp [ht, ht', n5, n6, List.filterMap, hlt]
    norm_num

end CB
