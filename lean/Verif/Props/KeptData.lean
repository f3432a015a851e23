import Verif.Spec.KeptData

/-!
# C166: what an estimator keeps of the data
-/

set_option autoImplicit false
set_option linter.unusedSectionVars false

namespace CB
open Spec

/-- Features and attributes outside the features. -/
theorem run_binds (s : KeptData) (l : List KeepStep) (hl : ∀ x ∈ l, (∃ i d, x = .bind i d) ∨ ∃ i, x = .unbind i) :
    ∃ fs, l.foldl KeepStep.run s = { s with features := fs } ∧ fs.length = s.features.length := by
  induction l generalizing s with
  | nil => exact ⟨s.features, rfl, rfl⟩
  | cons x l ih =>
    have hl' := fun y hy => hl y (List.mem_cons_of_mem x hy)
    rw [List.foldl_cons]
    rcases hl x (by simp) with ⟨i, d, rfl⟩ | ⟨i, rfl⟩
    · obtain ⟨fs, h1, h2⟩ := ih (KeepStep.run s (.bind i d)) hl'
      exact ⟨fs, h1, by rw [h2]; simp [KeepStep.run]⟩
    · obtain ⟨fs, h1, h2⟩ := ih (KeepStep.run s (.unbind i)) hl'
      exact ⟨fs, h1, by rw [h2]; simp [KeepStep.run]⟩

theorem run_set_all (step : ℕ → KeepStep) (v : Option ℕ)
    (hstep : ∀ s i, KeepStep.run s (step i) = { s with features := s.features.set i v }) (n k : ℕ) (s : KeptData)
    (h : s.features.length = n) (hk : k ≤ n) (hset : ∀ i < n - k, s.features[i]? = some v) :
    ((List.range' (n - k) k).map step).foldl KeepStep.run s = { s with features := List.replicate n v } := by
  induction k generalizing s with
  | zero =>
    have : s.features = List.replicate n v := by
      refine List.ext_getElem? fun i => ?_
      by_cases hi : i < n
      · rw [hset i (by omega), List.getElem?_replicate, if_pos hi]
      · rw [List.getElem?_eq_none (by omega), List.getElem?_eq_none (by simp; omega)]
    simp only [List.range'_zero, List.map_nil, List.foldl_nil]
    rw [← this]
  | succ k ih =>
    rw [List.range'_succ, List.map_cons, List.foldl_cons, show n - (k + 1) + 1 = n - k by omega]
    rw [ih (KeepStep.run s (step (n - (k + 1)))) (by rw [hstep]; simp [h]) (by omega)]
    · rw [hstep]
    · intro i hi
      rw [hstep]
      simp only [List.getElem?_set]
      by_cases he : n - (k + 1) = i
      · rw [if_pos he, if_pos (by omega)]
      · rw [if_neg he]
        exact hset i (by omega)

theorem run_range (step : ℕ → KeepStep) (v : Option ℕ)
    (hstep : ∀ s i, KeepStep.run s (step i) = { s with features := s.features.set i v }) (s : KeptData) (n : ℕ)
    (h : s.features.length = n) :
    ((List.range n).map step).foldl KeepStep.run s = { s with features := List.replicate n v } := by
  have h5 := run_set_all step v hstep n n s h le_rfl (by simp)
  rwa [Nat.sub_self, ← List.range_eq_range'] at h5

theorem iteration_binds (d n : ℕ) (b : Bool) (x : KeepStep) (hx : x ∈ iterationSteps d n b) :
    (∃ i d, x = .bind i d) ∨ ∃ i, x = .unbind i := by
  unfold iterationSteps at hx
  simp only [List.mem_append, List.mem_map, List.mem_range] at hx
  rcases hx with ⟨i, -, rfl⟩ | hx
  · exact Or.inl ⟨i, d, rfl⟩
  · split_ifs at hx
    · simp only [List.mem_flatMap, List.mem_range, List.mem_cons, List.not_mem_nil, or_false] at hx
      obtain ⟨i, -, rfl | rfl⟩ := hx
      · exact Or.inl ⟨i, d, rfl⟩
      · exact Or.inr ⟨i, rfl⟩
    · simp at hx

/-- A completed `_fit_main` leaves the features without data, but an observer has copies with data. -/
theorem run_fitMain (observer : Bool) (d n : ℕ) (its : List Bool) (s : KeptData) (h : s.features.length = n) :
    (fitMainSteps observer d n its).foldl KeepStep.run s =
      { s with
        features := List.replicate n none
        ranked := true
        observed := if observer then List.replicate n (some d) else s.observed } := by
  unfold fitMainSteps
  rw [List.foldl_append, List.foldl_append, List.foldl_append, List.foldl_cons, List.foldl_nil]
  obtain ⟨fs, h1, h2⟩ := run_binds s (its.flatMap (iterationSteps d n)) (by
    intro x hx
    obtain ⟨b, -, hx⟩ := List.mem_flatMap.mp hx
    exact iteration_binds d n b x hx)
  rw [h1]
  cases observer
  · simp only [Bool.false_eq_true, if_false, List.foldl_nil]
    rw [run_range (fun i => .unbind i) none (fun _ _ => rfl) _ n (by simp only [KeepStep.run]; omega)]
    rfl
  · simp only [if_true]
    rw [List.foldl_append, run_range (fun i => .bind i d) (some d) (fun _ _ => rfl) _ n (by simp only [KeepStep.run]; omega),
      List.foldl_cons, List.foldl_nil,
      run_range (fun i => .unbind i) none (fun _ _ => rfl) _ n (by simp [KeepStep.run])]
    rfl

/-- What is left after a fit that completes. -/
theorem run_fit (kind : KeeperKind) (observer : Bool) (d n : ℕ) (its : List Bool) (s : KeptData) :
    (fitSteps kind observer d n its).foldl KeepStep.run s =
      { weights := if kind = .price then some d else none
        mu := if kind = .dispersion then none else s.mu
        externalCol := if kind = .price then none else s.externalCol
        weightsExternal := if kind = .price then none else s.weightsExternal
        features := List.replicate n none
        ranked := true
        older := if s.ranked then s.older ++ s.features else s.older
        observed := if observer then List.replicate n (some d) else s.observed } := by
  cases kind <;>
    (unfold fitSteps
     simp only [List.foldl_append, List.foldl_cons, List.foldl_nil]
     rw [run_fitMain _ _ _ _ _ (by simp [KeepStep.run])]
     simp only [KeepStep.run, reduceCtorEq, if_true, if_false]
     rfl)

/-- Steps refer to the table they are called with, or to what was there. -/
theorem run_provenance (d : ℕ) (l : List KeepStep) (s : KeptData)
    (hl : ∀ x ∈ l, x ∈ [.setWeights d, .dropWeights, .setMu d, .dropMu, .setExternal d, .dropExternal, .setWeightsExternal d,
      .dropWeightsExternal, .rank, .observe] ∨ (∃ n, x = .createFeatures n) ∨ (∃ i, x = .bind i d) ∨ ∃ i, x = .unbind i)
    (e : ℕ) (h : Keeps (l.foldl KeepStep.run s) e) : Keeps s e ∨ e = d := by
  induction l generalizing s with
  | nil => exact Or.inl h
  | cons x l ih =>
    rw [List.foldl_cons] at h
    rcases ih (KeepStep.run s x) (fun y hy => hl y (List.mem_cons_of_mem x hy)) h with h | h
    · have hset : ∀ (fs : List (Option ℕ)) i v, some e ∈ fs.set i v → some e ∈ fs ∨ v = some e := by
        intro fs i v hm
        rcases List.mem_or_eq_of_mem_set hm with hm | hm
        · exact Or.inl hm
        · exact Or.inr hm.symm
      rcases hl x (by simp) with hx | ⟨n, rfl⟩ | ⟨i, rfl⟩ | ⟨i, rfl⟩
      · simp only [List.mem_cons, List.not_mem_nil, or_false] at hx
        unfold Keeps at h ⊢
        rcases hx with rfl | rfl | rfl | rfl | rfl | rfl | rfl | rfl | rfl | rfl <;> simp only [KeepStep.run, Option.some.injEq, reduceCtorEq,
          false_or] at h <;> tauto
      · unfold Keeps at h ⊢
        simp only [KeepStep.run, List.mem_replicate, reduceCtorEq, and_false, false_or] at h
        rcases h with h | h | h | h | h | h
        · tauto
        · tauto
        · tauto
        · tauto
        · split_ifs at h
          · rw [List.mem_append] at h
            tauto
          · tauto
        · tauto
      · unfold Keeps at h ⊢
        simp only [KeepStep.run] at h
        rcases h with h | h | h | h | h | h | h
        · tauto
        · tauto
        · tauto
        · tauto
        · rcases hset _ _ _ h with h | h
          · tauto
          · exact Or.inr (Option.some.inj h).symm
        · tauto
        · tauto
      · unfold Keeps at h ⊢
        simp only [KeepStep.run] at h
        rcases h with h | h | h | h | h | h | h
        · tauto
        · tauto
        · tauto
        · tauto
        · rcases hset _ _ _ h with h | h
          · tauto
          · cases h
        · tauto
        · tauto
    · exact Or.inr h

theorem fitSteps_form (kind : KeeperKind) (observer : Bool) (d n : ℕ) (its : List Bool) (x : KeepStep)
    (hx : x ∈ fitSteps kind observer d n its) :
    x ∈ [.setWeights d, .dropWeights, .setMu d, .dropMu, .setExternal d, .dropExternal, .setWeightsExternal d,
      .dropWeightsExternal, .rank, .observe] ∨ (∃ n, x = .createFeatures n) ∨ (∃ i, x = .bind i d) ∨ ∃ i, x = .unbind i := by
  have hmain : x ∈ fitMainSteps observer d n its → x = .rank ∨ x = .observe ∨ (∃ i, x = .bind i d) ∨ ∃ i, x = .unbind i := by
    intro hx
    unfold fitMainSteps at hx
    simp only [List.mem_append, List.mem_cons, List.not_mem_nil, or_false] at hx
    rcases hx with ((hx | hx) | hx) | hx
    · obtain ⟨b, -, hx⟩ := List.mem_flatMap.mp hx
      unfold iterationSteps at hx
      simp only [List.mem_append, List.mem_map] at hx
      rcases hx with ⟨i, -, rfl⟩ | hx
      · exact Or.inr (Or.inr (Or.inl ⟨i, rfl⟩))
      · split_ifs at hx
        · simp only [List.mem_flatMap, List.mem_cons, List.not_mem_nil, or_false] at hx
          obtain ⟨i, -, rfl | rfl⟩ := hx
          · exact Or.inr (Or.inr (Or.inl ⟨i, rfl⟩))
          · exact Or.inr (Or.inr (Or.inr ⟨i, rfl⟩))
        · simp at hx
    · exact Or.inl hx
    · split_ifs at hx
      · simp only [List.mem_append, List.mem_map, List.mem_cons, List.not_mem_nil, or_false] at hx
        rcases hx with ⟨i, -, rfl⟩ | rfl
        · exact Or.inr (Or.inr (Or.inl ⟨i, rfl⟩))
        · exact Or.inr (Or.inl rfl)
      · simp at hx
    · obtain ⟨i, -, rfl⟩ := List.mem_map.mp hx
      exact Or.inr (Or.inr (Or.inr ⟨i, rfl⟩))
  have hm : x ∈ fitMainSteps observer d n its →
      x ∈ [.setWeights d, .dropWeights, .setMu d, .dropMu, .setExternal d, .dropExternal, .setWeightsExternal d,
        .dropWeightsExternal, .rank, .observe] ∨ (∃ n, x = .createFeatures n) ∨ (∃ i, x = .bind i d) ∨ ∃ i, x = .unbind i := by
    intro hx
    rcases hmain hx with rfl | rfl | h | h
    · exact Or.inl (by simp)
    · exact Or.inl (by simp)
    · exact Or.inr (Or.inr (Or.inl h))
    · exact Or.inr (Or.inr (Or.inr h))
  clear hmain
  cases kind <;> simp only [fitSteps, List.mem_append] at hx
  · rcases hx with (hx | hx) | hx
    · simp only [List.mem_cons, List.not_mem_nil, or_false] at hx
      rcases hx with rfl | rfl
      · exact Or.inl (by simp)
      · exact Or.inr (Or.inl ⟨n, rfl⟩)
    · exact hm hx
    · simp only [List.mem_cons, List.not_mem_nil, or_false] at hx
      subst hx
      exact Or.inl (by simp)
  · rcases hx with (hx | hx) | hx
    · simp only [List.mem_cons, List.not_mem_nil, or_false] at hx
      rcases hx with rfl | rfl | rfl
      · exact Or.inl (by simp)
      · exact Or.inl (by simp)
      · exact Or.inr (Or.inl ⟨n, rfl⟩)
    · exact hm hx
    · simp only [List.mem_cons, List.not_mem_nil, or_false] at hx
      rcases hx with rfl | rfl <;> exact Or.inl (by simp)
  · rcases hx with (hx | hx) | hx
    · simp only [List.mem_cons, List.not_mem_nil, or_false] at hx
      rcases hx with rfl | rfl | rfl | rfl
      · exact Or.inl (by simp)
      · exact Or.inl (by simp)
      · exact Or.inl (by simp)
      · exact Or.inr (Or.inl ⟨n, rfl⟩)
    · exact hm hx
    · simp only [List.mem_cons, List.not_mem_nil, or_false] at hx
      rcases hx with rfl | rfl <;> exact Or.inl (by simp)

theorem keptAfter_append (kind : KeeperKind) (observer : Bool) (history : List KeeperCall) (c : KeeperCall) :
    keptAfter kind observer (history ++ [c]) = (c.steps kind observer).foldl KeepStep.run (keptAfter kind observer history) := by
  unfold keptAfter
  rw [List.flatMap_append, List.foldl_append]
  simp

/-- **C166 (partial).** All estimators but the price model, without observers: whatever they keep of samples, after any history of calls, some
of which raised anywhere, comes from a fit that raised. In particular nothing is kept if no fit raised, and nothing of the tables of
predictions. Missing for the full claim: fits that raise (`C166_raised_counterexample`), the price model (`C166_price_counterexample`) and
observers (`C166_observer_counterexample`). -/
theorem C166_only_after_raise_partial (kind : KeeperKind) (hk : kind ≠ .price) (history : List KeeperCall) (d : ℕ)
    (h : Keeps (keptAfter kind false history) d) : ∃ n its k, KeeperCall.fit d n its (some k) ∈ history := by
  induction history using List.reverseRecOn with
  | nil => simp [keptAfter, Keeps] at h
  | append_singleton history c ih =>
    rw [keptAfter_append] at h
    have hgo : Keeps (keptAfter kind false history) d → ∃ n its k, KeeperCall.fit d n its (some k) ∈ history ++ [c] := by
      intro h
      obtain ⟨n, its, k, hm⟩ := ih h
      exact ⟨n, its, k, List.mem_append_left _ hm⟩
    cases c with
    | predict e stop =>
      have : KeeperCall.steps kind false (.predict e stop) = [] := by
        cases kind <;> cases stop <;> simp_all [KeeperCall.steps, predictSteps]
      rw [this] at h
      exact hgo h
    | fit e n its stop =>
      cases stop with
      | some k =>
        rcases run_provenance e _ _ (fun x hx => fitSteps_form kind false e n its x (List.mem_of_mem_take hx)) d h with h | rfl
        · exact hgo h
        · exact ⟨n, its, k, by simp⟩
      | none =>
        refine hgo ?_
        simp only [KeeperCall.steps] at h
        rw [run_fit] at h
        unfold Keeps at h ⊢
        simp only [hk, if_false, reduceCtorEq, List.mem_replicate, and_false, false_or, Bool.false_eq_true] at h
        rcases h with h | h | h | h | h
        · split_ifs at h
          exact Or.inr (Or.inl h)
        · tauto
        · tauto
        · split_ifs at h
          · rw [List.mem_append] at h
            tauto
          · tauto
        · tauto

/-- **C166**, all calls completed, without observers: nothing is kept. -/
theorem C166_completed_partial (kind : KeeperKind) (hk : kind ≠ .price) (history : List KeeperCall)
    (hc : ∀ c ∈ history, Completed c) (d : ℕ) : ¬ Keeps (keptAfter kind false history) d := by
  intro h
  obtain ⟨n, its, k, hm⟩ := C166_only_after_raise_partial kind hk history d h
  have := hc _ hm
  simp [Completed] at this

/-- **C166**, a fit that completes, after any history, with or without observers: its own features and attributes refer to no samples, for the
price model except the weights of this fit. -/
theorem C166_own_attributes_partial (kind : KeeperKind) (observer : Bool) (history : List KeeperCall) (d n : ℕ) (its : List Bool) :
    (keptAfter kind observer (history ++ [.fit d n its none])).features = List.replicate n none ∧
    (keptAfter kind observer (history ++ [.fit d n its none])).weights = (if kind = .price then some d else none) ∧
    (kind = .dispersion → (keptAfter kind observer (history ++ [.fit d n its none])).mu = none) ∧
    (kind = .price → (keptAfter kind observer (history ++ [.fit d n its none])).externalCol = none ∧
      (keptAfter kind observer (history ++ [.fit d n its none])).weightsExternal = none) := by
  rw [keptAfter_append]
  simp only [KeeperCall.steps, run_fit]
  refine ⟨trivial, trivial, fun h => by simp [h], fun h => by simp [h]⟩

/-- **C166**, what does not hold: an estimator with an observer keeps the binned samples of its last fit, after any history, although nothing
raised. -/
theorem C166_observer_counterexample (kind : KeeperKind) (history : List KeeperCall) (d n : ℕ) (hn : 0 < n) (its : List Bool) :
    Keeps (keptAfter kind true (history ++ [.fit d n its none])) d := by
  rw [keptAfter_append]
  simp only [KeeperCall.steps, run_fit]
  refine Or.inr (Or.inr (Or.inr (Or.inr (Or.inr (Or.inr ?_)))))
  simp only [if_true, List.mem_replicate, and_true]
  omega

/-- **C166**, what does not hold: after any history, a price model keeps the weights of the samples it was trained with, and the prices of
the table it predicted last, although nothing raised. -/
theorem C166_price_counterexample (observer : Bool) (history : List KeeperCall) (d n : ℕ) (its : List Bool) (e : ℕ) :
    Keeps (keptAfter .price observer (history ++ [.fit d n its none])) d ∧
    Keeps (keptAfter .price observer (history ++ [.fit d n its none] ++ [.predict e none])) d ∧
    Keeps (keptAfter .price observer (history ++ [.fit d n its none] ++ [.predict e none])) e := by
  have hw : (keptAfter .price observer (history ++ [.fit d n its none])).weights = some d :=
    (C166_own_attributes_partial .price observer history d n its).2.1
  refine ⟨Or.inl hw, Or.inl ?_, Or.inr (Or.inr (Or.inl ?_))⟩
  · rw [keptAfter_append]
    exact hw
  · rw [keptAfter_append]
    rfl

/-- **C166**, what does not hold: a fit of table 1 that raises after the importances were computed (the last check of convergence does this)
leaves the binned samples in the importances. A fit of table 2 that completes does not remove them. -/
theorem C166_raised_counterexample :
    Keeps (keptAfter .plain false [.fit 1 1 [false] (some 4), .fit 2 1 [false] none]) 1 := by
  refine Or.inr (Or.inr (Or.inr (Or.inr (Or.inr (Or.inl ?_)))))
  decide

/-- Witness: three iterations with two features, the second one diverging, then a prediction, with and without observer. -/
example : keptAfter .dispersion false [.fit 1 2 [false, true, false] none, .predict 2 none] =
    { features := [none, none], ranked := true } ∧
    keptAfter .dispersion true [.fit 1 2 [false, true, false] none, .predict 2 none] =
    { features := [none, none], ranked := true, observed := [some 1, some 1] } := by
  decide

end CB
