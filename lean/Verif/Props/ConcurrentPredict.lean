import Verif.Spec.ConcurrentPredict
import Mathlib.Tactic.NormNum
import Mathlib.Tactic.Linarith

/-!
# C169: predictions at the same time
-/

set_option autoImplicit false
set_option linter.unusedSectionVars false

namespace CB
open Spec

section
variable {R : Type*}

theorem runSchedule_append (kind : KeeperKind) (prices : ℕ → List (Flt ℝ)) (finish : ℕ → Option (List (Flt ℝ)) → R)
    (a b : List ℕ) (pool : ThreadPool R) :
    runSchedule kind prices finish (a ++ b) pool = runSchedule kind prices finish b (runSchedule kind prices finish a pool) := by
  unfold runSchedule
  rw [List.foldl_append]

theorem runSchedule_invariant (kind : KeeperKind) (prices : ℕ → List (Flt ℝ)) (finish : ℕ → Option (List (Flt ℝ)) → R)
    (I : ThreadPool R → Prop)
    (hstep : ∀ p i, I p → I ⟨(threadStep kind (prices i) (finish i) p.external (p.threads i)).1,
      fun j => if j = i then (threadStep kind (prices i) (finish i) p.external (p.threads i)).2 else p.threads j⟩)
    (schedule : List ℕ) (pool : ThreadPool R) (h : I pool) : I (runSchedule kind prices finish schedule pool) := by
  induction schedule generalizing pool with
  | nil => exact h
  | cons i schedule ih => exact ih _ (hstep pool i h)

/-- **C169 (partial).** All estimators but the price model: whatever the schedule, every thread that has finished has the result it would have
alone. Missing for the full claim: the price model (`C169_price_counterexample`, `C169_missing_price_counterexample`). -/
theorem C169_any_schedule_partial (kind : KeeperKind) (hk : kind ≠ .price) (prices : ℕ → List (Flt ℝ))
    (finish : ℕ → Option (List (Flt ℝ)) → R) (schedule : List ℕ) (external : List (Flt ℝ)) (i : ℕ) (r : Option R)
    (hr : ((runSchedule kind prices finish schedule ⟨external, fun _ => {}⟩).threads i).result = some r) :
    r = some (alone kind (prices i) (finish i)) := by
  have h := runSchedule_invariant kind prices finish
    (fun p => ∀ i r, (p.threads i).result = some r → r = some (alone kind (prices i) (finish i))) (by
      intro p i hp j r hr
      dsimp only at hr
      split_ifs at hr with hj
      · subst hj
        cases kind with
        | price => exact absurd rfl hk
        | plain =>
          simp only [threadStep] at hr
          split at hr
          · simpa [alone] using hr.symm
          · exact hp j r hr
        | dispersion =>
          simp only [threadStep] at hr
          split at hr
          · simpa [alone] using hr.symm
          · exact hp j r hr
      · exact hp j r hr) schedule ⟨external, fun _ => {}⟩ (by simp)
  exact h i r hr

theorem raw_length (prices : List (Flt ℝ)) : (rawPrices prices).length = prices.length := by simp [rawPrices]

theorem raw_finite (prices : List (Flt ℝ)) (h : ∀ x ∈ prices, x.isFinite = true) :
    rawPrices prices = pricesMinusOne prices ∧ (rawPrices prices).map Flt.isFinite = List.replicate prices.length true := by
  refine ⟨List.map_congr_left fun x hx => ?_, ?_⟩
  · have := h x hx
    cases x <;> simp_all [Flt.isFinite, Flt.addFin, sub_eq_add_neg]
  · rw [rawPrices, List.map_map]
    rw [List.eq_replicate_iff]
    refine ⟨by simp, fun b hb => ?_⟩
    obtain ⟨x, hx, rfl⟩ := List.mem_map.mp hb
    have := h x hx
    cases x <;> simp_all [Flt.isFinite, Flt.addFin]

theorem repair_all (xs : List (Flt ℝ)) (n : ℕ) (h : xs.length = n) : repairWith (List.replicate n true) xs = xs := by
  induction xs generalizing n with
  | nil => subst h; rfl
  | cons x xs ih =>
    subst h
    simp only [repairWith, List.length_cons, List.replicate_succ, List.zipWith_cons_cons, if_true, List.cons.injEq, true_and]
    exact ih xs.length rfl

/-- Repairing with the mask of the column itself. -/
theorem repair_self (prices : List (Flt ℝ)) :
    repairWith ((rawPrices prices).map Flt.isFinite) (rawPrices prices) = pricesMinusOne prices := by
  induction prices with
  | nil => rfl
  | cons x prices ih =>
    simp only [repairWith, rawPrices, pricesMinusOne, List.map_cons, List.zipWith_cons_cons] at ih ⊢
    rw [List.cons.injEq]
    refine ⟨?_, ih⟩
    cases x <;> simp [Flt.isFinite, Flt.addFin, sub_eq_add_neg]

/-- **C169**, the price model: if all tables have the same prices and none of them is missing, every thread that has finished has the result it
would have alone, whatever the schedule. -/
theorem C169_same_prices_partial (prices : List (Flt ℝ)) (hf : ∀ x ∈ prices, x.isFinite = true)
    (finish : ℕ → Option (List (Flt ℝ)) → R) (schedule : List ℕ) (external : List (Flt ℝ)) (i : ℕ) (r : Option R)
    (hr : ((runSchedule .price (fun _ => prices) finish schedule ⟨external, fun _ => {}⟩).threads i).result = some r) :
    r = some (alone .price prices (finish i)) := by
  obtain ⟨h1, h2⟩ := raw_finite prices hf
  have hlen : (pricesMinusOne prices).length = prices.length := by simp [pricesMinusOne]
  have h := runSchedule_invariant .price (fun _ => prices) finish
    (fun p => (∀ i, 0 < (p.threads i).pc → p.external = pricesMinusOne prices) ∧
      (∀ i, (p.threads i).pc = 2 → (p.threads i).mask = List.replicate prices.length true) ∧
      ∀ i r, (p.threads i).result = some r → r = some (alone .price prices (finish i))) (by
      rintro p i ⟨hp1, hp2, hp3⟩
      have hcase : ∀ k, (p.threads i).pc = k → k = 0 ∨ k = 1 ∨ k = 2 ∨ k = 3 ∨ 4 ≤ k := by omega
      rcases hcase _ rfl with h0 | h0 | h0 | h0 | h0
      · have e : threadStep .price prices (finish i) p.external (p.threads i) = (rawPrices prices, { p.threads i with pc := 1 }) := by
          simp only [threadStep, h0]
        rw [e]
        refine ⟨fun j _ => h1, fun j hj => ?_, fun j r hr => ?_⟩
        · dsimp only at hj ⊢
          split_ifs at hj ⊢ with hji
          · simp at hj
          · exact hp2 j hj
        · dsimp only at hr
          split_ifs at hr with hji
          · subst hji
            exact hp3 j r hr
          · exact hp3 j r hr
      · have e : threadStep .price prices (finish i) p.external (p.threads i) =
            (p.external, { p.threads i with pc := 2, mask := p.external.map Flt.isFinite }) := by
          simp only [threadStep, h0]
        have hx := hp1 i (by omega)
        rw [e]
        refine ⟨fun j _ => hx, fun j hj => ?_, fun j r hr => ?_⟩
        · dsimp only at hj ⊢
          split_ifs at hj ⊢ with hji
          · dsimp only
            rw [hx, ← h1, h2]
          · exact hp2 j hj
        · dsimp only at hr
          split_ifs at hr with hji
          · subst hji
            exact hp3 j r hr
          · exact hp3 j r hr
      · have hx := hp1 i (by omega)
        have hm := hp2 i h0
        have e : threadStep .price prices (finish i) p.external (p.threads i) = (p.external, { p.threads i with pc := 3 }) := by
          simp only [threadStep, h0]
          rw [if_pos (by rw [hm, hx, hlen]; simp), hm, repair_all _ _ (by rw [hx, hlen])]
        rw [e]
        refine ⟨fun j _ => hx, fun j hj => ?_, fun j r hr => ?_⟩
        · dsimp only at hj ⊢
          split_ifs at hj ⊢ with hji
          · simp at hj
          · exact hp2 j hj
        · dsimp only at hr
          split_ifs at hr with hji
          · subst hji
            exact hp3 j r hr
          · exact hp3 j r hr
      · have hx := hp1 i (by omega)
        have e : threadStep .price prices (finish i) p.external (p.threads i) =
            (p.external, { p.threads i with pc := 4, result := some (some (finish i (some p.external))) }) := by
          simp only [threadStep, h0]
          rw [if_pos (by rw [hx, hlen])]
        rw [e]
        refine ⟨fun j _ => hx, fun j hj => ?_, fun j r hr => ?_⟩
        · dsimp only at hj ⊢
          split_ifs at hj ⊢ with hji
          · simp at hj
          · exact hp2 j hj
        · dsimp only at hr
          split_ifs at hr with hji
          · subst hji
            dsimp only at hr
            rw [Option.some.injEq] at hr
            rw [← hr, hx]
            simp [alone]
          · exact hp3 j r hr
      · have e : threadStep .price prices (finish i) p.external (p.threads i) = (p.external, p.threads i) := by
          obtain ⟨k, hk⟩ := Nat.exists_eq_add_of_le h0
          have hk' : (p.threads i).pc = k + 4 := by omega
          simp only [threadStep, hk']
        rw [e]
        have hsame : ∀ j, (if j = i then p.threads i else p.threads j) = p.threads j := by
          intro j
          split_ifs with hji
          · rw [hji]
          · rfl
        simp only [hsame]
        exact ⟨hp1, hp2, hp3⟩) schedule ⟨external, fun _ => {}⟩ (by simp)
  exact h.2.2 i r hr

/-- **C169**, the price model: whatever ran before, a thread whose four steps are not interrupted has the result it would have alone. -/
theorem C169_uninterrupted_partial (prices : ℕ → List (Flt ℝ)) (finish : ℕ → Option (List (Flt ℝ)) → R) (before : List ℕ)
    (pool : ThreadPool R) (i : ℕ) (h0 : ((runSchedule .price prices finish before pool).threads i).pc = 0) :
    ((runSchedule .price prices finish (before ++ [i, i, i, i]) pool).threads i).result =
      some (some (alone .price (prices i) (finish i))) := by
  rw [runSchedule_append]
  set p := runSchedule .price prices finish before pool
  have hl : ((rawPrices (prices i)).map Flt.isFinite).length = (rawPrices (prices i)).length := by simp
  have hl' : (pricesMinusOne (prices i)).length = (prices i).length := by simp [pricesMinusOne]
  simp [runSchedule, threadStep, h0, repair_self, hl', alone]

/-- A step of a thread that has not finished brings it further; a thread that has finished has a result. -/
theorem threadStep_progress (kind : KeeperKind) (prices : List (Flt ℝ)) (finish : Option (List (Flt ℝ)) → R) (external : List (Flt ℝ))
    (t : PredictThread R) (h : 4 ≤ t.pc → t.result.isSome) :
    min 4 (t.pc + 1) ≤ (threadStep kind prices finish external t).2.pc ∧
    (4 ≤ (threadStep kind prices finish external t).2.pc → (threadStep kind prices finish external t).2.result.isSome) := by
  obtain ⟨pc, mask, result⟩ := t
  dsimp only at h
  rcases pc with _ | _ | _ | _ | k
  all_goals cases kind <;> simp only [threadStep] <;> (try split_ifs) <;> simp_all

/-- **C169**: no thread waits for another one: a thread that has had four steps has finished, whatever the others do. -/
theorem C169_finishes (kind : KeeperKind) (prices : ℕ → List (Flt ℝ)) (finish : ℕ → Option (List (Flt ℝ)) → R) (schedule : List ℕ)
    (external : List (Flt ℝ)) (i : ℕ) (h : 4 ≤ schedule.count i) :
    ((runSchedule kind prices finish schedule ⟨external, fun _ => {}⟩).threads i).result.isSome := by
  suffices H : ∀ (schedule : List ℕ) (p : ThreadPool R), (4 ≤ (p.threads i).pc → (p.threads i).result.isSome) →
      min 4 ((p.threads i).pc + schedule.count i) ≤ ((runSchedule kind prices finish schedule p).threads i).pc ∧
      (4 ≤ ((runSchedule kind prices finish schedule p).threads i).pc →
        ((runSchedule kind prices finish schedule p).threads i).result.isSome) by
    obtain ⟨h1, h2⟩ := H schedule ⟨external, fun _ => {}⟩ (by simp)
    exact h2 (by dsimp only at h1; omega)
  intro schedule
  induction schedule with
  | nil => intro p hp; exact ⟨by simp [runSchedule], hp⟩
  | cons k schedule ih =>
    intro p hp
    obtain ⟨a, b⟩ := threadStep_progress kind (prices k) (finish k) p.external (p.threads i) hp
    have := ih ⟨(threadStep kind (prices k) (finish k) p.external (p.threads k)).1,
      fun j => if j = k then (threadStep kind (prices k) (finish k) p.external (p.threads k)).2 else p.threads j⟩ (by
        dsimp only
        split_ifs with hik
        · subst hik; exact b
        · exact hp)
    refine ⟨?_, this.2⟩
    refine le_trans ?_ this.1
    dsimp only
    rw [List.count_cons]
    by_cases hik : i = k
    · subst hik
      simp only [if_true, beq_self_eq_true]
      omega
    · have : (k == i) = false := by simpa using fun e => hik e.symm
      simp only [if_neg hik, this]
      simp

/-- **C169**, what does not hold: two threads with the prices 1 and 2. If the second one starts after the first one has replaced the missing
prices and before it has made its predictions, the first one predicts for the price of the second one. -/
theorem C169_price_counterexample :
    ∃ (prices : ℕ → List (Flt ℝ)) (finish : ℕ → Option (List (Flt ℝ)) → List ℝ) (schedule : List ℕ),
      (∀ i base, finish i (some base) = base.map fun b => Real.exp (priceLinkOf 0 (-1) 0 b.getFin)) ∧
      (∀ i, ∀ x ∈ prices i, x.isFinite = true) ∧
      ((runSchedule .price prices finish schedule ⟨[], fun _ => {}⟩).threads 0).result = some (some [Real.exp (-1)]) ∧
      alone .price (prices 0) (finish 0) = [1] := by
  refine ⟨fun i => if i = 0 then [.fin 1] else [.fin 2], fun _ base => (base.getD []).map fun b => Real.exp (priceLinkOf 0 (-1) 0 b.getFin),
    [0, 0, 0, 1, 0], fun _ _ => rfl, ?_, ?_, ?_⟩
  · intro i x hx
    dsimp only at hx
    split_ifs at hx <;> (simp only [List.mem_singleton] at hx; subst hx; rfl)
  · simp [runSchedule, threadStep, rawPrices, repairWith, Flt.addFin, Flt.isFinite, priceLinkOf, priceExponent, Flt.getFin]
    norm_num
  · simp [alone, pricesMinusOne, priceLinkOf, priceExponent, Flt.getFin]

/-- **C169**, what does not hold: two threads with the same table, in which the price is missing. The first one may see the missing price that
it has replaced, because the second one has set the column again. -/
theorem C169_missing_price_counterexample :
    ((runSchedule .price (fun _ => [.nan]) (fun _ base => base.getD []) [0, 0, 0, 1, 0] ⟨[], fun _ => {}⟩).threads 0).result =
      some (some [.nan]) ∧
    alone .price [.nan] (fun base => base.getD []) = [.fin 0] := by
  refine ⟨?_, ?_⟩
  · simp [runSchedule, threadStep, rawPrices, repairWith, Flt.addFin, Flt.isFinite]
  · simp [alone, pricesMinusOne]

/-- Witness: two threads of an estimator that is no price model, one after the other, both finish. -/
example : ((runSchedule .plain (fun _ => []) (fun i _ => i) [1, 0] ⟨[], fun _ => {}⟩).threads 0).result = some (some 0) ∧
    ((runSchedule .plain (fun _ => []) (fun i _ => i) [1, 0] ⟨[], fun _ => {}⟩).threads 1).result = some (some 1) := by
  simp [runSchedule, threadStep]

/-- Witness: two threads with the same prices, interleaved, both finish. -/
example : ((runSchedule .price (fun _ => [.fin 2]) (fun i _ => i) [1, 0, 0, 1, 1, 0, 1, 0] ⟨[], fun _ => {}⟩).threads 0).result =
      some (some 0) := by
  simp [runSchedule, threadStep, rawPrices, repairWith]

end

end CB
