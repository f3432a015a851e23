import Verif.Model.Parallel

/-!
# Interleavings of the iterations of a parallel loop
-/

set_option autoImplicit false
set_option linter.unusedSectionVars false

namespace CB
open Relation

section
variable {A V L : Type*} [DecidableEq A]

/-- The memory after a list of writes. -/
def afterWrites (memory : A → V) (ws : List (A × V)) : A → V := ws.foldl writeTo memory

theorem afterWrites_cons (m : A → V) (w : A × V) (ws : List (A × V)) :
    afterWrites m (w :: ws) = afterWrites (writeTo m w) ws := rfl

theorem afterWrites_append (m : A → V) (ws ws' : List (A × V)) :
    afterWrites m (ws ++ ws') = afterWrites (afterWrites m ws) ws' := List.foldl_append

theorem writeTo_comm (m : A → V) (w w' : A × V) (h : w.1 ≠ w'.1) : writeTo (writeTo m w) w' = writeTo (writeTo m w') w := by
  funext a
  unfold writeTo
  by_cases h1 : a = w.1
  · have h2 : a ≠ w'.1 := fun e => h (h1.symm.trans e)
    rw [if_neg h2, if_pos h1, if_pos h1]
  · rw [if_neg h1]
    split <;> simp [h1]

theorem afterWrites_writeTo (m : A → V) (w : A × V) (ws : List (A × V)) (h : ∀ w' ∈ ws, w.1 ≠ w'.1) :
    afterWrites (writeTo m w) ws = writeTo (afterWrites m ws) w := by
  induction ws generalizing m with
  | nil => rfl
  | cons w' ws ih =>
    rw [afterWrites_cons, writeTo_comm m w w' (h w' (by simp)), ih _ fun x hx => h x (by simp [hx])]
    rfl

theorem afterWrites_other (m : A → V) (a : A) (ws : List (A × V)) (h : ∀ w ∈ ws, w.1 ≠ a) : afterWrites m ws a = m a := by
  induction ws generalizing m with
  | nil => rfl
  | cons w ws ih =>
    rw [afterWrites_cons, ih _ fun x hx => h x (by simp [hx])]
    unfold writeTo
    rw [if_neg fun e => h w (by simp) e.symm]

theorem afterWrites_congr (m m' : A → V) (a : A) (ws : List (A × V)) (h : m a = m' a) : afterWrites m ws a = afterWrites m' ws a := by
  induction ws generalizing m m' with
  | nil => exact h
  | cons w ws ih =>
    refine ih _ _ ?_
    unfold writeTo
    split
    · rfl
    · exact h

/-- What an iteration writes from each of its states on. -/
structure IsTrace (B : LoopBody A V L) (T : ℕ → L → List (A × V)) : Prop where
  ends : ∀ i l, B.next i l = none → T i l = []
  works : ∀ i l l', B.next i l = some (l', none) → T i l = T i l'
  writes : ∀ i l l' w, B.next i l = some (l', some w) → T i l = w :: T i l'

variable (B : LoopBody A V L) (T : ℕ → L → List (A × V)) (hT : IsTrace B T) (owner : A → ℕ)
  (howner : ∀ i l w, w ∈ T i l → owner w.1 = i)

/-- The iterations of a thread that have not ended. -/
def LoopThread.open (t : LoopThread L) : List ℕ := (t.current.map Prod.fst).toList ++ t.queue

/-- The writes of a thread that have not happened. -/
def LoopThread.pending (t : LoopThread L) : List (A × V) :=
  (t.current.elim [] fun p => T p.1 p.2) ++ t.queue.flatMap fun i => T i (B.start i)

include howner in
theorem pending_owner (t : LoopThread L) (w : A × V) (hw : w ∈ t.pending B T) : owner w.1 ∈ t.open := by
  unfold LoopThread.pending at hw
  unfold LoopThread.open
  rcases List.mem_append.mp hw with h | h
  · cases hc : t.current with
    | none => simp [hc] at h
    | some p =>
      rw [hc] at h
      rw [howner p.1 p.2 w h]
      simp
  · obtain ⟨i, hi, h⟩ := List.mem_flatMap.mp h
    rw [howner i _ w h]
    exact List.mem_append.mpr (.inr hi)

theorem threads_split (l : List (LoopThread L)) (t : ℕ) (x : LoopThread L) (h : l[t]? = some x) :
    ∃ pre post, pre.length = t ∧ l = pre ++ x :: post ∧ ∀ y, l.set t y = pre ++ y :: post := by
  obtain ⟨ht, rfl⟩ := List.getElem?_eq_some_iff.mp h
  refine ⟨l.take t, l.drop (t + 1), by simp; omega, ?_, fun y => ?_⟩
  · exact (List.take_append_drop t l).symm.trans (by rw [List.drop_eq_getElem_cons ht])
  · exact List.set_eq_take_append_cons_drop.trans (if_pos ht)

/-- Every iteration is open in one thread only, and the open writes lead to the final memory. -/
def LoopInv (F : A → V) (st : LoopState A V L) : Prop :=
  (st.threads.flatMap (·.open)).Nodup ∧ afterWrites st.memory (st.threads.flatMap (·.pending B T)) = F

include hT howner in
theorem loopInv_step (F : A → V) (st st' : LoopState A V L) (h : LoopStep B st st') (hI : LoopInv B T F st) : LoopInv B T F st' := by
  obtain ⟨hn, hF⟩ := hI
  cases h with
  | begins t q i ht =>
    obtain ⟨pre, post, -, hl, hset⟩ := threads_split _ t _ ht
    rw [hl] at hn hF
    refine ⟨?_, ?_⟩ <;> dsimp only <;> rw [hset]
    · simpa [List.flatMap_append, LoopThread.open] using hn
    · simpa [List.flatMap_append, LoopThread.pending] using hF
  | works t q i l l' ht hnx =>
    obtain ⟨pre, post, -, hl, hset⟩ := threads_split _ t _ ht
    rw [hl] at hn hF
    refine ⟨?_, ?_⟩ <;> dsimp only <;> rw [hset]
    · simpa [List.flatMap_append, LoopThread.open] using hn
    · simpa [List.flatMap_append, LoopThread.pending, hT.works i l l' hnx] using hF
  | ends t q i l ht hnx =>
    obtain ⟨pre, post, -, hl, hset⟩ := threads_split _ t _ ht
    rw [hl] at hn hF
    refine ⟨?_, ?_⟩ <;> dsimp only <;> rw [hset]
    · refine hn.sublist ?_
      simp [List.flatMap_append, LoopThread.open]
    · simpa [List.flatMap_append, LoopThread.pending, hT.ends i l hnx] using hF
  | writes t q i l l' w ht hnx =>
    obtain ⟨pre, post, -, hl, hset⟩ := threads_split _ t _ ht
    rw [hl] at hn hF
    refine ⟨?_, ?_⟩ <;> dsimp only <;> rw [hset]
    · simpa [List.flatMap_append, LoopThread.open] using hn
    · rw [← hF]
      have hw : owner w.1 = i := howner i l w (by rw [hT.writes i l l' w hnx]; simp)
      have hpre : ∀ w' ∈ pre.flatMap (·.pending B T), w.1 ≠ w'.1 := by
        intro w' hw' e
        obtain ⟨th, hth, hp⟩ := List.mem_flatMap.mp hw'
        have h1 : owner w'.1 ∈ pre.flatMap (·.open) := List.mem_flatMap.mpr ⟨th, hth, pending_owner B T owner howner th w' hp⟩
        rw [← e, hw] at h1
        rw [List.flatMap_append, List.nodup_append'] at hn
        refine hn.2.2 h1 ?_
        simp [LoopThread.open]
      have e1 : ∀ ws, afterWrites (writeTo st.memory w) (pre.flatMap (·.pending B T) ++ ws) =
          afterWrites st.memory (pre.flatMap (·.pending B T) ++ w :: ws) := by
        intro ws
        rw [afterWrites_append, afterWrites_append, afterWrites_writeTo _ _ _ hpre, afterWrites_cons]
      simp only [List.flatMap_append, List.flatMap_cons, LoopThread.pending, Option.elim, hT.writes i l l' w hnx, List.cons_append]
      exact e1 _

theorem afterWrites_flatMap (W : ℕ → List (A × V)) (hW : ∀ i w, w ∈ W i → owner w.1 = i) (is : List ℕ) (hn : is.Nodup) (m : A → V) (a : A) :
    afterWrites m (is.flatMap W) a = if owner a ∈ is then afterWrites m (W (owner a)) a else m a := by
  induction is generalizing m with
  | nil => simp [afterWrites]
  | cons i is ih =>
    rw [List.nodup_cons] at hn
    rw [List.flatMap_cons, afterWrites_append, ih hn.2]
    by_cases hi : owner a = i
    · rw [if_neg (by rw [hi]; exact hn.1), if_pos (by simp [hi]), hi]
    · have ho : afterWrites m (W i) a = m a :=
        afterWrites_other m a _ fun w hw e => hi (by rw [← e]; exact hW i w hw)
      by_cases hm : owner a ∈ is
      · rw [if_pos hm, if_pos (by simp [hm])]
        exact afterWrites_congr _ _ a _ ho
      · rw [if_neg hm, if_neg (by simp [hi, hm]), ho]

theorem flatMap_current_none (ts : List (LoopThread L)) (h : ∀ t ∈ ts, t.current = none) :
    ts.flatMap (·.open) = ts.flatMap (·.queue) ∧
    ts.flatMap (·.pending B T) = (ts.flatMap (·.queue)).flatMap fun i => T i (B.start i) := by
  induction ts with
  | nil => simp
  | cons t ts ih =>
    obtain ⟨h1, h2⟩ := ih fun x hx => h x (by simp [hx])
    have ht := h t (by simp)
    rw [List.flatMap_cons, List.flatMap_cons, List.flatMap_cons, h1, h2, List.flatMap_append]
    simp [LoopThread.open, LoopThread.pending, ht]

include hT howner in
theorem loopInv_reachable (n : ℕ) (s0 st : LoopState A V L) (h0 : s0.Begins n) (hr : ReflTransGen (LoopStep B) s0 st) :
    LoopInv B T (afterWrites s0.memory (s0.threads.flatMap (·.pending B T))) st := by
  obtain ⟨hc, hp⟩ := h0
  induction hr with
  | refl => exact ⟨by rw [(flatMap_current_none B T s0.threads hc).1]; exact hp.nodup_iff.mpr List.nodup_range, rfl⟩
  | tail _ hs ih => exact loopInv_step B T hT owner howner _ _ _ hs ih

include hT howner in
theorem loop_result (n : ℕ) (s0 st : LoopState A V L) (h0 : s0.Begins n) (hr : ReflTransGen (LoopStep B) s0 st) (hd : st.Done) (a : A) :
    st.memory a = if owner a < n then afterWrites s0.memory (T (owner a) (B.start (owner a))) a else s0.memory a := by
  obtain ⟨hc, hp⟩ := h0
  obtain ⟨e1, e2⟩ := flatMap_current_none B T s0.threads hc
  have hnd : (s0.threads.flatMap (·.queue)).Nodup := hp.nodup_iff.mpr List.nodup_range
  have hI' := loopInv_reachable B T hT owner howner n s0 st ⟨hc, hp⟩ hr
  have hpe : st.threads.flatMap (·.pending B T) = [] := by
    rw [(flatMap_current_none B T st.threads fun t ht => (hd t ht).1).2]
    have : st.threads.flatMap (·.queue) = [] := List.flatMap_eq_nil_iff.mpr fun t ht => (hd t ht).2
    rw [this]
    rfl
  have hm := hI'.2
  rw [hpe] at hm
  change st.memory = _ at hm
  rw [hm, e2, afterWrites_flatMap owner (fun i => T i (B.start i)) (fun i w hw => howner i _ w hw) _ hnd]
  simp only [hp.mem_iff, List.mem_range]

include hT howner in
theorem loop_race_free (n : ℕ) (s0 st : LoopState A V L) (h0 : s0.Begins n) (hr : ReflTransGen (LoopStep B) s0 st) (t t' : ℕ) (htt : t ≠ t')
    (q q' : List ℕ) (i i' : ℕ) (l l' k k' : L) (w w' : A × V) (h : st.threads[t]? = some ⟨q, some (i, l)⟩)
    (h' : st.threads[t']? = some ⟨q', some (i', l')⟩) (hn : B.next i l = some (k, some w)) (hn' : B.next i' l' = some (k', some w')) :
    w.1 ≠ w'.1 := by
  have hI := loopInv_reachable B T hT owner howner n s0 st h0 hr
  intro e
  have o1 : owner w.1 = i := howner i l w (by rw [hT.writes i l k w hn]; simp)
  have o2 : owner w'.1 = i' := howner i' l' w' (by rw [hT.writes i' l' k' w' hn']; simp)
  have hii : i = i' := by rw [← o1, ← o2, e]
  have key : ∀ (t t' : ℕ) (q q' : List ℕ) (l l' : L), t < t' → st.threads[t]? = some ⟨q, some (i, l)⟩ →
      st.threads[t']? = some ⟨q', some (i, l')⟩ → False := by
    intro t t' q q' l l' hlt h h'
    obtain ⟨pre, post, hlen, hl, -⟩ := threads_split _ t' _ h'
    have hnd' := hI.1
    rw [hl, List.flatMap_append, List.nodup_append'] at hnd'
    rw [hl, List.getElem?_append_left (by omega)] at h
    have hdj := hnd'.2.2
    have m1 : i ∈ pre.flatMap (·.open) := List.mem_flatMap.mpr ⟨_, List.mem_of_getElem? h, by simp [LoopThread.open]⟩
    exact hdj m1 (by simp [LoopThread.open])
  subst hii
  rcases Nat.lt_or_gt_of_ne htt with hlt | hlt
  · exact key t t' q q' l l' hlt h h'
  · exact key t' t q' q l' l hlt h' h

/-! ### Progress and termination -/

theorem loop_progress (st : LoopState A V L) (h : ¬ st.Done) : ∃ st', LoopStep B st st' := by
  unfold LoopState.Done at h
  push Not at h
  obtain ⟨⟨q, c⟩, ht, hb⟩ := h
  obtain ⟨t, ht⟩ := List.mem_iff_getElem?.mp ht
  cases c with
  | none =>
    cases q with
    | nil => exact absurd rfl (hb rfl)
    | cons i q => exact ⟨_, .begins st t q i ht⟩
  | some p =>
    obtain ⟨i, l⟩ := p
    rcases hn : B.next i l with _ | ⟨l', _ | w⟩
    · exact ⟨_, .ends st t q i l ht hn⟩
    · exact ⟨_, .works st t q i l l' ht hn⟩
    · exact ⟨_, .writes st t q i l l' w ht hn⟩

/-- The number of steps left. -/
def LoopThread.steps (N : ℕ → L → ℕ) (t : LoopThread L) : ℕ :=
  (t.current.elim 0 fun p => N p.1 p.2 + 1) + (t.queue.map fun i => N i (B.start i) + 2).sum

theorem loop_decreases (N : ℕ → L → ℕ) (hN : ∀ i l l' w, B.next i l = some (l', w) → N i l' < N i l) (st st' : LoopState A V L)
    (h : LoopStep B st st') : (st'.threads.map (·.steps B N)).sum < (st.threads.map (·.steps B N)).sum := by
  have key : ∀ (t : ℕ) (x y : LoopThread L), st.threads[t]? = some x → y.steps B N < x.steps B N →
      ((st.threads.set t y).map (·.steps B N)).sum < (st.threads.map (·.steps B N)).sum := by
    intro t x y ht hlt
    obtain ⟨pre, post, -, hl, hset⟩ := threads_split _ t _ ht
    rw [hset, hl]
    simpa using hlt
  cases h with
  | begins t q i ht => exact key t _ _ ht (by simp [LoopThread.steps])
  | works t q i l l' ht hnx => exact key t _ _ ht (by simpa [LoopThread.steps] using hN i l l' _ hnx)
  | writes t q i l l' w ht hnx => exact key t _ _ ht (by simpa [LoopThread.steps] using hN i l l' _ hnx)
  | ends t q i l ht hnx => exact key t _ _ ht (by simp [LoopThread.steps])

theorem loop_finishes (N : ℕ → L → ℕ) (hN : ∀ i l l' w, B.next i l = some (l', w) → N i l' < N i l) (st : LoopState A V L) :
    ∃ st', ReflTransGen (LoopStep B) st st' ∧ st'.Done := by
  induction hk : (st.threads.map (·.steps B N)).sum using Nat.strong_induction_on generalizing st with
  | _ k ih =>
    by_cases hd : st.Done
    · exact ⟨st, .refl, hd⟩
    · obtain ⟨s1, h1⟩ := loop_progress B st hd
      have hlt := loop_decreases B N hN st s1 h1
      obtain ⟨s2, h2, hd2⟩ := ih _ (by omega) s1 rfl
      exact ⟨s2, .head h1 h2, hd2⟩

theorem loop_no_infinite (N : ℕ → L → ℕ) (hN : ∀ i l l' w, B.next i l = some (l', w) → N i l' < N i l) (f : ℕ → LoopState A V L)
    (h : ∀ k, LoopStep B (f k) (f (k + 1))) : False := by
  have : ∀ k, ((f k).threads.map (·.steps B N)).sum + k ≤ ((f 0).threads.map (·.steps B N)).sum := by
    intro k
    induction k with
    | zero => simp
    | succ k ih =>
      have := loop_decreases B N hN _ _ (h k)
      omega
  have := this (((f 0).threads.map (·.steps B N)).sum + 1)
  omega

end

end CB
