import Verif.Lemmas.Parallel
import Mathlib.Algebra.Order.BigOperators.Group.List

/-!
# C146: the threads do not change the result

`numba` distributes the iterations of two loops of the dispersion model over threads.
-/

set_option autoImplicit false
set_option linter.unusedSectionVars false

namespace CB
open Relation

/-- The contributions of the samples of bin `b` for candidate `i`, added up one after the other. -/
def Spec.lossOfBin {V : Type*} (add : V → V → V) (zero : V) (n : ℕ) (codes : ℕ → ℕ) (contribution : ℕ → ℕ → V) (i b : ℕ) : V :=
  ((List.range n).filter fun s => codes s = b).foldl (fun acc s => add acc (contribution i s)) zero

section
variable {V : Type*} (add : V → V → V) (zero : V) (n minlength : ℕ) (codes : ℕ → ℕ) (contribution : ℕ → ℕ → V)

/-- The losses after the samples `l`. -/
def sumUp (i : ℕ) (l : List ℕ) (loss : ℕ → V) : ℕ → V :=
  l.foldl (fun loss s b => if b = codes s then add (loss b) (contribution i s) else loss b) loss

theorem sumUp_eq (i : ℕ) (l : List ℕ) (loss : ℕ → V) (b : ℕ) : sumUp add codes contribution i l loss b =
    (l.filter fun s => codes s = b).foldl (fun acc s => add acc (contribution i s)) (loss b) := by
  induction l generalizing loss with
  | nil => rfl
  | cons s l ih =>
    change sumUp add codes contribution i l _ b = _
    rw [ih]
    dsimp only
    by_cases h : codes s = b
    · rw [List.filter_cons_of_pos (by simpa using h), List.foldl_cons, if_pos h.symm]
    · rw [List.filter_cons_of_neg (by simpa using h), if_neg (Ne.symm h)]

/-- What an iteration writes. -/
def binnedTrace (i : ℕ) (l : BinnedLocal V) : List ((ℕ × ℕ) × V) :=
  (List.range' l.copied (minlength - l.copied)).map fun b =>
    ((i, b), sumUp add codes contribution i (List.range' l.samples (n - l.samples)) l.loss b)

theorem range'_pos (s m : ℕ) (h : s < m) : List.range' s (m - s) = s :: List.range' (s + 1) (m - (s + 1)) := by
  rw [show m - s = m - (s + 1) + 1 by omega, List.range'_succ]

theorem binned_isTrace : IsTrace (binnedBody add zero n minlength codes contribution) (binnedTrace add n minlength codes contribution) where
  ends i l h := by
    unfold binnedBody at h
    dsimp only at h
    split_ifs at h with h1 h2
    unfold binnedTrace
    rw [show minlength - l.copied = 0 by omega]
    rfl
  works i l l' h := by
    unfold binnedBody at h
    dsimp only at h
    split_ifs at h with h1 h2
    · simp only [Option.some.injEq, Prod.mk.injEq, and_true] at h
      subst h
      unfold binnedTrace
      dsimp only
      rw [range'_pos _ _ h1]
      rfl
    · simp at h
  writes i l l' w h := by
    unfold binnedBody at h
    dsimp only at h
    split_ifs at h with h1 h2
    · simp at h
    · simp only [Option.some.injEq, Prod.mk.injEq] at h
      obtain ⟨rfl, rfl⟩ := h
      unfold binnedTrace
      dsimp only
      rw [range'_pos _ _ h2, show n - l.samples = 0 by omega]
      rfl

theorem binned_owner (i : ℕ) (l : BinnedLocal V) (w : (ℕ × ℕ) × V) (h : w ∈ binnedTrace add n minlength codes contribution i l) : w.1.1 = i := by
  unfold binnedTrace at h
  obtain ⟨b, -, rfl⟩ := List.mem_map.mp h
  rfl

theorem binned_steps (i : ℕ) (l l' : BinnedLocal V) (w : Option ((ℕ × ℕ) × V))
    (h : (binnedBody add zero n minlength codes contribution).next i l = some (l', w)) :
    (n - l'.samples) + (minlength - l'.copied) < (n - l.samples) + (minlength - l.copied) := by
  unfold binnedBody at h
  dsimp only at h
  split_ifs at h with h1 h2
  · simp only [Option.some.injEq, Prod.mk.injEq] at h
    obtain ⟨rfl, -⟩ := h
    dsimp only
    omega
  · simp only [Option.some.injEq, Prod.mk.injEq] at h
    obtain ⟨rfl, -⟩ := h
    dsimp only
    omega

theorem afterWrites_range (m : ℕ × ℕ → V) (i k : ℕ) (f : ℕ → V) (b : ℕ) (hb : b < k) :
    afterWrites m ((List.range' 0 k).map fun b => ((i, b), f b)) (i, b) = f b := by
  induction k with
  | zero => omega
  | succ k ih =>
    rw [← List.range_eq_range', List.range_succ, List.map_append, afterWrites_append]
    rcases Nat.lt_succ_iff_lt_or_eq.mp hb with h | rfl
    · rw [afterWrites_other _ _ _ (by simp; omega), List.range_eq_range']
      exact ih h
    · simp [afterWrites, writeTo]

variable (nCand : ℕ) (s0 st : LoopState (ℕ × ℕ) V (BinnedLocal V)) (h0 : s0.Begins nCand)
  (hr : ReflTransGen (LoopStep (binnedBody add zero n minlength codes contribution)) s0 st)

include h0 hr in
/-- **C146.** Whatever the number of threads, the distribution of the candidates over them, the order in which the threads run and the content of the array
before: when all threads are done, the array holds for every candidate and bin the contributions of the samples of the bin, added up in the
order of the samples. This is an equality bit by bit: the addition and the contributions are arbitrary. -/
theorem C146_losses (hd : st.Done) (i : ℕ) (hi : i < nCand) (b : ℕ) (hb : b < minlength) :
    st.memory (i, b) = Spec.lossOfBin add zero n codes contribution i b := by
  rw [loop_result _ _ (binned_isTrace add zero n minlength codes contribution) Prod.fst
    (fun i l w hw => binned_owner add n minlength codes contribution i l w hw) nCand s0 st h0 hr hd (i, b), if_pos hi]
  unfold binnedTrace
  simp only [binnedBody, Nat.sub_zero]
  rw [afterWrites_range s0.memory i minlength _ b hb, sumUp_eq, ← List.range_eq_range']
  rfl

include h0 hr in
/-- **C146.** Nothing outside of the array is written. -/
theorem C146_outside (hd : st.Done) (i b : ℕ) (h : nCand ≤ i ∨ minlength ≤ b) : st.memory (i, b) = s0.memory (i, b) := by
  rw [loop_result _ _ (binned_isTrace add zero n minlength codes contribution) Prod.fst
    (fun i l w hw => binned_owner add n minlength codes contribution i l w hw) nCand s0 st h0 hr hd (i, b)]
  split_ifs with hi
  · refine afterWrites_other _ _ _ fun w hw e => ?_
    unfold binnedTrace at hw
    obtain ⟨b', hb', rfl⟩ := List.mem_map.mp hw
    simp only [List.mem_range', binnedBody] at hb'
    simp only [Prod.mk.injEq] at e
    dsimp only at hi
    omega
  · rfl

include h0 hr in
/-- **C146.** There are no data races: at no time two threads are about to write to the same place. -/
theorem C146_race_free (t t' : ℕ) (htt : t ≠ t') (q q' : List ℕ) (i i' : ℕ) (l l' k k' : BinnedLocal V) (w w' : (ℕ × ℕ) × V)
    (h : st.threads[t]? = some ⟨q, some (i, l)⟩) (h' : st.threads[t']? = some ⟨q', some (i', l')⟩)
    (hn : (binnedBody add zero n minlength codes contribution).next i l = some (k, some w))
    (hn' : (binnedBody add zero n minlength codes contribution).next i' l' = some (k', some w')) : w.1 ≠ w'.1 :=
  loop_race_free _ _ (binned_isTrace add zero n minlength codes contribution) Prod.fst
    (fun i l w hw => binned_owner add n minlength codes contribution i l w hw) nCand s0 st h0 hr t t' htt q q' i i' l l' k k' w w' h h' hn hn'

/-- **C146.** No schedule gets stuck: from every state, in whatever way it was reached, all threads can be run to their end. -/
theorem C146_finishes (st : LoopState (ℕ × ℕ) V (BinnedLocal V)) :
    ∃ st', ReflTransGen (LoopStep (binnedBody add zero n minlength codes contribution)) st st' ∧ st'.Done :=
  loop_finishes _ (fun _ l => (n - l.samples) + (minlength - l.copied)) (fun i l l' w h => binned_steps add zero n minlength codes contribution i l l' w h) st

/-- **C146.** No schedule goes on forever. -/
theorem C146_terminates (f : ℕ → LoopState (ℕ × ℕ) V (BinnedLocal V))
    (h : ∀ k, LoopStep (binnedBody add zero n minlength codes contribution) (f k) (f (k + 1))) : False :=
  loop_no_infinite _ (fun _ l => (n - l.samples) + (minlength - l.copied)) (fun i l l' w h => binned_steps add zero n minlength codes contribution i l l' w h) f h

end

section
variable (logpmf : ℝ → ℝ → ℝ → Flt ℝ) (gamma : ℝ) (n minlength : ℕ) (codes : ℕ → ℕ) (y mu cLink : ℕ → ℝ) (cands : List ℝ)

/-- **C146.** With exact numbers, what the dispersion model makes of the array is the estimate that the other properties are about, for every
schedule. -/
theorem C146_estimates (s0 st : LoopState (ℕ × ℕ) ℝ (BinnedLocal ℝ)) (h0 : s0.Begins cands.length)
    (hr : ReflTransGen (LoopStep (binnedBody (· + ·) 0 n minlength codes fun i s =>
      sampleLoss logpmf gamma (y s) (mu s) (sigmoid (cands.getD i 0 + cLink s)))) s0 st) (hd : st.Done) (bayes : Bool) (b : ℕ) (hb : b < minlength) :
    offsetFromLosses bayes st.memory cands b = calcParametersNbinomC logpmf gamma bayes n codes y mu cLink cands b := by
  have hsum : ∀ (f : ℕ → ℝ) (l : List ℕ) (z : ℝ), l.foldl (fun acc s => acc + f s) z = z + (l.map f).sum := by
    intro f l
    induction l with
    | nil => simp
    | cons s l ih => intro z; simp [ih, add_assoc]
  have hcol : ((List.range cands.length).map fun i => st.memory (i, b)) = cands.map fun c => binnedLoss logpmf gamma n codes y mu cLink c b := by
    apply List.ext_getElem
    · simp
    · intro i h1 h2
      have hi : i < cands.length := by simpa using h2
      rw [List.getElem_map, List.getElem_map, List.getElem_range,
        C146_losses _ _ n minlength codes _ cands.length s0 st h0 hr hd i hi b hb]
      have hc : cands.getD i 0 = cands[i] := (List.getElem_eq_getD 0).symm
      unfold Spec.lossOfBin
      rw [hsum, zero_add]
      dsimp only
      rw [hc]
      unfold binnedLoss binSum
      dsimp only
      rw [← Finset.sum_filter, ← List.sum_toFinset _ (List.Nodup.filter _ List.nodup_range)]
      refine Finset.sum_congr ?_ fun _ _ => rfl
      ext s
      simp
  unfold offsetFromLosses calcParametersNbinomC
  dsimp only
  rw [hcol]
  cases bayes
  · rfl
  · simp only [bayesOffset, List.map_map, Function.comp_def, if_true]

end

/-! ### The loss of all samples -/

section
variable {V : Type*} (value : ℕ → V)

theorem sample_isTrace : IsTrace (sampleBody value) fun i written => if written then [] else [(i, value i)] where
  ends i l h := by
    cases l <;> simp [sampleBody] at h ⊢
  works i l l' h := by
    cases l <;> simp [sampleBody] at h
  writes i l l' w h := by
    cases l
    · simp only [sampleBody, Bool.false_eq_true, if_false, Option.some.injEq, Prod.mk.injEq] at h
      obtain ⟨rfl, rfl⟩ := h
      simp
    · simp [sampleBody] at h

/-- **C146.** The other loop, over the samples: every entry of the array is written, with the loss of its sample. -/
theorem C146_samples (n : ℕ) (s0 st : LoopState ℕ V Bool) (h0 : s0.Begins n) (hr : ReflTransGen (LoopStep (sampleBody value)) s0 st)
    (hd : st.Done) (i : ℕ) (hi : i < n) : st.memory i = value i := by
  rw [loop_result _ _ (sample_isTrace value) id (by
    intro i l w hw
    cases l
    · simp only [Bool.false_eq_true, if_false, List.mem_singleton] at hw
      subst hw
      rfl
    · simp at hw) n s0 st h0 hr hd i, id, if_pos hi]
  simp [sampleBody, afterWrites, writeTo]

end

theorem foldl_add_sum (l : List ℝ) (z : ℝ) : l.foldl (· + ·) z = z + l.sum := by
  induction l generalizing z with
  | nil => simp
  | cons x l ih => simp [ih, add_assoc]

/-- **C146.** With exact numbers, the mean loss does not depend on how the array is split between the threads. -/
theorem C146_mean (logpmf : ℝ → ℝ → ℝ → Flt ℝ) (gamma : ℝ) (n : ℕ) (y mu c : ℕ → ℝ) (parts : List (List ℝ))
    (hparts : parts.flatten = (List.range n).map fun i => sampleLoss logpmf gamma (y i) (mu i) (c i)) :
    parallelSum (· + ·) 0 parts / n = lossNbinomC logpmf gamma n y mu c := by
  have h : parallelSum (· + ·) 0 parts = parts.flatten.sum := by
    unfold parallelSum
    rw [foldl_add_sum, zero_add, List.sum_flatten]
    congr 1
    refine List.map_congr_left fun l _ => ?_
    rw [foldl_add_sum, zero_add]
  rw [h, hparts]
  unfold lossNbinomC
  congr 1

/-! ### Rounding -/

theorem rounded_fold (add : ℝ → ℝ → ℝ) (u : ℝ) (hu : 0 ≤ u) (hadd : ∀ a b, |add a b - (a + b)| ≤ u * |a + b|) (k : ℕ) (l : List (ℝ × ℝ × ℝ))
    (hl : ∀ p ∈ l, |p.1 - p.2.1| ≤ ((1 + u) ^ k - 1) * p.2.2 ∧ |p.2.1| ≤ p.2.2) :
    |(l.map (·.1)).foldl add 0 - (l.map (·.2.1)).sum| ≤ ((1 + u) ^ (k + l.length) - 1) * (l.map (·.2.2)).sum ∧
      |(l.map (·.2.1)).sum| ≤ (l.map (·.2.2)).sum := by
  induction l using List.reverseRecOn with
  | nil => simp
  | append_singleton l p ih =>
    obtain ⟨h1, h2⟩ := ih fun q hq => hl q (by simp [hq])
    obtain ⟨h3, h4⟩ := hl p (by simp)
    simp only [List.map_append, List.map_cons, List.map_nil, List.foldl_append, List.foldl_cons, List.foldl_nil, List.sum_append,
      List.sum_cons, List.sum_nil, add_zero, List.length_append, List.length_cons, List.length_nil, zero_add]
    set P := (l.map (·.1)).foldl add 0
    set S := (l.map (·.2.1)).sum
    set Z := (l.map (·.2.2)).sum
    have hZ : 0 ≤ Z := (abs_nonneg _).trans h2
    have hz : 0 ≤ p.2.2 := (abs_nonneg _).trans h4
    have hpow : (1 : ℝ) ≤ (1 + u) ^ k := one_le_pow₀ (by linarith)
    have hmono : (1 + u) ^ k ≤ (1 + u) ^ (k + l.length) := pow_le_pow_right₀ (by linarith) (by omega)
    set E := (1 + u) ^ (k + l.length)
    refine ⟨?_, (abs_add_le _ _).trans (add_le_add h2 h4)⟩
    have e1 : |P| ≤ E * Z := by
      have := abs_add_le (P - S) S
      rw [sub_add_cancel] at this
      nlinarith
    have h3' : |p.1 - p.2.1| ≤ (E - 1) * p.2.2 := h3.trans (mul_le_mul_of_nonneg_right (by linarith) hz)
    have e2 : |p.1| ≤ E * p.2.2 := by
      have := abs_add_le (p.1 - p.2.1) p.2.1
      rw [sub_add_cancel] at this
      nlinarith
    have e3 : |P + p.1| ≤ E * (Z + p.2.2) := (abs_add_le _ _).trans (by linarith)
    have e4 := hadd P p.1
    have e5 : u * |P + p.1| ≤ u * (E * (Z + p.2.2)) := mul_le_mul_of_nonneg_left e3 hu
    have e6 : |add P p.1 - (S + p.2.1)| ≤ |add P p.1 - (P + p.1)| + (|P - S| + |p.1 - p.2.1|) := by
      have a1 := abs_add_le (add P p.1 - (P + p.1)) ((P - S) + (p.1 - p.2.1))
      have a2 := abs_add_le (P - S) (p.1 - p.2.1)
      have : add P p.1 - (P + p.1) + ((P - S) + (p.1 - p.2.1)) = add P p.1 - (S + p.2.1) := by ring
      rw [this] at a1
      linarith
    have e7 : (1 + u) ^ (k + (l.length + 1)) = E * (1 + u) := by rw [← add_assoc, pow_succ]
    rw [e7]
    nlinarith

/-- **C146.** With rounding, the sum for the mean loss depends on the split, but only within the bounds of rounding: if an addition is off by at most the part
`u`, and no thread has more than `m` entries, the sum is off by at most the part `(1 + u)^(m + number of threads) - 1` of the sum of the absolute values. -/
theorem C146_mean_rounded (add : ℝ → ℝ → ℝ) (u : ℝ) (hu : 0 ≤ u) (hadd : ∀ a b, |add a b - (a + b)| ≤ u * |a + b|) (m : ℕ) (parts : List (List ℝ))
    (hm : ∀ l ∈ parts, l.length ≤ m) :
    |parallelSum add 0 parts - parts.flatten.sum| ≤ ((1 + u) ^ (m + parts.length) - 1) * (parts.flatten.map fun x => |x|).sum := by
  have h1 : ∀ l ∈ parts, |l.foldl add 0 - l.sum| ≤ ((1 + u) ^ m - 1) * (l.map fun x => |x|).sum ∧ |l.sum| ≤ (l.map fun x => |x|).sum := by
    intro l hl
    have := rounded_fold add u hu hadd 0 (l.map fun x => (x, x, |x|)) (by
      intro p hp
      obtain ⟨x, -, rfl⟩ := List.mem_map.mp hp
      simp)
    simp only [List.map_map, Function.comp_def, List.map_id', List.length_map, zero_add] at this
    refine ⟨this.1.trans (mul_le_mul_of_nonneg_right ?_ ((abs_nonneg _).trans this.2)), this.2⟩
    have := pow_le_pow_right₀ (show (1 : ℝ) ≤ 1 + u by linarith) (hm l hl)
    linarith
  have h2 := rounded_fold add u hu hadd m (parts.map fun l => (l.foldl add 0, l.sum, (l.map fun x => |x|).sum)) (by
    intro p hp
    obtain ⟨l, hl, rfl⟩ := List.mem_map.mp hp
    exact h1 l hl)
  simp only [List.map_map, Function.comp_def, List.length_map] at h2
  rw [List.sum_flatten, List.map_flatten, List.sum_flatten, List.map_map]
  exact h2.1

/-- An addition that keeps one decimal digit of sums from 10 on: for this the split matters. -/
example : parallelSum (fun a b : ℕ => if a + b < 10 then a + b else (a + b) / 10 * 10) 0 [[10, 5, 5]] = 10 ∧
    parallelSum (fun a b : ℕ => if a + b < 10 then a + b else (a + b) / 10 * 10) 0 [[10], [5, 5]] = 20 := by decide

/-- The hypotheses are met: three candidates, two threads of which the first has the last candidate. There is a schedule that ends, and all
that do have the same result. -/
example : ∃ st, ReflTransGen (LoopStep (binnedBody (· + ·) (0 : ℕ) 4 2 (fun s => s % 2) fun i s => i + 10 * s))
      ⟨fun _ => 77, [⟨[2], none⟩, ⟨[0, 1], none⟩]⟩ st ∧ st.Done ∧ st.memory (2, 1) = 44 := by
  obtain ⟨st, h, hd⟩ := C146_finishes (· + ·) (0 : ℕ) 4 2 (fun s => s % 2) (fun i s => i + 10 * s)
    ⟨fun _ => 77, [⟨[2], none⟩, ⟨[0, 1], none⟩]⟩
  refine ⟨st, h, hd, ?_⟩
  rw [C146_losses (· + ·) (0 : ℕ) 4 2 (fun s => s % 2) (fun i s => i + 10 * s) 3 _ st ⟨by simp, by decide⟩ h hd 2 (by norm_num) 1 (by norm_num)]
  decide

end CB
