import Verif.Lemmas.Reduce
import Mathlib.Algebra.Order.BigOperators.Group.List
import Mathlib.Algebra.BigOperators.Group.List.Basic
import Mathlib.Data.List.TakeDrop
import Mathlib.Data.List.Nodup

set_option autoImplicit false
set_option linter.unusedSectionVars false

namespace CB

variable {K : Type*} [Field K] [LinearOrder K] [IsStrictOrderedRing K]

theorem validSamples_eq (z : List (Option K)) (w : List K) : validSamples z w = Spec.samples z w := by
  induction z generalizing w with
  | nil => simp [validSamples, Spec.samples]
  | cons a z ih =>
    cases w with
    | nil => cases a <;> simp [validSamples, Spec.samples]
    | cons b w =>
      have h := ih w
      unfold validSamples at h ⊢
      cases a with
      | none => simpa [Spec.samples] using h
      | some x => simpa [Spec.samples] using h

theorem samples_fst (z : List (Option K)) (w : List K) (h : z.length = w.length) :
    (Spec.samples z w).map Prod.fst = z.filterMap id := by
  induction z generalizing w with
  | nil => simp [Spec.samples]
  | cons a z ih =>
    cases w with
    | nil => simp at h
    | cons b w =>
      have h' := ih w (by simpa using h)
      cases a with
      | none => simpa [Spec.samples] using h'
      | some x => simpa [Spec.samples] using h'

theorem samples_weight_pos (z : List (Option K)) (w : List K) (h : ∀ v ∈ w, 0 < v) :
    ∀ p ∈ Spec.samples z w, 0 < p.2 := by
  induction z generalizing w with
  | nil => simp [Spec.samples]
  | cons a z ih =>
    cases w with
    | nil => cases a <;> simp [Spec.samples]
    | cons b w =>
      have h' := ih w (fun v hv => h v (by simp [hv]))
      cases a with
      | none => simpa [Spec.samples] using h'
      | some x =>
        intro p hp
        simp only [Spec.samples, List.mem_cons] at hp
        rcases hp with rfl | hp
        · exact h b (by simp)
        · exact h' p hp

theorem cumsumFrom_length (acc : K) (ws : List K) : (cumsumFrom acc ws).length = ws.length := by
  induction ws generalizing acc with
  | nil => rfl
  | cons w ws ih => simp [cumsumFrom, ih]

theorem cumsumFrom_getElem (acc : K) (ws : List K) (k : ℕ) (h : k < (cumsumFrom acc ws).length) :
    (cumsumFrom acc ws)[k] = acc + (ws.take (k + 1)).sum := by
  induction ws generalizing acc k with
  | nil => simp [cumsumFrom] at h
  | cons w ws ih =>
    cases k with
    | zero => simp [cumsumFrom]
    | succ k =>
      simp only [cumsumFrom, List.getElem_cons_succ, List.take_succ_cons, List.sum_cons]
      rw [ih]
      ring

theorem cumsumFrom_strict (acc : K) (ws : List K) (h : ∀ w ∈ ws, 0 < w) :
    (acc :: cumsumFrom acc ws).Pairwise (· < ·) := by
  induction ws generalizing acc with
  | nil => simp [cumsumFrom]
  | cons w ws ih =>
    have h1 := ih (acc + w) (fun v hv => h v (by simp [hv]))
    have hw := h w (by simp)
    rw [cumsumFrom, List.pairwise_cons]
    refine ⟨?_, h1⟩
    intro a ha
    rcases List.mem_cons.mp ha with rfl | ha
    · linarith
    · have := (List.pairwise_cons.mp h1).1 a ha
      linarith

theorem weightOf_disjoint (zw : List (K × K)) (p q r : K × K → Bool) (hd : ∀ a ∈ zw, ¬ (p a = true ∧ q a = true))
    (hr : ∀ a ∈ zw, r a = (p a || q a)) :
    ((zw.filter p).map Prod.snd).sum + ((zw.filter q).map Prod.snd).sum = ((zw.filter r).map Prod.snd).sum := by
  induction zw with
  | nil => simp
  | cons a zw ih =>
    have ih := ih (fun b hb => hd b (by simp [hb])) (fun b hb => hr b (by simp [hb]))
    have h1 := hd a (by simp)
    have h2 := hr a (by simp)
    cases hp : p a <;> cases hq : q a <;> simp_all <;> rw [← ih] <;> ring

theorem sum_weightOf (zw : List (K × K)) (us : List K) (hu : us.Nodup) :
    (us.map (weightOf zw)).sum = ((zw.filter (fun p => decide (p.1 ∈ us))).map Prod.snd).sum := by
  induction us with
  | nil => simp
  | cons u us ih =>
    rw [List.nodup_cons] at hu
    rw [List.map_cons, List.sum_cons, ih hu.2]
    unfold weightOf
    apply weightOf_disjoint
    · intro a _ h
      simp only [decide_eq_true_eq] at h
      exact hu.1 (h.1 ▸ h.2)
    · intro a _
      simp

theorem sum_snd_pos (zw : List (K × K)) (h0 : ∀ p ∈ zw, 0 ≤ p.2) (p : K × K) (hp : p ∈ zw) (hpos : 0 < p.2) :
    0 < (zw.map Prod.snd).sum := by
  have h : p.2 ≤ (zw.map Prod.snd).sum := by
    apply List.single_le_sum
    · intro x hx
      obtain ⟨q, hq, rfl⟩ := List.mem_map.mp hx
      exact h0 q hq
    · exact List.mem_map.mpr ⟨p, hp, rfl⟩
  linarith

theorem weightOf_pos (zw : List (K × K)) (h0 : ∀ p ∈ zw, 0 ≤ p.2)
    (hpos : ∀ p ∈ zw, ∃ q ∈ zw, q.1 = p.1 ∧ 0 < q.2) (v : K) (hv : v ∈ zw.map Prod.fst) :
    0 < weightOf zw v := by
  unfold weightOf
  obtain ⟨p, hp, rfl⟩ := List.mem_map.mp hv
  obtain ⟨q, hq, hqp, hq0⟩ := hpos p hp
  apply sum_snd_pos _ _ q
  · rw [List.mem_filter]; exact ⟨hq, by simpa using hqp⟩
  · exact hq0
  · intro r hr
    exact h0 r (List.mem_filter.mp hr).1

theorem strict_mem_take {us : List K} (hs : us.Pairwise (· < ·)) (k : ℕ) (hk : k < us.length) (v : K)
    (hv : v ∈ us) : v ∈ us.take (k + 1) ↔ v ≤ us[k] := by
  obtain ⟨i, hi, rfl⟩ := List.getElem_of_mem hv
  have hp := List.pairwise_iff_getElem.mp hs
  constructor
  · intro h
    obtain ⟨j, hj, e⟩ := List.getElem_of_mem h
    rw [List.getElem_take] at e
    rw [← e]
    rw [List.length_take] at hj
    rcases Nat.lt_or_eq_of_le (by omega : j ≤ k) with h | h
    · exact le_of_lt (hp j k (by omega) hk h)
    · subst h; exact le_refl _
  · intro h
    have hik : i ≤ k := by
      by_contra hlt
      exact absurd (hp k i hk hi (by omega)) (not_lt.mpr h)
    rw [List.mem_take_iff_getElem]
    exact ⟨i, by omega, rfl⟩

theorem filter_true_sum (zw : List (K × K)) (p : K × K → Bool) (h : ∀ a ∈ zw, p a = true) :
    ((zw.filter p).map Prod.snd).sum = (zw.map Prod.snd).sum := by
  rw [List.filter_eq_self.mpr h]

/-- What `calculate_cdf_from_weighted_data` returns when every value has a positive total weight. -/
theorem calcCdf_spec (z : List (Option K)) (w : List K) (hlen : z.length = w.length)
    (h0 : ∀ p ∈ Spec.samples z w, 0 ≤ p.2)
    (hpos : ∀ p ∈ Spec.samples z w, ∃ q ∈ Spec.samples z w, q.1 = p.1 ∧ 0 < q.2) :
    ∃ bx cx : List K, calcCdf z w = .ok (bx, cx) ∧ bx.length = cx.length ∧
      bx.Pairwise (· < ·) ∧ (∀ v, v ∈ bx ↔ some v ∈ z) ∧
      cx.Pairwise (· < ·) ∧ (∀ c ∈ cx, 0 < c) ∧
      (∀ (k : ℕ) (h : k < bx.length) (h' : k < cx.length), cx[k] = Spec.weightShare (Spec.samples z w) bx[k]) ∧
      (0 < cx.length → cx.getD (cx.length - 1) 0 = 1) := by
  have hfst := samples_fst z w hlen
  generalize hzw : Spec.samples z w = zw at hfst hpos h0
  set bx := npUnique (zw.map Prod.fst) with hbx
  have hmem : ∀ v, v ∈ bx ↔ some v ∈ z := by
    intro v
    rw [hbx, mem_npUnique, hfst]
    simp
  have hmem' : ∀ p ∈ zw, p.1 ∈ bx := by
    intro p hp
    rw [hbx, mem_npUnique]
    exact List.mem_map.mpr ⟨p, hp, rfl⟩
  have hstrict : bx.Pairwise (· < ·) := npUnique_strict _
  have hnodup : bx.Nodup := List.nodup_dedup _
  have hwpos : ∀ v ∈ bx.map (weightOf zw), 0 < v := by
    intro v hv
    obtain ⟨u, hu, rfl⟩ := List.mem_map.mp hv
    exact weightOf_pos zw h0 hpos u (by rw [hbx, mem_npUnique] at hu; exact hu)
  have hfilter : (bx.map (weightOf zw)).filter (fun x => decide (x ≠ 0)) = bx.map (weightOf zw) := by
    rw [List.filter_eq_self]
    intro v hv
    have := (hwpos v hv).ne'
    simpa using this
  set W := (zw.map Prod.snd).sum with hW
  set cx := (cumsumFrom 0 (bx.map (weightOf zw))).map (· / W) with hcx
  have hlen2 : bx.length = cx.length := by
    rw [hcx, List.length_map, cumsumFrom_length, List.length_map]
  have hWpos : 0 < bx.length → 0 < W := by
    intro h
    rw [hW]
    obtain ⟨p, hp⟩ := List.exists_mem_of_length_pos (l := zw) (by
      rcases Nat.eq_zero_or_pos zw.length with hl | hl
      · rw [hbx, List.eq_nil_of_length_eq_zero hl] at h
        simp [npUnique] at h
      · exact hl)
    obtain ⟨q, hq, _, hq0⟩ := hpos p hp
    exact sum_snd_pos zw h0 q hq hq0
  have hshare : ∀ (k : ℕ) (h : k < bx.length) (h' : k < cx.length), cx[k] = Spec.weightShare zw bx[k] := by
    intro k h h'
    simp only [hcx, List.getElem_map]
    rw [cumsumFrom_getElem]
    unfold Spec.weightShare
    congr 1
    rw [zero_add, ← List.map_take, sum_weightOf zw _ ((List.take_sublist _ _).nodup hnodup)]
    congr 2
    apply List.filter_congr
    intro p hp
    rw [decide_eq_decide]
    exact strict_mem_take hstrict k h p.1 (hmem' p hp)
  have hcs := cumsumFrom_strict 0 _ hwpos
  rw [List.pairwise_cons] at hcs
  refine ⟨bx, cx, ?_, hlen2, hstrict, hmem, ?_, ?_, hshare, ?_⟩
  · unfold calcCdf
    rw [if_neg (by simpa using hlen)]
    simp only [validSamples_eq, hzw, ← hbx, ← hW, hfilter, hcx]
  · rcases Nat.eq_zero_or_pos bx.length with h | h
    · have : cx = [] := List.eq_nil_of_length_eq_zero (by omega)
      rw [this]; exact List.Pairwise.nil
    · have hW0 := hWpos h
      rw [hcx, List.pairwise_map]
      exact hcs.2.imp (fun hab => div_lt_div_of_pos_right hab hW0)
  · intro c hc
    rcases Nat.eq_zero_or_pos bx.length with h | h
    · have : cx = [] := List.eq_nil_of_length_eq_zero (by omega)
      rw [this] at hc; simp at hc
    · have hW0 := hWpos h
      rw [hcx] at hc
      obtain ⟨d, hd, rfl⟩ := List.mem_map.mp hc
      exact div_pos (hcs.1 d hd) hW0
  · intro h
    rw [List.getD_eq_getElem _ _ (by omega), hshare _ (by omega)]
    unfold Spec.weightShare
    rw [filter_true_sum, ← hW]
    · exact div_self (hWpos (by omega)).ne'
    · intro a ha
      simp only [decide_eq_true_eq]
      obtain ⟨i, hi, e⟩ := List.getElem_of_mem (hmem' a ha)
      rw [← e]
      exact sorted_get (strict_sorted hstrict) (by omega) (by omega)

end CB
