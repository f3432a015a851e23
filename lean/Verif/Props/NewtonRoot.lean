import Verif.Props.Price

/-!
# C147: the combination of Newton's method and bisection approaches the root
-/

set_option autoImplicit false
set_option linter.unusedSectionVars false

namespace CB

section
variable {K : Type*} [Field K] [LinearOrder K] [IsStrictOrderedRing K]

/-- In bin `b` the function passed to `newton_bisect` returns numbers, and the Jacobian is negative exactly on the left of `root`. -/
def Spec.SignChange (step : (ℕ → K) → NewtonOut K) (b : ℕ) (root : K) : Prop :=
  ∀ x, ∃ j h v : K, (step x).jac b = .fin j ∧ (step x).hess b = .fin h ∧ (step x).lnew b = .fin v ∧ (j < 0 ↔ x b < root)

/-- The documented reasons to be content with the parameter `l` of a bin. -/
def Spec.Content (eps : K) (valid : Bool) (out : NewtonOut K) (b : ℕ) (l xl xr : K) : Prop :=
  (∃ j, out.jac b = .fin j ∧ |j| < eps) ∨ |l - xl| < eps ∨ |xr - l| < eps ∨ valid = false ∨
    (out.jac b).isFinite = false ∨ (out.hess b).isFinite = false ∨ (out.lnew b).isFinite = false

/-- The next state of the loop. -/
def bisectNext (step : (ℕ → K) → NewtonOut K) (s : BisectState K) : BisectState K :=
  let r := step s.l
  let valid := fun b => s.valid b && ((r.jac b).isFinite && (r.hess b).isFinite && (r.lnew b).isFinite)
  let xl := fun b => if valid b && (r.jac b).ltZero then s.l b else s.xl b
  let xr := fun b => if valid b && !(r.jac b).ltZero then s.l b else s.xr b
  { l := fun b => if valid b then
      if (r.lnew b).val > xr b ∨ (r.lnew b).val < xl b then (xl b + xr b) / 2 else (r.lnew b).val else 1
    xl, xr, valid, hess := fun b => if valid b then r.hess b else .fin 1 }

theorem bisectLoop_step (n : ℕ) (step : (ℕ → K) → NewtonOut K) (eps : K) (k : ℕ) (s : BisectState K) :
    (bisectLoop n step eps (k + 1) s = bisectLoop n step eps k (bisectNext step s)) ∨
      ((bisectLoop n step eps (k + 1) s).1.l = s.l ∧ (bisectLoop n step eps (k + 1) s).1.xl = s.xl ∧
        (bisectLoop n step eps (k + 1) s).1.xr = s.xr ∧
        ∀ b < n, Spec.Content eps (s.valid b) (step s.l) b (s.l b) (s.xl b) (s.xr b)) := by
  rw [bisectLoop]
  dsimp only
  split_ifs with h
  · refine Or.inr ⟨rfl, rfl, rfl, fun b hb => ?_⟩
    have h := List.all_eq_true.mp h b (List.mem_range.mpr hb)
    simp only [Bool.or_eq_true, decide_eq_true_eq, Bool.not_eq_true', Bool.and_eq_false_iff] at h
    unfold Spec.Content
    rcases h with ((h | h) | h) | h
    · cases hj : (step s.l).jac b with
      | fin j => rw [hj] at h; exact Or.inl ⟨j, rfl, by simpa [Flt.absLt] using h⟩
      | nan => rw [hj] at h; simp [Flt.absLt] at h
      | pinf => rw [hj] at h; simp [Flt.absLt] at h
      | ninf => rw [hj] at h; simp [Flt.absLt] at h
    · exact Or.inr (Or.inl h)
    · exact Or.inr (Or.inr (Or.inl h))
    · tauto
  · exact Or.inl rfl

theorem bisectNext_bin (step : (ℕ → K) → NewtonOut K) (b : ℕ) (root : K) (hs : Spec.SignChange step b root) (s : BisectState K)
    (hv : s.valid b = true) :
    (bisectNext step s).valid b = true ∧
    (bisectNext step s).xl b = (if s.l b < root then s.l b else s.xl b) ∧
    (bisectNext step s).xr b = (if s.l b < root then s.xr b else s.l b) ∧
    ∀ v, (step s.l).lnew b = .fin v → (bisectNext step s).l b =
      if v > (bisectNext step s).xr b ∨ v < (bisectNext step s).xl b then ((bisectNext step s).xl b + (bisectNext step s).xr b) / 2 else v := by
  obtain ⟨j, h, v, hj, hh, hl, hjr⟩ := hs s.l
  have hvalid : (s.valid b && (((step s.l).jac b).isFinite && ((step s.l).hess b).isFinite && ((step s.l).lnew b).isFinite)) = true := by
    rw [hv, hj, hh, hl]
    rfl
  have hz : ((step s.l).jac b).ltZero = decide (s.l b < root) := by
    rw [hj]
    unfold Flt.ltZero
    exact decide_eq_decide.mpr hjr
  refine ⟨hvalid, ?_, ?_, fun v' hl' => ?_⟩
  · simp only [bisectNext, hvalid, hz]
    by_cases hlt : s.l b < root <;> simp [hlt]
  · simp only [bisectNext, hvalid, hz]
    by_cases hlt : s.l b < root <;> simp [hlt]
  · have hval : ((step s.l).lnew b).val = v' := by rw [hl']; rfl
    simp only [bisectNext, hvalid, hval, if_true]

/-- The bracket of the loop contains the parameter and the root. -/
def Bracketed (s : BisectState K) (b : ℕ) (root : K) : Prop :=
  s.valid b = true ∧ s.xl b ≤ root ∧ root ≤ s.xr b ∧ s.xl b ≤ s.l b ∧ s.l b ≤ s.xr b

theorem bracketed_next (step : (ℕ → K) → NewtonOut K) (b : ℕ) (root : K) (hs : Spec.SignChange step b root) (s : BisectState K)
    (h : Bracketed s b root) : Bracketed (bisectNext step s) b root := by
  obtain ⟨hv, h1, h2, h3, h4⟩ := h
  obtain ⟨n1, n2, n3, n4⟩ := bisectNext_bin step b root hs s hv
  obtain ⟨j, hh, v, -, -, hl, -⟩ := hs s.l
  have n4 := n4 v hl
  have b1 : (bisectNext step s).xl b ≤ root := by
    rw [n2]; split_ifs with h
    · exact h.le
    · exact h1
  have b2 : root ≤ (bisectNext step s).xr b := by
    rw [n3]; split_ifs with h
    · exact h2
    · exact not_lt.mp h
  refine ⟨n1, b1, b2, ?_, ?_⟩
  · rw [n4]; split_ifs with h
    · linarith
    · push Not at h; exact h.2
  · rw [n4]; split_ifs with h
    · linarith
    · push Not at h; exact h.1

theorem setRightBound_root (n : ℕ) (step : (ℕ → K) → NewtonOut K) (valid : ℕ → Bool) (b : ℕ) (hb : b < n) (hv : valid b = true) (root : K)
    (hs : Spec.SignChange step b root) : ∀ (k : ℕ) (x : ℕ → K), 0 ≤ x b → root ≤ x b * 2 ^ k →
      root ≤ setRightBoundLoop n (fun x => (step x).jac) valid k x b
  | 0, x, _, h => by simpa [setRightBoundLoop] using h
  | k + 1, x, h0, h => by
    obtain ⟨j, hh, v, hj, -, -, hjr⟩ := hs x
    have hz : ((step x).jac b).ltZero = decide (x b < root) := by
      rw [hj]
      unfold Flt.ltZero
      exact decide_eq_decide.mpr hjr
    have hp : (1 : K) ≤ 2 ^ k := one_le_pow₀ (by norm_num)
    unfold setRightBoundLoop
    dsimp only
    split_ifs with hany
    · apply setRightBound_root n step valid b hb hv root hs k
      · split_ifs <;> linarith
      · simp only [hv, hz]
        by_cases hlt : x b < root
        · simp only [hlt, decide_true, Bool.and_true, if_true]
          rw [pow_succ] at h
          linarith
        · simp only [hlt, decide_false, Bool.and_false, Bool.false_eq_true, if_false]
          push Not at hlt
          nlinarith
    · by_contra hlt
      push Not at hlt
      apply hany
      rw [List.any_eq_true]
      refine ⟨b, List.mem_range.mpr hb, ?_⟩
      rw [hv, hz]
      simpa using hlt

variable (n : ℕ) (step : (ℕ → K) → NewtonOut K) (valid : ℕ → Bool) (xl xr : ℕ → K) (eps : K) (maxIter : ℕ) (start : Option (ℕ → K))
  (hle : ∀ b, xl b ≤ xr b) (hpos : ∀ b, 0 ≤ xr b) (r : BisectResult K)
  (hr : newtonBisect n (fun x => (step x).jac) step valid xl xr eps maxIter start = some r)
  (b : ℕ) (hb : b < n) (hv : valid b = true) (root : K) (hs : Spec.SignChange step b root) (hroot : xl b ≤ root ∧ root ≤ xr b * 2 ^ 10)

include hle hpos hr hb hv hs hroot in
theorem newtonBisect_unfold : ∃ k s0, maxIter = k + 1 ∧ Bracketed s0 b root ∧ s0.l = bisectStart n xl r.xr start ∧ s0.xl = xl ∧ s0.xr = r.xr ∧
    s0.valid = valid ∧ r.xl = xl ∧ r.l = (bisectLoop n step eps (k + 1) s0).1.l := by
  unfold newtonBisect at hr
  split_ifs at hr with h0
  obtain ⟨k, rfl⟩ := Nat.exists_eq_succ_of_ne_zero h0
  dsimp only at hr
  cases hr
  have hx := setRightBoundLoop_bounds n (fun x => (step x).jac) valid 10 xr hpos
  have hst := bisectStart_mem n xl (setRightBound n (fun x => (step x).jac) valid xr) (fun c _ => (hle c).trans (hx c).1) start b hb
  exact ⟨k, _, rfl, ⟨hv, hroot.1, setRightBound_root n step valid b hb hv root hs 10 xr (hpos b) hroot.2, hst.1, hst.2⟩,
    rfl, rfl, rfl, rfl, rfl, rfl⟩

include hle hpos hr hb hv hs hroot in
/-- **C147.** If a root exists up to 1024 times the given right bound, the returned bracket contains it. -/
theorem C147_bracket : r.xl b ≤ root ∧ root ≤ r.xr b := by
  obtain ⟨k, s0, -, ⟨-, h1, h2, -, -⟩, -, e1, e2, -, e3, -⟩ :=
    newtonBisect_unfold n step valid xl xr eps maxIter start hle hpos r hr b hb hv root hs hroot
  rw [e3, ← e1, ← e2]
  exact ⟨h1, h2⟩

theorem exact_loop (n : ℕ) (step : (ℕ → K) → NewtonOut K) (eps : K) (b : ℕ) (root : K) (hs : Spec.SignChange step b root)
    (hnewton : ∀ x, (step x).lnew b = .fin root) : ∀ (k : ℕ) (s : BisectState K), Bracketed s b root → s.l b = root →
      (bisectLoop n step eps k s).1.l b = root
  | 0, s, _, h => h
  | k + 1, s, hbr, h => by
    rcases bisectLoop_step n step eps k s with e | ⟨e, -⟩
    · rw [e]
      have hn := bracketed_next step b root hs s hbr
      refine exact_loop n step eps b root hs hnewton k _ hn ?_
      rw [(bisectNext_bin step b root hs s hbr.1).2.2.2 root (hnewton _)]
      exact if_neg fun h => h.elim (fun h => absurd hn.2.2.1 (not_le.mpr h)) fun h => absurd hn.2.1 (not_le.mpr h)
    · rw [e]; exact h

include hle hpos hr hb hv hs hroot in
/-- **C147.** Newton's step is used whenever it is inside of the bracket. In particular for a quadratic objective, where Newton's step is the root, the result is
the root, unless all bins were content with their start values. -/
theorem C147_quadratic (hnewton : ∀ x, (step x).lnew b = .fin root) : r.l b = root ∨
    (r.l = bisectStart n xl r.xr start ∧ ∀ c < n, Spec.Content eps (valid c) (step r.l) c (r.l c) (xl c) (r.xr c)) := by
  obtain ⟨k, s0, -, hbr, e0, e1, e2, e3, -, e4⟩ :=
    newtonBisect_unfold n step valid xl xr eps maxIter start hle hpos r hr b hb hv root hs hroot
  rcases bisectLoop_step n step eps k s0 with e | ⟨e, -, -, hc⟩
  · left
    rw [e4, e]
    have hn := bracketed_next step b root hs s0 hbr
    refine exact_loop n step eps b root hs hnewton k _ hn ?_
    rw [(bisectNext_bin step b root hs s0 hbr.1).2.2.2 root (hnewton _)]
    exact if_neg fun h => h.elim (fun h => absurd hn.2.2.1 (not_le.mpr h)) fun h => absurd hn.2.1 (not_le.mpr h)
  · right
    have hl : r.l = s0.l := e4.trans e
    refine ⟨hl.trans e0, fun c hcn => ?_⟩
    have := hc c hcn
    rwa [e1, e2, e3, ← hl] at this

/-- The loop ended because all bins were content, with a bracket around the root. -/
def Spec.EndedContent (n : ℕ) (step : (ℕ → K) → NewtonOut K) (eps : K) (b : ℕ) (root : K) (l : ℕ → K) : Prop :=
  ∃ (valid : ℕ → Bool) (xl xr : ℕ → K), (valid b = true ∧ xl b ≤ root ∧ root ≤ xr b ∧ xl b ≤ l b ∧ l b ≤ xr b) ∧
    ∀ c < n, Spec.Content eps (valid c) (step l) c (l c) (xl c) (xr c)

theorem bisection_loop (n : ℕ) (step : (ℕ → K) → NewtonOut K) (eps : K) (b : ℕ) (root m : K) (hs : Spec.SignChange step b root)
    (hnewton : ∀ x v, (step x).lnew b = .fin v → m < v) : ∀ (k : ℕ) (s : BisectState K), Bracketed s b root → s.xr b ≤ m →
      s.l b = (s.xl b + s.xr b) / 2 →
      |(bisectLoop n step eps k s).1.l b - root| ≤ (s.xr b - s.xl b) / 2 ^ (k + 1) ∨
        Spec.EndedContent n step eps b root (bisectLoop n step eps k s).1.l
  | 0, s, hbr, _, h => by
    obtain ⟨-, h1, h2, -, -⟩ := hbr
    left
    simp only [bisectLoop, zero_add, pow_one]
    rw [abs_le, h]
    constructor <;> linarith
  | k + 1, s, hbr, hm, h => by
    rcases bisectLoop_step n step eps k s with e | ⟨e, e1, e2, hc⟩
    · rw [e]
      have hn := bracketed_next step b root hs s hbr
      obtain ⟨-, n2, n3, n4⟩ := bisectNext_bin step b root hs s hbr.1
      obtain ⟨-, h1, h2, h3, h4⟩ := hbr
      obtain ⟨j, hh, v, -, -, hl, -⟩ := hs s.l
      have hxr : (bisectNext step s).xr b ≤ m := by
        rw [n3]; split_ifs <;> linarith
      have hw : (bisectNext step s).xr b - (bisectNext step s).xl b = (s.xr b - s.xl b) / 2 := by
        rw [n2, n3]; split_ifs <;> rw [h] <;> ring
      have := bisection_loop n step eps b root m hs hnewton k _ hn hxr (by
        rw [n4 v hl]
        exact if_pos (Or.inl (hxr.trans_lt (hnewton _ _ hl))))
      rw [hw] at this
      rwa [pow_succ 2 (k + 1), mul_comm, ← div_div]
    · rw [e]
      exact Or.inr ⟨s.valid, s.xl, s.xr, hbr, hc⟩

include hle hpos hr hb hv hs hroot in
/-- **C147.** When Newton's step always points out of the bracket, bisection takes over, and every iteration halves the distance to the root, until all bins are
content. -/
theorem C147_bisection (hnewton : ∀ x v, (step x).lnew b = .fin v → r.xr b < v) :
    |r.l b - root| ≤ (r.xr b - r.xl b) / 2 ^ maxIter ∨ Spec.EndedContent n step eps b root r.l := by
  obtain ⟨k, s0, ek, hbr, e0, e1, e2, e3, e5, e4⟩ :=
    newtonBisect_unfold n step valid xl xr eps maxIter start hle hpos r hr b hb hv root hs hroot
  rw [e4, e5, ek]
  rcases bisectLoop_step n step eps k s0 with e | ⟨e, -, -, hc⟩
  · rw [e]
    have hn := bracketed_next step b root hs s0 hbr
    obtain ⟨-, n2, n3, n4⟩ := bisectNext_bin step b root hs s0 hbr.1
    obtain ⟨j, hh, v, -, -, hl, -⟩ := hs s0.l
    have hxr : (bisectNext step s0).xr b ≤ r.xr b := by
      rw [n3, ← e2]; split_ifs
      · exact le_rfl
      · exact hbr.2.2.2.2
    have hw : (bisectNext step s0).xr b - (bisectNext step s0).xl b ≤ r.xr b - xl b := by
      have : xl b ≤ (bisectNext step s0).xl b := by
        rw [n2, ← e1]; split_ifs
        · exact hbr.2.2.2.1
        · exact le_rfl
      linarith
    rcases bisection_loop n step eps b root (r.xr b) hs hnewton k _ hn hxr (by
        rw [n4 v hl]
        exact if_pos (Or.inl (hxr.trans_lt (hnewton _ _ hl)))) with h | h
    · left
      refine h.trans ?_
      gcongr
    · exact Or.inr h
  · rw [e]
    exact Or.inr ⟨s0.valid, s0.xl, s0.xr, hbr, hc⟩

theorem between_loop (n : ℕ) (step : (ℕ → K) → NewtonOut K) (eps : K) (b : ℕ) (root : K) (hs : Spec.SignChange step b root) :
    ∀ (k : ℕ) (s : BisectState K), Bracketed s b root →
      Bracketed ⟨(bisectLoop n step eps k s).1.l, s.xl, s.xr, s.valid, s.hess⟩ b root
  | 0, s, h => h
  | k + 1, s, h => by
    rcases bisectLoop_step n step eps k s with e | ⟨e, -⟩
    · rw [e]
      have hn := bracketed_next step b root hs s h
      obtain ⟨-, -, -, h3, h4⟩ := between_loop n step eps b root hs k _ hn
      obtain ⟨-, n2, n3, -⟩ := bisectNext_bin step b root hs s h.1
      dsimp only at h3 h4
      refine ⟨h.1, h.2.1, h.2.2.1, le_trans ?_ h3, h4.trans ?_⟩
      · rw [n2]; split_ifs
        · exact h.2.2.2.1
        · exact le_rfl
      · rw [n3]; split_ifs
        · exact le_rfl
        · exact h.2.2.2.2
    · rw [e]; exact h

include hle hpos hr hb hv hs hroot in
/-- **C147.** The search never moves away from the root on the side where it started: if it started on the left of the root, the result is not to the left of
the start, and the other way round. -/
theorem C147_not_backwards :
    (bisectStart n xl r.xr start b < root → bisectStart n xl r.xr start b ≤ r.l b) ∧
    (root ≤ bisectStart n xl r.xr start b → r.l b ≤ bisectStart n xl r.xr start b) := by
  obtain ⟨k, s0, ek, hbr, e0, e1, e2, e3, e5, e4⟩ :=
    newtonBisect_unfold n step valid xl xr eps maxIter start hle hpos r hr b hb hv root hs hroot
  rw [← e0, e4]
  rcases bisectLoop_step n step eps k s0 with e | ⟨e, -⟩
  · rw [e]
    have hn := bracketed_next step b root hs s0 hbr
    obtain ⟨-, n2, n3, -⟩ := bisectNext_bin step b root hs s0 hbr.1
    obtain ⟨-, -, -, h3, h4⟩ := between_loop n step eps b root hs k _ hn
    dsimp only at h3 h4
    constructor
    · intro h
      rwa [n2, if_pos h] at h3
    · intro h
      rwa [n3, if_neg (not_lt.mpr h)] at h4
  · rw [e]
    exact ⟨fun _ => le_rfl, fun _ => le_rfl⟩

end

/-! ### The hypotheses are met -/

/-- The derivative `x - 3` of a parabola in one bin, with Newton's step. -/
def parabola : (ℕ → ℚ) → NewtonOut ℚ := fun x => ⟨fun _ => .fin 3, fun b => .fin (x b - 3), fun _ => .fin 1⟩

example : Spec.SignChange parabola 0 3 := fun x => ⟨x 0 - 3, 1, 3, rfl, rfl, rfl, sub_neg⟩

/-- The root is beyond the given bracket `[0, 2]`, which is doubled. -/
example : ∃ r, newtonBisect 1 (fun x => (parabola x).jac) parabola (fun _ => true) (fun _ => 0) (fun _ => 2) (1 / 100) 10 (some fun _ => 1) = some r ∧
    r.l 0 = 3 ∧ r.xr 0 = 4 := by
  refine ⟨_, rfl, ?_, ?_⟩ <;> decide +kernel

end CB
