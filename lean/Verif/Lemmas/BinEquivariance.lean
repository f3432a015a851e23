import Verif.Lemmas.BinnedFit

/-!
# Fitted bins under monotone transformations and reordering of a column
-/

set_option autoImplicit false

namespace CB

variable {K : Type*} [Field K] [LinearOrder K] [IsStrictOrderedRing K]

/-! ### Monotone transformations -/

theorem npUnique_map (g : K → K) (hg : StrictMono g) (xs : List K) : npUnique (xs.map g) = (npUnique xs).map g := by
  refine (npUnique_strict (xs.map g)).eq_of_mem_iff ?_ fun v => ?_
  · rw [List.pairwise_map]
    exact (npUnique_strict xs).imp fun h => hg h
  · simp only [mem_npUnique, List.mem_map]

theorem samples_map (g : K → K) (z : List (Option K)) (w : List K) :
    Spec.samples (z.map (Option.map g)) w = (Spec.samples z w).map fun p => (g p.1, p.2) := by
  induction z generalizing w with
  | nil => simp [Spec.samples]
  | cons a z ih =>
    cases w with
    | nil => cases a <;> simp [Spec.samples]
    | cons b w => cases a <;> simp [Spec.samples, ih w]

theorem weightOf_map (g : K → K) (hg : StrictMono g) (zw : List (K × K)) (v : K) :
    weightOf (zw.map fun p => (g p.1, p.2)) (g v) = weightOf zw v := by
  unfold weightOf
  rw [List.filter_map, List.map_map]
  congr 1
  have : ((fun p : K × K => decide (p.1 = g v)) ∘ fun p : K × K => (g p.1, p.2)) = fun p => decide (p.1 = v) := by
    funext p
    simp [hg.injective.eq_iff]
  rw [this]
  exact List.map_congr_left fun p _ => rfl

theorem calcCdf_map (g : K → K) (hg : StrictMono g) (z : List (Option K)) (w : List K) :
    calcCdf (z.map (Option.map g)) w = match calcCdf z w with
      | .error e => .error e
      | .ok (b, c) => .ok (b.map g, c) := by
  unfold calcCdf
  rw [List.length_map]
  by_cases h : z.length ≠ w.length
  · rw [if_pos h, if_pos h]
  · rw [if_neg h, if_neg h]
    simp only [validSamples_eq, samples_map, List.map_map]
    have e1 : (List.map (Prod.fst ∘ fun p : K × K => (g p.1, p.2)) (Spec.samples z w)) = ((Spec.samples z w).map Prod.fst).map g := by
      rw [List.map_map]; rfl
    have e2 : (List.map (Prod.snd ∘ fun p : K × K => (g p.1, p.2)) (Spec.samples z w)) = (Spec.samples z w).map Prod.snd := rfl
    rw [e1, e2, npUnique_map g hg, List.map_map]
    have e3 : (npUnique ((Spec.samples z w).map Prod.fst)).map (weightOf ((Spec.samples z w).map fun p => (g p.1, p.2)) ∘ g) =
        (npUnique ((Spec.samples z w).map Prod.fst)).map (weightOf (Spec.samples z w)) :=
      List.map_congr_left fun v _ => weightOf_map g hg _ v
    rw [e3]

theorem pyGet_map {α β : Type*} (g : α → β) (z : List α) (i : ℤ) : pyGet (z.map g) i = (pyGet z i).map g := by
  unfold pyGet
  rw [List.length_map]
  split_ifs <;> simp

variable [FloorRing K]

theorem reduceLoop_map (g : K → K) (bx cx : List K) (share eps tol : K) (rem : ℕ) (index : ℤ) (prev : K) (bs cs : List K) :
    reduceLoop (bx.map g) cx share eps tol rem index prev (bs.map g) cs =
      match reduceLoop bx cx share eps tol rem index prev bs cs with
      | .error e => .error e
      | .ok (b, c) => .ok (b.map g, c) := by
  induction rem generalizing index prev bs cs with
  | zero => rfl
  | succ rem ih =>
    unfold reduceLoop
    dsimp only
    split_ifs with h1 h2 h2
    all_goals first
      | (cases geLim cx _ true index cx.length with
          | none => rfl
          | some idx =>
            dsimp only
            rw [pyGet_map]
            cases hc : pyGet cx idx with
            | none => rfl
            | some c =>
              cases hb : pyGet bx idx with
              | none => rfl
              | some b =>
                simp only [Option.map_some]
                have := ih idx c (bs ++ [b]) (cs ++ [c])
                rw [List.map_append] at this
                exact this)
      | (rw [pyGet_map]
         cases hb : pyGet bx (↑cx.length - 1) with
         | none => rfl
         | some b => simp [List.map_set])

theorem reduceCdf_map (g : K → K) (bx cx : List K) (N : ℕ) (eps tol : K) :
    reduceCdf (bx.map g) cx N eps tol = match reduceCdf bx cx N eps tol with
      | .error e => .error e
      | .ok (b, c) => .ok (b.map g, c) := by
  unfold reduceCdf
  by_cases h : N < 2
  · rw [if_pos h, if_pos h]
  · rw [if_neg h, if_neg h]
    cases bx with
    | nil => rfl
    | cons b0 bx => exact reduceLoop_map g (b0 :: bx) cx _ eps tol N 0 0 [b0] [0]

/-- The boundaries of a transformed column are the transformed boundaries. -/
theorem fitColumn_map (g : K → K) (hg : StrictMono g) (d : Bool) (z : List (Option K)) (w : List K) (N : ℕ) (eps tol : K) :
    fitColumn d (z.map (Option.map g)) w N eps tol = match fitColumn d z w N eps tol with
      | .error e => .error e
      | .ok ⟨e, none⟩ => .ok ⟨e, none⟩
      | .ok ⟨_, some (bs, cs)⟩ => .ok ⟨eps * minimalDifference (bs.map g), some (bs.map g, cs)⟩ := by
  unfold fitColumn
  rw [calcCdf_map g hg]
  cases calcCdf z w with
  | error e => rfl
  | ok p =>
    obtain ⟨bx, cx⟩ := p
    dsimp only
    rw [List.length_map]
    by_cases h : bx.length = 0 ∨ cx.length = 0
    · rw [if_pos h, if_pos h]
    · rw [if_neg h, if_neg h]
      cases d with
      | true =>
        cases bx with
        | nil => rfl
        | cons b0 bx =>
          simp only [if_true, List.map_cons, List.length_cons, List.length_map]
          by_cases hl : bx.length + 1 + 1 ≠ cx.length + 1
          · rw [if_pos hl, if_pos hl]
          · rw [if_neg hl, if_neg hl]; rfl
      | false =>
        simp only [Bool.false_eq_true, if_false]
        rw [reduceCdf_map]
        cases reduceCdf bx cx N eps tol with
        | error e => rfl
        | ok q =>
          obtain ⟨bs, cs⟩ := q
          dsimp only
          rw [List.length_map]
          by_cases hl : bs.length ≠ cs.length
          · rw [if_pos hl, if_pos hl]
          · rw [if_neg hl, if_neg hl]

theorem foldl_min_scale (a : K) (ha : 0 < a) (l : List K) (d : K) : (l.map (a * ·)).foldl min (a * d) = a * l.foldl min d := by
  induction l generalizing d with
  | nil => rfl
  | cons b l ih =>
    simp only [List.map_cons, List.foldl_cons]
    rw [← mul_min_of_nonneg _ _ ha.le, ih]

/-- The widths of the bins scale with the unit, unless all boundaries coincide. -/
theorem minimalDifference_affine (a b : K) (ha : 0 < a) (bs : List K) :
    minimalDifference (bs.map fun v => a * v + b) = a * minimalDifference bs ∨
      ∀ (i j : ℕ) (hi : i < bs.length) (hj : j < bs.length), Spec.Sorted bs → bs[i] = bs[j] := by
  have hw : (List.zipWith (fun a b => b - a) (bs.map fun v => a * v + b) (bs.map fun v => a * v + b).tail).filter
      (fun d => decide (0 < d)) = ((List.zipWith (fun a b => b - a) bs bs.tail).filter fun d => decide (0 < d)).map (a * ·) := by
    rw [← List.map_tail, List.zipWith_map]
    have : (List.zipWith (fun x y => a * y + b - (a * x + b)) bs bs.tail) = (List.zipWith (fun a b => b - a) bs bs.tail).map (a * ·) := by
      rw [List.map_zipWith]
      congr 1
      funext x y
      ring
    rw [this, List.filter_map]
    have e : ((fun d => decide (0 < d)) ∘ fun x => a * x) = fun d : K => decide (0 < d) := by
      funext d
      simp [mul_pos_iff_of_pos_left ha]
    rw [e]
  unfold minimalDifference
  dsimp only
  rw [hw]
  cases hd : (List.zipWith (fun a b => b - a) bs bs.tail).filter fun d => decide (0 < d) with
  | cons d ds =>
    left
    simp only [List.map_cons]
    exact foldl_min_scale a ha ds d
  | nil =>
    right
    have key : ∀ (i : ℕ) (hi : i + 1 < bs.length), Spec.Sorted bs → bs[i] = bs[i + 1] := by
      intro i hi hs
      refine le_antisymm (sorted_get hs (by omega) hi) (not_lt.mp fun hlt => ?_)
      have hm : bs[i + 1] - bs[i] ∈ (List.zipWith (fun a b => b - a) bs bs.tail).filter fun d => decide (0 < d) := by
        rw [List.mem_filter]
        refine ⟨?_, by simpa using hlt⟩
        rw [List.mem_iff_getElem]
        exact ⟨i, by simp; omega, by simp⟩
      rw [hd] at hm
      simp at hm
    have key0 : ∀ (i : ℕ) (hi : i < bs.length), Spec.Sorted bs → bs[i] = bs[0] := by
      intro i
      induction i with
      | zero => intro _ _; rfl
      | succ i ih =>
        intro hi hs
        rw [← key i hi hs, ih (by omega) hs]
    intro i j hi hj hs
    rw [key0 i hi hs, key0 j hj hs]

end CB
