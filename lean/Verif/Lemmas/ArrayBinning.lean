import Verif.Spec.ArrayBinning
import Verif.Lemmas.BinnerObject

/-!
# Lemmas about binning arrays
-/

set_option autoImplicit false
set_option linter.unusedSectionVars false

namespace CB

/-- The entry of the array that is returned. -/
noncomputable def arrayCell (B : Binner) (t : ElementType) (overflow : ℤ → ℤ) (L : List (String × ColFit ℝ)) (c : String) (x : Flt ℝ) : Flt ℝ :=
  match L.lookup c, B.props.lookup c with
  | some f, some fp =>
    match binNumber (Flags.isSet fp Flags.IS_CONTINUOUS) (Flags.isSet fp Flags.HAS_MAGIC_INT_MISSING) f.eps (f.table.map Prod.fst) x with
    | .ok i => .fin (t.store overflow i : ℝ)
    | .error _ => .nan
  | _, _ => x

theorem arrayLoop_ok (o : BinnerObject) (t : ElementType) (overflow : ℤ → ℤ) (L : List (String × ColFit ℝ)) (hgood : GoodBins o.cfg L)
    (hnd : (L.map Prod.fst).Nodup) (F : DataFrame) (hcols : ∀ p ∈ L, p.1 ∈ F.columns) :
    ∃ G, o.arrayLoop t overflow L F = .ok G ∧ G.columns = F.columns ∧ G.n = F.n ∧
      ∀ s c, G.X s c = arrayCell o.cfg t overflow L c (F.X s c) := by
  induction L generalizing F with
  | nil => exact ⟨F, rfl, rfl, rfl, fun s c => by simp [arrayCell]⟩
  | cons p L ih =>
    obtain ⟨c, f⟩ := p
    obtain ⟨fp, hfp, hi⟩ := hgood (c, f) (by simp)
    rw [BinnerObject.arrayLoop, hfp]
    dsimp only at hi ⊢
    rw [if_pos (hcols (c, f) (by simp)), if_pos fun s _ => hi _]
    rw [List.map_cons, List.nodup_cons] at hnd
    have hc : c ∉ L.map Prod.fst := hnd.1
    obtain ⟨G, h1, h2, h3, h4⟩ := ih (fun p hp => hgood p (List.mem_cons_of_mem _ hp)) hnd.2
      { F with
        X := fun s => Function.update (F.X s) c (match binNumber (Flags.isSet fp Flags.IS_CONTINUOUS)
            (Flags.isSet fp Flags.HAS_MAGIC_INT_MISSING) f.eps (f.table.map Prod.fst) (F.X s c) with
          | .ok i => .fin (t.store overflow i : ℝ)
          | .error _ => .nan) }
      (fun p hp => by simpa using hcols p (List.mem_cons_of_mem _ hp))
    refine ⟨G, h1, h2, h3, ?_⟩
    intro s d
    rw [h4 s d]
    by_cases hd : d = c
    · subst hd
      have hl : L.lookup d = none := by
        rw [List.lookup_eq_none_iff]
        intro p hp
        have : p.1 ∈ L.map Prod.fst := List.mem_map_of_mem hp
        have hne : d ≠ p.1 := by rintro rfl; exact hc this
        simpa using hne
      obtain ⟨i, hi'⟩ := hi (F.X s d)
      unfold arrayCell
      rw [hl, List.lookup_cons_self, hfp]
      simp [hi']
    · have : (List.lookup d ((c, f) :: L)) = L.lookup d := by
        rw [List.lookup_cons]
        have : (d == c) = false := by simpa using hd
        rw [this]
      unfold arrayCell
      rw [this]
      simp [hd]

theorem arrayLoop_indexError (o : BinnerObject) (t : ElementType) (overflow : ℤ → ℤ) (L : List (String × ColFit ℝ)) (hgood : GoodBins o.cfg L)
    (F : DataFrame) (hcols : ∃ p ∈ L, p.1 ∉ F.columns) : o.arrayLoop t overflow L F = .error (.binning .indexError) := by
  induction L generalizing F with
  | nil => obtain ⟨p, hp, -⟩ := hcols; simp at hp
  | cons p L ih =>
    obtain ⟨c, f⟩ := p
    obtain ⟨fp, hfp, hi⟩ := hgood (c, f) (by simp)
    rw [BinnerObject.arrayLoop, hfp]
    dsimp only at hi ⊢
    by_cases hc : c ∈ F.columns
    · rw [if_pos hc, if_pos fun s _ => hi _]
      refine ih (fun p hp => hgood p (List.mem_cons_of_mem _ hp)) _ ?_
      obtain ⟨q, hq, hq'⟩ := hcols
      rcases List.mem_cons.mp hq with rfl | hq
      · exact absurd hc hq'
      · exact ⟨q, hq, hq'⟩
    · rw [if_neg hc]

/-- The bin numbers of a fitted column. -/
theorem binNumber_bound (d : Bool) (z : List (Option ℝ)) (w : List ℝ) (hw : PosWeights z w) (N : ℕ) (eps tol : ℝ) (htol : 0 ≤ tol)
    (f : ColFit ℝ) (h : fitColumn d z w N eps tol = .ok f) (continuous magic : Bool) (x : Flt ℝ) (i : ℤ)
    (hi : binNumber continuous magic f.eps (f.table.map Prod.fst) x = .ok i) :
    -1 ≤ i ∧ (d = true → i < Spec.distinctValues z) ∧ (d = false → i < N) := by
  by_cases hne : ∃ v, some v ∈ z
  · cases d with
    | true =>
      obtain ⟨b0, values, cdf, h1, h2, h3, h4, -⟩ := fitColumn_discrete z w hw N eps tol hne
      rw [h1, Except.ok.injEq] at h
      subst h
      have hv : values ≠ [] := by rintro rfl; simp at h4
      obtain ⟨j, hj, hj1, hj2⟩ := C04_range continuous magic (eps * minimalDifference (b0 :: values)) b0 values (strict_sorted h2) hv x
      have : j = i := by
        have := hj.symm.trans hi
        simpa using this
      subst this
      refine ⟨hj1, fun _ => ?_, by simp⟩
      have hcard : Spec.distinctValues z = values.length := by
        unfold Spec.distinctValues
        rw [← List.toFinset_card_of_nodup (h2.imp fun h => ne_of_lt h)]
        congr 1
        ext v
        rw [List.mem_toFinset, List.mem_toFinset, h3]
        simp
      rw [hcard]; exact hj2
    | false =>
      by_cases hN : 2 ≤ N
      · obtain ⟨e, b0, upper, cdf, h1, h2, h2', -, h5, -⟩ := C05_reduced_bins z w hw hne N hN eps tol htol
        rw [h1, Except.ok.injEq] at h
        subst h
        obtain ⟨j, hj, hj1, hj2⟩ := C04_range continuous magic e b0 upper (List.pairwise_cons.mp h5).2
          (by rintro rfl; simp at h2) x
        have : j = i := by
          have := hj.symm.trans hi
          simpa using this
        subst this
        exact ⟨hj1, by simp, fun _ => by omega⟩
      · rw [C05_too_few_bins z w hw hne N (by omega) eps tol] at h
        cases h
  · push Not at hne
    rw [fitColumn_empty d z w hw.1 N eps tol hne, Except.ok.injEq] at h
    subst h
    have : i = -1 := by
      simp only [Option.map_none] at hi
      cases hi
      rfl
    subst this
    exact ⟨le_rfl, fun _ => by omega, fun _ => by omega⟩

end CB
