import Verif.Lemmas.BinnedFit
import Verif.Props.WholeFit

/-!
# Pipelines of binning and estimator: C85
-/

set_option autoImplicit false
set_option linter.unusedSectionVars false

namespace CB
open Spec

section
variable {K : Type*} [Field K] [LinearOrder K] [IsStrictOrderedRing K] [FloorRing K]

/-- The fitted bins of a continuous column: their upper boundaries are values of the column and differ by more than the stored
epsilon. -/
theorem fitColumn_continuous (z : List (Option K)) (w : List K) (hw : PosWeights z w) (hne : ∃ v, some v ∈ z) (N : ℕ) (hN : 2 ≤ N)
    (eps tol : K) (heps : 0 ≤ eps) (heps1 : eps < 1) (htol : 0 ≤ tol) (htol1 : tol < 1) (hsmall : eps < (1 - tol) / N)
    (f : ColFit K) (h : fitColumn false z w N eps tol = .ok f) :
    ∃ b0 upper cdf, f.table = some (b0 :: upper, cdf) ∧ upper ≠ [] ∧ Spec.Sorted upper ∧ (∀ b ∈ upper, some b ∈ z) ∧
      ∀ (i j : ℕ) (_ : i < j) (hj : j < upper.length), f.eps < upper[j] - upper[i]'(by omega) := by
  obtain ⟨e, b0, bx, cx, js, hf, hsel, hnil, hlen, hbs, hmem, -⟩ := fitColumn_selected z w hw hne N hN eps tol heps htol htol1
    (by rw [← div_eq_mul_one_div]; exact hsmall)
  obtain ⟨e', b0', upper', cdf', hf', -, -, -, hs', -⟩ := C05_reduced_bins z w hw hne N hN eps tol htol
  rw [hf] at hf'
  have he := fitColumn_eps _ _ _ _ _ _ _ _ _ hf
  simp only [Except.ok.injEq, ColFit.mk.injEq, Option.some.injEq, Prod.mk.injEq, List.cons.injEq] at hf'
  obtain ⟨-, ⟨h1, h2⟩, -⟩ := hf'
  rw [hf, Except.ok.injEq] at h
  subst h1 h2 h
  have hstrict : (js.map fun j => bx.getD j 0).Pairwise (· < ·) := by
    rw [List.pairwise_map]
    refine (List.pairwise_iff_getElem.mpr ?_)
    intro i j hi hj hij
    have hlt := List.pairwise_iff_getElem.mp hsel.strict i j hi hj hij
    have := hsel.lt js[j] (List.getElem_mem _)
    exact getD_strict hbs hlt (by omega)
  refine ⟨b0, _, _, rfl, by simpa using hnil, strict_sorted hstrict, ?_, ?_⟩
  · intro b hb
    obtain ⟨j, hj, rfl⟩ := List.mem_map.mp hb
    rw [← hmem, List.getD_eq_getElem _ _ (by have := hsel.lt j hj; omega)]
    exact List.getElem_mem _
  · intro i j hij hj
    have hlt := List.pairwise_iff_getElem.mp hstrict i j (by omega) hj hij
    have hmd := minimalDifference_le_of_lt (b0 :: js.map fun j => bx.getD j 0) hs' (i + 1) (j + 1) (by omega)
      (by simpa using hj) (by simpa using hlt)
    simp only [List.getElem_cons_succ] at hmd
    have hpos := minimalDifference_pos (b0 :: js.map fun j => bx.getD j 0)
    rw [he]
    have : eps * minimalDifference (b0 :: js.map fun j => bx.getD j 0) < 1 * minimalDifference (b0 :: js.map fun j => bx.getD j 0) :=
      mul_lt_mul_of_pos_right heps1 hpos
    linarith

/-- A value that is at least the last boundary is in the last bin. -/
theorem last_bin (b0 : K) (upper : List K) (hs : Spec.Sorted upper) (hne : upper ≠ []) (magic : Bool) (e : K)
    (hgap : ∀ (i j : ℕ) (_ : i < j) (hj : j < upper.length), e < upper[j] - upper[i]'(by omega))
    (v : K) (hv : upper[upper.length - 1]'(by have := List.length_pos_iff.mpr hne; omega) ≤ v)
    (hm : magic = true → v ≠ -9 ∧ v ≠ -999) :
    binNumber true magic e (some (b0 :: upper)) (.fin v) = .ok ((upper.length - 1 : ℕ) : ℤ) := by
  have hl := List.length_pos_iff.mpr hne
  obtain ⟨k, hk, hk1, hk2, hk3⟩ := C01_continuous_bin b0 upper hs hne magic e v hm
  rw [hk]
  congr 2
  by_contra hne'
  rcases hk3 with h | h
  · have := hgap k (upper.length - 1) (by omega) (by omega)
    linarith
  · exact hne' h

end

/-- **C85**, success: after a successful fit, a pipeline makes predictions for every table: neither values outside the range of
the training data nor missing or infinite values nor new categories raise an exception. -/
theorem C85_predict_succeeds {σ : Type*} (B : Binner) (htol : 0 ≤ B.tolerance) (columns : List String) (S : Setup σ) (E : Estimator)
    (D : TrainSet) (fuel : ℕ) (P : FittedPipeline) (h : pipelineFit B columns S E D fuel = some (.ok P))
    (prior : Option (ℕ → Flt ℝ)) (X : Table ℝ) (n : ℕ) : ∃ p, P.predict B prior X n = .ok p := by
  obtain ⟨Xt, h1, -, -⟩ := pipelineFit_ok B columns S E D fuel P h
  obtain ⟨Xt', h2⟩ := transform_ok B htol columns D.X D.n P.bins h1 X n
  unfold FittedPipeline.predict
  rw [h2]
  exact ⟨_, rfl⟩

/-- **C85.** Let a continuous column that is a feature of its own, and in no other feature, be declared monotonic with a
direction. Then the predictions of a fitted pipeline follow this direction in the raw value of this column, over all finite
values, also outside the range of the training data. Hypotheses: as in C73, and epsilon is small compared to the width of the
bins in the cdf. If the magic integers -9 and -999 mean missing, some training value exceeds -9. -/
theorem C85_monotone (B : Binner) (columns : List String) (S : Setup (List (ℝ × ℝ × ℝ))) (c : Choice) (groups : List (List String))
    (hS : createFeatures c (some B.props) groups = .ok S.features) (hagg : S.params.aggregate = true)
    (hok : S.params.consts.Ok) (hlr : ∀ it, 0 ≤ S.learnRate it) (E : Estimator) (hE : NoCalibration E)
    (inc : Bool) (reg : List (ℝ × ℝ × ℝ) → ℝ → ℝ) (hreg : IsIsotonic inc reg)
    (hbase : S.base (.isotonic (some inc)) = isotonicSmoother reg) (hk : c.kind ≠ .noSmoother)
    (col : String) (hcol' : col ∈ columns) (hex : Spec.NoExplicit c [col]) (fp : ℕ) (hfp : AsksDirection inc fp)
    (hprop : B.props.lookup col = some fp)
    (j : ℕ) (hcol : groups[j]? = some [col]) (hother : ∀ i g, groups[i]? = some g → col ∈ g → i = j)
    (heps : 0 ≤ B.epsilon) (heps1 : B.epsilon < 1) (htol : 0 ≤ B.tolerance) (htol1 : B.tolerance < 1)
    (hsmall : B.epsilon < (1 - B.tolerance) / B.nBins col)
    (D : TrainSet) (hmagic : Flags.isSet fp Flags.HAS_MAGIC_INT_MISSING = true → ∃ s < D.n, ∃ v : ℝ, D.X s col = .fin v ∧ -9 < v)
    (fuel : ℕ) (P : FittedPipeline) (h : pipelineFit B columns S E D fuel = some (.ok P))
    (hnd : ∀ Xt, B.transform P.bins D.X D.n = .ok Xt → NeverDiverges S E { D with X := Xt })
    (X1 X2 : Table ℝ) (n s : ℕ) (hs : s < n) (hsame : ∀ c', c' ≠ col → X1 s c' = X2 s c') (x x' : ℝ) (hxx : x ≤ x')
    (h1 : X1 s col = .fin x) (h2 : X2 s col = .fin x')
    (hm : Flags.isSet fp Flags.HAS_MAGIC_INT_MISSING = true → (x ≠ -9 ∧ x ≠ -999) ∧ x' ≠ -9 ∧ x' ≠ -999)
    (prior : Option (ℕ → Flt ℝ)) (p1 p2 : ℕ → ℝ) (hp1 : P.predict B prior X1 n = .ok p1) (hp2 : P.predict B prior X2 n = .ok p2) :
    InOrder inc (p1 s) (p2 s) := by
  obtain ⟨Xt, hb, htr, hfit⟩ := pipelineFit_ok B columns S E D fuel P h
  obtain ⟨Y1, ht1, rfl⟩ := predict_ok P B prior X1 n p1 hp1
  obtain ⟨Y2, ht2, rfl⟩ := predict_ok P B prior X2 n p2 hp2
  have hsame' : ∀ c', c' ≠ col → Y1 s c' = Y2 s c' := by
    intro c' hc'
    have e1 := transform_cell B _ X1 Y1 n ht1 s hs c'
    have e2 := transform_cell B _ X2 Y2 n ht2 s hs c'
    rw [hsame c' hc', e2, Except.ok.injEq] at e1
    exact e1.symm
  obtain ⟨f, hf⟩ := binner_fit_mem B columns D.X D.n P.bins hb col hcol' fp hprop
  obtain ⟨fp', hfp', hcons, hfc⟩ := binner_fit_column B columns D.X D.n P.bins hb col f hf
  rw [hprop, Option.some.injEq] at hfp'
  subst hfp'
  have hcont : Flags.isSet fp Flags.IS_CONTINUOUS = true := by
    rw [show Flags.IS_CONTINUOUS = 1 <<< 0 from rfl, Flags.isSet_bit]
    exact hfp.1
  have hdisc : (Flags.isSet fp Flags.IS_ORDERED || Flags.isSet fp Flags.IS_UNORDERED) = false := by
    have := ((Flags.C14_accepts_iff fp).mp hcons).1
    rw [show Flags.IS_ORDERED = 1 <<< 1 from rfl, show Flags.IS_UNORDERED = 1 <<< 2 from rfl, Flags.isSet_bit, Flags.isSet_bit]
    rcases this with ⟨-, h1, h2⟩ | ⟨h0, -⟩ | ⟨h0, -⟩
    · rw [h1, h2]; rfl
    · rw [hfp.1] at h0; cases h0
    · rw [hfp.1] at h0; cases h0
  rw [hdisc] at hfc
  have hcell : ∀ (X Y : Table ℝ) (n s : ℕ), s < n → B.transform P.bins X n = .ok Y → ∀ i : ℤ,
      binNumber true (Flags.isSet fp Flags.HAS_MAGIC_INT_MISSING) f.eps (f.table.map Prod.fst) (X s col) = .ok i →
      Y s col = .fin (i : ℝ) := by
    intro X Y n s hs hY i hi
    have e1 := transform_cell B _ X Y n hY s hs col
    rw [cell_fitted B P.bins col f hf fp hprop (X s col) i (by rw [hcont]; exact hi), Except.ok.injEq] at e1
    exact e1.symm
  rcases fitColumn_shape _ _ _ (column_weights D.X D.n col) _ _ _ htol f hfc with ⟨hnone, -⟩ | ⟨-, -, -, -, -, -, hne⟩
  · have e1 : Y1 s col = Y2 s col := by
      rw [hcell X1 Y1 n s hs ht1 (-1) (by rw [hnone]; rfl), hcell X2 Y2 n s hs ht2 (-1) (by rw [hnone]; rfl)]
    have : P.model.predict prior Y1 s = P.model.predict prior Y2 s := by
      refine predict_row _ _ _ _ _ fun c' => ?_
      by_cases hc' : c' = col
      · rw [hc']; exact e1
      · exact hsame' c' hc'
    rw [this]
    exact InOrder.refl inc _
  · have hN : 2 ≤ B.nBins col := by
      by_contra hN
      rw [C05_too_few_bins _ _ (column_weights D.X D.n col) hne _ (by omega)] at hfc
      cases hfc
    obtain ⟨b0, upper, cdf, ht, hune, hsort, hmem, hgap⟩ := fitColumn_continuous _ _ (column_weights D.X D.n col) hne _ hN _ _ heps
      heps1 htol htol1 hsmall f hfc
    have hl := List.length_pos_iff.mpr hune
    obtain ⟨k, hk1, hk2, -⟩ := C01_continuous_bin b0 upper hsort hune (Flags.isSet fp Flags.HAS_MAGIC_INT_MISSING) f.eps x
      (fun h => (hm h).1)
    obtain ⟨k', hk1', hk2', -⟩ := C01_continuous_bin b0 upper hsort hune (Flags.isSet fp Flags.HAS_MAGIC_INT_MISSING) f.eps x'
      (fun h => (hm h).2)
    have hkk := C02_monotone b0 upper hsort hune _ f.eps x x' (fun h => (hm h).1) (fun h => (hm h).2) hxx _ _ hk1 hk1'
    -- a training value in the last bin
    obtain ⟨i, hi, v, hv, hvl, hvm⟩ : ∃ i < D.n, ∃ v : ℝ, D.X i col = .fin v ∧ upper[upper.length - 1] ≤ v ∧
        (Flags.isSet fp Flags.HAS_MAGIC_INT_MISSING = true → v ≠ -9 ∧ v ≠ -999) := by
      have hlast := (mem_column D.X D.n col _).mp (hmem (upper[upper.length - 1]) (List.getElem_mem _))
      obtain ⟨i, hi, hv⟩ := hlast
      by_cases hmg : Flags.isSet fp Flags.HAS_MAGIC_INT_MISSING = true ∧
          (upper[upper.length - 1] = -9 ∨ upper[upper.length - 1] = -999)
      · obtain ⟨i', hi', v', hv', h9⟩ := hmagic hmg.1
        refine ⟨i', hi', v', hv', ?_, fun _ => ⟨by linarith, by linarith⟩⟩
        rcases hmg.2 with h | h <;> rw [h] <;> linarith
      · refine ⟨i, hi, _, hv, le_rfl, fun hg => ?_⟩
        constructor
        · intro h9; exact hmg ⟨hg, Or.inl h9⟩
        · intro h9; exact hmg ⟨hg, Or.inr h9⟩
    have hseen := hcell D.X Xt D.n i hi htr _ (by
      rw [hv, ht]
      exact last_bin b0 upper hsort hune _ f.eps hgap v hvl hvm)
    refine C73_fit S c B.props groups hS hagg hok hlr E hE inc reg hreg hbase hk col hex fp hfp hprop j hcol hother
      { D with X := Xt } fuel P.model hfit (hnd Xt htr) Y1 Y2 s hsame' k k' (by exact_mod_cast hkk) ?_ ?_ ?_ prior
    · have := hcell X1 Y1 n s hs ht1 k (by rw [h1, ht]; exact hk1)
      rw [this]; norm_cast
    · have := hcell X2 Y2 n s hs ht2 k' (by rw [h2, ht]; exact hk1')
      rw [this]; norm_cast
    · refine ⟨i, hi, _, hseen, ?_⟩
      have : k' ≤ upper.length - 1 := by omega
      exact_mod_cast this

end CB
