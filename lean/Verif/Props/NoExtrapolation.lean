import Verif.Props.BinnedFit
import Verif.Props.PipelineExample

/-!
# C143: predictions are constant between training values and do not extrapolate
-/

set_option autoImplicit false
set_option linter.unusedSectionVars false

namespace CB

/-- A value is in the bin given by the upper bounds below it. -/
theorem inBin_same (upper : List ℝ) (x x' : ℝ) (k k' : ℕ) (hk : Spec.InBin upper x k) (hk' : Spec.InBin upper x' k')
    (hsame : ∀ (j : ℕ) (hj : j + 1 < upper.length), upper[j] < x ↔ upper[j] < x') : k = k' := by
  have half : ∀ (x x' : ℝ) (k k' : ℕ), Spec.InBin upper x k → Spec.InBin upper x' k' →
      (∀ (j : ℕ) (hj : j + 1 < upper.length), upper[j] < x ↔ upper[j] < x') → ¬ k < k' := by
    rintro x x' k k' ⟨h1, h2, h3⟩ ⟨h1', h2', h3'⟩ hs hlt
    have a := h2' k hlt
    have b := (hs k (by omega)).mpr a
    rcases h3 with h3 | h3
    · linarith
    · omega
  have h1 := half x x' k k' hk hk' hsame
  have h2 := half x' x k' k hk' hk fun j hj => (hsame j hj).symm
  omega

section
variable {σ : Type*} (B : Binner) (htol : 0 ≤ B.tolerance) (columns : List String) (S : Setup σ) (E : Estimator) (D : TrainSet)
  (fuel : ℕ) (P : FittedPipeline) (h : pipelineFit B columns S E D fuel = some (.ok P))
  (col : String) (hcol : col ∈ columns) (fp : ℕ) (hfp : B.props.lookup col = some fp)
  (hcont : Flags.isSet fp Flags.IS_CONTINUOUS = true)
  (heps : 0 ≤ B.epsilon) (heps1 : B.epsilon < 1) (htol1 : B.tolerance < 1) (hsmall : B.epsilon < (1 - B.tolerance) / B.nBins col)

include htol h hcol hfp hcont heps heps1 htol1 hsmall in
/-- The bin of a value, by comparison with values of the training data. -/
theorem cell_same (x x' : ℝ) (hm : Flags.isSet fp Flags.HAS_MAGIC_INT_MISSING = true → (x ≠ -9 ∧ x ≠ -999) ∧ x' ≠ -9 ∧ x' ≠ -999)
    (hx : ∀ (e : ℝ) (last b : ℝ), 0 ≤ e → (∃ s < D.n, D.X s col = .fin last) → (∃ s < D.n, D.X s col = .fin b) → b + e < last →
      (∀ width, (∀ s < D.n, ∀ s' < D.n, ∀ v v' : ℝ, D.X s col = .fin v → D.X s' col = .fin v' → v - v' ≤ width) → e ≤ B.epsilon * width) →
      (b < x - e ↔ b < x' - e)) :
    B.cell P.bins col (.fin x) = B.cell P.bins col (.fin x') := by
  obtain ⟨Xt, hb, -, -⟩ := pipelineFit_ok B columns S E D fuel P h
  obtain ⟨f, hf⟩ := binner_fit_mem B columns D.X D.n P.bins hb col hcol fp hfp
  obtain ⟨fp', hfp', hcons, hfc⟩ := binner_fit_column B columns D.X D.n P.bins hb col f hf
  rw [hfp, Option.some.injEq] at hfp'
  subst hfp'
  have hdisc : (Flags.isSet fp Flags.IS_ORDERED || Flags.isSet fp Flags.IS_UNORDERED) = false := by
    have := ((Flags.C14_accepts_iff fp).mp hcons).1
    have hc := hcont
    rw [show Flags.IS_CONTINUOUS = 1 <<< 0 from rfl, Flags.isSet_bit] at hc
    rw [show Flags.IS_ORDERED = 1 <<< 1 from rfl, show Flags.IS_UNORDERED = 1 <<< 2 from rfl, Flags.isSet_bit, Flags.isSet_bit]
    rcases this with ⟨-, h1, h2⟩ | ⟨h0, -⟩ | ⟨h0, -⟩
    · rw [h1, h2]; rfl
    · rw [hc] at h0; cases h0
    · rw [hc] at h0; cases h0
  rw [hdisc] at hfc
  have key : ∃ i : ℤ, (binNumber true (Flags.isSet fp Flags.HAS_MAGIC_INT_MISSING) f.eps (f.table.map Prod.fst) (.fin x) = .ok i) ∧
      (binNumber true (Flags.isSet fp Flags.HAS_MAGIC_INT_MISSING) f.eps (f.table.map Prod.fst) (.fin x') = .ok i) := by
    rcases fitColumn_shape _ _ _ (column_weights D.X D.n col) _ _ _ htol f hfc with ⟨hnone, -⟩ | ⟨-, -, -, -, -, -, hne⟩
    · exact ⟨-1, by rw [hnone]; rfl, by rw [hnone]; rfl⟩
    · have hN : 2 ≤ B.nBins col := by
        by_contra hN
        rw [C05_too_few_bins _ _ (column_weights D.X D.n col) hne _ (by omega)] at hfc
        cases hfc
      obtain ⟨b0, upper, cdf, ht, hune, hsort, hmem, hgap⟩ := fitColumn_continuous _ _ (column_weights D.X D.n col) hne _ hN _ _ heps
        heps1 htol htol1 hsmall f hfc
      have hl := List.length_pos_iff.mpr hune
      obtain ⟨k, hk1, hk2⟩ := C01_continuous_bin b0 upper hsort hune (Flags.isSet fp Flags.HAS_MAGIC_INT_MISSING) f.eps x
        (fun h => (hm h).1)
      obtain ⟨k', hk1', hk2'⟩ := C01_continuous_bin b0 upper hsort hune (Flags.isSet fp Flags.HAS_MAGIC_INT_MISSING) f.eps x'
        (fun h => (hm h).2)
      have hfe : f = ⟨f.eps, some (b0 :: upper, cdf)⟩ := by
        obtain ⟨e, t⟩ := f
        dsimp only at ht
        rw [ht]
      have he : f.eps = B.epsilon * minimalDifference (b0 :: upper) := by
        rw [hfe] at hfc
        exact fitColumn_eps _ _ _ _ _ _ _ _ _ hfc
      have he0 : 0 ≤ f.eps := by rw [he]; exact mul_nonneg heps (minimalDifference_pos _).le
      have hkk : k = k' := by
        refine inBin_same upper (x - f.eps) (x' - f.eps) k k' hk2 hk2' fun j hj => ?_
        refine hx f.eps (upper[upper.length - 1]) (upper[j]) he0 ?_ ?_ ?_ ?_
        · exact (mem_column D.X D.n col _).mp (hmem _ (List.getElem_mem _))
        · exact (mem_column D.X D.n col _).mp (hmem _ (List.getElem_mem _))
        · have := hgap j (upper.length - 1) (by omega) (by omega)
          linarith
        · intro width hwidth
          obtain ⟨e', b0', upper', cdf', hf2, -, -, -, hs2, -⟩ := C05_reduced_bins _ _ (column_weights D.X D.n col) hne _ hN B.epsilon
            B.tolerance htol
          rw [hfc, hfe, Except.ok.injEq, ColFit.mk.injEq, Option.some.injEq, Prod.mk.injEq, List.cons.injEq] at hf2
          obtain ⟨-, ⟨rfl, rfl⟩, -⟩ := hf2
          have hlt : upper[0] < upper[j + 1] := by
            have := hgap 0 (j + 1) (by omega) (by omega)
            linarith
          have hmd := minimalDifference_le_of_lt (b0 :: upper) hs2 1 (j + 2) (by omega) (by simp; omega) (by simpa using hlt)
          have hw : upper[j + 1] - upper[0] ≤ width := by
            obtain ⟨s, hs, e1⟩ := (mem_column D.X D.n col _).mp (hmem (upper[j + 1]) (List.getElem_mem _))
            obtain ⟨s', hs', e2⟩ := (mem_column D.X D.n col _).mp (hmem (upper[0]) (List.getElem_mem _))
            exact hwidth s hs s' hs' _ _ e1 e2
          rw [he]
          refine mul_le_mul_of_nonneg_left ?_ heps
          refine hmd.trans ?_
          simpa using hw
      subst hkk
      exact ⟨k, by rw [ht]; exact hk1, by rw [ht]; exact hk1'⟩
  obtain ⟨i, h1, h2⟩ := key
  rw [cell_fitted B P.bins col f hf fp hfp (.fin x) i (by rw [hcont]; exact h1),
    cell_fitted B P.bins col f hf fp hfp (.fin x') i (by rw [hcont]; exact h2)]

include htol h hcol hfp hcont heps heps1 htol1 hsmall in
theorem predict_same (X1 X2 : Table ℝ) (n s : ℕ) (hs : s < n) (hsame : ∀ c', c' ≠ col → X1 s c' = X2 s c') (x x' : ℝ)
    (h1 : X1 s col = .fin x) (h2 : X2 s col = .fin x') (hc : B.cell P.bins col (.fin x) = B.cell P.bins col (.fin x'))
    (prior : Option (ℕ → Flt ℝ)) (p1 p2 : ℕ → ℝ) (hp1 : P.predict B prior X1 n = .ok p1) (hp2 : P.predict B prior X2 n = .ok p2) :
    p1 s = p2 s := by
  obtain ⟨Y1, ht1, rfl⟩ := predict_ok P B prior X1 n p1 hp1
  obtain ⟨Y2, ht2, rfl⟩ := predict_ok P B prior X2 n p2 hp2
  refine predict_row _ _ _ _ _ fun c' => ?_
  have e1 := transform_cell B _ X1 Y1 n ht1 s hs c'
  have e2 := transform_cell B _ X2 Y2 n ht2 s hs c'
  by_cases hc' : c' = col
  · subst hc'
    rw [h1, hc] at e1
    rw [h2, e1, Except.ok.injEq] at e2
    exact e2
  · rw [hsame c' hc', e2, Except.ok.injEq] at e1
    exact e1.symm

include htol h hcol hfp hcont heps heps1 htol1 hsmall in
/-- **C143.** All values of a continuous column that are not below any value of the training data get the same prediction: there is no
extrapolation to the right. -/
theorem C143_above (X1 X2 : Table ℝ) (n s : ℕ) (hs : s < n) (hsame : ∀ c', c' ≠ col → X1 s c' = X2 s c') (x x' : ℝ)
    (h1 : X1 s col = .fin x) (h2 : X2 s col = .fin x')
    (hm : Flags.isSet fp Flags.HAS_MAGIC_INT_MISSING = true → (x ≠ -9 ∧ x ≠ -999) ∧ x' ≠ -9 ∧ x' ≠ -999)
    (habove : ∀ i < D.n, ∀ v : ℝ, D.X i col = .fin v → v ≤ x ∧ v ≤ x')
    (prior : Option (ℕ → Flt ℝ)) (p1 p2 : ℕ → ℝ) (hp1 : P.predict B prior X1 n = .ok p1) (hp2 : P.predict B prior X2 n = .ok p2) :
    p1 s = p2 s := by
  refine predict_same B htol columns S E D fuel P h col hcol fp hfp hcont heps heps1 htol1 hsmall X1 X2 n s hs hsame x x' h1 h2 ?_
    prior p1 p2 hp1 hp2
  refine cell_same B htol columns S E D fuel P h col hcol fp hfp hcont heps heps1 htol1 hsmall x x' hm ?_
  rintro e last b he ⟨i, hi, hlast⟩ - hlt -
  obtain ⟨ha, hb⟩ := habove i hi last hlast
  exact ⟨fun _ => by linarith, fun _ => by linarith⟩

include htol h hcol hfp hcont heps heps1 htol1 hsmall in
/-- **C143.** Likewise for the values not above any value of the training data: there is no extrapolation to the left. -/
theorem C143_below (X1 X2 : Table ℝ) (n s : ℕ) (hs : s < n) (hsame : ∀ c', c' ≠ col → X1 s c' = X2 s c') (x x' : ℝ)
    (h1 : X1 s col = .fin x) (h2 : X2 s col = .fin x')
    (hm : Flags.isSet fp Flags.HAS_MAGIC_INT_MISSING = true → (x ≠ -9 ∧ x ≠ -999) ∧ x' ≠ -9 ∧ x' ≠ -999)
    (hbelow : ∀ i < D.n, ∀ v : ℝ, D.X i col = .fin v → x ≤ v ∧ x' ≤ v)
    (prior : Option (ℕ → Flt ℝ)) (p1 p2 : ℕ → ℝ) (hp1 : P.predict B prior X1 n = .ok p1) (hp2 : P.predict B prior X2 n = .ok p2) :
    p1 s = p2 s := by
  refine predict_same B htol columns S E D fuel P h col hcol fp hfp hcont heps heps1 htol1 hsmall X1 X2 n s hs hsame x x' h1 h2 ?_
    prior p1 p2 hp1 hp2
  refine cell_same B htol columns S E D fuel P h col hcol fp hfp hcont heps heps1 htol1 hsmall x x' hm ?_
  rintro e last b he - ⟨i, hi, hv⟩ - -
  obtain ⟨ha, hb⟩ := hbelow i hi b hv
  exact ⟨fun _ => by linarith, fun _ => by linarith⟩

include htol h hcol hfp hcont heps heps1 htol1 hsmall in
/-- **C143.** Two values `x ≤ x'` of a continuous column get the same prediction if no value of the training data is between them: all are smaller
than `x`, by more than the part epsilon of the width of the data, or at least `x'`. -/
theorem C143_between (X1 X2 : Table ℝ) (n s : ℕ) (hs : s < n) (hsame : ∀ c', c' ≠ col → X1 s c' = X2 s c') (x x' : ℝ) (hxx : x ≤ x')
    (h1 : X1 s col = .fin x) (h2 : X2 s col = .fin x')
    (hm : Flags.isSet fp Flags.HAS_MAGIC_INT_MISSING = true → (x ≠ -9 ∧ x ≠ -999) ∧ x' ≠ -9 ∧ x' ≠ -999)
    (width : ℝ) (hwidth : ∀ i < D.n, ∀ j < D.n, ∀ v w : ℝ, D.X i col = .fin v → D.X j col = .fin w → v - w ≤ width)
    (hbetween : ∀ i < D.n, ∀ v : ℝ, D.X i col = .fin v → v < x - B.epsilon * width ∨ x' ≤ v)
    (prior : Option (ℕ → Flt ℝ)) (p1 p2 : ℕ → ℝ) (hp1 : P.predict B prior X1 n = .ok p1) (hp2 : P.predict B prior X2 n = .ok p2) :
    p1 s = p2 s := by
  refine predict_same B htol columns S E D fuel P h col hcol fp hfp hcont heps heps1 htol1 hsmall X1 X2 n s hs hsame x x' h1 h2 ?_
    prior p1 p2 hp1 hp2
  refine cell_same B htol columns S E D fuel P h col hcol fp hfp hcont heps heps1 htol1 hsmall x x' hm ?_
  rintro e last b he - ⟨i, hi, hv⟩ - hwid
  have hw := hwid width hwidth
  rcases hbetween i hi b hv with hb | hb
  · exact ⟨fun _ => by linarith, fun _ => by linarith⟩
  · exact ⟨fun _ => by linarith, fun _ => by linarith⟩

end

/-- The hypotheses are met: training values 10 and 30, and predictions for 30 and 1000, for 10 and -1000, and for 11 and 29. -/
example : ∃ P, pipelineFit exBinner ["a"] exSetup (gbsEstimator 0) exRaw 1 = some (.ok P) ∧
    ∀ x x' : ℝ, (30 ≤ x ∧ 30 ≤ x') ∨ (x ≤ 10 ∧ x' ≤ 10) ∨ (11 ≤ x ∧ x ≤ x' ∧ x' ≤ 29) →
      ∃ p1 p2, P.predict exBinner none (fun _ _ => .fin x) 1 = .ok p1 ∧ P.predict exBinner none (fun _ c => if c = "a" then .fin x' else .fin x) 1 = .ok p2 ∧
        p1 0 = p2 0 := by
  obtain ⟨P, hP, -, -⟩ := exPipeline
  refine ⟨P, hP, fun x x' hx => ?_⟩
  have htol : 0 ≤ exBinner.tolerance := by norm_num [exBinner]
  obtain ⟨p1, hp1⟩ := C85_predict_succeeds exBinner htol ["a"] exSetup (gbsEstimator 0) exRaw 1 P hP none (fun _ _ => .fin x) 1
  obtain ⟨p2, hp2⟩ := C85_predict_succeeds exBinner htol ["a"] exSetup (gbsEstimator 0) exRaw 1 P hP none
    (fun _ c => if c = "a" then .fin x' else .fin x) 1
  refine ⟨p1, p2, hp1, hp2, ?_⟩
  have hl : exBinner.props.lookup "a" = some (Flags.IS_MONOTONIC ||| Flags.INCREASING) := by
    change exProps.lookup "a" = _
    decide
  have hm : Flags.isSet (Flags.IS_MONOTONIC ||| Flags.INCREASING) Flags.HAS_MAGIC_INT_MISSING = false := by decide
  have hc : Flags.isSet (Flags.IS_MONOTONIC ||| Flags.INCREASING) Flags.IS_CONTINUOUS = true := by decide
  have hn : exRaw.n = 2 := rfl
  have hval : ∀ i < exRaw.n, ∀ v : ℝ, exRaw.X i "a" = .fin v → v = 10 ∨ v = 30 := by
    intro i hi v hv
    rw [hn] at hi
    have hv : Flt.fin (if i = 0 then (10 : ℝ) else 30) = .fin v := by simpa [exRaw] using hv
    rw [Flt.fin.injEq] at hv
    split_ifs at hv
    · exact .inl hv.symm
    · exact .inr hv.symm
  have e0 : 0 ≤ exBinner.epsilon := by norm_num [exBinner]
  have e1 : exBinner.epsilon < 1 := by norm_num [exBinner]
  have e2 : exBinner.tolerance < 1 := by norm_num [exBinner]
  have e3 : exBinner.epsilon < (1 - exBinner.tolerance) / exBinner.nBins "a" := by norm_num [exBinner]
  have hs : ∀ c', c' ≠ "a" → (fun _ _ => Flt.fin x : Table ℝ) 0 c' = (fun _ c => if c = "a" then .fin x' else .fin x : Table ℝ) 0 c' := by
    intro c' hc'
    simp [hc']
  rcases hx with ⟨ha, hb⟩ | ⟨ha, hb⟩ | ⟨ha, hb, hc'⟩
  · refine C143_above exBinner htol ["a"] exSetup (gbsEstimator 0) exRaw 1 P hP "a" (by simp) _ hl hc e0 e1 e2 e3 _ _ 1 0 one_pos hs x x'
      rfl (by simp) (by rw [hm]; simp) ?_ none p1 p2 hp1 hp2
    intro i hi v hv
    rcases hval i hi v hv with rfl | rfl <;> constructor <;> linarith
  · refine C143_below exBinner htol ["a"] exSetup (gbsEstimator 0) exRaw 1 P hP "a" (by simp) _ hl hc e0 e1 e2 e3 _ _ 1 0 one_pos hs x x'
      rfl (by simp) (by rw [hm]; simp) ?_ none p1 p2 hp1 hp2
    intro i hi v hv
    rcases hval i hi v hv with rfl | rfl <;> constructor <;> linarith
  · refine C143_between exBinner htol ["a"] exSetup (gbsEstimator 0) exRaw 1 P hP "a" (by simp) _ hl hc e0 e1 e2 e3 _ _ 1 0 one_pos hs x x'
      hb rfl (by simp) (by rw [hm]; simp) 20 ?_ ?_ none p1 p2 hp1 hp2
    · intro i hi j hj v w hv hw
      rcases hval i hi v hv with rfl | rfl <;> rcases hval j hj w hw with rfl | rfl <;> norm_num
    · intro i hi v hv
      rcases hval i hi v hv with rfl | rfl
      · left; norm_num [exBinner]; linarith
      · right; linarith

end CB
