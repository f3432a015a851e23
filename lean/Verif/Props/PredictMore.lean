import Verif.Props.Predict
import Verif.Props.Price
import Verif.Props.QpdExtended
import Verif.Props.QpdChain

set_option autoImplicit false
set_option linter.unusedSectionVars false

/-!
C19 (bins of the training table), C25 (nearest bin at prediction), C61 (feature ids; columns of the price model's prediction
frame), C38, C40, C41 (choice of the distribution and of the chain mode).
-/
namespace CB

open Spec

section
variable {K : Type*} [Field K] [LinearOrder K] [IsStrictOrderedRing K] [FloorRing K]

/-- **C19**, bins: on the training table a sample lands in the bin of missing values, the one after the last finite bin,
exactly if one of the columns of the feature holds no number or a negative number; any other sample lands in a finite bin. -/
theorem C19_missing_bin (f : FeatureSpec) (hg : f.group ≠ []) (X : Table K) (n s : ℕ) (hs : s < n) :
    ((∃ c ∈ f.group, ∀ x, X s c = .fin x → x < 0) → (f.cfg X n).bin s = (f.cfg X n).nFinite) ∧
    ((∀ c ∈ f.group, ∃ x, X s c = .fin x ∧ 0 ≤ x) → (f.cfg X n).bin s < (f.cfg X n).nFinite) := by
  have hcode := bindData_code X n f.group hg s hs
  have hrow : ∀ b, b ∈ X.row f.group s ↔ ∃ c ∈ f.group, X s c = b := by
    intro b; simp [Table.row]
  refine ⟨?_, ?_⟩
  · rintro ⟨c, hc, hx⟩
    show (bindData X n f.group none).1.getD s 0 = _
    rw [hcode, if_neg]
    · rfl
    · intro hf
      unfold finiteSemiPositive at hf
      rw [List.all_eq_true] at hf
      have := hf _ ((hrow _).mpr ⟨c, hc, rfl⟩)
      cases hb : X s c with
      | fin x =>
        rw [hb] at this
        simp at this
        exact absurd (hx x hb) (not_lt.mpr this)
      | nan => rw [hb] at this; simp at this
      | pinf => rw [hb] at this; simp at this
      | ninf => rw [hb] at this; simp at this
  · intro h
    have hf : finiteSemiPositive (X.row f.group s) = true := by
      unfold finiteSemiPositive
      rw [List.all_eq_true]
      intro b hb
      obtain ⟨c, hc, rfl⟩ := (hrow b).mp hb
      obtain ⟨x, hx, h0⟩ := h c hc
      rw [hx]
      simpa using h0
    show (bindData X n f.group none).1.getD s 0 < _
    rw [hcode, if_pos hf]
    have hv := bindData_valid X n f.group hg s hs hf
    exact encode_lt _ _ (validRow_tuple _ _ (by simp [Table.row, bindData_length]) hv)

/-- Rounding to the nearest integer. -/
theorem rint_nearest (x : K) : |x - (rint x : K)| ≤ 1 / 2 ∧
    (|x - (rint x : K)| = 1 / 2 → rint x % 2 = 0) := by
  have h1 := Int.floor_le x
  have h2 := Int.lt_floor_add_one x
  have hh : (1 : K) / 2 + 1 / 2 = 1 := by norm_num
  unfold rint
  simp only
  split_ifs with a b c
  · rw [abs_of_nonneg (by linarith)]
    exact ⟨a.le, fun e => absurd e a.ne⟩
  · push_cast
    rw [abs_of_nonpos (by linarith)]
    exact ⟨by linarith, fun e => by linarith⟩
  · rw [abs_of_nonneg (by linarith)]
    exact ⟨by linarith, fun _ => c⟩
  · push_cast
    rw [abs_of_nonpos (by linarith)]
    exact ⟨by linarith, fun e => by omega⟩

/-- **C25**, nearest bin: a feature of one column predicts for a number `x ≥ 0` with the factor of the bin nearest to `x` (the
even one if two are equally near), if that bin was seen in training, and with the neutral factor otherwise. -/
theorem C25_nearest_bin (f : FittedFeature K) (c : String) (hg : f.group = [c]) (m : ℕ) (hb : f.nBins = [m])
    (x : K) (hx : 0 ≤ x) :
    ∃ k : ℕ, |x - (k : K)| ≤ 1 / 2 ∧ (|x - (k : K)| = 1 / 2 → k % 2 = 0) ∧
      f.predict [.fin x] = if k < m then f.factors k else 0 := by
  have hr := rint_nearest x
  have h0 : 0 ≤ rint x := le_trans (Int.floor_nonneg.mpr hx) (floor_le_rint x)
  obtain ⟨k, hk⟩ := Int.eq_ofNat_of_zero_le h0
  rw [hk] at hr
  simp only [Int.cast_natCast] at hr
  refine ⟨k, hr.1, fun e => by have := hr.2 e; omega, ?_⟩
  have hn : f.nFinite = m := by simp [FittedFeature.nFinite, hb]
  unfold FittedFeature.predict FittedFeature.smoother
  rw [if_pos (by simpa [finiteSemiPositive] using hx), hn, hg]
  by_cases hm : m = 0
  · subst hm; simp
  · rw [if_neg hm, if_pos (by simp)]
    by_cases hkm : k < m
    · simp [predictOneDim, hk, hx, hkm]
    · simp [predictOneDim, hk, hx, hkm]

/-- Witness: a feature with 3 bins; 5/2 is rounded to bin 2, 1/2 to bin 0. -/
example : (FittedFeature.predict ⟨["a"], false, [3], fun k => (k : ℚ) + 10⟩ [.fin (5 / 2)] = 12) ∧
    (FittedFeature.predict ⟨["a"], false, [3], fun k => (k : ℚ) + 10⟩ [.fin (1 / 2)] = 10) := by
  decide +kernel

end

section
variable {K : Type*} [Field K] [LinearOrder K] [IsStrictOrderedRing K] [FloorRing K]

/-- **C61**, prediction frame: on the price model's prediction columns, the demand features are added to the prior prediction,
the external features add up from zero in the exponent column, and the prior exponents and the external column stay as they
are. -/
theorem C61_frame (contribs : List (List String × Bool × (ℕ → K))) (prior priorExponents base : ℕ → K) :
    ∃ df, extendFrame none contribs (priceFrame prior priorExponents base) = .ok df ∧
      df "factors" = some (fun s => prior s + ((contribs.filter (fun c => !c.2.1)).map (fun c => c.2.2 s)).sum) ∧
      df "exponents" = some (fun s => ((contribs.filter (fun c => c.2.1)).map (fun c => c.2.2 s)).sum) ∧
      df "prior_exponents" = some priorExponents ∧ df "base" = some base := by
  have gen : ∀ (contribs : List (List String × Bool × (ℕ → K))) (df0 : Frame K) (a b : ℕ → K),
      df0 "factors" = some a → df0 "exponents" = some b →
      ∃ df, extendFrame none contribs df0 = .ok df ∧
        df "factors" = some (fun s => a s + ((contribs.filter (fun c => !c.2.1)).map (fun c => c.2.2 s)).sum) ∧
        df "exponents" = some (fun s => b s + ((contribs.filter (fun c => c.2.1)).map (fun c => c.2.2 s)).sum) ∧
        ∀ c, c ≠ "factors" → c ≠ "exponents" → df c = df0 c := by
    intro contribs
    induction contribs with
    | nil => intro df0 a b ha hb; exact ⟨df0, rfl, by simp [ha], by simp [hb], fun _ _ _ => rfl⟩
    | cons t rest ih =>
      obtain ⟨g, e, v⟩ := t
      intro df0 a b ha hb
      cases e with
      | true =>
        obtain ⟨df, h1, h2, h3, h4⟩ := ih (df0.set "exponents" (fun s => b s + v s)) a (fun s => b s + v s)
          (by simp [Frame.set, ha]) (by simp [Frame.set])
        refine ⟨df, ?_, ?_, ?_, ?_⟩
        · simp only [extendFrame, Frame.update, if_true, Frame.addTo, hb]
          exact h1
        · rw [h2]; simp
        · rw [h3]; simp [add_assoc]
        · intro c hc hc'; rw [h4 c hc hc']; simp [Frame.set, hc']
      | false =>
        obtain ⟨df, h1, h2, h3, h4⟩ := ih (df0.set "factors" (fun s => a s + v s)) (fun s => a s + v s) b
          (by simp [Frame.set]) (by simp [Frame.set, hb])
        refine ⟨df, ?_, ?_, ?_, ?_⟩
        · simp only [extendFrame, Frame.update, Frame.addTo, Frame.includeFactor, getInfluenceCategory, ha]
          exact h1
        · rw [h2]; simp [add_assoc]
        · rw [h3]; simp
        · intro c hc hc'; rw [h4 c hc hc']; simp [Frame.set, hc]
  obtain ⟨df, h1, h2, h3, h4⟩ := gen contribs (priceFrame prior priorExponents base) prior (fun _ => 0)
    (by simp [priceFrame]) (by simp [priceFrame])
  refine ⟨df, h1, h2, by simpa using h3, ?_, ?_⟩
  · rw [h4 _ (by decide) (by decide)]; simp [priceFrame]
  · rw [h4 _ (by decide) (by decide)]; simp [priceFrame]

end

/-- **C61**, entries: in the combined list a name or tuple keeps its columns and gets the type of the list it was given in, and
a feature id is kept unchanged. -/
theorem C61_entries (s e : List GroupArg) (out : List FeatureId)
    (h : combineFeatureGroups (some s) (some e) = .ok out) :
    out.length = s.length + e.length ∧
    (∀ (i : ℕ) (a : GroupArg), s[i]? = some a →
      (∀ n, a = .name n → out[i]? = some ⟨[n], .standard⟩) ∧
      (∀ g, a = .tuple g → out[i]? = some ⟨g, .standard⟩) ∧
      (∀ f, a = .id f → out[i]? = some f ∧ f.ftype = .standard)) ∧
    (∀ (i : ℕ) (a : GroupArg), e[i]? = some a →
      (∀ n, a = .name n → out[s.length + i]? = some ⟨[n], .external⟩) ∧
      (∀ g, a = .tuple g → out[s.length + i]? = some ⟨g, .external⟩) ∧
      (∀ f, a = .id f → out[s.length + i]? = some f ∧ f.ftype = .external)) := by
  obtain ⟨s', hs', h1, h2, rfl⟩ := (C61_combine _ _ _).mp h
  cases hs'
  simp only [Option.getD_some] at h2 ⊢
  refine ⟨by simp, ?_, ?_⟩
  · intro i a ha
    have hi : i < s.length := by
      by_contra hc
      rw [List.getElem?_eq_none (not_lt.mp hc)] at ha; cases ha
    have hget : (s.map (createFeatureId .standard) ++ e.map (createFeatureId .external))[i]?
        = some (createFeatureId .standard a) := by
      rw [List.getElem?_append_left (by simpa using hi), List.getElem?_map, ha]; rfl
    refine ⟨?_, ?_, ?_⟩
    · rintro n rfl; rw [hget]; rfl
    · rintro g rfl; rw [hget]; rfl
    · rintro f rfl; rw [hget]; exact ⟨rfl, h1 _ (List.mem_of_getElem? ha)⟩
  · intro i a ha
    have hget : (s.map (createFeatureId .standard) ++ e.map (createFeatureId .external))[s.length + i]?
        = some (createFeatureId .external a) := by
      rw [List.getElem?_append_right (by simp), List.length_map, Nat.add_sub_cancel_left, List.getElem?_map, ha]; rfl
    refine ⟨?_, ?_, ?_⟩
    · rintro n rfl; rw [hget]; rfl
    · rintro g rfl; rw [hget]; rfl
    · rintro f rfl; rw [hget]; exact ⟨rfl, h2 _ (List.mem_of_getElem? ha)⟩

/-! ### Choice of distribution -/

/-- **C38**, versions: "normal" uses the normal distribution, "logistic" the logistic one, anything else is refused. -/
theorem C38_version (nrm : Base) (version : String) :
    (version = "normal" → selectPhi nrm version = some nrm) ∧
    (version = "logistic" → ∃ phi, selectPhi nrm version = some phi ∧
      (∀ x, phi.cdf x = 1 / (1 + Real.exp (-x))) ∧ (∀ q, phi.ppf q = Real.log (q / (1 - q)))) ∧
    (version ≠ "normal" → version ≠ "logistic" → selectPhi nrm version = none) := by
  refine ⟨?_, ?_, ?_⟩
  · rintro rfl; simp [selectPhi]
  · rintro rfl
    exact ⟨logisticBase, by simp [selectPhi], fun _ => rfl, fun _ => rfl⟩
  · intro h1 h2; simp [selectPhi, h1, h2]

/-- **C40**, versions: as for the other classes; "sinhlogistic" gives a distribution function that is logistic in `4 x` for
shape 0, in `4 sinh(shape x)/shape` for positive and in `4 arsinh(shape x)/shape` for negative shape. -/
theorem C40_version (nrm : Base) (version : String) (shape : ℝ) :
    (version = "normal" → selectPhiExt nrm version shape = some nrm) ∧
    (version = "logistic" → ∃ phi, selectPhiExt nrm version shape = some phi ∧
      (∀ x, phi.cdf x = 1 / (1 + Real.exp (-x))) ∧ (∀ q, phi.ppf q = Real.log (q / (1 - q)))) ∧
    (version = "sinhlogistic" → ∃ phi, selectPhiExt nrm version shape = some phi ∧
      (0 < shape → ∀ x, phi.cdf x = 1 / (1 + Real.exp (-4 * (Real.sinh (shape * x) / shape)))) ∧
      (shape < 0 → ∀ x, phi.cdf x = 1 / (1 + Real.exp (-4 * (Real.arsinh (shape * x) / shape)))) ∧
      (shape = 0 → ∀ x, phi.cdf x = 1 / (1 + Real.exp (-4 * x)))) ∧
    (version ≠ "normal" → version ≠ "logistic" → version ≠ "sinhlogistic" →
      selectPhiExt nrm version shape = none) := by
  refine ⟨?_, ?_, ?_, ?_⟩
  · rintro rfl; simp [selectPhiExt]
  · rintro rfl
    exact ⟨logisticBase, by simp [selectPhiExt], fun _ => rfl, fun _ => rfl⟩
  · rintro rfl
    refine ⟨sinhLogistic shape, by simp [selectPhiExt], ?_, ?_, ?_⟩
    · intro h x
      simp only [sinhLogistic, sinhLogisticCdf, gt_iff_lt, if_pos h]
    · intro h x
      simp only [sinhLogistic, sinhLogisticCdf, gt_iff_lt, if_neg (lt_asymm h), if_pos h]
    · rintro rfl x
      simp [sinhLogistic, sinhLogisticCdf]
  · intro h1 h2 h3; simp [selectPhiExt, h1, h2, h3]

/-- **C41**, modes: exactly "S" and "B" are accepted. -/
theorem C41_modes (s : String) :
    (parseChainBound s = some .S ↔ s = "S") ∧ (parseChainBound s = some .B ↔ s = "B") := by
  unfold parseChainBound
  by_cases h1 : s = "S"
  · subst h1; simp
  · by_cases h2 : s = "B"
    · subst h2; simp
    · simp [h1, h2]

end CB
