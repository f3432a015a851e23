import Verif.Lemmas.BinEquivariance
import Verif.Props.BinnedFit
import Verif.Spec.Units

/-!
# C86: the units of continuous columns do not matter
-/

set_option autoImplicit false
set_option linter.unusedSectionVars false

namespace CB
open Spec

theorem inBin_affine (a b : ℝ) (ha : 0 < a) (upper : List ℝ) (x : ℝ) (k : ℕ) (h : Spec.InBin upper x k) :
    Spec.InBin (upper.map fun v => a * v + b) (a * x + b) k := by
  obtain ⟨hk, h1, h2⟩ := h
  refine ⟨by simpa using hk, fun j hj => ?_, ?_⟩
  · rw [List.getElem_map]
    have := mul_lt_mul_of_pos_left (h1 j hj) ha
    linarith
  · rcases h2 with h2 | h2
    · left
      rw [List.getElem_map]
      have := mul_le_mul_of_nonneg_left h2 ha.le
      linarith
    · right
      rw [h2, List.length_map]

/-- A value has the same bin number in both units. -/
theorem binNumber_affine (a b : ℝ) (ha : 0 < a) (b0 : ℝ) (upper : List ℝ) (hs : Spec.Sorted upper) (hne : upper ≠ []) (e e' : ℝ)
    (he : e' = a * e ∨ upper.length = 1) (x : Flt ℝ) :
    binNumber true false e' (some ((b0 :: upper).map fun v => a * v + b)) (match x with
      | .fin x => .fin (a * x + b)
      | v => v) = binNumber true false e (some (b0 :: upper)) x := by
  cases x with
  | fin x =>
    dsimp only
    have hs' : Spec.Sorted (upper.map fun v => a * v + b) := by
      unfold Spec.Sorted at hs ⊢
      rw [List.pairwise_map]
      exact hs.imp fun h => by
        have := mul_le_mul_of_nonneg_left h ha.le
        linarith
    obtain ⟨k, hk, hin⟩ := C01_continuous_bin b0 upper hs hne false e x (by simp)
    obtain ⟨k', hk', hin'⟩ := C01_continuous_bin (a * b0 + b) (upper.map fun v => a * v + b) hs' (by simpa using hne) false e'
      (a * x + b) (by simp)
    rw [List.map_cons, hk, hk']
    congr 2
    rcases he with he | he
    · have := inBin_affine a b ha upper _ k hin
      rw [he, show a * x + b - a * e = a * (x - e) + b by ring] at hin'
      exact C01_bin_unique _ _ _ _ hin' this
    · have h1 := hin.1
      have h2 := hin'.1
      rw [List.length_map] at h2
      omega
  | nan => rw [C04_missing, C04_missing] <;> simp
  | pinf => rw [C04_missing, C04_missing] <;> simp
  | ninf => rw [C04_missing, C04_missing] <;> simp

/-- What the binner stores for a column in the new unit. -/
noncomputable def rescaleFit (B : Binner) (a b : ℝ) (f : ColFit ℝ) : ColFit ℝ :=
  match f with
  | ⟨e, none⟩ => ⟨e, none⟩
  | ⟨_, some (bs, cs)⟩ => ⟨B.epsilon * minimalDifference (bs.map fun v => a * v + b), some (bs.map fun v => a * v + b, cs)⟩

section
variable (B : Binner) (a b : String → ℝ)

theorem rescale_column (X : Table ℝ) (n : ℕ) (c : String) :
    (rescale a b X).column n c = (X.column n c).map (Option.map fun v => a c * v + b c) := by
  unfold Table.column rescale
  rw [List.map_map]
  refine List.map_congr_left fun s _ => ?_
  simp only [Function.comp_apply]
  cases X s c <;> rfl

theorem affine_strictMono (a b : ℝ) (ha : 0 < a) : StrictMono fun v : ℝ => a * v + b := fun x y h => by
  have := mul_lt_mul_of_pos_left h ha
  dsimp only
  linarith

theorem fitOne_rescale (ha : ∀ c, 0 < a c) (X : Table ℝ) (n : ℕ) (c : String) :
    B.fitOne (rescale a b X) n c = match B.fitOne X n c with
      | none => none
      | some (.error e) => some (.error e)
      | some (.ok f) => some (.ok (rescaleFit B (a c) (b c) f)) := by
  unfold Binner.fitOne
  cases B.props.lookup c with
  | none => rfl
  | some fp =>
    dsimp only
    cases Flags.checkConsistency fp with
    | error e => rfl
    | ok u =>
      dsimp only
      rw [rescale_column, fitColumn_map _ (affine_strictMono _ _ (ha c))]
      cases fitColumn (Flags.isSet fp Flags.IS_ORDERED || Flags.isSet fp Flags.IS_UNORDERED) (X.column n c)
        (List.replicate n 1) (B.nBins c) B.epsilon B.tolerance with
      | error e => rfl
      | ok f =>
        obtain ⟨e, t⟩ := f
        cases t with
        | none => rfl
        | some p => rfl

theorem fitColumns_rescale (ha : ∀ c, 0 < a c) (X : Table ℝ) (n : ℕ) (columns : List String) :
    B.fitColumns (rescale a b X) n columns = match B.fitColumns X n columns with
      | .error e => .error e
      | .ok L => .ok (L.map fun q => (q.1, rescaleFit B (a q.1) (b q.1) q.2)) := by
  induction columns with
  | nil => rfl
  | cons c cs ih =>
    unfold Binner.fitColumns
    rw [fitOne_rescale B a b ha, ih]
    cases B.fitOne X n c with
    | none => rfl
    | some r =>
      cases r with
      | error e => rfl
      | ok f =>
        dsimp only
        cases B.fitColumns X n cs <;> rfl

theorem lookup_map_snd {β : Type*} (g : String → β → β) (L : List (String × β)) (c : String) :
    (L.map fun q => (q.1, g q.1 q.2)).lookup c = (L.lookup c).map (g c) := by
  induction L with
  | nil => rfl
  | cons q L ih =>
    obtain ⟨d, f⟩ := q
    simp only [List.map_cons, List.lookup_cons]
    by_cases h : c = d
    · subst h; simp
    · have hb : (c == d) = false := by simpa using h
      rw [hb]
      exact ih

theorem rescaleFit_one (d : Bool) (z : List (Option ℝ)) (w : List ℝ) (N : ℕ) (tol : ℝ) (f : ColFit ℝ)
    (h : fitColumn d z w N B.epsilon tol = .ok f) : rescaleFit B 1 0 f = f := by
  obtain ⟨e, t⟩ := f
  cases t with
  | none => rfl
  | some p =>
    obtain ⟨bs, cs⟩ := p
    have := fitColumn_eps _ _ _ _ _ _ _ _ _ h
    have hm : bs.map (fun v : ℝ => 1 * v + 0) = bs := by simp
    simp only [rescaleFit, hm, this]

theorem cell_rescale (columns : List String) (hr : RescalesContinuous B columns a b)
    (heps : 0 ≤ B.epsilon) (heps1 : B.epsilon < 1) (htol : 0 ≤ B.tolerance) (htol1 : B.tolerance < 1)
    (hsmall : ∀ c ∈ columns, B.epsilon < (1 - B.tolerance) / B.nBins c)
    (X : Table ℝ) (n : ℕ) (L : List (String × ColFit ℝ)) (h : B.fit columns X n = .ok L) (X' : Table ℝ) (s : ℕ) (c : String) :
    B.cell (L.map fun q => (q.1, rescaleFit B (a q.1) (b q.1) q.2)) c (rescale a b X' s c) = B.cell L c (X' s c) := by
  have hlook := lookup_map_snd (fun c f => rescaleFit B (a c) (b c) f) L c
  rcases hr c with ⟨h1, h0⟩ | ⟨ha, hc, fp, hfp, hcont, hmag⟩
  · have hx : rescale a b X' s c = X' s c := by
      unfold rescale
      cases X' s c <;> simp [h1, h0]
    unfold Binner.cell
    rw [hx, hlook, h1, h0]
    cases hf : L.lookup c with
    | none => rfl
    | some f =>
      obtain ⟨fp, -, -, hfit⟩ := binner_fit_column B columns X n L h c f hf
      rw [Option.map_some, rescaleFit_one B _ _ _ _ _ f hfit]
  · obtain ⟨f, hf⟩ := binner_fit_mem B columns X n L h c hc fp hfp
    obtain ⟨fp', hfp', hcons, hfc⟩ := binner_fit_column B columns X n L h c f hf
    rw [hfp, Option.some.injEq] at hfp'
    subst hfp'
    have hdisc : (Flags.isSet fp Flags.IS_ORDERED || Flags.isSet fp Flags.IS_UNORDERED) = false := by
      have := ((Flags.C14_accepts_iff fp).mp hcons).1
      rw [show Flags.IS_CONTINUOUS = 1 <<< 0 from rfl, Flags.isSet_bit] at hcont
      rw [show Flags.IS_ORDERED = 1 <<< 1 from rfl, show Flags.IS_UNORDERED = 1 <<< 2 from rfl, Flags.isSet_bit, Flags.isSet_bit]
      rcases this with ⟨-, h1, h2⟩ | ⟨h0, -⟩ | ⟨h0, -⟩
      · rw [h1, h2]; rfl
      · rw [hcont] at h0; cases h0
      · rw [hcont] at h0; cases h0
    rw [hdisc] at hfc
    unfold Binner.cell
    rw [hlook, hf, hfp]
    dsimp only [Option.map_some]
    rw [hcont, hmag]
    have hbin : binNumber true false (rescaleFit B (a c) (b c) f).eps ((rescaleFit B (a c) (b c) f).table.map Prod.fst)
        (rescale a b X' s c) = binNumber true false f.eps (f.table.map Prod.fst) (X' s c) := by
      rcases fitColumn_shape _ _ _ (column_weights X n c) _ _ _ htol f hfc with ⟨hnone, -⟩ | ⟨-, -, -, -, -, -, hne⟩
      · obtain ⟨e, t⟩ := f
        dsimp only at hnone
        subst hnone
        rfl
      · have hN : 2 ≤ B.nBins c := by
          by_contra hN
          rw [C05_too_few_bins _ _ (column_weights X n c) hne _ (by omega)] at hfc
          cases hfc
        obtain ⟨b0, upper, cdf, ht, hune, hsort, -, hgap⟩ := fitColumn_continuous _ _ (column_weights X n c) hne _ hN _ _ heps
          heps1 htol htol1 (hsmall c hc) f hfc
        obtain ⟨e5, b05, upper5, cdf5, hf5, -, -, -, hs5, -⟩ := C05_reduced_bins _ _ (column_weights X n c) hne _ hN B.epsilon _ htol
        rw [hfc, Except.ok.injEq] at hf5
        obtain ⟨e, t⟩ := f
        dsimp only at ht
        subst ht
        simp only [ColFit.mk.injEq, Option.some.injEq, Prod.mk.injEq, List.cons.injEq] at hf5
        obtain ⟨-, ⟨hb5, hu5⟩, -⟩ := hf5
        subst hb5 hu5
        have he := fitColumn_eps _ _ _ _ _ _ _ _ _ hfc
        refine binNumber_affine (a c) (b c) ha b0 upper hsort hune e _ ?_ (X' s c)
        rcases minimalDifference_affine (a c) (b c) ha (b0 :: upper) with hm | hm
        · left
          show B.epsilon * minimalDifference ((b0 :: upper).map fun v => a c * v + b c) = a c * e
          rw [hm, he]
          ring
        · right
          have hl := List.length_pos_iff.mpr hune
          by_contra hne1
          have heq := hm 1 2 (by simp; omega) (by simp; omega) hs5
          have hlt := hgap 0 1 (by omega) (by omega)
          simp only [List.getElem_cons_succ] at heq
          rw [heq, sub_self, he] at hlt
          have := mul_nonneg heps (minimalDifference_pos (b0 :: upper)).le
          linarith
    rw [hbin]

end

/-- **C86.** Changing the units of continuous columns of the training data by increasing affine maps neither changes whether the
fit of a pipeline succeeds nor the fitted model, and the predictions for data in the new units are those for the same data in the
old units. -/
theorem C86_units {σ : Type*} (B : Binner) (columns : List String) (S : Setup σ) (E : Estimator) (a b : String → ℝ)
    (hr : RescalesContinuous B columns a b) (heps : 0 ≤ B.epsilon) (heps1 : B.epsilon < 1) (htol : 0 ≤ B.tolerance)
    (htol1 : B.tolerance < 1) (hsmall : ∀ c ∈ columns, B.epsilon < (1 - B.tolerance) / B.nBins c)
    (D : TrainSet) (fuel : ℕ) :
    (∀ P, pipelineFit B columns S E D fuel = some (.ok P) →
      ∃ P', pipelineFit B columns S E { D with X := rescale a b D.X } fuel = some (.ok P') ∧ P'.model = P.model ∧
        ∀ prior X n, P'.predict B prior (rescale a b X) n = P.predict B prior X n) ∧
    (∀ e, pipelineFit B columns S E D fuel = some (.error e) →
      pipelineFit B columns S E { D with X := rescale a b D.X } fuel = some (.error e)) := by
  have ha : ∀ c, 0 < a c := by
    intro c
    rcases hr c with ⟨h, -⟩ | ⟨h, -⟩
    · rw [h]; exact one_pos
    · exact h
  have hfit : B.fit columns (rescale a b D.X) D.n = match B.fit columns D.X D.n with
      | .error e => .error e
      | .ok L => .ok (L.map fun q => (q.1, rescaleFit B (a q.1) (b q.1) q.2)) := by
    unfold Binner.fit
    by_cases hn : D.n = 0 ∨ columns = []
    · rw [if_pos hn, if_pos hn]
    · rw [if_neg hn, if_neg hn]
      exact fitColumns_rescale B a b ha D.X D.n columns
  cases hL : B.fit columns D.X D.n with
  | error e =>
    rw [hL] at hfit
    unfold pipelineFit
    rw [hL, hfit]
    exact ⟨fun P h => (by simp at h), fun e' h => h⟩
  | ok L =>
    rw [hL] at hfit
    have htrans : ∀ X n, B.transform (L.map fun q => (q.1, rescaleFit B (a q.1) (b q.1) q.2)) (rescale a b X) n =
        B.transform L X n := by
      intro X n
      unfold Binner.transform
      have := cell_rescale B a b columns hr heps heps1 htol htol1 hsmall D.X D.n L hL X
      by_cases hok : ∀ s < n, ∀ c, ∃ v, B.cell L c (X s c) = .ok v
      · rw [if_pos hok, if_pos (fun s hs c => by rw [this]; exact hok s hs c)]
        simp only [this]
      · rw [if_neg hok, if_neg (fun h => hok fun s hs c => by rw [← this]; exact h s hs c)]
    unfold pipelineFit
    rw [hL, hfit]
    dsimp only
    rw [htrans]
    cases B.transform L D.X D.n with
    | error e => exact ⟨fun P h => (by simp at h), fun e' h => h⟩
    | ok Xt =>
      dsimp only
      cases S.fit E { D with X := Xt } fuel with
      | none => exact ⟨fun P h => (by simp at h), fun e' h => (by simp at h)⟩
      | some r =>
        cases r with
        | error e => exact ⟨fun P h => (by simp at h), fun e' h => h⟩
        | ok m =>
          refine ⟨fun P h => ?_, fun e' h => (by simp at h)⟩
          simp only [Option.some.injEq, Except.ok.injEq] at h
          subst h
          refine ⟨_, rfl, rfl, fun prior X n => ?_⟩
          unfold FittedPipeline.predict
          dsimp only
          rw [htrans]

/-- **C86**, boundaries: the bin boundaries of a column to which any strictly increasing function is applied (for instance the
logarithm) are the images of its bin boundaries, with the same shares of the weight. -/
theorem C86_boundaries {K : Type*} [Field K] [LinearOrder K] [IsStrictOrderedRing K] [FloorRing K] (g : K → K) (hg : StrictMono g)
    (discrete : Bool) (z : List (Option K)) (w : List K) (nBins : ℕ) (eps tol e : K) (bs cs : List K)
    (h : fitColumn discrete z w nBins eps tol = .ok ⟨e, some (bs, cs)⟩) :
    ∃ e', fitColumn discrete (z.map (Option.map g)) w nBins eps tol = .ok ⟨e', some (bs.map g, cs)⟩ := by
  rw [fitColumn_map g hg, h]
  exact ⟨_, rfl⟩

end CB
