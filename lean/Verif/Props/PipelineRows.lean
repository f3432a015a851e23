import Verif.Lemmas.BinEquivariance
import Verif.Props.BinnedFit
import Verif.Props.Rows
import Verif.Props.PipelineExample
import Mathlib.Data.List.Perm.Basic
import Mathlib.Data.List.Nodup
import Mathlib.Algebra.BigOperators.Group.List.Basic

/-!
# C87-C89: rows and missing values of raw data

How a pipeline of binner and estimator depends on order, repetition and weight of the rows of the raw training table, and what
it predicts for raw values that it cannot use.
-/

set_option autoImplicit false
set_option linter.unusedSectionVars false

namespace CB
open Finset Spec

/-! ### Order -/

theorem npUnique_perm {K : Type*} [Field K] [LinearOrder K] [IsStrictOrderedRing K] (xs ys : List K) (h : xs.Perm ys) :
    npUnique xs = npUnique ys :=
  (npUnique_strict xs).eq_of_mem_iff (npUnique_strict ys) fun v => by rw [mem_npUnique, mem_npUnique, h.mem_iff]

theorem samples_ones (z : List (Option ℝ)) (n : ℕ) (hn : z.length = n) :
    validSamples z (List.replicate n 1) = z.filterMap fun o => o.map fun x => (x, (1 : ℝ)) := by
  subst hn
  unfold validSamples
  induction z with
  | nil => rfl
  | cons a z ih =>
    rw [List.length_cons, List.replicate_succ, List.zip_cons_cons, List.filterMap_cons, List.filterMap_cons, ih]

theorem calcCdf_perm (z z' : List (Option ℝ)) (n : ℕ) (hn : z.length = n) (h : z'.Perm z) :
    calcCdf z' (List.replicate n 1) = calcCdf z (List.replicate n 1) := by
  have hn' : z'.length = n := by rw [h.length_eq, hn]
  have hp : (validSamples z' (List.replicate n 1)).Perm (validSamples z (List.replicate n 1)) := by
    rw [samples_ones z n hn, samples_ones z' n hn']
    exact h.filterMap _
  have h1 := npUnique_perm _ _ (hp.map Prod.fst)
  have h2 : ∀ v, weightOf (validSamples z' (List.replicate n 1)) v = weightOf (validSamples z (List.replicate n 1)) v := by
    intro v
    unfold weightOf
    exact ((hp.filter _).map _).sum_eq
  have h3 := (hp.map Prod.snd).sum_eq
  unfold calcCdf
  rw [if_neg (by simpa using hn'), if_neg (by simpa using hn)]
  dsimp only
  rw [h1, h3, funext h2]

theorem range_map_perm (π : Equiv.Perm ℕ) (n : ℕ) (hπ : ∀ s, π s < n ↔ s < n) : ((List.range n).map π).Perm (List.range n) := by
  rw [List.perm_ext_iff_of_nodup (List.nodup_range.map π.injective) List.nodup_range]
  intro t
  simp only [List.mem_map, List.mem_range]
  constructor
  · rintro ⟨s, hs, rfl⟩
    exact (hπ s).mpr hs
  · intro ht
    refine ⟨π.symm t, (hπ _).mp ?_, π.apply_symm_apply t⟩
    rwa [π.apply_symm_apply]

theorem fitOne_order (B : Binner) (X : Table ℝ) (n : ℕ) (π : Equiv.Perm ℕ) (hπ : ∀ s, π s < n ↔ s < n) (c : String) :
    B.fitOne (fun s => X (π s)) n c = B.fitOne X n c := by
  have hcol : (Table.column (fun s => X (π s)) n c).Perm (X.column n c) := by
    have := (range_map_perm π n hπ).map fun s => match X s c with
      | .fin x => some x
      | _ => none
    rw [List.map_map] at this
    exact this
  unfold Binner.fitOne
  cases B.props.lookup c with
  | none => rfl
  | some fp =>
    dsimp only
    cases Flags.checkConsistency fp with
    | error e => rfl
    | ok u =>
      dsimp only
      unfold fitColumn
      rw [calcCdf_perm _ _ n (column_length X n c) hcol]

theorem pipeline_order {σ : Type*} (S : Setup σ) (E : Estimator) (B : Binner) (columns : List String) (D : TrainSet)
    (π : Equiv.Perm ℕ) (hπ : ∀ s, π s < D.n ↔ s < D.n) (fuel : ℕ)
    (hfits : ∀ Xt : Table ℝ, S.fit E (resample { D with X := Xt } π D.n fun s => D.w (π s)) fuel = S.fit E { D with X := Xt } fuel) :
    pipelineFit B columns S E (resample D π D.n fun s => D.w (π s)) fuel = pipelineFit B columns S E D fuel := by
  have hcols : ∀ cs, B.fitColumns (fun s => D.X (π s)) D.n cs = B.fitColumns D.X D.n cs := by
    intro cs
    induction cs with
    | nil => rfl
    | cons c cs ih =>
      unfold Binner.fitColumns
      rw [ih, fitOne_order B D.X D.n π hπ]
  have hfit : B.fit columns (resample D π D.n fun s => D.w (π s)).X (resample D π D.n fun s => D.w (π s)).n =
      B.fit columns D.X D.n := by
    unfold Binner.fit resample
    dsimp only
    rw [hcols]
  unfold pipelineFit
  rw [hfit]
  cases B.fit columns D.X D.n with
  | error e => rfl
  | ok L =>
    dsimp only
    have htr : B.transform L (resample D π D.n fun s => D.w (π s)).X (resample D π D.n fun s => D.w (π s)).n =
        match B.transform L D.X D.n with
        | .error e => .error e
        | .ok Xt => .ok fun s => Xt (π s) := by
      unfold Binner.transform resample
      dsimp only
      by_cases hok : ∀ s < D.n, ∀ c, ∃ v, B.cell L c (D.X s c) = .ok v
      · rw [if_pos hok, if_pos fun s hs c => hok (π s) ((hπ s).mpr hs) c]
      · rw [if_neg hok, if_neg]
        intro h
        refine hok fun s hs c => ?_
        have := h (π.symm s) ((hπ _).mp (by rwa [π.apply_symm_apply])) c
        rwa [π.apply_symm_apply] at this
    rw [htr]
    cases B.transform L D.X D.n with
    | error e => rfl
    | ok Xt =>
      dsimp only
      have := hfits Xt
      have h2 : S.fit E { resample D π D.n (fun s => D.w (π s)) with X := fun s => Xt (π s) } fuel =
        S.fit E { D with X := Xt } fuel := this
      dsimp only at h2
      rw [h2]

/-- **C87.** The order of the rows of the raw training data does not matter: the same bins, the same model or the same error. -/
theorem C87_order {σ : Type*} (S : Setup σ) (hgroups : ∀ f ∈ S.features, f.1.group ≠ []) (E : Estimator) (hE : Modelled E)
    (B : Binner) (columns : List String) (D : TrainSet) (π : Equiv.Perm ℕ) (hπ : ∀ s, π s < D.n ↔ s < D.n) (fuel : ℕ) :
    pipelineFit B columns S E (resample D π D.n fun s => D.w (π s)) fuel = pipelineFit B columns S E D fuel :=
  pipeline_order S E B columns D π hπ fuel fun Xt => C77_order S hgroups E hE { D with X := Xt } π hπ fuel

/-! ### Repetition -/

/-- What `transform` uses of a fitted column. -/
def strip (f : ColFit ℝ) : ℝ × Option (List ℝ) := (f.eps, f.table.map Prod.fst)

theorem cell_strip (B : Binner) (L L' : List (String × ColFit ℝ)) (h : ∀ c, (L'.lookup c).map strip = (L.lookup c).map strip)
    (c : String) (x : Flt ℝ) : B.cell L' c x = B.cell L c x := by
  have hc := h c
  unfold Binner.cell
  cases h1 : L.lookup c with
  | none =>
    rw [h1] at hc
    cases h2 : L'.lookup c with
    | none => rfl
    | some f => rw [h2] at hc; cases hc
  | some f =>
    rw [h1] at hc
    cases h2 : L'.lookup c with
    | none => rw [h2] at hc; cases hc
    | some f' =>
      rw [h2] at hc
      simp only [Option.map_some, Option.some.injEq, strip, Prod.mk.injEq] at hc
      cases B.props.lookup c with
      | none => rfl
      | some fp =>
        dsimp only
        rw [hc.1, hc.2]

theorem transform_strip (B : Binner) (L L' : List (String × ColFit ℝ)) (h : ∀ c, (L'.lookup c).map strip = (L.lookup c).map strip)
    (X : Table ℝ) (n : ℕ) : B.transform L' X n = B.transform L X n := by
  have : B.cell L' = B.cell L := by
    funext c x
    exact cell_strip B L L' h c x
  unfold Binner.transform
  rw [this]

/-- The fits of columns that have the same values. -/
theorem fitColumn_repeat (z z' : List (Option ℝ)) (w w' : List ℝ) (hw : PosWeights z w) (hw' : PosWeights z' w')
    (h : ∀ v, some v ∈ z' ↔ some v ∈ z) (N : ℕ) (eps tol : ℝ) :
    ∃ f f', fitColumn true z w N eps tol = .ok f ∧ fitColumn true z' w' N eps tol = .ok f' ∧ strip f' = strip f := by
  by_cases hne : ∃ v, some v ∈ z
  · obtain ⟨b0, values, cdf, h1, h2, h3, h4, -⟩ := fitColumn_discrete z w hw N eps tol hne
    obtain ⟨b0', values', cdf', h1', h2', h3', h4', -⟩ := fitColumn_discrete z' w' hw' N eps tol
      (hne.imp fun v hv => (h v).mpr hv)
    have hv : values' = values := h2'.eq_of_mem_iff h2 fun v => by rw [h3, h3', h]
    subst hv
    rw [h4, Option.some.injEq] at h4'
    subst h4'
    exact ⟨_, _, h1, h1', rfl⟩
  · push Not at hne
    exact ⟨_, _, fitColumn_empty true z w hw.1 N eps tol hne,
      fitColumn_empty true z' w' hw'.1 N eps tol (fun v hv => hne v ((h v).mp hv)), rfl⟩

theorem fitColumns_repeat (B : Binner) (X X' : Table ℝ) (n n' : ℕ) (columns : List String)
    (hd : ∀ c ∈ columns, ∀ fp, B.props.lookup c = some fp → Flags.isSet fp Flags.IS_CONTINUOUS = false)
    (h : ∀ c v, (∃ s < n', X' s c = .fin v) ↔ ∃ s < n, X s c = .fin v) :
    (∃ e, B.fitColumns X n columns = .error e ∧ B.fitColumns X' n' columns = .error e) ∨
      ∃ L L', B.fitColumns X n columns = .ok L ∧ B.fitColumns X' n' columns = .ok L' ∧
        ∀ c, (L'.lookup c).map strip = (L.lookup c).map strip := by
  induction columns with
  | nil => exact Or.inr ⟨[], [], rfl, rfl, fun _ => rfl⟩
  | cons c cs ih =>
    have ih := ih fun c' hc' => hd c' (List.mem_cons_of_mem _ hc')
    unfold Binner.fitColumns
    have hone : (B.fitOne X n c = none ∧ B.fitOne X' n' c = none) ∨
        (∃ e, B.fitOne X n c = some (.error e) ∧ B.fitOne X' n' c = some (.error e)) ∨
        ∃ f f', B.fitOne X n c = some (.ok f) ∧ B.fitOne X' n' c = some (.ok f') ∧ strip f' = strip f := by
      unfold Binner.fitOne
      cases hfp : B.props.lookup c with
      | none => exact Or.inl ⟨rfl, rfl⟩
      | some fp =>
        right
        dsimp only
        cases hcons : Flags.checkConsistency fp with
        | error e => exact Or.inl ⟨_, rfl, rfl⟩
        | ok u =>
          right
          have hdisc : (Flags.isSet fp Flags.IS_ORDERED || Flags.isSet fp Flags.IS_UNORDERED) = true := by
            have h1 := ((Flags.C14_accepts_iff fp).mp hcons).1
            have h2 := hd c (List.mem_cons_self) fp hfp
            rw [show Flags.IS_CONTINUOUS = 1 <<< 0 from rfl, Flags.isSet_bit] at h2
            rw [show Flags.IS_ORDERED = 1 <<< 1 from rfl, show Flags.IS_UNORDERED = 1 <<< 2 from rfl, Flags.isSet_bit,
              Flags.isSet_bit]
            rcases h1 with ⟨h0, -⟩ | ⟨-, h0, -⟩ | ⟨-, -, h0⟩
            · rw [h2] at h0; cases h0
            · rw [h0]; rfl
            · rw [h0]; simp
          dsimp only
          rw [hdisc]
          obtain ⟨f, f', h1, h2, h3⟩ := fitColumn_repeat _ _ _ _ (column_weights X n c) (column_weights X' n' c)
            (fun v => by rw [mem_column, mem_column]; exact h c v) (B.nBins c) B.epsilon B.tolerance
          exact ⟨f, f', by rw [h1], by rw [h2], h3⟩
    rcases hone with ⟨h1, h2⟩ | ⟨e, h1, h2⟩ | ⟨f, f', h1, h2, h3⟩
    · rw [h1, h2]
      exact ih
    · rw [h1, h2]
      exact Or.inl ⟨e, rfl, rfl⟩
    · rw [h1, h2]
      rcases ih with ⟨e, h4, h5⟩ | ⟨L, L', h4, h5, h6⟩
      · dsimp only
        rw [h4, h5]
        exact Or.inl ⟨e, rfl, rfl⟩
      · dsimp only
        rw [h4, h5]
        refine Or.inr ⟨_, _, rfl, rfl, fun c' => ?_⟩
        by_cases hc : c' = c
        · subst hc
          simp [h3]
        · have hb : (c' == c) = false := by simpa using hc
          rw [List.lookup_cons, List.lookup_cons, hb]
          exact h6 c'

/-- **C88.** If no column is continuous and the estimator is one of those of C76, the weight of a row of the raw training data
means a number of repetitions: repeating row `t` `k t` times instead of giving it the weight `k t` gives the same model, and the
same predictions for all raw data. -/
theorem C88_repetition {σ : Type*} (S : Setup σ) (hgroups : ∀ f ∈ S.features, f.1.group ≠ []) (E : Estimator) (hE : Frequency E)
    (B : Binner) (columns : List String)
    (hd : ∀ c ∈ columns, ∀ fp, B.props.lookup c = some fp → Flags.isSet fp Flags.IS_CONTINUOUS = false)
    (D : TrainSet) (φ : ℕ → ℕ) (m : ℕ) (k : ℕ → ℕ)
    (hφ : ∀ s < m, φ s < D.n) (hk : ∀ t < D.n, 0 < k t ∧ #{s ∈ range m | φ s = t} = k t) (hw : ∀ t < D.n, D.w t = k t)
    (fuel : ℕ) (P : FittedPipeline) (h : pipelineFit B columns S E D fuel = some (.ok P)) :
    ∃ P', pipelineFit B columns S E (resample D φ m fun _ => 1) fuel = some (.ok P') ∧ P'.model = P.model ∧
      ∀ prior X n, P'.predict B prior X n = P.predict B prior X n := by
  obtain ⟨Xt, hb, htr, hfit⟩ := pipelineFit_ok B columns S E D fuel P h
  have hocc : ∀ t < D.n, ∃ s < m, φ s = t := by
    intro t ht
    have h1 := (hk t ht).2
    have h2 : 0 < #{s ∈ range m | φ s = t} := by rw [h1]; exact (hk t ht).1
    obtain ⟨s, hs⟩ := card_pos.mp h2
    rw [mem_filter, mem_range] at hs
    exact ⟨s, hs⟩
  have hn : ¬ (D.n = 0 ∨ columns = []) := by
    intro hn
    unfold Binner.fit at hb
    rw [if_pos hn] at hb
    cases hb
  have hm : m ≠ 0 := by
    obtain ⟨s, hs, -⟩ := hocc 0 (by have := mt Or.inl hn; omega)
    omega
  obtain ⟨L', hL', hstrip⟩ : ∃ L', B.fit columns (fun s => D.X (φ s)) m = .ok L' ∧
      ∀ c, (L'.lookup c).map strip = (P.bins.lookup c).map strip := by
    unfold Binner.fit at hb ⊢
    rw [if_neg hn] at hb
    rw [if_neg fun h => h.elim hm fun h => hn (.inr h)]
    rcases fitColumns_repeat B D.X (fun s => D.X (φ s)) D.n m columns hd (by
      intro c v
      constructor
      · rintro ⟨s, hs, hx⟩
        exact ⟨φ s, hφ s hs, hx⟩
      · rintro ⟨t, ht, hx⟩
        obtain ⟨s, hs, rfl⟩ := hocc t ht
        exact ⟨s, hs, hx⟩) with ⟨e, h1, -⟩ | ⟨L, L', h1, h2, h3⟩
    · rw [hb] at h1; cases h1
    · rw [hb, Except.ok.injEq] at h1
      subst h1
      exact ⟨L', h2, h3⟩
  have htrans := transform_strip B P.bins L' hstrip
  have htr' : B.transform L' (fun s => D.X (φ s)) m = .ok fun s => Xt (φ s) := by
    rw [htrans]
    unfold Binner.transform at htr ⊢
    split_ifs at htr with hall
    rw [if_pos fun s hs c => hall (φ s) (hφ s hs) c]
    rw [Except.ok.injEq] at htr
    rw [← htr]
  refine ⟨⟨L', P.model⟩, ?_, rfl, fun prior X n => ?_⟩
  · unfold pipelineFit
    rw [show (resample D φ m fun _ => 1).X = fun s => D.X (φ s) from rfl, show (resample D φ m fun _ => 1).n = m from rfl, hL']
    dsimp only
    rw [htr']
    dsimp only
    have := C76_repetition S hgroups E hE { D with X := Xt } φ m k hφ hk hw fuel
    rw [hfit] at this
    have h2 : S.fit E ⟨fun s => Xt (φ s), m, fun s => D.y (φ s), fun _ => 1, D.prior.map fun q s => q (φ s)⟩ fuel =
      some (.ok P.model) := this
    have h3 : (⟨fun s => Xt (φ s), m, (resample D φ m fun _ => 1).y, (resample D φ m fun _ => 1).w,
      (resample D φ m fun _ => 1).prior⟩ : TrainSet) =
      ⟨fun s => Xt (φ s), m, fun s => D.y (φ s), fun _ => 1, D.prior.map fun q s => q (φ s)⟩ := rfl
    rw [h3, h2]
  · unfold FittedPipeline.predict
    rw [htrans]

/-- **C88, counterexample** for continuous columns: the binner knows nothing of the weights. A row with value 10 of weight 3 and a
row with value 30 of weight 1 are put into two bins; if the first row is repeated three times instead, both values are put into one
bin, so that no model can tell them apart. -/
theorem C88_continuous_counterexample :
    ∃ (B : Binner) (X : Table ℝ) (φ : ℕ → ℕ) (L L' : List (String × ColFit ℝ)),
      X 0 "a" = .fin 10 ∧ X 1 "a" = .fin 30 ∧ (∀ s < 3, φ s = 0) ∧ φ 3 = 1 ∧
      B.fit ["a"] X 2 = .ok L ∧ B.fit ["a"] (fun s => X (φ s)) 4 = .ok L' ∧
      B.cell L "a" (.fin 10) = .ok (.fin 0) ∧ B.cell L "a" (.fin 30) = .ok (.fin 1) ∧
      B.cell L' "a" (.fin 10) = .ok (.fin 0) ∧ B.cell L' "a" (.fin 30) = .ok (.fin 0) := by
  have hl : exProps.lookup "a" = some (Flags.IS_MONOTONIC ||| Flags.INCREASING) := by decide
  have hm : Flags.isSet (Flags.IS_MONOTONIC ||| Flags.INCREASING) Flags.HAS_MAGIC_INT_MISSING = false := by decide
  have hc : Flags.isSet (Flags.IS_MONOTONIC ||| Flags.INCREASING) Flags.IS_CONTINUOUS = true := by decide
  have hd : (Flags.isSet (Flags.IS_MONOTONIC ||| Flags.INCREASING) Flags.IS_ORDERED ||
    Flags.isSet (Flags.IS_MONOTONIC ||| Flags.INCREASING) Flags.IS_UNORDERED) = false := by decide
  have hcc : Flags.checkConsistency (Flags.IS_MONOTONIC ||| Flags.INCREASING) = .ok () := by decide
  have hcol : Table.column (fun s => exRaw.X (if s < 3 then 0 else 1)) 4 "a" = [some 10, some 10, some 10, some 30] := by
    simp [Table.column, exRaw, List.range_succ]
  have hcdf : calcCdf [some (10 : ℝ), some 10, some 10, some 30] [1, 1, 1, 1] = .ok ([10, 30], [3 / 4, 1]) := by
    have h1 : npUnique [(10 : ℝ), 10, 10, 30] = [10, 30] := by
      have : (10 : ℝ) ≤ 30 := by norm_num
      simp [npUnique, List.insertionSort, List.orderedInsert, this]
    simp only [calcCdf, validSamples, List.zip_cons_cons, List.zip_nil_right, List.filterMap_cons, List.filterMap_nil,
      Option.map_some, List.map_cons, List.map_nil, h1]
    norm_num [weightOf, cumsumFrom]
  have hred : reduceCdf [(10 : ℝ), 30] [3 / 4, 1] 2 (1 / 1000) (1 / 100) = .ok ([10, 30], [0, 1]) := by
    have g1 : geLim [(3 / 4 : ℝ), 1] (.fin (1 / 2 - 1 / 1000)) true 0 2 = some 0 := by
      unfold geLim
      rw [geLoop]
      norm_num [pyGet, Flt.geOf]
      rw [geLoop]
      norm_num
    have m0 : pyMod (0 : ℝ) (1 / 2) = 0 := by simp [pyMod]
    have m1 : pyMod (3 / 4 : ℝ) (1 / 2) = 1 / 4 := by
      have : ⌊(3 / 4 : ℝ) / (1 / 2)⌋ = 1 := by
        rw [Int.floor_eq_iff]
        norm_num
      unfold pyMod
      rw [this]
      norm_num
    unfold reduceCdf
    rw [if_neg (by norm_num)]
    dsimp only
    rw [reduceLoop]
    simp only [Nat.cast_ofNat, m0]
    rw [if_pos (by norm_num), if_pos (by norm_num)]
    rw [show (0 : ℝ) + 1 / 2 - 0 - 1 / 1000 = 1 / 2 - 1 / 1000 by norm_num]
    simp only [List.length_cons, List.length_nil, Nat.zero_add, Nat.reduceAdd, Nat.cast_ofNat]
    rw [g1]
    simp only [pyGet]
    norm_num
    rw [reduceLoop]
    simp only [m1]
    norm_num [pyGet]
  have hmd : minimalDifference [(10 : ℝ), 30] = 20 := by norm_num [minimalDifference]
  have hf : fitColumn false [some (10 : ℝ), some 10, some 10, some 30] [1, 1, 1, 1] 2 (1 / 1000) (1 / 100) =
      .ok ⟨1 / 1000 * 20, some ([10, 30], [0, 1])⟩ := by
    unfold fitColumn
    rw [hcdf]
    dsimp only
    rw [if_neg (by simp)]
    simp only [Bool.false_eq_true, if_false, hred, hmd]
    simp
  refine ⟨exBinner, exRaw.X, fun s => if s < 3 then 0 else 1, _, [("a", ⟨1 / 1000 * 20, some ([10, 30], [0, 1])⟩)], by simp [exRaw],
    by simp [exRaw], fun s hs => by simp [hs], rfl, exBins, ?_, ?_, ?_, ?_, ?_⟩
  · simp only [Binner.fit, Binner.fitColumns, Binner.fitOne, exBinner, hl, hcc, hd, hcol]
    rw [show List.replicate 4 (1 : ℝ) = [1, 1, 1, 1] from rfl, hf]
    rfl
  · have := transform_cell exBinner _ exRaw.X _ 2 exTransform 0 (by norm_num) "a"
    simpa [exRaw, exData] using this
  · have := transform_cell exBinner _ exRaw.X _ 2 exTransform 1 (by norm_num) "a"
    simpa [exRaw, exData] using this
  all_goals
    refine (cell_fitted exBinner _ "a" ⟨1 / 1000 * 20, some ([10, 30], [0, 1])⟩ rfl _ hl _ 0 ?_).trans (by simp)
    rw [hc, hm]
  · obtain ⟨k, hk, hin⟩ := C01_continuous_bin (10 : ℝ) [30] (by simp [Spec.Sorted]) (by simp) false (1 / 1000 * 20) 10 (by simp)
    have := hin.1
    simp only [List.length_singleton, Nat.lt_one_iff] at this
    subst this
    exact hk
  · obtain ⟨k, hk, hin⟩ := C01_continuous_bin (10 : ℝ) [30] (by simp [Spec.Sorted]) (by simp) false (1 / 1000 * 20) 30 (by simp)
    have := hin.1
    simp only [List.length_singleton, Nat.lt_one_iff] at this
    subst this
    exact hk

end CB
