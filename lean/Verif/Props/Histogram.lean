import Verif.Props.Digitize
import Verif.Props.GroupedMeans

set_option autoImplicit false
set_option linter.unusedSectionVars false

/-!
C100: histograms of the in-sample predictions.
-/
namespace CB
open Spec

variable {K : Type*} [Field K] [LinearOrder K] [IsStrictOrderedRing K]

theorem lookup_map {α : Type*} (ks : List ℕ) (f : ℕ → α) (b : ℕ) :
    (ks.map (fun k => (k, f k))).lookup b = if b ∈ ks then some (f b) else none := by
  induction ks with
  | nil => simp
  | cons k ks ih =>
    rw [List.map_cons, List.lookup_cons, ih]
    by_cases h : b = k
    · subst h; simp
    · have : (b == k) = false := by simpa using h
      simp [this, h]

/-- Ascending numbers from 1 to `n` are found by running through all numbers. -/
theorem ascending_range (n : ℕ) (ks : List ℕ) (hs : ks.Pairwise (· < ·)) (h : ∀ b ∈ ks, 1 ≤ b ∧ b ≤ n) :
    ((List.range n).filter (fun i => decide (i + 1 ∈ ks))).map (fun i => i + 1) = ks := by
  have hsort : (((List.range n).filter (fun i => decide (i + 1 ∈ ks))).map (fun i => i + 1)).Pairwise (· < ·) := by
    rw [List.pairwise_map]
    exact (List.pairwise_lt_range.filter _).imp (fun h => by omega)
  refine List.Perm.eq_of_pairwise (le := (· < ·)) (fun a b _ _ h1 h2 => by omega) hsort hs ?_
  rw [List.perm_ext_iff_of_nodup (hsort.imp (fun h => ne_of_lt h)) (hs.imp (fun h => ne_of_lt h))]
  intro b
  rw [List.mem_map]
  constructor
  · rintro ⟨i, hi, rfl⟩
    simpa using (List.mem_filter.mp hi).2
  · intro hb
    obtain ⟨h1, h2⟩ := h b hb
    exact ⟨b - 1, List.mem_filter.mpr ⟨List.mem_range.mpr (by omega), by
      simpa [show b - 1 + 1 = b from by omega] using hb⟩, by omega⟩

theorem kept_centers (n : ℕ) (ks : List ℕ) (hs : ks.Pairwise (· < ·)) (h : ∀ b ∈ ks, 1 ≤ b ∧ b ≤ n) (centers : List K)
    (hl : centers.length = n) (means : List (ℕ × Flt K)) (hm : ∀ b, hasMean means b = true ↔ b ∈ ks) :
    (List.range n).filterMap (fun i => if hasMean means (i + 1) then centers[i]? else none)
      = ks.map (fun b => centers.getD (b - 1) 0) := by
  have e : (List.range n).filterMap (fun i => if hasMean means (i + 1) then centers[i]? else none)
      = ((List.range n).filter (fun i => decide (i + 1 ∈ ks))).map (fun i => centers.getD i 0) := by
    rw [← List.filterMap_eq_filter, List.map_filterMap]
    apply List.filterMap_congr
    intro i hi
    have hi' : i < centers.length := by rw [hl]; exact List.mem_range.mp hi
    by_cases hk : i + 1 ∈ ks
    · rw [(hm (i + 1)).mpr hk]
      simp [Option.guard, hk, List.getElem?_eq_getElem hi', List.getD_eq_getElem _ _ hi']
    · have : hasMean means (i + 1) = false := by
        cases hc : hasMean means (i + 1) with
        | false => rfl
        | true => exact absurd ((hm (i + 1)).mp hc) hk
      simp [Option.guard, hk, this]
  rw [e]
  conv_rhs => rw [← ascending_range n ks hs h]
  rw [List.map_map]
  rfl

section
variable [FloorRing K]

/-- The samples of the histogram with their bin numbers. -/
def Spec.histogramBins (boundaries : List K) (l : List (K × K × K)) : List (ℕ × K × K) :=
  l.map (fun s => (digitize boundaries (.fin s.1), s.2))

theorem inSampleHistograms_some (nbins : ℕ) (quantile : Option K) (l : List (K × K × K)) (H : Histograms K)
    (h : inSampleHistograms nbins quantile l = some H) :
    ∃ boundaries centers, calcLinearBins (l.map Prod.fst) nbins = some (boundaries, centers) ∧
      H.counts = (calcMeansMedians (Spec.histogramBins boundaries l)).map (fun g => (g.1, g.2.count)) ∧
      H.means = (match quantile with
        | none => (calcMeansMedians (Spec.histogramBins boundaries l)).map (fun g => (g.1, g.2.mean))
        | some q => (calcWeightedQuantile q (Spec.histogramBins boundaries l)).map (fun g => (g.1, Flt.fin g.2))) ∧
      H.centers = (List.range nbins).filterMap (fun i => if hasMean H.means (i + 1) then centers[i]? else none) ∧
      ∀ e, H.errors = some e → quantile = none ∧
        e = (calcMeansMedians (Spec.histogramBins boundaries l)).map (fun g => (g.1, g.2.lower1, g.2.upper1, g.2.lower2, g.2.upper2)) := by
  unfold inSampleHistograms at h
  split at h
  · exact absurd h (by simp)
  · rename_i boundaries centers hc
    refine ⟨boundaries, centers, hc, ?_⟩
    have := Option.some.inj h
    subst this
    refine ⟨rfl, ?_, rfl, ?_⟩
    · cases quantile <;> rfl
    · intro e he
      simp only at he
      split at he
      · simp at he
      · cases quantile with
        | none => exact ⟨rfl, (Option.some.inj he).symm⟩
        | some q => simp at he

/-- **C100**: there is a histogram if there are samples. -/
theorem C100_exists (nbins : ℕ) (quantile : Option K) (l : List (K × K × K)) (hne : l ≠ []) :
    ∃ H, inSampleHistograms nbins quantile l = some H := by
  obtain ⟨s, hs⟩ := List.exists_mem_of_ne_nil l hne
  obtain ⟨a, b, ha, hb, -, -⟩ := exists_extrema (l.map Prod.fst) s.1 (List.mem_map.mpr ⟨s, hs, rfl⟩)
  obtain ⟨centers, hcalc, -, -⟩ := calcLinearBins_some (l.map Prod.fst) nbins a b ha hb
  exact ⟨_, by unfold inSampleHistograms; rw [hcalc]⟩

/-- All samples of a point: those whose prediction is at most half a bin width away from the position of the point, in the bin with
its number. -/
theorem histogram_numbers (nbins : ℕ) (hn : 0 < nbins) (l : List (K × K × K)) (boundaries centers : List K)
    (hc : calcLinearBins (l.map Prod.fst) nbins = some (boundaries, centers)) :
    ∀ b ∈ groupNumbers (Spec.histogramBins boundaries l), 1 ≤ b ∧ b ≤ nbins := by
  intro b hb
  obtain ⟨s, hs, rfl⟩ := (groupNumbers_mem _ b).mp hb
  obtain ⟨t, ht, rfl⟩ := List.mem_map.mp hs
  obtain ⟨bd, ce, mi, ma, h1, -, -, -, -, k, hk, hd, -, -⟩ := C98_bin (l.map Prod.fst) nbins hn t.1 (List.mem_map.mpr ⟨t, ht, rfl⟩)
  rw [hc] at h1
  obtain ⟨rfl, rfl⟩ := Prod.mk.injEq _ _ _ _ ▸ (Option.some.inj h1)
  simp only [hd]
  omega

theorem histogram_centers (nbins : ℕ) (hn : 0 < nbins) (l : List (K × K × K)) (hne : l ≠ []) (boundaries centers : List K)
    (hc : calcLinearBins (l.map Prod.fst) nbins = some (boundaries, centers)) : centers.length = nbins := by
  obtain ⟨s, hs⟩ := List.exists_mem_of_ne_nil l hne
  obtain ⟨bd, ce, mi, ma, h1, -, -, -, h2, -⟩ := C98_bin (l.map Prod.fst) nbins hn s.1 (List.mem_map.mpr ⟨s, hs, rfl⟩)
  rw [hc] at h1
  obtain ⟨rfl, rfl⟩ := Prod.mk.injEq _ _ _ _ ▸ (Option.some.inj h1)
  exact h2

/-- **C100**: the points of the histogram and their positions correspond, if every bin that occurs has a positive weight (in
particular if all weights are positive): the `i`-th mean belongs to the `i`-th centre, the mean is finite, and every sample of that
bin has a prediction at most half a bin width from that centre. Missing for the full claim: bins whose samples have weight 0, for
which `C100_zero_weight` shows the opposite. -/
theorem C100_aligned_partial (nbins : ℕ) (hn : 0 < nbins) (quantile : Option K) (l : List (K × K × K)) (hne : l ≠ [])
    (hw : ∀ s ∈ l, 0 < s.2.2) (H : Histograms K) (h : inSampleHistograms nbins quantile l = some H) :
    H.means.length = H.centers.length ∧ H.counts.length = H.centers.length ∧
    ∃ boundaries centers, calcLinearBins (l.map Prod.fst) nbins = some (boundaries, centers) ∧
      (∀ s ∈ l, ∃ (i : ℕ) (m c : K), H.means[i]? = some (digitize boundaries (.fin s.1), .fin m) ∧ H.centers[i]? = some c ∧
        ∃ minx maxx, (l.map Prod.fst).min? = some minx ∧ (l.map Prod.fst).max? = some maxx ∧
          |s.1 - c| ≤ (maxx - minx) / (2 * (nbins : K))) ∧
      ∀ i : ℕ, i < H.means.length → ∃ s ∈ l, ∃ m, H.means[i]? = some (digitize boundaries (.fin s.1), .fin m) := by
  obtain ⟨boundaries, centers, hc, hcounts, hmeans, hcen, -⟩ := inSampleHistograms_some nbins quantile l H h
  set B := Spec.histogramBins boundaries l with hB
  have hlen := histogram_centers nbins hn l hne boundaries centers hc
  have hnum := histogram_numbers nbins hn l boundaries centers hc
  -- the means are finite
  have hwB : ∀ s ∈ B, 0 < s.2.2 := by
    intro s hs
    obtain ⟨t, ht, rfl⟩ := List.mem_map.mp hs
    exact hw t ht
  have hfin : ∃ f : ℕ → K, H.means = (groupNumbers B).map (fun b => (b, Flt.fin (f b))) := by
    rw [hmeans]
    cases quantile with
    | some q =>
      refine ⟨fun b => (weightedQuantile q (sortByTarget (groupRows B b))).getD 0, ?_⟩
      simp only [calcWeightedQuantile, List.map_map]
      rfl
    | none =>
      have key : ∀ b ∈ groupNumbers B, ∃ m : K,
          (if weightsUniform (B.map (fun s => s.2.2)) then evenStats ((groupRows B b).map Prod.fst)
            else weightedStats (groupRows B b)).mean = .fin m := by
        intro b hb
        have hmem : (b, if weightsUniform (B.map (fun s => s.2.2)) then evenStats ((groupRows B b).map Prod.fst)
            else weightedStats (groupRows B b)) ∈ calcMeansMedians B := List.mem_map.mpr ⟨b, hb, rfl⟩
        have hpos : 0 < ((Spec.inGroup B b).map Prod.snd).sum := by
          have hr : Spec.inGroup B b ≠ [] := groupRows_ne_nil B b hb
          apply List.sum_pos
          · intro x hx
            obtain ⟨r, hr, rfl⟩ := List.mem_map.mp hx
            exact hwB _ (groupRows_mem B b r hr)
          · simpa using hr
        obtain ⟨m, hm, -⟩ := C99_mean B b _ hmem hpos
        exact ⟨m, hm⟩
      choose! f hf using key
      refine ⟨f, ?_⟩
      simp only [calcMeansMedians, List.map_map]
      apply List.map_congr_left
      intro b hb
      simp only [Function.comp_apply]
      rw [hf b hb]
  obtain ⟨f, hf⟩ := hfin
  have hhas : ∀ b, hasMean H.means b = true ↔ b ∈ groupNumbers B := by
    intro b
    unfold hasMean
    rw [hf, lookup_map]
    by_cases hb : b ∈ groupNumbers B <;> simp [hb]
  have hcen' : H.centers = (groupNumbers B).map (fun b => centers.getD (b - 1) 0) := by
    rw [hcen]
    exact kept_centers nbins _ (groupNumbers_sorted B) hnum centers hlen H.means hhas
  refine ⟨by rw [hf, hcen']; simp, by rw [hcounts, hcen']; simp [calcMeansMedians], boundaries, centers, hc, ?_, ?_⟩
  · intro s hs
    have hb : digitize boundaries (.fin s.1) ∈ groupNumbers B :=
      (groupNumbers_mem B _).mpr ⟨_, List.mem_map.mpr ⟨s, hs, rfl⟩, rfl⟩
    obtain ⟨i, hi⟩ := List.mem_iff_getElem?.mp hb
    obtain ⟨bd, ce, mi, ma, h1, h2, h3, -, h4, k, hk, hd, -, c, hck, hcd⟩ :=
      C98_bin (l.map Prod.fst) nbins hn s.1 (List.mem_map.mpr ⟨s, hs, rfl⟩)
    rw [hc] at h1
    obtain ⟨rfl, rfl⟩ := Prod.mk.injEq _ _ _ _ ▸ (Option.some.inj h1)
    refine ⟨i, f (digitize boundaries (.fin s.1)), c, ?_, ?_, mi, ma, h2, h3, hcd⟩
    · rw [hf, List.getElem?_map, hi]; rfl
    · rw [hcen', List.getElem?_map, hi, Option.map_some, hd, Nat.add_sub_cancel,
        List.getD_eq_getElem?_getD, hck, Option.getD_some]
  · intro i hi
    rw [hf, List.length_map] at hi
    obtain ⟨s', hs', e⟩ := (groupNumbers_mem B _).mp (List.getElem_mem hi)
    obtain ⟨t, ht, rfl⟩ := List.mem_map.mp hs'
    refine ⟨t, ht, f (digitize boundaries (.fin t.1)), ?_⟩
    rw [hf, List.getElem?_map, List.getElem?_eq_getElem hi, Option.map_some, ← e]

/-- Targets and weights of the samples whose predictions belong to bin `b`. -/
def Spec.inBin (boundaries : List K) (l : List (K × K × K)) (b : ℕ) : List (K × K) :=
  (l.filter (fun s => digitize boundaries (.fin s.1) = b)).map Prod.snd

theorem inGroup_histogram (boundaries : List K) (l : List (K × K × K)) (b : ℕ) :
    Spec.inGroup (Spec.histogramBins boundaries l) b = Spec.inBin boundaries l b := by
  simp only [Spec.inGroup, Spec.inBin, Spec.histogramBins, List.filter_map, List.map_map]
  rfl

/-- **C100**: the values of the points: for a mean model, the weighted mean of the targets of the samples in the bin (if their weight is
positive); for a quantile model, their smallest target at which the share is reached. -/
theorem C100_values (nbins : ℕ) (quantile : Option K) (l : List (K × K × K)) (hw : ∀ s ∈ l, 0 ≤ s.2.2) (H : Histograms K)
    (h : inSampleHistograms nbins quantile l = some H) :
    ∃ boundaries centers, calcLinearBins (l.map Prod.fst) nbins = some (boundaries, centers) ∧
      ∀ (b : ℕ) (m : Flt K), (b, m) ∈ H.means →
        match quantile with
        | none => 0 < ((Spec.inBin boundaries l b).map Prod.snd).sum → ∃ v, m = .fin v ∧
            v * ((Spec.inBin boundaries l b).map Prod.snd).sum = ((Spec.inBin boundaries l b).map (fun s => s.1 * s.2)).sum
        | some q => q ≤ 1 → ∃ v, m = .fin v ∧ IsLeastQuantile q (Spec.inBin boundaries l b) v := by
  obtain ⟨boundaries, centers, hc, -, hmeans, -, -⟩ := inSampleHistograms_some nbins quantile l H h
  refine ⟨boundaries, centers, hc, fun b m hm => ?_⟩
  rw [hmeans] at hm
  rw [← inGroup_histogram]
  cases quantile with
  | none =>
    obtain ⟨⟨b', st⟩, hst, e⟩ := List.mem_map.mp hm
    obtain ⟨rfl, rfl⟩ := Prod.mk.injEq _ _ _ _ ▸ e
    exact fun hpos => C99_mean _ _ st hst hpos
  | some q =>
    obtain ⟨⟨b', v⟩, hv, e⟩ := List.mem_map.mp hm
    obtain ⟨rfl, rfl⟩ := Prod.mk.injEq _ _ _ _ ▸ e
    refine fun hq => ⟨v, rfl, C99_quantile q hq _ (fun s hs => ?_) _ v hv⟩
    obtain ⟨t, ht, rfl⟩ := List.mem_map.mp hs
    exact hw t ht

/-- **C100**: the counts of the histogram add up to the total weight (uniform weights: to the number of samples), so that no sample is
lost. -/
theorem C100_complete (nbins : ℕ) (quantile : Option K) (l : List (K × K × K)) (H : Histograms K)
    (h : inSampleHistograms nbins quantile l = some H) :
    (H.counts.map Prod.snd).sum = if weightsUniform (l.map (fun s => s.2.2)) then (l.length : K) else (l.map (fun s => s.2.2)).sum := by
  obtain ⟨boundaries, centers, hc, hcounts, -, -, -⟩ := inSampleHistograms_some nbins quantile l H h
  have := C99_counts (Spec.histogramBins boundaries l)
  rw [hcounts, List.map_map]
  simp only [Spec.histogramBins, List.map_map, List.length_map] at this ⊢
  exact this

/-- **C100**: the error bars have the right signs for a plot: not positive below, not negative above. -/
theorem C100_errors (nbins : ℕ) (quantile : Option K) (l : List (K × K × K)) (hw : ∀ s ∈ l, 0 ≤ s.2.2) (H : Histograms K)
    (h : inSampleHistograms nbins quantile l = some H) (e : List (ℕ × K × K × K × K)) (he : H.errors = some e) :
    ∀ r ∈ e, r.2.1 ≤ 0 ∧ 0 ≤ r.2.2.1 ∧ r.2.2.2.1 ≤ r.2.1 ∧ r.2.2.1 ≤ r.2.2.2.2 := by
  obtain ⟨boundaries, centers, hc, -, -, -, herr⟩ := inSampleHistograms_some nbins quantile l H h
  obtain ⟨-, rfl⟩ := herr e he
  intro r hr
  obtain ⟨g, hg, rfl⟩ := List.mem_map.mp hr
  obtain ⟨a, b, c, d⟩ := C99_errors (Spec.histogramBins boundaries l) (by
    intro s hs
    obtain ⟨t, ht, rfl⟩ := List.mem_map.mp hs
    exact hw t ht) g.1 g.2 hg
  exact ⟨b, c, a, d⟩

/-- **C100**: error bars are given exactly for mean models whose targets are not all 0 or 1. -/
theorem C100_binary (nbins : ℕ) (quantile : Option K) (l : List (K × K × K)) (H : Histograms K)
    (h : inSampleHistograms nbins quantile l = some H) :
    H.errors = none ↔ quantile ≠ none ∨ ∀ s ∈ l, s.2.1 = 0 ∨ s.2.1 = 1 := by
  unfold inSampleHistograms at h
  split at h
  · exact absurd h (by simp)
  · have := Option.some.inj h
    subst this
    simp only [List.all_eq_true, Bool.or_eq_true, decide_eq_true_eq]
    split
    · rename_i hb
      exact ⟨fun _ => Or.inr hb, fun _ => rfl⟩
    · rename_i hb
      cases quantile with
      | none => simp only [reduceCtorEq, ne_eq, not_true_eq_false, false_or, false_iff]; exact hb
      | some q => simp

end

/-- **C100** fails for bins whose samples all have weight 0: the mean of such a bin is NaN but stays in the list of means, while the
centre of the bin is dropped; the two lists, which are plotted against each other, have different lengths. -/
theorem C100_zero_weight : ∃ H, inSampleHistograms 100 none ([(0, 1, 1), (1, 2, 0), (2, 5, 1)] : List (ℚ × ℚ × ℚ)) = some H ∧
    H.means = [(1, .fin 1), (51, .nan), (100, .fin 5)] ∧ H.centers = [1 / 100, 199 / 100] := by
  refine ⟨_, rfl, ?_, ?_⟩
  · decide +kernel
  · decide +kernel

/-- The hypotheses of the theorems on histograms are met. -/
example : ∃ H, inSampleHistograms 2 none ([(0, 1, 1), (1, 2, 2), (4, 5, 1)] : List (ℚ × ℚ × ℚ)) = some H ∧
    H.means = [(1, .fin (5 / 3)), (2, .fin 5)] ∧ H.centers = [1, 3] ∧ H.counts = [(1, 3), (2, 1)]
      ∧ H.errors = some [(1, -1, 0, -1, 0), (2, 0, 0, 0, 0)] := by
  refine ⟨_, rfl, ?_, ?_, ?_, ?_⟩ <;> decide +kernel

end CB
