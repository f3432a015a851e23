import Verif.Props.LinearFeature
import Verif.Props.Neutralize

/-!
# The smoothers that are not chosen by default: regularisation to a prior expectation (C34), neutralisation (C52)
-/

set_option autoImplicit false
set_option linter.unusedSectionVars false

namespace CB
open Finset Spec

/-- `r` is the value `v` with uncertainty `u` shrunk towards `p`: the squared distance to `p` decreases by `(t u)²`, but not below
0, and `r` is on the same side of `p` as `v`. -/
def Spec.ShrunkTowards (p t v u r : ℝ) : Prop := (r - p) ^ 2 = max 0 ((v - p) ^ 2 - (t * u) ^ 2) ∧ 0 ≤ (r - p) * (v - p)

/-- **C34** for the smoother in one dimension: every bin is shrunk towards the prior expectation. -/
theorem C34_smoother (p t : ℝ) (ht : 0 ≤ t) (n : ℕ) (w u v : ℕ → ℝ) (b : ℕ) (hb : b < n) (hu : 0 < u b) :
    ∃ r, ((priorExpectation1 p t).after (smootherTable [n] w u) ((List.range n).map v)
        ((arangeMulti [n]).map fun c => c.map fun (i : ℕ) => Flt.fin (i : ℝ)))[b]? = some (.fin r) ∧ ShrunkTowards p t (v b) (u b) r := by
  refine ⟨regularizeToPrior (v b) (u b) p t, ?_, C34_formula (v b) (u b) p t hu ht⟩
  simp only [Smoother.after, priorExpectation1]
  rw [List.getElem?_map, centreRows_getElem? [n] b (by simpa using hb), digits_one n b hb]
  simp only [List.map_cons, List.map_nil, Option.map_some, Option.some.injEq]
  rw [lookupOneDim_centre, List.length_map, List.length_range, getD_range_map _ _ _ _ hb, column_map_range n v b hb,
    table_unc_column [n] w u b (by simpa using hb)]
  rfl

/-- **C34** for the smoother in several dimensions. -/
theorem C34_smoother_multi (p t : ℝ) (ht : 0 ≤ t) (ns : List ℕ) (w u v : ℕ → ℝ) (b : ℕ) (hb : b < ns.prod) (hu : 0 < u b) :
    ∃ r, ((priorExpectationMulti p t).after (smootherTable ns w u) ((List.range ns.prod).map v)
        ((arangeMulti ns).map fun c => c.map fun (i : ℕ) => Flt.fin (i : ℝ)))[b]? = some (.fin r) ∧ ShrunkTowards p t (v b) (u b) r := by
  refine ⟨regularizeToPrior (v b) (u b) p t, ?_, C34_formula (v b) (u b) p t hu ht⟩
  simp only [Smoother.after, priorExpectationMulti]
  rw [List.getElem?_map, centreRows_getElem? ns b hb]
  simp only [Option.map_some, Option.some.injEq]
  rw [setBinInfo_centres ns (by omega) _ (smootherTable_centres ns w u), lookupMultiDim_centre ns _ b hb, List.length_map,
    List.length_range, getD_range_map _ _ _ _ hb, column_map_range _ v b hb, table_unc_column ns w u b hb]
  rfl

theorem centres_table (ns : List ℕ) (w u : ℕ → ℝ) :
    centres (smootherTable ns w u) = (arangeMulti ns).map fun c => c.map fun (i : ℕ) => Flt.fin (i : ℝ) := by
  unfold centres
  have h : (smootherTable ns w u).map (·.x) = arangeMulti ns := smootherTable_centres ns w u
  rw [← h, List.map_map]
  rfl

/-- **C34** for the meta smoother: every prediction of the other smoother at a bin is shrunk towards the prior expectation. -/
theorem C34_meta_smoother {σ : Type*} (sub : Smoother ℝ σ) (p t : ℝ) (ht : 0 ≤ t) (n : ℕ) (w u v : ℕ → ℝ) (b : ℕ) (hb : b < n)
    (hu : 0 < u b) (x : ℝ)
    (hx : (sub.after (smootherTable [n] w u) ((List.range n).map v)
        ((arangeMulti [n]).map fun c => c.map fun (i : ℕ) => Flt.fin (i : ℝ)))[b]? = some (.fin x)) :
    ∃ r, ((priorExpectationMeta1 sub p t).after (smootherTable [n] w u) ((List.range n).map v)
        ((arangeMulti [n]).map fun c => c.map fun (i : ℕ) => Flt.fin (i : ℝ)))[b]? = some (.fin r) ∧ ShrunkTowards p t x (u b) r := by
  refine ⟨regularizeToPrior x (u b) p t, ?_, C34_formula x (u b) p t hu ht⟩
  simp only [Smoother.after, priorExpectationMeta1]
  rw [List.getElem?_map, centreRows_getElem? [n] b (by simpa using hb), digits_one n b hb]
  simp only [List.map_cons, List.map_nil, Option.map_some, Option.some.injEq]
  rw [lookupOneDim_centre, table_length, getD_range_map _ _ _ _ (by simpa using hb), table_unc_column [n] w u b (by simpa using hb),
    centres_table]
  simp only [Smoother.after] at hx
  rw [List.getD_eq_getElem?_getD, hx]
  rfl

/-! ### Neutralisation -/

section
variable {K : Type*} [Field K] [LinearOrder K] [IsStrictOrderedRing K]

/-- Two tables agree within their `n` rows and `m` columns. -/
def AgreeOn (n m : ℕ) (v v' : ℕ → ℕ → K) : Prop := ∀ i < n, ∀ j < m, v i j = v' i j

theorem rowSum_congr (n m : ℕ) (u u' v v' : ℕ → ℕ → K) (hu : AgreeOn n m u u') (hv : AgreeOn n m v v') (i : ℕ) (hi : i < n) :
    rowSum m u v i = rowSum m u' v' i :=
  sum_congr rfl fun j hj => by rw [hu i hi j (mem_range.mp hj), hv i hi j (mem_range.mp hj)]

theorem colSum_congr (n m : ℕ) (u u' v v' : ℕ → ℕ → K) (hu : AgreeOn n m u u') (hv : AgreeOn n m v v') (j : ℕ) (hj : j < m) :
    colSum n u v j = colSum n u' v' j :=
  sum_congr rfl fun i hi => by rw [hu i (mem_range.mp hi) j hj, hv i (mem_range.mp hi) j hj]

theorem neutralStep_congr (n m : ℕ) (u u' v v' : ℕ → ℕ → K) (s s' : ℕ → K) (hu : AgreeOn n m u u') (hv : AgreeOn n m v v')
    (hs : ∀ i < n, s i = s' i) : AgreeOn n m (neutralStep n m u s v) (neutralStep n m u' s' v') := by
  have h1 : AgreeOn n m (fun i j => v i j - s i / (∑ j ∈ range m, u i j)) (fun i j => v' i j - s' i / (∑ j ∈ range m, u' i j)) := by
    intro i hi j hj
    simp only
    rw [hv i hi j hj, hs i hi, sum_congr rfl fun k hk => hu i hi k (mem_range.mp hk)]
  intro i hi j hj
  unfold neutralStep
  simp only
  rw [colSum_congr n m u u' _ _ hu h1 j hj, sum_congr rfl fun k hk => hu k (mem_range.mp hk) j hj]
  exact congrArg (· - _) (h1 i hi j hj)

theorem neutralLoop_congr (n m : ℕ) (u u' : ℕ → ℕ → K) (hu : AgreeOn n m u u') :
    ∀ (fuel : ℕ) (d : K) (s s' : ℕ → K) (v v' : ℕ → ℕ → K), AgreeOn n m v v' → (∀ i < n, s i = s' i) →
      AgreeOn n m (neutralLoop n m u fuel d s v) (neutralLoop n m u' fuel d s' v') := by
  intro fuel
  induction fuel with
  | zero => intro d s s' v v' hv _; exact hv
  | succ fuel ih =>
    intro d s s' v v' hv hs
    unfold neutralLoop
    have h1 := neutralStep_congr n m u u' v v' s s' hu hv hs
    split
    · have hd : neutralDeviation n m u (neutralStep n m u s v) = neutralDeviation n m u' (neutralStep n m u' s' v') := by
        unfold neutralDeviation
        rw [sum_congr rfl fun i hi => by rw [rowSum_congr n m u u' _ _ hu h1 i (mem_range.mp hi)],
          sum_congr (s₁ := range m) rfl fun j hj => by rw [colSum_congr n m u u' _ _ hu h1 j (mem_range.mp hj)]]
      simp only
      rw [hd]
      exact ih _ _ _ _ _ h1 fun i hi => rowSum_congr n m u u' _ _ hu h1 i hi
    · exact hv

theorem neutralize_congr (n m : ℕ) (u u' v v' : ℕ → ℕ → K) (hu : AgreeOn n m u u') (hv : AgreeOn n m v v') :
    AgreeOn n m (neutralizeOneDim n m v u) (neutralizeOneDim n m v' u') :=
  neutralLoop_congr n m u u' hu 4 100 _ _ v v' hv fun i hi => rowSum_congr n m u u' v v' hu hv i hi

end

/-- The smoother returns the bin values unchanged at the bin centres. -/
def KeepsBins {σ : Type*} (sub : Smoother ℝ σ) (ns : List ℕ) : Prop :=
  ∀ (w u v : ℕ → ℝ) (b : ℕ), b < ns.prod → (sub.after (smootherTable ns w u) ((List.range ns.prod).map v)
    ((arangeMulti ns).map fun c => c.map fun (i : ℕ) => Flt.fin (i : ℝ)))[b]? = some (.fin (v b))

theorem binValuesMulti_keeps (ns : List ℕ) : KeepsBins binValuesMulti ns := by
  intro w u v b hb
  have ht : Spec.IsBinTuple ns (digits ns b) := digits_valid ns b (by omega)
  have hcell : Spec.InCell ((digits ns b).map fun (i : ℕ) => (i : ℝ)) (digits ns b) := by
    refine ⟨by simp, fun i h h' => ?_⟩
    rw [List.getElem_map]
    exact ⟨le_rfl, by linarith⟩
  exact (C51_multi_dim ns (by omega) (smootherTable ns w u) (smootherTable_centres ns w u) ((List.range ns.prod).map v)
      ((arangeMulti ns).map fun c => c.map fun (i : ℕ) => Flt.fin (i : ℝ)) b).1 ((digits ns b).map fun (i : ℕ) => (i : ℝ)) b
      ⟨digits ns b, w b, u b⟩ (v b) (by rw [centreRows_getElem? ns b hb, List.map_map]; rfl) ht hcell
      (smootherTable_getElem? ns w u b hb) (by rw [List.getElem?_map, List.getElem?_range hb]; rfl)

/-- **C52** for the meta smoother around the smoother that keeps bin values: the values it predicts at the centres of the bins
`(i, j)` have weighted column sums 0 (the weights are the uncertainties), and their mixed differences are those of the estimates. -/
theorem C52_smoother {σ : Type*} (sub : Smoother ℝ σ) (n m : ℕ) (hsub : KeepsBins sub [n, m]) (hn : 0 < n) (hm : 0 < m)
    (w u v : ℕ → ℝ) (hu : ∀ b < n * m, 0 < u b) :
    ∃ r : ℕ → ℕ → ℝ,
      (∀ i < n, ∀ j < m, ((neutralize2D sub).after (smootherTable [n, m] w u) ((List.range (n * m)).map v)
        ((arangeMulti [n, m]).map fun c => c.map fun (i : ℕ) => Flt.fin (i : ℝ)))[i * m + j]? = some (.fin (r i j))) ∧
      (∀ j < m, ∑ i ∈ range n, r i j * u (i * m + j) = 0) ∧
      ∀ i < n, ∀ i' < n, ∀ j < m, ∀ j' < m,
        r i j - r i j' - r i' j + r i' j' = v (i * m + j) - v (i * m + j') - v (i' * m + j) + v (i' * m + j') := by
  have hprod : [n, m].prod = n * m := by simp
  have hidx : ∀ i < n, ∀ j < m, i * m + j < n * m := fun i hi j hj => by
    calc i * m + j < i * m + m := by omega
      _ = (i + 1) * m := by ring
      _ ≤ n * m := Nat.mul_le_mul_right m hi
  set X := smootherTable [n, m] w u with hX
  set V : ℕ → ℕ → ℝ := fun i j => column ((List.range (n * m)).map v) (i * m + j) with hV
  set U : ℕ → ℕ → ℝ := fun i j => uncColumn X (i * m + j) with hU
  have hVa : AgreeOn n m V fun i j => v (i * m + j) := fun i hi j hj => column_map_range _ v _ (hidx i hi j hj)
  have hUa : AgreeOn n m U fun i j => u (i * m + j) := fun i hi j hj =>
    table_unc_column [n, m] w u _ (by rw [hprod]; exact hidx i hi j hj)
  have hc := neutralize_congr n m U _ V _ hUa hVa
  have hu' : ∀ i < n, ∀ j < m, 0 < u (i * m + j) := fun i hi j hj => hu _ (hidx i hi j hj)
  refine ⟨neutralizeOneDim n m (fun i j => v (i * m + j)) fun i j => u (i * m + j), fun i hi j hj => ?_, fun j hj => ?_, ?_⟩
  · have hb : i * m + j < [n, m].prod := by rw [hprod]; exact hidx i hi j hj
    simp only [Smoother.after, neutralize2D]
    rw [List.getElem?_map, centreRows_getElem? [n, m] _ hb]
    simp only [Option.map_some, Option.some.injEq]
    rw [setBinInfo_centres [n, m] (by omega) _ (smootherTable_centres [n, m] w u), lookupMultiDim_centre [n, m] _ _ hb]
    rw [hX, centres_table]
    have h := hsub w u (fun k => neutralizeOneDim n m V U (k / m) (k % m)) (i * m + j) hb
    rw [hprod] at h
    simp only [Smoother.after] at h
    rw [List.getD_eq_getElem?_getD]
    show Option.getD (sub.predict (sub.fit (smootherTable [n, m] w u)
      ((List.range (n * m)).map fun k => neutralizeOneDim n m V U (k / m) (k % m)))
      ((arangeMulti [n, m]).map fun c => c.map fun (i : ℕ) => Flt.fin (i : ℝ)))[i * m + j]? .nan = _
    rw [h, Option.getD_some]
    have h1 : (i * m + j) / m = i := by rw [mul_comm, Nat.mul_add_div hm, Nat.div_eq_of_lt hj, add_zero]
    have h2 : (i * m + j) % m = j := by rw [mul_comm, Nat.mul_add_mod, Nat.mod_eq_of_lt hj]
    rw [h1, h2, hc i hi j hj]
  · exact C52_columns_zero n m _ _ hn hu' j hj
  · intro i _ i' _ j _ j' _
    exact C52_mixed_differences n m (fun i j => v (i * m + j)) (fun i j => u (i * m + j)) i i' j j'

/-- Witness for C52: two rows and three columns, with the smoother that keeps bin values. -/
example : KeepsBins (binValuesMulti (K := ℝ)) [2, 3] ∧ ∀ b < 2 * 3, (0 : ℝ) < (fun k : ℕ => (k : ℝ) + 1) b :=
  ⟨binValuesMulti_keeps _, fun b _ => by positivity⟩

/-- Witness for C34: with prior 0 and threshold 2.5, a value 5 with uncertainty 1 keeps a squared distance of 18.75 to 0, and a
value 2 becomes 0. -/
example : Spec.ShrunkTowards 0 (5 / 2) 5 1 (Real.sqrt (75 / 4)) ∧ Spec.ShrunkTowards 0 (5 / 2) 2 1 0 := by
  constructor
  · constructor
    · rw [sub_zero, Real.sq_sqrt (by norm_num), max_eq_right (by norm_num)]; norm_num
    · have := Real.sqrt_nonneg (75 / 4); simp only [sub_zero]; positivity
  · constructor
    · rw [max_eq_left (by norm_num)]; norm_num
    · norm_num

end CB
