import Verif.Model.QpdArrays
import Verif.Props.ChainFit
import Verif.Props.QpdNormal
import Mathlib.Analysis.Complex.ExponentialBounds

/-!
# C150: many distributions and many levels at once
-/

set_option autoImplicit false
set_option linter.unusedSectionVars false

namespace CB

open Spec

namespace Spec

/-- Indexing as numpy does it: as many indices as there are axes; `none` is an `IndexError`. -/
def entry : Returned → List ℕ → Option (Option ℝ)
  | .scalar v, [] => some v
  | .vec vs, [i] => vs[i]?
  | .mat rows, [i, j] => (rows[i]?).bind fun r => r[j]?
  | _, _ => none

end Spec

variable {D : Type} (f : D → ℝ → Option ℝ)

theorem squeezeVec_of_two {vs : List (Option ℝ)} (h : 2 ≤ vs.length) : squeezeVec vs = .vec vs := by
  match vs, h with
  | _ :: _ :: _, _ => rfl

/-- **C150.** Evaluated for several samples and several levels at once, the entry for level `i` and sample `j` is what that
sample's distribution alone gives for that level alone; there are no other entries. -/
theorem C150_outer (ds : List D) (xs : List ℝ) (hd : 2 ≤ ds.length) (hx : 2 ≤ xs.length) (i j : ℕ) :
    entry (evalOuter f (.vec ds) (.vec xs)) [i, j]
      = (xs[i]?).bind fun p => (ds[j]?).bind fun d => entry (evalOuter f (.scalar d) (.scalar p)) [] := by
  have e : evalOuter f (.vec ds) (.vec xs) = .mat (xs.map fun p => ds.map fun d => f d p) := by
    match xs, hx with
    | p :: q :: xs, _ =>
      unfold evalOuter squeezeMat ScalarOrVec.flat
      simp only [List.map_cons, List.all_cons, List.length_map]
      rw [if_neg]
      have : ¬ ds.length = 1 := by omega
      simp [this]
  rw [e]
  simp only [entry, List.getElem?_map]
  cases xs[i]? with
  | none => rfl
  | some p =>
    simp only [Option.map_some, Option.bind_some, List.getElem?_map]
    cases ds[j]? with
    | none => rfl
    | some d => rfl

/-- **C150.** For one level, given as a number or as an array with one entry, the result has one entry per sample. -/
theorem C150_one_level (ds : List D) (p : ℝ) (hd : 2 ≤ ds.length) (x : ScalarOrVec ℝ) (hx : x = .scalar p ∨ x = .vec [p])
    (j : ℕ) :
    entry (evalOuter f (.vec ds) x) [j] = (ds[j]?).bind fun d => entry (evalOuter f (.scalar d) (.scalar p)) [] := by
  have e : evalOuter f (.vec ds) x = .vec (ds.map fun d => f d p) := by
    rcases hx with rfl | rfl
    all_goals
      unfold evalOuter squeezeMat ScalarOrVec.flat
      simp only [List.map_cons, List.map_nil]
      exact squeezeVec_of_two (by simpa using hd)
  rw [e]
  simp only [entry, List.getElem?_map]
  cases ds[j]? with
  | none => rfl
  | some d => rfl

/-- **C150.** For one sample, given as numbers or as arrays with one entry, the result has one entry per level. -/
theorem C150_one_sample (d : D) (xs : List ℝ) (hx : 2 ≤ xs.length) (ds : ScalarOrVec D) (hd : ds = .scalar d ∨ ds = .vec [d])
    (i : ℕ) :
    entry (evalOuter f ds (.vec xs)) [i] = (xs[i]?).bind fun p => entry (evalOuter f (.scalar d) (.scalar p)) [] := by
  have e : evalOuter f ds (.vec xs) = .vec (xs.map fun p => f d p) := by
    have hfl : ds.flat = [d] := by rcases hd with rfl | rfl <;> rfl
    match xs, hx with
    | p :: q :: xs, _ =>
      have hfx : (ScalarOrVec.vec (p :: q :: xs)).flat = p :: q :: xs := rfl
      unfold evalOuter squeezeMat
      simp only [hfl, hfx, List.map_cons, List.map_nil, List.all_cons, List.length_cons, List.length_nil]
      rw [if_pos]
      · simp [List.headD]
      · simp
  rw [e]
  simp only [entry, List.getElem?_map]
  cases xs[i]? with
  | none => rfl
  | some p => rfl

/-- **C150.** With `inner=True` and as many levels as samples, entry `i` is level `i` of sample `i`: the diagonal of the result
with `inner=False`. -/
theorem C150_inner (ds : List D) (xs : List ℝ) (hlen : ds.length = xs.length) (hx : 2 ≤ xs.length) :
    ∃ r, evalInner f (.vec ds) (.vec xs) = .ok r ∧
      ∀ i, entry r [i] = entry (evalOuter f (.vec ds) (.vec xs)) [i, i] := by
  refine ⟨.vec (List.zipWith f ds xs), ?_, fun i => ?_⟩
  · unfold evalInner
    simp only [hlen, if_true]
    rw [squeezeVec_of_two (by simp; omega)]
  · rw [C150_outer f ds xs (by omega) hx]
    simp only [entry, List.getElem?_zipWith]
    cases hd : ds[i]? with
    | none =>
      have : xs[i]? = none := by
        rw [List.getElem?_eq_none_iff] at hd ⊢; omega
      simp [this]
    | some d =>
      cases hp : xs[i]? with
      | none => rfl
      | some p => rfl

/-- **C150.** With `inner=True` and a single level, each sample is evaluated for that level, as with `inner=False`. -/
theorem C150_inner_one_level (ds : List D) (p : ℝ) :
    evalInner f (.vec ds) (.scalar p) = .ok (evalOuter f (.vec ds) (.scalar p)) := rfl

/-- **C150.** With `inner=True` the evaluation fails exactly if the numbers of levels and samples differ and neither is one. -/
theorem C150_inner_fails_iff (ds : List D) (xs : List ℝ) :
    (∃ e, evalInner f (.vec ds) (.vec xs) = .error e) ↔ ds.length ≠ xs.length ∧ ds.length ≠ 1 ∧ xs.length ≠ 1 := by
  unfold evalInner
  by_cases h : ds.length = xs.length
  · simp [h]
  · simp only [h, if_false, ne_eq, not_false_iff, true_and]
    split
    · simp
    · simp
    · rename_i h1 h2
      refine ⟨fun _ => ⟨fun e => ?_, fun e => ?_⟩, fun _ => ⟨_, rfl⟩⟩
      · obtain ⟨d, rfl⟩ := List.length_eq_one_iff.mp e
        exact h1 d rfl
      · obtain ⟨p, rfl⟩ := List.length_eq_one_iff.mp e
        exact h2 p rfl

/-- **C150.** A table with a single row and a single level give a plain number, not an array with one entry: the axis of the
samples is dropped and indexing by the sample fails. -/
theorem C150_single_row (d : D) (p : ℝ) :
    entry (evalOuter f (.vec [d]) (.scalar p)) [] = some (f d p) ∧ entry (evalOuter f (.vec [d]) (.scalar p)) [0] = none :=
  ⟨rfl, rfl⟩

/-- **C150.** The distributions that a semi-bounded chain returns for at least two rows give back the predicted medians and the
two predicted quantiles, row by row, when they are evaluated at 1/2, `alpha` and `1 - alpha`, if no row's prediction is exactly
log-symmetric (C38). -/
theorem C150_chain (phi : Base) (h : SymmetricBase phi) (alpha l u : ℝ) (ha0 : 0 < alpha) (ha1 : alpha < 1 / 2)
    (zs : List (ℝ × ℝ × ℝ)) (hz : 2 ≤ zs.length)
    (hs : ∀ z ∈ zs, let q := chainPredict .S l u z.1 z.2.1 z.2.2; (q.1 - l) * (q.2.2 - l) ≠ (q.2.1 - l) ^ 2) :
    let qs := zs.map fun z => chainPredict .S l u z.1 z.2.1 z.2.2
    ∃ ds, mkJQPDSRows phi alpha l qs = .ok ds ∧
      evalOuter (fun d => JQPDS.ppf d phi) (.vec ds) (.scalar alpha) = .vec (qs.map fun q => some q.1) ∧
      evalOuter (fun d => JQPDS.ppf d phi) (.vec ds) (.scalar (1 / 2)) = .vec (qs.map fun q => some q.2.1) ∧
      evalOuter (fun d => JQPDS.ppf d phi) (.vec ds) (.scalar (1 - alpha)) = .vec (qs.map fun q => some q.2.2) := by
  intro qs
  have key : ∀ zs : List (ℝ × ℝ × ℝ),
      (∀ z ∈ zs, let q := chainPredict .S l u z.1 z.2.1 z.2.2; (q.1 - l) * (q.2.2 - l) ≠ (q.2.1 - l) ^ 2) →
      ∃ ds, mkJQPDSRows phi alpha l (zs.map fun z => chainPredict .S l u z.1 z.2.1 z.2.2) = .ok ds ∧
        ds.map (fun d => JQPDS.ppf d phi alpha) = zs.map (fun z => some (chainPredict .S l u z.1 z.2.1 z.2.2).1) ∧
        ds.map (fun d => JQPDS.ppf d phi (1 / 2)) = zs.map (fun z => some (chainPredict .S l u z.1 z.2.1 z.2.2).2.1) ∧
        ds.map (fun d => JQPDS.ppf d phi (1 - alpha)) = zs.map (fun z => some (chainPredict .S l u z.1 z.2.1 z.2.2).2.2) := by
    intro zs
    induction zs with
    | nil => intro _; exact ⟨[], rfl, rfl, rfl, rfl⟩
    | cons z zs ih =>
      intro hs
      obtain ⟨ds, h0, h1, h2, h3⟩ := ih fun w hw => hs w (List.mem_cons_of_mem _ hw)
      obtain ⟨d, hd, hit⟩ := C41_qpd_semibounded phi h alpha l u z.1 z.2.1 z.2.2 ha0 ha1
      obtain ⟨t1, t2, t3⟩ := hit (hs z List.mem_cons_self)
      refine ⟨d :: ds, ?_, ?_, ?_, ?_⟩
      · unfold mkJQPDSRows at h0 ⊢
        rw [List.map_cons, List.mapM_cons, hd, h0]
        rfl
      · rw [List.map_cons, List.map_cons, h1, t1]
      · rw [List.map_cons, List.map_cons, h2, t2]
      · rw [List.map_cons, List.map_cons, h3, t3]
  obtain ⟨ds, h0, h1, h2, h3⟩ := key zs hs
  have hlen : 2 ≤ ds.length := by
    have := congrArg List.length h1
    simp only [List.length_map] at this
    omega
  have e : ∀ p, evalOuter (fun d => JQPDS.ppf d phi) (.vec ds) (.scalar p) = .vec (ds.map fun d => JQPDS.ppf d phi p) :=
    fun p => squeezeVec_of_two (by simpa [ScalarOrVec.flat] using hlen)
  refine ⟨ds, h0, ?_, ?_, ?_⟩
  · rw [e, h1]; simp [qs]
  · rw [e, h2]; simp [qs]
  · rw [e, h3]; simp [qs]

/-! ### Witnesses -/

/-- Two samples and three levels. -/
example : entry (evalOuter (fun (d p : ℝ) => some (d + p)) (.vec [10, 20]) (.vec [1, 2, 3])) [2, 1] = some (some 23) := by
  rw [C150_outer _ _ _ (by simp) (by simp)]
  simp [evalOuter, squeezeMat, squeezeVec, ScalarOrVec.flat, entry]
  norm_num

/-- Two rows predicted by a chain: lower quantile 1, median 2, upper quantile 3 in the units of the transformation. -/
example : ∃ ds, mkJQPDSRows normalBase 0.25 0
      ([(0, 0, 1), (0, 0, 2)].map fun z : ℝ × ℝ × ℝ => chainPredict .S 0 1 z.1 z.2.1 z.2.2) = .ok ds ∧
    evalOuter (fun d => JQPDS.ppf d normalBase) (.vec ds) (.scalar (1 / 2)) = .vec [some 1, some 1] := by
  obtain ⟨ds, h0, -, h2, -⟩ := C150_chain normalBase C58_normal 0.25 0 1 (by norm_num) (by norm_num)
    [(0, 0, 1), (0, 0, 2)] (by simp) (by
      intro z hz
      simp only [List.mem_cons, List.not_mem_nil, or_false] at hz
      have e1 := Real.exp_one_gt_d9
      have e2 : Real.exp 1 < Real.exp 2 := Real.exp_lt_exp.mpr (by norm_num)
      rcases hz with rfl | rfl
      all_goals
        simp only [chainPredict, chainMedian, chainLow, chainHigh, backTransformInSemiboundLower, backTransformInBounds,
          neg_zero, Real.exp_zero]
        intro h
        norm_num at h
        linarith)
  refine ⟨ds, h0, ?_⟩
  rw [h2]
  simp [chainPredict, chainMedian, backTransformInSemiboundLower]

end CB
