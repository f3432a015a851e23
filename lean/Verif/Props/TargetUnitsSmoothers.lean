import Verif.Props.TargetUnits
import Verif.Props.SmootherCentres

/-!
# C118: which smoothers follow the units and the sign of the target
-/

set_option autoImplicit false
set_option linter.unusedSectionVars false

namespace CB
open Finset Spec

noncomputable section
variable (c : ℝ)

/-- The table of a smoother with the uncertainties in other units. -/
def tableInUnits (X : List (FitRow ℝ)) : List (FitRow ℝ) := X.map fun r => ⟨r.x, r.w, |c| * r.unc⟩

/-- What a smoother predicts follows the units. -/
def Homog (f : List (FitRow ℝ) → List ℝ → List (List (Flt ℝ)) → List (Flt ℝ)) : Prop :=
  ∀ X y rows, f (tableInUnits c X) (y.map (c * ·)) rows = (f X y rows).map (inUnits c)

variable {c}

theorem inUnits_nan : inUnits c .nan = .nan := rfl

theorem inUnits_addFin (x : Flt ℝ) (a : ℝ) : (inUnits c x).addFin (c * a) = inUnits c (x.addFin a) := by
  cases x with
  | fin x => simp [inUnits, Flt.addFin, mul_add]
  | nan => rfl
  | pinf => by_cases h : 0 < c <;> simp [inUnits, h, Flt.addFin]
  | ninf => by_cases h : 0 < c <;> simp [inUnits, h, Flt.addFin]

theorem tableInUnits_w (X : List (FitRow ℝ)) : (tableInUnits c X).map (·.w) = X.map (·.w) := by
  unfold tableInUnits; rw [List.map_map]; rfl

theorem tableInUnits_x (X : List (FitRow ℝ)) : (tableInUnits c X).map (·.x) = X.map (·.x) := by
  unfold tableInUnits; rw [List.map_map]; rfl

theorem tableInUnits_length (X : List (FitRow ℝ)) : (tableInUnits c X).length = X.length := by
  unfold tableInUnits; rw [List.length_map]

theorem tableInUnits_info (X : List (FitRow ℝ)) : setBinInfo (tableInUnits c X) = setBinInfo X := by
  unfold setBinInfo
  have : (tableInUnits c X).map (·.x.length) = X.map (·.x.length) := by unfold tableInUnits; rw [List.map_map]; rfl
  rw [this, tableInUnits_w, tableInUnits_x]

theorem calcNorm_units (X : List (FitRow ℝ)) (y : List ℝ) : calcNorm (tableInUnits c X) (y.map (c * ·)) = c * calcNorm X y := by
  unfold calcNorm
  dsimp only
  rw [tableInUnits_w]
  split_ifs
  · rw [← mul_div_assoc, List.zipWith_map_left]
    congr 1
    generalize X.map (·.w) = w
    induction y generalizing w with
    | nil => simp
    | cons a y ih =>
      cases w with
      | nil => simp
      | cons b w => rw [List.zipWith_cons_cons, List.zipWith_cons_cons, List.sum_cons, List.sum_cons, ih, mul_add, mul_assoc]
  · rw [mul_zero]

theorem normed_units (y : List ℝ) (a : ℝ) : (y.map (c * ·)).map (fun v => v - c * a) = (y.map fun v => v - a).map (c * ·) := by
  rw [List.map_map, List.map_map]
  refine List.map_congr_left fun v _ => ?_
  simp only [Function.comp_apply, mul_sub]

theorem applyCut_units (t : RegType) (info : BinInfo ℝ) (rows : List (List (Flt ℝ))) (sm : List (Flt ℝ)) :
    applyCut t info rows (sm.map (inUnits c)) = (applyCut t info rows sm).map fun l => l.map (inUnits c) := by
  have hcut : ∀ sel : List Bool, List.zipWith (fun (s : Bool) v => if s = true then Flt.nan else v) sel (sm.map (inUnits c)) =
      (List.zipWith (fun (s : Bool) v => if s = true then Flt.nan else v) sel sm).map (inUnits c) := by
    intro sel
    rw [List.zipWith_map_right, List.map_zipWith]
    congr 1
    funext s v
    cases s <;> rfl
  cases t with
  | discontinuous =>
    simp only [applyCut, Option.map_map]
    congr 1
    funext sel
    exact hcut sel
  | interpolating => simp only [applyCut, Option.map_some, hcut]
  | extrapolating => rfl

section
variable {f : List (FitRow ℝ) → List ℝ → List (List (Flt ℝ)) → List (Flt ℝ)} (hf : Homog c f)
include hf

theorem normalization_units (X : List (FitRow ℝ)) (y : List ℝ) (rows : List (List (Flt ℝ))) :
    (normalizationSmoother (smootherOf f)).predict ((normalizationSmoother (smootherOf f)).fit (tableInUnits c X) (y.map (c * ·))) rows =
      ((normalizationSmoother (smootherOf f)).predict ((normalizationSmoother (smootherOf f)).fit X y) rows).map (inUnits c) := by
  simp only [normalizationSmoother, smootherOf]
  rw [calcNorm_units, normed_units, hf, List.map_map, List.map_map]
  refine List.map_congr_left fun x _ => ?_
  exact inUnits_addFin x _

theorem regType_units (t : RegType) (X : List (FitRow ℝ)) (y : List ℝ) (rows : List (List (Flt ℝ))) :
    regTypePredict (smootherOf f) t (regTypeFit (smootherOf f) (tableInUnits c X) (y.map (c * ·))) rows =
      (regTypePredict (smootherOf f) t (regTypeFit (smootherOf f) X y) rows).map fun l => l.map (inUnits c) := by
  simp only [regTypePredict, regTypeFit, smootherOf]
  rw [tableInUnits_info, hf, applyCut_units]

theorem normRegType_units (t : RegType) (X : List (FitRow ℝ)) (y : List ℝ) (rows : List (List (Flt ℝ))) :
    normRegTypePredict (smootherOf f) t (normRegTypeFit (smootherOf f) (tableInUnits c X) (y.map (c * ·))) rows =
      (normRegTypePredict (smootherOf f) t (normRegTypeFit (smootherOf f) X y) rows).map fun l => l.map (inUnits c) := by
  simp only [normRegTypePredict, normRegTypeFit, smootherOf]
  rw [tableInUnits_info, calcNorm_units, normed_units, hf, ← applyCut_units]
  congr 1
  rw [List.map_map, List.map_map]
  exact List.map_congr_left fun x _ => inUnits_addFin x _

/-- A row of the table together with its value. -/
def rowInUnits (c : ℝ) (r : FitRow ℝ × ℝ) : FitRow ℝ × ℝ := (⟨r.1.x, r.1.w, |c| * r.1.unc⟩, c * r.2)

omit hf in
theorem groupByRows_units (nDim : ℕ) (d : Bool) (rows : List (FitRow ℝ × ℝ)) :
    groupByRows nDim d (rows.map (rowInUnits c)) = (groupByRows nDim d rows).map (rowInUnits c) := by
  unfold groupByRows
  cases d with
  | false => rfl
  | true =>
    simp only [if_true]
    rw [List.filter_map]
    congr 1
    refine List.filter_congr fun r _ => ?_
    simp only [Function.comp_apply]
    rw [List.filter_map, List.map_map]
    rfl

omit hf in
theorem groupTable_units (nDim : ℕ) (rows : List (FitRow ℝ × ℝ)) (key : List ℕ) :
    groupTable nDim (rows.map (rowInUnits c)) key = (groupTable nDim rows key).map (rowInUnits c) := by
  unfold groupTable
  rw [List.filter_map, List.map_map, List.map_map]
  rfl

theorem groupBy_units (nDim : ℕ) (d : Bool) : Homog c (groupBySmoother (smootherOf f) nDim d).after := by
  intro X y rows
  simp only [Smoother.after, groupBySmoother, smootherOf]
  have hzip : (tableInUnits c X).zip (y.map (c * ·)) = (X.zip y).map (rowInUnits c) := by
    unfold tableInUnits
    rw [List.zip_map]
    rfl
  rw [hzip, groupByRows_units, List.map_map]
  have hkeys : (List.map ((fun r : FitRow ℝ × ℝ => groupKey nDim r.1) ∘ rowInUnits c) (groupByRows nDim d (X.zip y))) =
    (groupByRows nDim d (X.zip y)).map fun r => groupKey nDim r.1 := rfl
  rw [hkeys, List.map_map]
  refine List.map_congr_left fun r _ => ?_
  simp only [Function.comp_apply, groupTable_units]
  generalize groupByRows nDim d (X.zip y) = rs
  generalize (rs.map fun r => groupKey nDim r.1).dedup = keys
  rw [List.find?_map, List.find?_map]
  simp only [Function.comp_def]
  cases keys.find? _ with
  | none => rfl
  | some key =>
    simp only [Option.map_some]
    have h1 : ((groupTable nDim rs key).map (rowInUnits c)).map (·.1) = tableInUnits c ((groupTable nDim rs key).map (·.1)) := by
      unfold tableInUnits; rw [List.map_map, List.map_map]; rfl
    have h2 : ((groupTable nDim rs key).map (rowInUnits c)).map (·.2) = ((groupTable nDim rs key).map (·.2)).map (c * ·) := by
      rw [List.map_map, List.map_map]; rfl
    rw [h1, h2, hf]
    cases f _ _ _ <;> rfl

end

theorem binValues1_units : Homog c binValues1.after := by
  intro X y rows
  simp only [Smoother.after, binValues1, List.length_map]
  rw [List.map_map]
  refine List.map_congr_left fun r _ => ?_
  simp only [Function.comp_apply, predictOneDim]
  cases r.headD .nan with
  | fin x =>
    dsimp only
    split_ifs
    · simp only [ofLookup, inUnits, Flt.fin.injEq, List.getD_eq_getElem?_getD, List.getElem?_map]
      cases y[(rint x).toNat]? <;> simp
    · rfl
  | nan => rfl
  | pinf => rfl
  | ninf => rfl

theorem binValuesMulti_units : Homog c binValuesMulti.after := by
  intro X y rows
  simp only [Smoother.after, binValuesMulti, tableInUnits_info]
  rw [List.map_map]
  refine List.map_congr_left fun r _ => ?_
  simp only [Function.comp_apply, predictMultiDim]
  split_ifs
  · simp only [ofLookup, inUnits, Flt.fin.injEq, List.getD_eq_getElem?_getD, List.getElem?_map]
    cases y[dotRow r (binSteps (setBinInfo X).nBins).tail]? <;> simp
  · rfl

theorem uncColumn_units (X : List (FitRow ℝ)) (i : ℕ) : uncColumn (tableInUnits c X) i = |c| * uncColumn X i := by
  unfold uncColumn column tableInUnits
  rw [List.map_map, List.getD_eq_getElem?_getD, List.getD_eq_getElem?_getD, List.getElem?_map, List.getElem?_map]
  cases X[i]? <;> simp

theorem column_units (y : List ℝ) (i : ℕ) : column (y.map (c * ·)) i = c * column y i := by
  unfold column
  rw [List.getD_eq_getElem?_getD, List.getD_eq_getElem?_getD, List.getElem?_map]
  cases y[i]? <;> simp

/-! ### Orthogonal polynomials -/

/-- Row `k` and state of the fit in other units, `c = k * g` with the sign `g`: the polynomials are multiplied by `k`, their
coefficients by the sign. -/
structure OrthoUnits (k g : ℝ) (a b : OrthoRow × OrthoState) : Prop where
  alpha : b.1.alpha = a.1.alpha
  beta : b.1.beta = a.1.beta
  delta : b.1.delta = g * a.1.delta
  chi2 : b.1.chi2 = a.1.chi2
  scratch : ∀ r j, b.2.scratch r j = k * a.2.scratch r j
  ii : b.2.ii = a.2.ii
  sumSquared : b.2.sumSquared = a.2.sumSquared

theorem sum_units (n : ℕ) (a : ℝ) (f f' : ℕ → ℝ) (h : ∀ i, f' i = a * f i) : ∑ i ∈ range n, f' i = a * ∑ i ∈ range n, f i := by
  rw [mul_sum]
  exact sum_congr rfl fun i _ => h i

theorem orthoNormalizer_units (k s : ℝ) (hk : 0 < k) : orthoNormalizer (1 / k ^ 2 * s) = k * orthoNormalizer s := by
  unfold orthoNormalizer
  by_cases hs : s = 0
  · simp [hs]
  · rw [if_pos hs, if_pos (mul_ne_zero (by positivity) hs), Real.sqrt_mul (by positivity), Real.sqrt_div zero_le_one, Real.sqrt_one,
      Real.sqrt_sq hk.le]
    field_simp

section
variable (k g : ℝ) (hk : 0 < k) (hg : g ^ 2 = 1) (n : ℕ) (x y w y' w' : ℕ → ℝ) (hy : ∀ i, y' i = k * g * y i)
  (hw : ∀ i, w' i = 1 / k ^ 2 * w i)
include hk hg hy hw

theorem orthoInit_units : (orthoInit n y' w').1.gamma = k * (orthoInit n y w).1.gamma ∧
    OrthoUnits k g (orthoInit n y w) (orthoInit n y' w') := by
  have h1 := sum_units n (g / k) (fun j => w j * y j) (fun j => w' j * y' j) (fun i => by rw [hy, hw]; field_simp)
  have h2 : orthoNormalizer (∑ j ∈ range n, w' j) = k * orthoNormalizer (∑ j ∈ range n, w j) := by
    rw [sum_units n (1 / k ^ 2) w w' hw, orthoNormalizer_units k _ hk]
  have hd : (∑ j ∈ range n, w' j * y' j) * orthoNormalizer (∑ j ∈ range n, w' j) =
      g * ((∑ j ∈ range n, w j * y j) * orthoNormalizer (∑ j ∈ range n, w j)) := by
    rw [h1, h2]; field_simp
  unfold orthoInit
  dsimp only
  rw [hd, h2]
  generalize (∑ j ∈ range n, w j * y j) * orthoNormalizer (∑ j ∈ range n, w j) = d
  generalize orthoNormalizer (∑ j ∈ range n, w j) = e
  have h3 : ∑ i ∈ range n, w' i * (y' i - k * e * (g * d)) * (y' i - k * e * (g * d)) =
      ∑ i ∈ range n, w i * (y i - e * d) * (y i - e * d) := by
    refine sum_congr rfl fun i _ => ?_
    rw [hy, hw]
    have : k * g * y i - k * e * (g * d) = k * g * (y i - e * d) := by ring
    rw [this]
    have e2 : 1 / k ^ 2 * w i * (k * g * (y i - e * d)) * (k * g * (y i - e * d)) = g ^ 2 * (w i * (y i - e * d) * (y i - e * d)) := by
      field_simp
    rw [e2, hg, one_mul]
  refine ⟨rfl, rfl, rfl, rfl, h3, ?_, rfl, h3⟩
  intro r j
  dsimp only
  split_ifs <;> simp

theorem orthoStep_units (st st' : OrthoState) (hsc : ∀ r j, st'.scratch r j = k * st.scratch r j) (hii : st'.ii = st.ii)
    (hss : st'.sumSquared = st.sumSquared) :
    (orthoStep n x y' w' st').1.gamma = (orthoStep n x y w st).1.gamma ∧
      OrthoUnits k g (orthoStep n x y w st) (orthoStep n x y' w' st') := by
  have hprod : ∀ (u : ℕ → ℝ) p q, ∑ j ∈ range n, w' j * u j * st'.scratch p j * st'.scratch q j =
      ∑ j ∈ range n, w j * u j * st.scratch p j * st.scratch q j := by
    intro u p q
    refine sum_congr rfl fun i _ => ?_
    rw [hw, hsc, hsc]; field_simp
  unfold orthoStep
  dsimp only
  rw [hii, hprod, hprod]
  generalize ∑ j ∈ range n, w j * x j * st.scratch (3 - (3 - st.ii) - 1) j * st.scratch (3 - (3 - st.ii) - 1) j = al
  generalize ∑ j ∈ range n, w j * x j * st.scratch (3 - st.ii - 1) j * st.scratch (3 - (3 - st.ii) - 1) j = be
  have hraw : ∀ j, (x j - al) * st'.scratch (3 - (3 - st.ii) - 1) j - be * st'.scratch (3 - st.ii - 1) j =
      k * ((x j - al) * st.scratch (3 - (3 - st.ii) - 1) j - be * st.scratch (3 - st.ii - 1) j) := by
    intro j; rw [hsc, hsc]; ring
  simp only [hraw]
  generalize hr : (fun j => (x j - al) * st.scratch (3 - (3 - st.ii) - 1) j - be * st.scratch (3 - st.ii - 1) j) = raw
  have hr' : ∀ j, (x j - al) * st.scratch (3 - (3 - st.ii) - 1) j - be * st.scratch (3 - st.ii - 1) j = raw j := fun j => by rw [← hr]
  simp only [hr']
  have hgam : ∑ j ∈ range n, w' j * (k * raw j) * (k * raw j) = ∑ j ∈ range n, w j * raw j * raw j :=
    sum_congr rfl fun i _ => by rw [hw]; field_simp
  rw [hgam]
  generalize orthoNormalizer (∑ j ∈ range n, w j * raw j * raw j) = ga
  have hdel : ∑ j ∈ range n, w' j * (k * raw j * ga) * y' j = g * ∑ j ∈ range n, w j * (raw j * ga) * y j :=
    sum_units n g _ _ fun i => by rw [hw, hy]; field_simp
  rw [hdel, hss]
  generalize ∑ j ∈ range n, w j * (raw j * ga) * y j = d
  have hdd : g * d * (g * d) = d * d := by linear_combination (d * d) * hg
  rw [hdd]
  refine ⟨rfl, rfl, rfl, rfl, rfl, ?_, rfl, rfl⟩
  intro r j
  by_cases h : r = 3 - st.ii - 1
  · subst h; simp [mul_assoc]
  · simp [Function.update_of_ne h, hsc]

theorem orthoRun_units (m : ℕ) : (orthoRun n x y' w' m).1.gamma = (if m = 0 then k else 1) * (orthoRun n x y w m).1.gamma ∧
    OrthoUnits k g (orthoRun n x y w m) (orthoRun n x y' w' m) := by
  induction m with
  | zero => simpa [orthoRun] using orthoInit_units k g hk hg n y w y' w' hy hw
  | succ m ih =>
    have := orthoStep_units k g hk hg n x y w y' w' hy hw (orthoRun n x y w m).2 (orthoRun n x y' w' m).2 ih.2.scratch ih.2.ii
      ih.2.sumSquared
    simpa [orthoRun] using this

end

/-- The parameters of a fit in other units. -/
structure ParametersUnits (k g : ℝ) (p p' : ℕ → OrthoRow) : Prop where
  alpha : ∀ m, (p' m).alpha = (p m).alpha
  beta : ∀ m, (p' m).beta = (p m).beta
  gamma : ∀ m, (p' m).gamma = (if m = 0 then k else 1) * (p m).gamma
  delta : ∀ m, (p' m).delta = g * (p m).delta
  chi2 : ∀ m, (p' m).chi2 = (p m).chi2

section
variable {k g : ℝ} {p p' : ℕ → OrthoRow} (h : ParametersUnits k g p p')
include h

theorem significantLoop_units (hg : g ^ 2 = 1) (n : ℕ) : ∀ fuel m npp, significantLoop p' n fuel m npp = significantLoop p n fuel m npp := by
  intro fuel
  induction fuel with
  | zero => intros; rfl
  | succ fuel ih =>
    intro m npp
    unfold significantLoop
    have hd : ∀ m, (p' m).delta ^ 2 = (p m).delta ^ 2 := fun m => by rw [h.delta, mul_pow, hg, one_mul]
    simp only [h.chi2, hd, ih]

theorem orthoApply_units (m : ℕ) (b : ℝ) : orthoApply p' m b = k * g * orthoApply p m b := by
  unfold orthoApply
  have key : ∀ (l : List ℕ), (∀ i ∈ l, i ≠ 0) → ∀ s s' : OrthoEval, (∀ r, s'.values r = k * s.values r) → s'.j = s.j →
      s'.estimate = k * g * s.estimate →
      (l.foldl (orthoEvalStep p' b) s').estimate = k * g * (l.foldl (orthoEvalStep p b) s).estimate := by
    intro l
    induction l with
    | nil => intro _ s s' _ _ he; exact he
    | cons i l ih =>
      intro hl s s' hv hj he
      rw [List.foldl_cons, List.foldl_cons]
      have hi : i ≠ 0 := hl i (by simp)
      refine ih (fun i hi => hl i (by simp [hi])) _ _ ?_ ?_ ?_
      · intro r
        unfold orthoEvalStep
        dsimp only
        rw [hj, h.alpha, h.beta, h.gamma, if_neg hi, hv, hv, one_mul]
        by_cases hr : r = 3 - s.j - 1
        · subst hr; simp only [Function.update_self]; ring
        · simp only [Function.update_of_ne hr, hv]
      · simp only [orthoEvalStep, hj]
      · unfold orthoEvalStep
        dsimp only
        rw [hj, h.alpha, h.beta, h.gamma, if_neg hi, hv, hv, he, h.delta]
        ring
  refine key _ (fun i hi => ?_) _ _ ?_ rfl ?_
  · rw [List.mem_range'] at hi
    obtain ⟨j, -, rfl⟩ := hi
    omega
  · intro r
    dsimp only
    rw [h.gamma, if_pos rfl]
    split_ifs <;> simp
  · dsimp only
    rw [h.gamma, h.delta, if_pos rfl]
    ring

end

theorem orthogonalPolynomial_units (hc : c ≠ 0) : Homog c orthogonalPolynomialSmoother.after := by
  intro X y rows
  have hk : 0 < |c| := abs_pos.mpr hc
  have hg : (c / |c|) ^ 2 = 1 := by rw [div_pow, sq_abs, div_self (pow_ne_zero 2 hc)]
  have hkg : |c| * (c / |c|) = c := mul_div_cancel₀ c hk.ne'
  simp only [Smoother.after, orthogonalPolynomialSmoother, tableInUnits_length]
  have hx : (tableInUnits c X).map (fun r => ((r.x.headD 0 : ℕ) : ℝ)) = X.map fun r => ((r.x.headD 0 : ℕ) : ℝ) := by
    unfold tableInUnits; rw [List.map_map]; rfl
  rw [hx, List.map_map]
  generalize column (X.map fun r => ((r.x.headD 0 : ℕ) : ℝ)) = xs
  refine List.map_congr_left fun r _ => ?_
  simp only [Function.comp_apply]
  unfold orthoSmootherFit
  by_cases hn : (range X.length).Nonempty
  · rw [dif_pos hn, dif_pos hn]
    have hP : ParametersUnits |c| (c / |c|) (orthoParameters X.length xs (column y) (orthoWeights (uncColumn X)))
        (orthoParameters X.length xs (column (y.map (c * ·))) (orthoWeights (uncColumn (tableInUnits c X)))) := by
      have := orthoRun_units |c| (c / |c|) hk hg X.length xs (column y) (orthoWeights (uncColumn X)) (column (y.map (c * ·)))
        (orthoWeights (uncColumn (tableInUnits c X))) (fun i => by rw [column_units, hkg])
        (fun i => by unfold orthoWeights; rw [uncColumn_units]; field_simp)
      exact ⟨fun m => (this m).2.alpha, fun m => (this m).2.beta, fun m => (this m).1, fun m => (this m).2.delta, fun m => (this m).2.chi2⟩
    have hd : (orthoPolyFit X.length xs (column (y.map (c * ·))) (uncColumn (tableInUnits c X))).2 =
        (orthoPolyFit X.length xs (column y) (uncColumn X)).2 := by
      unfold orthoPolyFit significantParameters
      dsimp only
      rw [significantLoop_units hP hg]
    have happ : ∀ m b, orthoApply (orthoPolyFit X.length xs (column (y.map (c * ·))) (uncColumn (tableInUnits c X))).1 m b =
        c * orthoApply (orthoPolyFit X.length xs (column y) (uncColumn X)).1 m b := by
      intro m b
      rw [← hkg]
      have := orthoApply_units hP m b
      rw [hkg] at *
      exact this
    dsimp only
    rw [hd]
    unfold orthoSmootherPredict
    cases r.headD .nan with
    | fin b => simp only [happ, inUnits]
    | ninf => simp only [happ, inUnits]
    | pinf => simp only [happ, inUnits]
    | nan => dsimp only; split_ifs <;> simp only [happ, inUnits]
  · rw [dif_neg hn, dif_neg hn]; rfl

/-! ### Smoothers with absolute tolerances: only the sign -/

theorem uncColumn_sign (X : List (FitRow ℝ)) : uncColumn (tableInUnits (-1) X) = uncColumn X := by
  funext i; rw [uncColumn_units]; simp

theorem column_sign (y : List ℝ) : column (y.map ((-1 : ℝ) * ·)) = fun i => -column y i := by
  funext i; rw [column_units]; ring

theorem inUnits_sign (x : ℝ) : inUnits (-1) (.fin x) = .fin (-x) := by simp [inUnits]

theorem allclose_sign (n : ℕ) (x : ℕ → ℝ) (a : ℝ) : allclose n (fun i => -x i) (-a) = allclose n x a := by
  unfold allclose
  congr 1
  funext i
  rw [abs_neg, show -x i - -a = -(x i - a) by ring, abs_neg]

theorem regMeanTarget_sign (n : ℕ) (x u : ℕ → ℝ) (p : Option ℝ) :
    regMeanTarget n (fun i => -x i) u (p.map (-·)) = -regMeanTarget n x u p := by
  unfold regMeanTarget
  cases p with
  | some p => rfl
  | none =>
    simp only [Option.map_none, mul_neg, sum_neg_distrib, neg_div]

theorem regularizeToMean_sign (n : ℕ) (x u : ℕ → ℝ) (p : Option ℝ) (i : ℕ) :
    regularizeToMean n (fun i => -x i) u (p.map (-·)) i = -regularizeToMean n x u p i := by
  have hp : (p.map (-·)).getD (-x 0) = -(p.getD (x 0)) := by cases p <;> rfl
  have hn : p.map (-·) = none ↔ p = none := by cases p <;> simp
  unfold regularizeToMean
  rw [hp, allclose_sign, regMeanTarget_sign]
  simp only [hn]
  split_ifs
  · rfl
  · rfl
  · have h : ∀ j, (-x j - -regMeanTarget n x u p) ^ 2 = (x j - regMeanTarget n x u p) ^ 2 := fun j => by ring
    simp only [h]
    ring

theorem regularizeToMeanFlt_sign (n : ℕ) (x u : ℕ → ℝ) (p : Option ℝ) (i : ℕ) :
    regularizeToMeanFlt n (fun i => -x i) u (p.map (-·)) i = inUnits (-1) (regularizeToMeanFlt n x u p i) := by
  have hp : (p.map (-·)).getD (-x 0) = -(p.getD (x 0)) := by cases p <;> rfl
  have hn : p.map (-·) = none ↔ p = none := by cases p <;> simp
  unfold regularizeToMeanFlt
  rw [hp, allclose_sign, regularizeToMean_sign]
  simp only [hn]
  split_ifs
  · rw [inUnits_sign]
  · rfl
  · rw [inUnits_sign]

theorem windowSum_sign (n : ℕ) (a : ℕ → ℝ) (i : ℕ) : windowSum n (fun j => -a j) i = -windowSum n a i := by
  unfold windowSum; rw [sum_neg_distrib]

theorem regularizeToMeanNeighbors_sign (n : ℕ) (x u : ℕ → ℝ) (i : ℕ) :
    regularizeToMeanNeighbors n (fun i => -x i) u i = inUnits (-1) (regularizeToMeanNeighbors n x u i) := by
  unfold regularizeToMeanNeighbors
  split_ifs
  · rw [inUnits_sign]
    exact congrArg Flt.fin (regularizeToMean_sign n x u none i)
  · dsimp only
    have h1 : windowSum n (fun j => (if 0 < u j then 1 / u j ^ 2 else 0) * -x j) i =
        -windowSum n (fun j => (if 0 < u j then 1 / u j ^ 2 else 0) * x j) i := by
      rw [← windowSum_sign]; simp only [mul_neg]
    rw [h1, neg_div]
    generalize windowSum n (fun j => (if 0 < u j then 1 / u j ^ 2 else 0) * x j) i /
      windowSum n (fun j => if 0 < u j then 1 / u j ^ 2 else 0) i = m
    have h : ∀ j, (-x j - -m) ^ 2 = (x j - m) ^ 2 := fun j => by ring
    simp only [h]
    generalize (if 0 < u i then 1 / u i ^ 2 else (0 : ℝ)) = wi
    split_ifs
    · rfl
    · rfl
    · rw [inUnits_sign]; congr 1; ring

theorem getD_units (v : List (Flt ℝ)) (i : ℕ) : (v.map (inUnits c)).getD i .nan = inUnits c (v.getD i .nan) := by
  rw [List.getD_eq_getElem?_getD, List.getD_eq_getElem?_getD, List.getElem?_map]
  cases v[i]? <;> rfl

theorem lookupOneDim_units (v : List (Flt ℝ)) (r : List (Flt ℝ)) :
    lookupOneDim (v.map (inUnits c)) r = inUnits c (lookupOneDim v r) := by
  unfold lookupOneDim
  cases r.headD .nan with
  | fin x =>
    simp only [List.length_map, getD_units]
    split_ifs <;> rfl
  | nan => rfl
  | pinf => rfl
  | ninf => rfl

theorem lookupMultiDim_units (ns : List ℕ) (v : List (Flt ℝ)) (r : List (Flt ℝ)) :
    lookupMultiDim ns (v.map (inUnits c)) r = inUnits c (lookupMultiDim ns v r) := by
  unfold lookupMultiDim
  rw [getD_units]
  split_ifs <;> rfl

theorem regularized_sign (X : List (FitRow ℝ)) (y : List ℝ) :
    (List.range (y.map ((-1 : ℝ) * ·)).length).map
        (regularizeToMeanFlt (y.map ((-1 : ℝ) * ·)).length (column (y.map ((-1 : ℝ) * ·))) (uncColumn (tableInUnits (-1) X)) (some 0)) =
      ((List.range y.length).map (regularizeToMeanFlt y.length (column y) (uncColumn X) (some 0))).map (inUnits (-1)) := by
  rw [List.length_map, column_sign, uncColumn_sign, List.map_map]
  refine List.map_congr_left fun i _ => ?_
  have := regularizeToMeanFlt_sign y.length (column y) (uncColumn X) (some 0) i
  simpa using this

theorem weightedMean1_sign : Homog (-1) (weightedMean1 (some 0)).after := by
  intro X y rows
  simp only [Smoother.after, weightedMean1]
  rw [regularized_sign]
  generalize (List.range y.length).map (regularizeToMeanFlt y.length (column y) (uncColumn X) (some 0)) = v
  rw [List.map_map]
  exact List.map_congr_left fun r _ => lookupOneDim_units v r

theorem weightedMeanMulti_sign : Homog (-1) (weightedMeanMultiDim (some 0)).after := by
  intro X y rows
  simp only [Smoother.after, weightedMeanMultiDim]
  rw [regularized_sign, tableInUnits_info]
  generalize (List.range y.length).map (regularizeToMeanFlt y.length (column y) (uncColumn X) (some 0)) = v
  rw [List.map_map]
  exact List.map_congr_left fun r _ => lookupMultiDim_units _ v r

theorem weightedMeanNeighbors1_sign : Homog (-1) weightedMeanNeighbors1.after := by
  intro X y rows
  simp only [Smoother.after, weightedMeanNeighbors1]
  rw [List.length_map, column_sign, uncColumn_sign, List.map_map]
  have : (List.range y.length).map (if y.length < 3 then regularizeToMeanFlt y.length (fun i => -column y i) (uncColumn X) none
        else regularizeToMeanNeighbors y.length (fun i => -column y i) (uncColumn X)) =
      ((List.range y.length).map (if y.length < 3 then regularizeToMeanFlt y.length (column y) (uncColumn X) none
        else regularizeToMeanNeighbors y.length (column y) (uncColumn X))).map (inUnits (-1)) := by
    rw [List.map_map]
    refine List.map_congr_left fun i _ => ?_
    simp only [Function.comp_apply]
    split_ifs
    · exact regularizeToMeanFlt_sign y.length (column y) (uncColumn X) none i
    · exact regularizeToMeanNeighbors_sign y.length (column y) (uncColumn X) i
  rw [this]
  exact List.map_congr_left fun r _ => lookupOneDim_units _ r

theorem linearExtrapolator_sign (e : ℝ) : Homog (-1) (linearExtrapolator e).after := by
  intro X y rows
  simp only [Smoother.after, linearExtrapolator]
  have hx : (tableInUnits (-1) X).map (fun r => ((r.x.headD 0 : ℕ) : ℝ)) = X.map fun r => ((r.x.headD 0 : ℕ) : ℝ) := by
    unfold tableInUnits; rw [List.map_map]; rfl
  rw [hx, uncColumn_sign, column_sign, tableInUnits_length, List.map_map]
  generalize column (X.map fun r => ((r.x.headD 0 : ℕ) : ℝ)) = xs
  refine List.map_congr_left fun r _ => ?_
  simp only [Function.comp_apply]
  split_ifs with h
  · rfl
  · have hl : linearRegression X.length xs (fun i => -column y i) (fun i => 1 / (uncColumn X i ^ 2 + e)) =
        (-(linearRegression X.length xs (column y) fun i => 1 / (uncColumn X i ^ 2 + e)).1,
          -(linearRegression X.length xs (column y) fun i => 1 / (uncColumn X i ^ 2 + e)).2) := by
      unfold linearRegression
      simp only [mul_neg, sum_neg_distrib]
      ext
      · dsimp only; ring
      · dsimp only; ring
    rw [hl]
    generalize linearRegression X.length xs (column y) (fun i => 1 / (uncColumn X i ^ 2 + e)) = st
    cases r.headD .nan with
    | fin b => simp only [inUnits_sign]; congr 1; ring
    | nan => rfl
    | pinf =>
      dsimp only
      rcases lt_trichotomy st.2 0 with h | h | h
      · rw [if_pos (by linarith), if_neg (by linarith), if_pos h]; simp [inUnits]
      · simp [h, inUnits]
      · rw [if_neg (by linarith), if_pos (by linarith), if_pos h]; simp [inUnits]
    | ninf =>
      dsimp only
      rcases lt_trichotomy st.2 0 with h | h | h
      · rw [if_pos (by linarith), if_neg (by linarith), if_pos h]; simp [inUnits]
      · simp [h, inUnits]
      · rw [if_neg (by linarith), if_pos (by linarith), if_pos h]; simp [inUnits]

/-! ### All kinds of smoothers -/

theorem getD_map_units (o : Option (List (Flt ℝ))) :
    (o.map fun l => l.map (inUnits c)).getD [] = (o.getD []).map (inUnits c) := by cases o <;> rfl

theorem kindAfter_units (O : OpenSmoothers) (hc : c ≠ 0) : ∀ k, followsUnits k = true → Homog c (kindAfter O k)
  | .binValuesOne, _ => by rw [kindAfter]; exact binValues1_units
  | .binValuesMany, _ => by rw [kindAfter]; exact binValuesMulti_units
  | .orthogonalPolynomial, _ => by rw [kindAfter]; exact orthogonalPolynomial_units hc
  | .groupByCB s _, h => by
    rw [kindAfter]; exact groupBy_units (kindAfter_units O hc s (by simpa [followsUnits] using h)) _ _
  | .normalization s, h => by
    rw [kindAfter]
    exact fun X y rows => normalization_units (kindAfter_units O hc s (by simpa [followsUnits] using h)) X y rows
  | .regressionType s t, h => by
    rw [kindAfter]
    intro X y rows
    beta_reduce
    rw [regType_units (kindAfter_units O hc s (by simpa [followsUnits] using h)), getD_map_units]
  | .normalizationRegressionType s t, h => by
    rw [kindAfter]
    intro X y rows
    beta_reduce
    rw [normRegType_units (kindAfter_units O hc s (by simpa [followsUnits] using h)), getD_map_units]
  | .explicit _ _, h => by simp [followsUnits] at h
  | .weightedMean, h => by simp [followsUnits] at h
  | .weightedMeanNeighbors, h => by simp [followsUnits] at h
  | .linearExtrapolator, h => by simp [followsUnits] at h
  | .seasonal _, h => by simp [followsUnits] at h
  | .isotonic _, h => by simp [followsUnits] at h
  | .weightedMeanMulti, h => by simp [followsUnits] at h

theorem kindAfter_sign (O : OpenSmoothers) : ∀ k, followsSign k = true → Homog (-1) (kindAfter O k)
  | .binValuesOne, _ => by rw [kindAfter]; exact binValues1_units
  | .binValuesMany, _ => by rw [kindAfter]; exact binValuesMulti_units
  | .orthogonalPolynomial, _ => by rw [kindAfter]; exact orthogonalPolynomial_units (by norm_num)
  | .weightedMean, _ => by rw [kindAfter]; exact weightedMean1_sign
  | .weightedMeanNeighbors, _ => by rw [kindAfter]; exact weightedMeanNeighbors1_sign
  | .weightedMeanMulti, _ => by rw [kindAfter]; exact weightedMeanMulti_sign
  | .linearExtrapolator, _ => by rw [kindAfter]; exact linearExtrapolator_sign _
  | .groupByCB s _, h => by
    rw [kindAfter]; exact groupBy_units (kindAfter_sign O s (by simpa [followsSign] using h)) _ _
  | .normalization s, h => by
    rw [kindAfter]
    exact fun X y rows => normalization_units (kindAfter_sign O s (by simpa [followsSign] using h)) X y rows
  | .regressionType s t, h => by
    rw [kindAfter]
    intro X y rows
    beta_reduce
    rw [regType_units (kindAfter_sign O s (by simpa [followsSign] using h)), getD_map_units]
  | .normalizationRegressionType s t, h => by
    rw [kindAfter]
    intro X y rows
    beta_reduce
    rw [normRegType_units (kindAfter_sign O s (by simpa [followsSign] using h)), getD_map_units]
  | .explicit _ _, h => by simp [followsSign] at h
  | .seasonal _, h => by simp [followsSign] at h
  | .isotonic _, h => by simp [followsSign] at h

/-- The prediction of the smoother of a feature. -/
theorem kindPredict_units (O : OpenSmoothers) (P : SmootherKind → Prop) (hP : ∀ k, P k → Homog c (kindAfter O k))
    (h1 : ∀ s, P (.normalization s) → P s) (h2 : ∀ s t, P (.regressionType s t) → P s)
    (h3 : ∀ s t, P (.normalizationRegressionType s t) → P s) (k : SmootherKind) (hk : P k) (X : List (FitRow ℝ)) (y : List ℝ)
    (rows : List (List (Flt ℝ))) :
    kindPredict (packageSmoothers O) k (tableInUnits c X) (y.map (c * ·)) rows =
      (kindPredict (packageSmoothers O) k X y rows).map fun l => l.map (inUnits c) := by
  cases k with
  | normalization s =>
    simp only [kindPredict, packageSmoothers, Option.map_some]
    rw [normalization_units (hP s (h1 s hk))]
  | regressionType s t => exact regType_units (hP s (h2 s t hk)) t X y rows
  | normalizationRegressionType s t => exact normRegType_units (hP s (h3 s t hk)) t X y rows
  | _ =>
    simp only [kindPredict, packageSmoothers, smootherOf, Option.map_some]
    rw [hP _ hk]

theorem smootherTable_units (ns : List ℕ) (w u : ℕ → ℝ) :
    smootherTable ns w (fun i => |c| * u i) = tableInUnits c (smootherTable ns w u) := by
  unfold smootherTable tableInUnits; rw [List.map_map]; rfl

theorem smoothAtCentres_units (O : OpenSmoothers) (P : SmootherKind → Prop) (hP : ∀ k, P k → Homog c (kindAfter O k))
    (h1 : ∀ s, P (.normalization s) → P s) (h2 : ∀ s t, P (.regressionType s t) → P s)
    (h3 : ∀ s t, P (.normalizationRegressionType s t) → P s) (k : SmootherKind) (hk : P k) (ns : List ℕ) (w u v : ℕ → ℝ) (b : ℕ) :
    smoothAtCentres (packageSmoothers O) k ns w (fun i => |c| * u i) (fun i => c * v i) b =
      (smoothAtCentres (packageSmoothers O) k ns w u v b).map (c * ·) := by
  unfold smoothAtCentres
  have hv : (List.range ns.prod).map (fun i => c * v i) = ((List.range ns.prod).map v).map (c * ·) := by rw [List.map_map]; rfl
  rw [smootherTable_units, hv, kindPredict_units O P hP h1 h2 h3 k hk]
  cases kindPredict (packageSmoothers O) k (smootherTable ns w u) ((List.range ns.prod).map v)
      ((arangeMulti ns).map fun c => c.map fun (i : ℕ) => Flt.fin (i : ℝ)) with
  | none => rfl
  | some l =>
    simp only [Option.map_some, List.getElem?_map]
    cases l[b]? with
    | none => rfl
    | some x => cases x with
      | fin x => rfl
      | nan => rfl
      | pinf => by_cases h : 0 < c <;> simp [inUnits, h]
      | ninf => by_cases h : 0 < c <;> simp [inUnits, h]

/-- **C118, which smoothers.** Bin values, orthogonal polynomials and what is made of these by grouping, normalization and
regression types follow every change of units. -/
theorem C118_smoothers_units (O : OpenSmoothers) (S : Setup (List (FitRow ℝ) × List ℝ)) (D : TrainSet) (hc : c ≠ 0)
    (hS : S.base = packageSmoothers O) (hf : ∀ f ∈ S.features, followsUnits f.2 = true) : HomogeneousSmoothers S D c := by
  intro f hfm u v b
  rw [hS]
  exact smoothAtCentres_units O (fun k => followsUnits k = true) (fun k => kindAfter_units O hc k) (fun s h => by simpa [followsUnits] using h)
    (fun s t h => by simpa [followsUnits] using h) (fun s t h => by simpa [followsUnits] using h) f.2 (hf f hfm) _ _ _ _ _

/-- **C118, which smoothers.** These, the weighted means and the linear extrapolator follow a change of the sign. -/
theorem C118_smoothers_mirror (O : OpenSmoothers) (S : Setup (List (FitRow ℝ) × List ℝ)) (D : TrainSet)
    (hS : S.base = packageSmoothers O) (hf : ∀ f ∈ S.features, followsSign f.2 = true) : HomogeneousSmoothers S D (-1) := by
  intro f hfm u v b
  rw [hS]
  exact smoothAtCentres_units O (fun k => followsSign k = true) (fun k => kindAfter_sign O k) (fun s h => by simpa [followsSign] using h)
    (fun s t h => by simpa [followsSign] using h) (fun s t h => by simpa [followsSign] using h) f.2 (hf f hfm) _ _ _ _ _

end
end CB
