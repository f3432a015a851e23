import Verif.Props.EcdfArray
import Verif.Props.ArrayBinningExample
import Verif.Props.Ecdf

/-!
# Witness and counterexample for C142
-/

set_option autoImplicit false

namespace CB

/-- The training array: the categories 10 and 30. -/
def twoCategories : DataFrame := oneColumn (fun s => if s = 0 then 10 else 30) 2

/-- One array, with one row. -/
def oneArray (t : ElementType) (v : ℝ) : ArrayMemory := ⟨fun _ => ⟨t, oneColumn (fun _ => v) 1⟩, 1⟩

/-- The transformation succeeds and the entries of the array that is returned. -/
theorem twoCategories_entries (m : ArrayMemory) (a : ℕ) (hm : (m.arrays a).frame.columns = ["0"]) (hn : (m.arrays a).frame.n = 1) (v : ℝ)
    (hv : (m.arrays a).frame.X 0 "0" = .fin v) (hv' : v = 10 ∨ v = 1 / 2) :
    ∃ a', ((arrayBinner.fit twoCategories).1.transformEcdf m a).2 = .ok a' ∧
      (((arrayBinner.fit twoCategories).1.transformEcdf m a).1.arrays a').frame.columns = ["0"] ∧
      (((arrayBinner.fit twoCategories).1.transformEcdf m a).1.arrays a').frame.n = 1 ∧
      (((arrayBinner.fit twoCategories).1.transformEcdf m a).1.arrays a').frame.X 0 "0" = if v = 10 then .fin (1 / 2) else .nan := by
  have hpos : PosWeights (twoCategories.X.column twoCategories.n "0") (List.replicate 2 1) :=
    PosWeights.of_pos _ _ (by rw [column_length]; rfl) (fun w hw => by rw [List.eq_of_mem_replicate hw]; exact one_pos)
  have hcol : twoCategories.X.column twoCategories.n "0" = [some 10, some 30] := by
    change (List.range 2).map (fun s => some (if s = 0 then (10 : ℝ) else 30)) = _
    simp [List.range_succ]
  obtain ⟨e, table, r1, r2, r3, r4, -⟩ := C08_discrete (twoCategories.X.column twoCategories.n "0") (List.replicate 2 1) hpos
    100 (1 / 1000) (1 / 100) (by norm_num) (by norm_num) ⟨10, by rw [hcol]; simp⟩
  have hfit := arrayBinner_fit (fun s => if s = 0 then 10 else 30) 2 (by norm_num)
  obtain ⟨L, h1, h2, -⟩ := fit_spec arrayBinner twoCategories
  obtain ⟨-, -, w, hw, hL, hLc⟩ := h2 hfit
  have hwl : List.replicate 2 1 = w := by
    have : Except.ok (List.replicate 2 (1 : ℝ)) = Except.ok (ε := BinErr) w := hw
    simpa using this
  subst hwl
  have hLc' : L.map Prod.fst = ["0"] := hLc.trans (arrayBinner_columns _ _)
  obtain ⟨f, rfl⟩ : ∃ f, L = [("0", f)] := by
    match L, hLc' with
    | [(c, f)], h => simp at h; exact ⟨f, by rw [h]⟩
  have hd : (Flags.isSet Flags.IS_UNORDERED Flags.IS_ORDERED || Flags.isSet Flags.IS_UNORDERED Flags.IS_UNORDERED) = true := by decide
  have hcont : Flags.isSet Flags.IS_UNORDERED Flags.IS_CONTINUOUS = false := by decide
  have hlk : arrayBinner.cfg.props.lookup "0" = some Flags.IS_UNORDERED := rfl
  have hf : f = ⟨e, some table⟩ := by
    obtain ⟨fp, hfp, -, hfc⟩ := fitOne_ok arrayBinner twoCategories _ "0" f (hL ("0", f) (by simp))
    rw [hlk, Option.some.injEq] at hfp
    subst hfp
    rw [hd] at hfc
    have hfc' : fitColumn true (twoCategories.X.column twoCategories.n "0") (List.replicate 2 1) 100 (1 / 1000) (1 / 100) = .ok f := hfc
    rw [hfc', Except.ok.injEq] at r1
    exact r1
  have hvalue : ecdfValue false e (some table) (.fin v) = .ok (if v = 10 then .fin (1 / 2) else .nan) := by
    rcases hv' with rfl | rfl
    · rw [r3 10 (by rw [hcol]; simp), hcol, if_pos rfl]
      norm_num [Spec.samples, Spec.weightShare, List.replicate, List.filter]
    · rw [r4 (1 / 2) ?_, if_neg (by norm_num)]
      rw [hcol]
      intro t ht
      have he := r2 10 30 (by rw [hcol]; simp) (by rw [hcol]; simp) (by norm_num)
      have he' : e ≤ 1 / 50 := he.trans (by norm_num [abs_of_neg])
      have : t = 10 ∨ t = 30 := by simpa using ht
      rcases this with rfl | rfl
      · exact lt_of_le_of_lt he' (by norm_num [abs_of_pos])
      · exact lt_of_le_of_lt he' (by norm_num [abs_of_pos])
  have hok : ∃ a', ((arrayBinner.fit twoCategories).1.transformEcdf m a).2 = .ok a' := by
    rw [h1]
    unfold BinnerObject.transformEcdf
    have hcheck : ({ arrayBinner with bins := some [("0", f)] } : BinnerObject).checkInput (m.arrays a).frame = .ok [("0", f)] := by
      apply checkInput_ok _ _ _ rfl
      rw [hm]
      have := arrayBinner_columns (fun _ => 0) 1
      rw [show (oneColumn (fun _ => 0) 1).columns = ["0"] from rfl] at this
      change (Spec.binColumns arrayBinner.cfg.props arrayBinner.weightColumn ["0"]).length = _
      rw [this]
      rfl
    rw [hcheck]
    dsimp only
    rw [if_neg (by simp [hn, hm])]
    have hfr : ((m.asFloat a).1.arrays (m.asFloat a).2).frame = (m.arrays a).frame := by
      unfold ArrayMemory.asFloat
      cases (m.arrays a).type with
      | float => rfl
      | int lo hi => simp
    rw [BinnerObject.ecdfLoop]
    rw [show ({ arrayBinner with bins := some [("0", f)] } : BinnerObject).cfg.props.lookup "0" = some Flags.IS_UNORDERED from rfl]
    dsimp only
    rw [hfr, hm, hn, if_pos (by simp), if_pos (by
      intro s hs
      have hs : s = 0 := by omega
      subst hs
      rw [hcont, hv, hf]
      exact ⟨_, hvalue⟩)]
    exact ⟨_, rfl⟩
  obtain ⟨a', hok⟩ := hok
  obtain ⟨g1, g2, g3⟩ := C142_result arrayBinner twoCategories (by simp [twoCategories, oneColumn])
    (fun c hc => by cases hc) hfit m a a' (by omega) (by simp [hm]) hok
  refine ⟨a', hok, by rw [g2, hm], by rw [g1, hn], ?_⟩
  obtain ⟨fp, w, bins, k1, k2, k3, k4⟩ := (g3 0 (by rw [g1, hn]; exact one_pos) "0").2 (by
    rw [show Spec.binColumns arrayBinner.cfg.props arrayBinner.weightColumn twoCategories.columns = ["0"] from arrayBinner_columns _ _]
    simp)
  rw [hlk, Option.some.injEq] at k1
  subst k1
  rw [hd] at k3
  have hw2 : List.replicate 2 1 = w := by
    rw [isWeights_iff arrayBinner _ (fun c hc => by cases hc)] at k2
    have : Except.ok (List.replicate 2 (1 : ℝ)) = Except.ok (ε := BinErr) w := k2
    simpa using this
  subst hw2
  have k3' : fitColumn true (twoCategories.X.column twoCategories.n "0") (List.replicate 2 1) 100 (1 / 1000) (1 / 100) = .ok bins := k3
  rw [k3', Except.ok.injEq] at r1
  subst r1
  rw [hcont, hv, hvalue, Except.ok.injEq] at k4
  exact k4.symm

/-- **C142, counterexample.** An array of floats with the category 10: after the call it holds the probability 1/2, and transforming it again
gives NaN. -/
theorem C142_counterexample :
    let m := oneArray .float 10
    let m' := ((arrayBinner.fit twoCategories).1.transformEcdf m 0).1
    (m.arrays 0).frame.X 0 "0" = .fin 10 ∧ (m'.arrays 0).frame.X 0 "0" = .fin (1 / 2) ∧
    ((((arrayBinner.fit twoCategories).1.transformEcdf m' 0).1).arrays 0).frame.X 0 "0" = .nan := by
  intro m m'
  obtain ⟨a', h1, h2, h3, h4⟩ := twoCategories_entries m 0 rfl rfl 10 rfl (.inl rfl)
  have := C142_overwritten _ m 0 a' rfl h1
  subst this
  rw [if_pos rfl] at h4
  have hn : (m'.arrays 0).frame.X 0 "0" = .fin (1 / 2) := h4
  obtain ⟨a', k1, k2, k3, k4⟩ := twoCategories_entries m' 0 h2 h3 (1 / 2) hn (.inr rfl)
  have ht : (m'.arrays 0).type = .float := by
    have hgen : ∀ (o : BinnerObject) (a : ℕ) (L : List (String × ColFit ℝ)) (m : ArrayMemory), ((o.ecdfLoop a L m).1.arrays a).type =
        (m.arrays a).type := by
      intro o a L
      induction L with
      | nil => intro m; rfl
      | cons p L ih =>
        intro m
        obtain ⟨c, f⟩ := p
        rw [BinnerObject.ecdfLoop]
        cases o.cfg.props.lookup c with
        | none => exact ih m
        | some fp =>
          dsimp only
          split_ifs
          · rw [ih]; simp [ArrayMemory.setColumn]
          · rfl
          · rfl
    change ((((arrayBinner.fit twoCategories).1.transformEcdf m 0).1).arrays 0).type = .float
    unfold BinnerObject.transformEcdf
    cases (arrayBinner.fit twoCategories).1.checkInput (m.arrays 0).frame with
    | error e => rfl
    | ok bins =>
      dsimp only
      split_ifs
      · rfl
      · exact hgen _ 0 _ m
  have := C142_overwritten _ m' 0 a' ht k1
  subst this
  rw [if_neg (by norm_num)] at k4
  exact ⟨rfl, hn, k4⟩

/-- The hypotheses of `C142_unchanged_partial` and `C142_result` are met: the same entry in an array of integers, which is not changed. -/
example : ∃ a', ((arrayBinner.fit twoCategories).1.transformEcdf (oneArray (.int 0 255) 10) 0).2 = .ok a' ∧
    (((arrayBinner.fit twoCategories).1.transformEcdf (oneArray (.int 0 255) 10) 0).1.arrays a').frame.X 0 "0" = .fin (1 / 2) ∧
    (((arrayBinner.fit twoCategories).1.transformEcdf (oneArray (.int 0 255) 10) 0).1.arrays 0).frame.X 0 "0" = .fin 10 := by
  obtain ⟨a', h1, -, -, h4⟩ := twoCategories_entries (oneArray (.int 0 255) 10) 0 rfl rfl 10 rfl (.inl rfl)
  rw [if_pos rfl] at h4
  refine ⟨a', h1, h4, ?_⟩
  rw [C142_unchanged_partial _ _ 0 one_pos 0 255 rfl]
  rfl

end CB
