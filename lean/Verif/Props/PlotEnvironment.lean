import Verif.Model.PlotEnvironment
import Mathlib.Tactic.Ring
import Mathlib.Tactic.Linarith

/-!
# C167: plots leave the plotting environment as it was
-/

set_option autoImplicit false
set_option linter.unusedSectionVars false

namespace CB

/-- **C167**, any plot function with the style of the package, whatever it does, also to the settings, and also if it raises: afterwards all
settings but the backend are what they were, and the call raises if and only if the function does. -/
theorem C167_style_restored (a : PlotAct) (w : PlotWorld) :
    (∀ k ≠ "backend", (nbpyStyled a w).1.settings k = w.settings k) ∧
    (nbpyStyled a w).2 = (a { w with settings := updateSettings nbpyStyle w.settings }).2 := by
  refine ⟨fun k hk => ?_, rfl⟩
  unfold nbpyStyled rcContext
  dsimp only
  rw [if_neg hk]

theorem style_backend (s : PlotSettings) : updateSettings nbpyStyle s "backend" = s "backend" := by
  unfold updateSettings nbpyStyle
  have : List.lookup "backend" [("grid.color", "#000000"), ("grid.alpha", "0.1"), ("grid.linestyle", "-"), ("lines.markersize", "3.0"),
      ("legend.numpoints", "1"), ("font.size", "20"), ("legend.fontsize", "small"), ("axes.labelsize", "small"),
      ("axes.titlesize", "medium"), ("xtick.labelsize", "small"), ("ytick.labelsize", "small"),
      ("image.interpolation", "antialiased")] = none := by
    decide
  rw [this]
  rfl

/-- Drawing with the style. -/
theorem styled_draw (what : PlotSubject) (r : Bool) (w : PlotWorld) :
    nbpyStyled (drawOn what r) w =
      if r then (w, true)
      else ({ w with figures := (w.figures.headD [] ++ [(what, updateSettings nbpyStyle w.settings)]) :: w.figures.tail }, false) := by
  have hs : (fun k => if k = "backend" then updateSettings nbpyStyle w.settings k else w.settings k) = w.settings := by
    funext k
    split_ifs with h
    · subst h
      exact style_backend w.settings
    · rfl
  unfold nbpyStyled rcContext drawOn
  cases r
  · simp only [Bool.false_eq_true, if_false]
    rw [hs]
  · simp only [if_true]
    rw [hs]

/-- A page that is drawn. -/
theorem page_plain (what : PlotSubject) (r : Bool) (w : PlotWorld) :
    analysisPage (drawOn what r) w =
      if r then ({ w with figures := [] :: w.figures }, true)
      else ({ w with figures := [(what, w.settings)] :: w.figures, file := w.file.map (· ++ [[(what, w.settings)]]) }, false) := by
  cases r <;> simp [analysisPage, PlotAct.andThen, newFigure, drawOn, savePage]

theorem page_styled (what : PlotSubject) (r : Bool) (w : PlotWorld) :
    analysisPage (nbpyStyled (drawOn what r)) w =
      if r then ({ w with figures := [] :: w.figures }, true)
      else ({ w with figures := [(what, updateSettings nbpyStyle w.settings)] :: w.figures,
                     file := w.file.map (· ++ [[(what, updateSettings nbpyStyle w.settings)]]) }, false) := by
  cases r <;> simp [analysisPage, PlotAct.andThen, newFigure, savePage, styled_draw]

/-- The pages of features `i`, `i + 1`, … -/
def featureContents (s : PlotSettings) (i n : ℕ) : List PlotContent := (List.range n).map fun k => [(.feature (i + k), s)]

theorem featureContents_succ (s : PlotSettings) (i n : ℕ) :
    featureContents s i (n + 1) = [(.feature i, s)] :: featureContents s (i + 1) n := by
  unfold featureContents
  rw [List.range_succ_eq_map, List.map_cons, List.map_map, Nat.add_zero]
  congr 1
  refine List.map_congr_left fun k _ => ?_
  simp only [Function.comp]
  rw [show i + (k + 1) = i + 1 + k by omega]

theorem featurePages_complete (rs : List Bool) (i : ℕ) (w : PlotWorld) (h : ∀ r ∈ rs, r = false) :
    featurePages i rs w = ({ w with
      figures := (featureContents w.settings i rs.length).reverse ++ w.figures
      file := w.file.map (· ++ featureContents w.settings i rs.length) }, false) := by
  induction rs generalizing i w with
  | nil => simp [featurePages, PlotAct.skip, featureContents]
  | cons r rs ih =>
    have hr := h r (by simp)
    subst hr
    simp only [featurePages, PlotAct.andThen]
    rw [page_plain]
    simp only [Bool.false_eq_true, if_false]
    rw [ih _ _ fun r hr => h r (List.mem_cons_of_mem _ hr), List.length_cons, featureContents_succ]
    simp [Option.map_map, Function.comp_def]

/-- What any part of an analysis does: it keeps the settings, and leaves the figures that were open. -/
def Tame (a : PlotAct) : Prop := ∀ w, (a w).1.settings = w.settings ∧ w.figures <:+ (a w).1.figures

theorem Tame.andThen {a b : PlotAct} (ha : Tame a) (hb : Tame b) : Tame (a.andThen b) := by
  intro w
  unfold PlotAct.andThen
  split_ifs
  · exact ha w
  · exact ⟨(hb _).1.trans (ha w).1, (ha w).2.trans (hb _).2⟩

theorem tame_skip : Tame PlotAct.skip := fun _ => ⟨rfl, List.suffix_refl _⟩

theorem tame_plain (what : PlotSubject) (r : Bool) : Tame (analysisPage (drawOn what r)) := by
  intro w
  rw [page_plain]
  split_ifs <;> exact ⟨rfl, List.suffix_cons _ _⟩

theorem tame_styled (what : PlotSubject) (r : Bool) : Tame (analysisPage (nbpyStyled (drawOn what r))) := by
  intro w
  rw [page_styled]
  split_ifs <;> exact ⟨rfl, List.suffix_cons _ _⟩

theorem tame_features (rs : List Bool) (i : ℕ) : Tame (featurePages i rs) := by
  induction rs generalizing i with
  | nil => exact tame_skip
  | cons r rs ih => exact (tame_plain _ r).andThen (ih (i + 1))

/-- The part inside of the file. -/
def analysisBody (fitted width rd : Bool) (rs : List Bool) (rl : Bool) : PlotAct :=
  (checkObserver fitted).andThen
    ((if width then PlotAct.skip else analysisPage (nbpyStyled (drawOn .diagonal rd))).andThen
      ((featurePages 0 rs).andThen (analysisPage (nbpyStyled (drawOn .loss rl)))))

theorem tame_body (fitted width rd : Bool) (rs : List Bool) (rl : Bool) : Tame (analysisBody fitted width rd rs rl) := by
  unfold analysisBody
  refine Tame.andThen (fun _ => ⟨rfl, List.suffix_refl _⟩) (Tame.andThen ?_ ((tame_features rs 0).andThen (tame_styled _ rl)))
  split_ifs
  · exact tame_skip
  · exact tame_styled _ rd

/-- **C167 (partial)**, `plot_analysis` for any number of features, whatever raises: the settings are what they were and no file is open.
Missing for the full claim: the figures (`C167_figures_partial`, `C167_figures_counterexample`). -/
theorem C167_analysis_partial (fitted width rd : Bool) (rs : List Bool) (rl : Bool) (w : PlotWorld) :
    (plotAnalysis fitted width rd rs rl w).1.settings = w.settings ∧ (plotAnalysis fitted width rd rs rl w).1.file = none := by
  have ht := tame_body fitted width rd rs rl { w with file := some [] }
  change (PlotAct.andThen (closingFile (analysisBody fitted width rd rs rl)) closeFigures w).1.settings = _ ∧
    (PlotAct.andThen (closingFile (analysisBody fitted width rd rs rl)) closeFigures w).1.file = none
  unfold PlotAct.andThen closingFile closeFigures
  dsimp only
  split_ifs
  · exact ⟨ht.1, rfl⟩
  · exact ⟨ht.1, rfl⟩

/-- **C167**, figures: an analysis that completes leaves none open; one that raises leaves the ones open that were there. -/
theorem C167_figures_partial (fitted width rd : Bool) (rs : List Bool) (rl : Bool) (w : PlotWorld) :
    ((plotAnalysis fitted width rd rs rl w).2 = false → (plotAnalysis fitted width rd rs rl w).1.figures = []) ∧
    ((plotAnalysis fitted width rd rs rl w).2 = true → w.figures <:+ (plotAnalysis fitted width rd rs rl w).1.figures) := by
  have ht := tame_body fitted width rd rs rl { w with file := some [] }
  change ((PlotAct.andThen (closingFile (analysisBody fitted width rd rs rl)) closeFigures w).2 = false →
      (PlotAct.andThen (closingFile (analysisBody fitted width rd rs rl)) closeFigures w).1.figures = []) ∧
    ((PlotAct.andThen (closingFile (analysisBody fitted width rd rs rl)) closeFigures w).2 = true →
      w.figures <:+ (PlotAct.andThen (closingFile (analysisBody fitted width rd rs rl)) closeFigures w).1.figures)
  unfold PlotAct.andThen closingFile closeFigures
  dsimp only
  split_ifs with h
  · exact ⟨fun h' => (by rw [h] at h'; cases h'), fun _ => ht.2⟩
  · exact ⟨fun _ => rfl, fun h' => by cases h'⟩

theorem closed_completed (a : PlotAct) (w w' : PlotWorld) (pages : List PlotContent)
    (h : a { w with file := some [] } = (w', false)) (hp : w'.file = some pages) :
    (PlotAct.andThen (closingFile a) closeFigures w).2 = false ∧ (PlotAct.andThen (closingFile a) closeFigures w).1.written = pages := by
  unfold PlotAct.andThen closingFile closeFigures
  dsimp only
  rw [h]
  simp [hp]

/-- **C167**, pages: if the observer is filled and nothing raises, the analysis completes, and the file has the pages: predictions against
targets with the style of the package (not for the estimator of dispersions), one page for every feature, in their order, with the settings
of the user, and the losses with the style of the package. -/
theorem C167_pages (width : Bool) (rs : List Bool) (h : ∀ r ∈ rs, r = false) (w : PlotWorld) :
    (plotAnalysis true width false rs false w).2 = false ∧
    (plotAnalysis true width false rs false w).1.written =
      (if width then [] else [[(.diagonal, updateSettings nbpyStyle w.settings)]]) ++
        ((List.range rs.length).map fun i => [(.feature i, w.settings)]) ++ [[(.loss, updateSettings nbpyStyle w.settings)]] := by
  have hf : (List.range rs.length).map (fun i => [(PlotSubject.feature i, w.settings)]) = featureContents w.settings 0 rs.length := by
    unfold featureContents
    simp
  rw [hf]
  change (PlotAct.andThen (closingFile (analysisBody true width false rs false)) closeFigures w).2 = false ∧
    (PlotAct.andThen (closingFile (analysisBody true width false rs false)) closeFigures w).1.written = _
  cases width
  · refine closed_completed _ w { w with
        figures := [(.loss, updateSettings nbpyStyle w.settings)] :: ((featureContents w.settings 0 rs.length).reverse ++
          [(.diagonal, updateSettings nbpyStyle w.settings)] :: w.figures)
        file := some (([[(.diagonal, updateSettings nbpyStyle w.settings)]] ++ featureContents w.settings 0 rs.length) ++
          [[(.loss, updateSettings nbpyStyle w.settings)]]) } _ ?_ ?_
    · simp [analysisBody, PlotAct.andThen, checkObserver, page_styled, featurePages_complete rs 0 _ h]
    · simp
  · refine closed_completed _ w { w with
        figures := [(.loss, updateSettings nbpyStyle w.settings)] :: ((featureContents w.settings 0 rs.length).reverse ++ w.figures)
        file := some (featureContents w.settings 0 rs.length ++ [[(.loss, updateSettings nbpyStyle w.settings)]]) } _ ?_ ?_
    · simp [analysisBody, PlotAct.andThen, checkObserver, PlotAct.skip, page_styled, featurePages_complete rs 0 _ h]
    · simp

theorem featurePages_raises (rs : List Bool) (i : ℕ) (w : PlotWorld) : (featurePages i rs w).2 = rs.any id := by
  induction rs generalizing i w with
  | nil => rfl
  | cons r rs ih =>
    simp only [featurePages, PlotAct.andThen]
    rw [page_plain]
    cases r
    · simp only [Bool.false_eq_true, if_false]
      rw [ih]
      simp
    · simp

/-- **C167**, an analysis raises if and only if the observer is not filled or one of the plots raises. -/
theorem C167_raises (fitted width rd : Bool) (rs : List Bool) (rl : Bool) (w : PlotWorld) :
    (plotAnalysis fitted width rd rs rl w).2 = (!fitted || (!width && rd) || rs.any id || rl) := by
  have hb : (analysisBody fitted width rd rs rl { w with file := some [] }).2 = (!fitted || (!width && rd) || rs.any id || rl) := by
    cases fitted
    · simp [analysisBody, PlotAct.andThen, checkObserver]
    · cases width <;> cases rd <;>
        simp [analysisBody, PlotAct.andThen, checkObserver, PlotAct.skip, page_styled, featurePages_raises] <;>
        (split_ifs with h <;> cases rl <;> simp_all [featurePages_raises])
  rw [← hb]
  change (PlotAct.andThen (closingFile (analysisBody fitted width rd rs rl)) closeFigures w).2 = _
  unfold PlotAct.andThen closingFile closeFigures
  dsimp only
  split_ifs with h
  · rfl
  · simpa using h

/-- **C167**, what does not hold: a figure the user has open is closed by an analysis that completes, and an analysis that raises leaves a
figure open that was not there. -/
theorem C167_figures_counterexample (s : PlotSettings) :
    (plotAnalysis true false false [false] false ⟨s, [[]], none, []⟩).1.figures = [] ∧
    (plotAnalysis true true false [true] false ⟨s, [], none, []⟩).1.figures = [[]] := by
  refine ⟨(C167_figures_partial true false false [false] false _).1 (C167_pages false [false] (by simp) _).1, ?_⟩
  simp [plotAnalysis, PlotAct.andThen, checkObserver, PlotAct.skip, closingFile, featurePages, page_plain]

theorem mapM_some_map {α β : Type} (f : α → Option β) (g : α → β) (l : List α) (h : ∀ x ∈ l, f x = some (g x)) :
    l.mapM f = some (l.map g) := by
  induction l with
  | nil => rfl
  | cons x l ih =>
    rw [List.mapM_cons, h x (by simp), ih fun y hy => h y (List.mem_cons_of_mem x hy)]
    rfl

/-- **C167**, `plot_factors`: with at least one feature and column, every feature has a cell of the grid, no two have the same, they are filled
row by row, and no row is empty. Without a feature it raises. -/
theorem C167_grid (n perRow : ℕ) (hp : 0 < perRow) :
    (0 < n → ∃ rows, factorCells n perRow = some (rows, (List.range n).map fun i => (i / perRow, i % perRow)) ∧
      ((List.range n).map fun i => (i / perRow, i % perRow)).Nodup ∧
      (∀ row < rows, ∃ i < n, i / perRow = row) ∧ ∀ i < n, i / perRow < rows ∧ i % perRow < perRow) ∧
    (n = 0 → factorCells n perRow = none) := by
  have hle : n ≤ (n ⌈/⌉ perRow) * perRow := by
    rw [mul_comm]
    exact (ceilDiv_le_iff_le_mul hp).mp le_rfl
  refine ⟨fun hn => ⟨n ⌈/⌉ perRow, ?_, ?_, ?_, ?_⟩, ?_⟩
  · unfold factorCells
    have hr : n ⌈/⌉ perRow ≠ 0 := by
      intro h
      rw [h] at hle
      omega
    rw [if_neg (by omega)]
    dsimp only
    rw [if_neg hr, mapM_some_map _ (fun i => (i / perRow, i % perRow)) _ fun i hi => ?_]
    · rfl
    · rw [List.mem_range] at hi
      rw [if_pos (by omega)]
  · refine List.Nodup.map_on ?_ List.nodup_range
    intro i _ j _ h
    rw [Prod.mk.injEq] at h
    rw [← Nat.div_add_mod i perRow, ← Nat.div_add_mod j perRow, h.1, h.2]
  · intro row hrow
    refine ⟨row * perRow, ?_, Nat.mul_div_cancel _ hp⟩
    by_contra hc
    have : n ⌈/⌉ perRow ≤ row := by
      rw [ceilDiv_le_iff_le_mul hp, mul_comm]
      omega
    omega
  · intro i hi
    exact ⟨(Nat.div_lt_iff_lt_mul hp).mpr (by omega), Nat.mod_lt i hp⟩
  · rintro rfl
    unfold factorCells
    rw [if_neg (by omega)]
    dsimp only
    rw [if_pos (by rw [Nat.ceilDiv_eq_add_pred_div]; exact Nat.div_eq_of_lt (by omega))]

/-- Witness: five features in rows of two, and the pages of an analysis with two features. -/
example : factorCells 5 2 = some (3, [(0, 0), (0, 1), (1, 0), (1, 1), (2, 0)]) := by
  decide

example : ((plotAnalysis true false false [false, false] false ⟨fun _ => "user", [], none, []⟩).1.written.map fun p => p.map Prod.fst) =
    [[.diagonal], [.feature 0], [.feature 1], [.loss]] := by
  rw [(C167_pages false [false, false] (by simp) _).2]
  decide

end CB
