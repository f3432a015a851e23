import Mathlib.Data.List.Basic
import Mathlib.Algebra.Order.Floor.Div

/-!
# Model of the plotting environment

The state of matplotlib that plots use: the settings, the open figures and the file that is being written. Plot functions are actions on it
that may raise. Simplifications: of a figure only the list of what was drawn, with the settings at that time, is modelled; functions that
raise while drawing leave nothing in the figure; settings and their values are strings.
-/

set_option autoImplicit false

namespace CB

/-- `matplotlib.rcParams`.
Models: cyclic_boosting/plots/plot_utils.py:202-222. -/
abbrev PlotSettings := String → String

/-- What an analysis shows.
Models: cyclic_boosting/plots/__init__.py:190-214. -/
inductive PlotSubject where
  | diagonal
  | feature (i : ℕ)
  | loss
deriving DecidableEq, Repr

/-- The content of a figure: what was drawn with which settings.
Models: cyclic_boosting/plots/__init__.py:192-214. -/
abbrev PlotContent := List (PlotSubject × PlotSettings)

/-- The state of matplotlib: settings, open figures (the current one first), the pages of the file that is open, and the pages of the file that
was closed last.
Models: cyclic_boosting/plots/__init__.py:187-228. -/
structure PlotWorld where
  settings : PlotSettings
  figures : List PlotContent
  file : Option (List PlotContent)
  written : List PlotContent

/-- A plot function: it changes the state, and raises (`true`) or not.
Models: cyclic_boosting/plots/__init__.py:54-228. -/
abbrev PlotAct := PlotWorld → PlotWorld × Bool

/-- Two statements after each other.
Models: cyclic_boosting/plots/__init__.py:187-228. -/
def PlotAct.andThen (a b : PlotAct) : PlotAct := fun w => if (a w).2 then a w else b (a w).1

/-- A statement without effect.
Models: cyclic_boosting/plots/__init__.py:192-196. -/
def PlotAct.skip : PlotAct := fun w => (w, false)

/-- `rcParams` of `_nbpy_style`.
Models: cyclic_boosting/plots/plot_utils.py:204-219. -/
def nbpyStyle : List (String × String) :=
  [("grid.color", "#000000"), ("grid.alpha", "0.1"), ("grid.linestyle", "-"), ("lines.markersize", "3.0"), ("legend.numpoints", "1"),
   ("font.size", "20"), ("legend.fontsize", "small"), ("axes.labelsize", "small"), ("axes.titlesize", "medium"),
   ("xtick.labelsize", "small"), ("ytick.labelsize", "small"), ("image.interpolation", "antialiased")]

/-- `rcParams.update(style)`.
Models: cyclic_boosting/plots/plot_utils.py:221. -/
def updateSettings (style : List (String × String)) (s : PlotSettings) : PlotSettings := fun k => (style.lookup k).getD (s k)

/-- `with mpl.rc_context(style):`, of matplotlib: the settings but the backend are copied before and restored after the block, also if it raises.
Models: cyclic_boosting/plots/plot_utils.py:221-222. -/
def rcContext (style : List (String × String)) (a : PlotAct) : PlotAct := fun w =>
  let r := a { w with settings := updateSettings style w.settings }
  ({ r.1 with settings := fun k => if k = "backend" then r.1.settings k else w.settings k }, r.2)

/-- A function decorated with `nbpy_style`: the generator runs to its `yield`, then the function is called, and the generator is closed, which
leaves the context.
Models: cyclic_boosting/plots/plot_utils.py:202-225, cyclic_boosting/utils.py:957-989. -/
def nbpyStyled (a : PlotAct) : PlotAct := rcContext nbpyStyle a

/-- `plt.figure()`.
Models: cyclic_boosting/plots/__init__.py:193,198,214. -/
def newFigure : PlotAct := fun w => ({ w with figures := [] :: w.figures }, false)

/-- A function that draws into the current figure, or a new one if there is none.
Models: cyclic_boosting/plots/__init__.py:94-155,282-322. -/
def drawOn (what : PlotSubject) (raises : Bool) : PlotAct := fun w =>
  if raises then (w, true)
  else ({ w with figures := ((w.figures.headD []) ++ [(what, w.settings)]) :: w.figures.tail }, false)

/-- `plt.savefig(pdf_pages)`: the current figure becomes a page.
Models: cyclic_boosting/plots/__init__.py:195,208,216. -/
def savePage : PlotAct := fun w => ({ w with file := w.file.map (· ++ [w.figures.headD []]) }, false)

/-- `plt.close("all")`.
Models: cyclic_boosting/plots/__init__.py:227. -/
def closeFigures : PlotAct := fun w => ({ w with figures := [] }, false)

/-- `with contextlib.closing(PdfPages(file)):`.
Models: cyclic_boosting/plots/__init__.py:188. -/
def closingFile (a : PlotAct) : PlotAct := fun w =>
  let r := a { w with file := some [] }
  ({ r.1 with file := none, written := r.1.file.getD [] }, r.2)

/-- `plot_observer.check_fitted()`.
Models: cyclic_boosting/observers.py:184-186. -/
def checkObserver (fitted : Bool) : PlotAct := fun w => (w, !fitted)

/-- One page: a figure, something drawn into it, and its saving.
Models: cyclic_boosting/plots/__init__.py:193-195,198-208,214-216. -/
def analysisPage (draw : PlotAct) : PlotAct := (newFigure.andThen draw).andThen savePage

/-- The pages of the features. `i` is the number of the first one, the list says which of the plots raise.
Models: cyclic_boosting/plots/__init__.py:197-208. -/
def featurePages (i : ℕ) : List Bool → PlotAct
  | [] => PlotAct.skip
  | r :: rs => (analysisPage (drawOn (.feature i) r)).andThen (featurePages (i + 1) rs)

/-- `plot_analysis`. `width` says that the estimator is the one for dispersions.
Models: cyclic_boosting/plots/__init__.py:187-228. -/
def plotAnalysis (fitted width raisesDiagonal : Bool) (raisesFeature : List Bool) (raisesLoss : Bool) : PlotAct :=
  (closingFile ((checkObserver fitted).andThen
    ((if width then PlotAct.skip else analysisPage (nbpyStyled (drawOn .diagonal raisesDiagonal))).andThen
      ((featurePages 0 raisesFeature).andThen (analysisPage (nbpyStyled (drawOn .loss raisesLoss))))))).andThen closeFigures

/-- The grid of `plot_factors`: the number of rows, and row and column of the cell of every feature. `GridSpec` raises if it has no row or no column, and so does
a division by 0.
Models: cyclic_boosting/plots/__init__.py:265-271. -/
def factorCells (nPlots perRow : ℕ) : Option (ℕ × List (ℕ × ℕ)) :=
  if perRow = 0 then none
  else
    let rows := nPlots ⌈/⌉ perRow
    if rows = 0 then none
    else ((List.range nPlots).mapM fun i => if i < rows * perRow then some (i / perRow, i % perRow) else none).map fun cells => (rows, cells)

end CB
