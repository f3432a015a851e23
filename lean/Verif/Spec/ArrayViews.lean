import Verif.Model.ArrayViews

/-!
# Specification of arrays that share memory
-/

set_option autoImplicit false

namespace CB.Spec

/-- The cell belongs to the array. -/
def Holds (v : ArrayView) (a : ℕ) : Prop := ∃ i < v.length, a = v.offset + v.stride * i

/-- The arrays have no cell in common. -/
def Separate (v w : ArrayView) : Prop := ∀ a, Holds v a → ¬ Holds w a

/-- Different elements of the array are different cells. -/
def NoRepeats (v : ArrayView) : Prop := v.length ≤ 1 ∨ 0 < v.stride

/-- The numbers in an array, which has to hold finite numbers. -/
def Contains {K : Type*} (m : ℕ → Flt K) (v : ArrayView) (xs : List K) : Prop :=
  xs.length = v.length ∧ ∀ i x, xs[i]? = some x → m (v.offset + v.stride * i) = .fin x

/-- The cell of the entry in row i and column j of a matrix. -/
def entryCell (X : MatrixView) (i j : ℕ) : ℕ :=
  match X.order with
  | .rowMajor => X.base + (X.cols * i + j)
  | .columnMajor => X.base + (X.rows * j + i)

/-- The cell belongs to the matrix. -/
def InMatrix (X : MatrixView) (a : ℕ) : Prop := X.base ≤ a ∧ a < X.base + X.rows * X.cols

/-- What the transformation of one column to cumulative probabilities has to do: every entry of the column becomes the value for its
original content and the original table, missing if there is no table. Columns without feature property stay. -/
def EntryDone {K : Type*} [Field K] [LinearOrder K] (X : MatrixView) (e : EcdfEntry K) (m m' : ℕ → Flt K) : Prop :=
  ∀ c, e.continuous = some c → ∀ i < X.rows,
    match e.table with
    | none => m' (entryCell X i e.position) = .nan
    | some t => ∃ zs us, Contains m (t.column 0) zs ∧ Contains m (t.column 1) us ∧
        ecdfValue c e.eps (some (zs, us)) (m (entryCell X i e.position)) = .ok (m' (entryCell X i e.position))

end CB.Spec
