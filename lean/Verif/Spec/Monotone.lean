import Mathlib.Order.Defs.LinearOrder
import Mathlib.Data.Nat.Notation

set_option autoImplicit false

/-!
# Specification: direction of a monotonic feature
-/
namespace CB.Spec

/-- `a` and `b` are in nondecreasing (`inc`) or nonincreasing order. -/
def InOrder {K : Type*} [LinearOrder K] (inc : Bool) (a b : K) : Prop := if inc then a ≤ b else b ≤ a

/-- The bits of a feature property that asks for a monotonic feature with direction: continuous (0) and monotonic (3) and
increasing (11), or not increasing but decreasing (12); neither linear (8) nor seasonal (9). -/
def AsksDirection (inc : Bool) (fp : ℕ) : Prop :=
  fp.testBit 0 = true ∧ fp.testBit 3 = true ∧ fp.testBit 8 = false ∧ fp.testBit 9 = false ∧
    (if inc then fp.testBit 11 = true else fp.testBit 11 = false ∧ fp.testBit 12 = true)

/-- What is used of an isotonic regression with direction `inc`: from positions, values and positive weights it makes a
function in this direction. -/
def IsIsotonic {K : Type*} [LinearOrder K] [Zero K] (inc : Bool) (regression : List (K × K × K) → K → K) : Prop :=
  ∀ data, (∀ d ∈ data, 0 < d.2.2) → ∀ x x', x ≤ x' → InOrder inc (regression data x) (regression data x')

end CB.Spec
