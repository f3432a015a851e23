import Verif.Model.SharedArrays

/-!
# Specification: calls and the table of the caller
-/

set_option autoImplicit false

namespace CB.Spec

/-- The columns of the table are arrays of the memory. -/
structure TableIn (t : SharedTable) (m : SharedArrays) : Prop where
  weight : ∀ c, t.weight = some c → c < m.buffers.length
  prior : ∀ c, t.prior = some c → c < m.buffers.length
  mean : t.mean < m.buffers.length
  price : t.price < m.buffers.length
  exponent : ∀ c, t.exponent = some c → c < m.buffers.length

/-- An array that was in memory before has the same values. -/
def Unchanged (m m' : SharedArrays) (a : ℕ) : Prop := m'.buffers[a]? = m.buffers[a]?

end CB.Spec
