import Verif.Model.Clone

/-!
# What a reconstructed estimator is
-/

set_option autoImplicit false

namespace CB.Spec
open CB

mutual
/-- All addresses in an object: what a change to the object could touch. -/
def addresses : PyObj → List ℕ
  | .atom _ => []
  | .coll a _ items => a :: addressesAll items
  | .other a _ _ fields => a :: addressesAll fields
  | .est a _ _ _ params _ state => a :: (addressesAll params ++ addressesAll state)
/-- All addresses in several objects. -/
def addressesAll : List PyObj → List ℕ
  | [] => []
  | x :: xs => addresses x ++ addressesAll xs
end

mutual
/-- The addresses in parameters that an estimator, or one of the estimators in its parameters, does not want to be copied. -/
def keptAddresses : PyObj → List ℕ
  | .atom _ => []
  | .coll _ _ items => keptAll items
  | .other _ _ _ _ => []
  | .est _ _ noDeepcopy names params _ _ => keptParams noDeepcopy names params
/-- The same for several objects. -/
def keptAll : List PyObj → List ℕ
  | [] => []
  | x :: xs => keptAddresses x ++ keptAll xs
/-- The same for parameters with names. -/
def keptParams (noDeepcopy : Option (List String)) : List String → List PyObj → List ℕ
  | _, [] => []
  | names, x :: xs =>
    (if (noDeepcopy.getD []).contains (names.headD "") then addresses x else keptAddresses x) ++ keptParams noDeepcopy names.tail xs
end

mutual
/-- An object without its addresses: two objects have the same content if they are equal but for identity. -/
def content : PyObj → PyObj
  | .atom v => .atom v
  | .coll _ kind items => .coll 0 kind (contentAll items)
  | .other _ cls keys fields => .other 0 cls keys (contentAll fields)
  | .est _ cls noDeepcopy names params attributes state =>
    .est 0 cls noDeepcopy names (contentAll params) attributes (contentAll state)
/-- The same for several objects. -/
def contentAll : List PyObj → List PyObj
  | [] => []
  | x :: xs => content x :: contentAll xs
end

mutual
/-- The content of an object as it would be before anything was fitted: the estimators in collections and in parameters of
estimators lose what `fit` has set. Parameters in `no_deepcopy`, and the insides of objects that are not estimators, are left alone. -/
def unfitted : PyObj → PyObj
  | .atom v => .atom v
  | .coll _ kind items => .coll 0 kind (unfittedAll items)
  | .other a cls keys fields => content (.other a cls keys fields)
  | .est _ cls noDeepcopy names params _ _ => .est 0 cls noDeepcopy names (unfittedParams noDeepcopy names params) [] []
/-- The same for several objects. -/
def unfittedAll : List PyObj → List PyObj
  | [] => []
  | x :: xs => unfitted x :: unfittedAll xs
/-- The same for parameters with names. -/
def unfittedParams (noDeepcopy : Option (List String)) : List String → List PyObj → List PyObj
  | _, [] => []
  | names, x :: xs =>
    (if (noDeepcopy.getD []).contains (names.headD "") then content x else unfitted x) :: unfittedParams noDeepcopy names.tail xs
end

/-- `InsideOf x z`: the object `z` is `x`, or an entry of a collection, or the value of a parameter that is to be copied, in such an object. -/
inductive InsideOf : PyObj → PyObj → Prop
  | self (x : PyObj) : InsideOf x x
  | entry (a : ℕ) (kind : CollKind) (items : List PyObj) (x z : PyObj) (hx : x ∈ items) (h : InsideOf x z) : InsideOf (.coll a kind items) z
  | param (a : ℕ) (cls : String) (noDeepcopy : Option (List String)) (names : List String) (params : List PyObj)
      (attributes : List String) (state : List PyObj) (i : ℕ) (n : String) (x z : PyObj) (hn : names[i]? = some n)
      (hd : n ∉ noDeepcopy.getD []) (hx : params[i]? = some x) (h : InsideOf x z) :
      InsideOf (.est a cls noDeepcopy names params attributes state) z

mutual
/-- A change of the object with address `a`, wherever it is found: `change` replaces the object. -/
def changeAt (a : ℕ) (change : PyObj → PyObj) : PyObj → PyObj
  | .atom v => .atom v
  | .coll b kind items => if b = a then change (.coll b kind items) else .coll b kind (changeAll a change items)
  | .other b cls keys fields =>
    if b = a then change (.other b cls keys fields) else .other b cls keys (changeAll a change fields)
  | .est b cls noDeepcopy names params attributes state =>
    if b = a then change (.est b cls noDeepcopy names params attributes state)
    else .est b cls noDeepcopy names (changeAll a change params) attributes (changeAll a change state)
/-- The same for several objects. -/
def changeAll (a : ℕ) (change : PyObj → PyObj) : List PyObj → List PyObj
  | [] => []
  | x :: xs => changeAt a change x :: changeAll a change xs
end

mutual
/-- An estimator, or a collection of estimators and such collections. -/
def Cloneable : PyObj → Prop
  | .atom _ => False
  | .coll _ _ items => CloneableAll items
  | .other _ _ _ _ => False
  | .est _ _ _ _ _ _ _ => True
/-- The same for several objects. -/
def CloneableAll : List PyObj → Prop
  | [] => True
  | x :: xs => Cloneable x ∧ CloneableAll xs
end

end CB.Spec
