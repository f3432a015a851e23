import Mathlib.Data.List.Defs

/-!
# Model of the reconstruction of estimators

Covers `clone` in cyclic_boosting/utils.py and what `create_feature` and `GroupBySmoother` do with it. Python objects are trees;
objects that can be changed carry an address. A new object gets the next address, counted by a natural number.
-/

set_option autoImplicit false

namespace CB

/-- The collections that `clone` goes into.
Models: cyclic_boosting/utils.py:685-686. -/
inductive CollKind where
  | list | tuple | set | frozenset
  deriving DecidableEq, Repr

/-- Python objects: immutable values (numbers, strings, functions, `None`), collections, objects without `get_params` (dictionaries,
arrays and others), and estimators with their constructor parameters and the other attributes, which `fit` has set. `noDeepcopy` is
the attribute of this name, if there is one. Simplification: an object that occurs twice is two equal trees with the same address;
classes as parameters are immutable values.
Models: cyclic_boosting/utils.py:684-701, cyclic_boosting/base.py:266. -/
inductive PyObj where
  | atom (value : String)
  | coll (addr : ℕ) (kind : CollKind) (items : List PyObj)
  | other (addr : ℕ) (cls : String) (keys : List String) (fields : List PyObj)
  | est (addr : ℕ) (cls : String) (noDeepcopy : Option (List String)) (names : List String) (params : List PyObj)
      (attributes : List String) (state : List PyObj)

mutual
/-- `copy.deepcopy`: everything is copied, also what `fit` has set. Simplification: an object that occurs twice is copied twice; a
tuple of immutable values is copied too, which nobody can see.
Models: cyclic_boosting/utils.py:688-689. -/
def deepcopy : PyObj → ℕ → PyObj × ℕ
  | .atom v, a => (.atom v, a)
  | .coll _ kind items, a => let r := deepcopyAll items (a + 1); (.coll a kind r.1, r.2)
  | .other _ cls keys fields, a => let r := deepcopyAll fields (a + 1); (.other a cls keys r.1, r.2)
  | .est _ cls noDeepcopy names params attributes state, a =>
    let r := deepcopyAll params (a + 1)
    let t := deepcopyAll state r.2
    (.est a cls noDeepcopy names r.1 attributes t.1, t.2)

/-- `copy.deepcopy` of each entry.
Models: cyclic_boosting/utils.py:688-689. -/
def deepcopyAll : List PyObj → ℕ → List PyObj × ℕ
  | [], a => ([], a)
  | x :: xs, a => let r := deepcopy x a; let rs := deepcopyAll xs r.2; (r.1 :: rs.1, rs.2)
end

mutual
/-- `clone`. The constructor keeps its arguments and sets nothing else that matters.
Models: cyclic_boosting/utils.py:671-710. -/
def clone (safe : Bool) : PyObj → ℕ → Except String (PyObj × ℕ)
  | .coll _ kind items, a =>
    match cloneAll safe items (a + 1) with
    | .error e => .error e
    | .ok r => .ok (.coll a kind r.1, r.2)
  | .atom v, a => if safe then .error "TypeError" else .ok (.atom v, a)
  | .other b cls keys fields, a => if safe then .error "TypeError" else .ok (deepcopy (.other b cls keys fields) a)
  | .est _ cls noDeepcopy names params _ _, a =>
    match cloneParams noDeepcopy names params (a + 1) with
    | .error e => .error e
    | .ok r => .ok (.est a cls noDeepcopy names r.1 [] [], r.2)

/-- `[clone(e, safe=safe) for e in estimator]`.
Models: cyclic_boosting/utils.py:686. -/
def cloneAll (safe : Bool) : List PyObj → ℕ → Except String (List PyObj × ℕ)
  | [], a => .ok ([], a)
  | x :: xs, a =>
    match clone safe x a with
    | .error e => .error e
    | .ok r =>
      match cloneAll safe xs r.2 with
      | .error e => .error e
      | .ok rs => .ok (r.1 :: rs.1, rs.2)

/-- The parameters for the new object: cloned, except those named in `no_deepcopy`.
Models: cyclic_boosting/utils.py:697-706. -/
def cloneParams (noDeepcopy : Option (List String)) : List String → List PyObj → ℕ → Except String (List PyObj × ℕ)
  | _, [], a => .ok ([], a)
  | names, x :: xs, a =>
    match (if (noDeepcopy.getD []).contains (names.headD "") then .ok (x, a) else clone false x a) with
    | .error e => .error e
    | .ok r =>
      match cloneParams noDeepcopy names.tail xs r.2 with
      | .error e => .error e
      | .ok rs => .ok (r.1 :: rs.1, rs.2)
end

/-- The smoothers of several features, made one after the other from the smoothers of the choice (which may be the same object).
Models: cyclic_boosting/features.py:380-417. -/
def cloneEach : List PyObj → ℕ → Except String (List PyObj × ℕ)
  | [], a => .ok ([], a)
  | x :: xs, a =>
    match clone true x a with
    | .error e => .error e
    | .ok r =>
      match cloneEach xs r.2 with
      | .error e => .error e
      | .ok rs => .ok (r.1 :: rs.1, rs.2)

end CB
