import Verif.Model.BinnerObject

/-!
# Model of a binner whose `fit` or `transform` did not finish

Both methods work column by column and can be interrupted between two columns. `fit` appends to the attribute `bins_and_cdfs_`, and `transform`
writes into a copy of the table or, with `inplace=True`, into the table of the caller.

Simplifications: as in Model/BinnerObject; the treatment of one column is one step.
-/

set_option autoImplicit false

namespace CB

/-- The object after a `fit` that was interrupted when it had gone through `k` columns (or had raised before that).
Models: cyclic_boosting/binning/ecdf_transformer.py:206-252. -/
noncomputable def BinnerObject.fitUntil (o : BinnerObject) (F : DataFrame) (k : ℕ) : BinnerObject :=
  if F.n = 0 ∨ F.columns = [] then { o with bins := some [] }
  else
    match o.weights F with
    | .error _ => { o with bins := some [] }
    | .ok weights => { o with bins := some (o.fitLoop F weights ((o.featureColumns F).take k) []).1 }

open Classical in
/-- The memory after a `transform` that was interrupted when it had gone through `k` columns (or had raised before that).
Models: cyclic_boosting/binning/bin_number_transformer.py:179-213. -/
noncomputable def BinnerObject.transformUntil (o : BinnerObject) (m : Memory) (a : ℕ) (k : ℕ) : Memory :=
  match o.checkInput (m.frames a) with
  | .error _ => m
  | .ok bins =>
    let (m, a) := if o.inplace then (m, a) else m.copy a
    if (m.frames a).n = 0 ∨ (m.frames a).columns = [] then m
    else (o.transformLoop a (bins.take k) m).1

end CB
