import Verif.Model.Api
import Verif.Model.BinnedFit
import Verif.Model.MetaSmoother

/-!
# Model of storing and loading fitted estimators

`pickle.dumps` and `pickle.loads` (and `copy.deepcopy`) of a fitted estimator. Everything is restored as it was, except for the bin
values of the smoothers, which the package stores in a sparse format. The bin values of a fitted feature are kept twice: in the smoother,
for the bins of finite values, and in `factors_link`, of which only the last entry, for missing values, is read after training.
-/

set_option autoImplicit false

namespace CB

/-- A fitted feature in a pickle: the bin values of the smoother as a sparse matrix, and the factor for missing values.
Models: cyclic_boosting/features.py:260-268, smoothing/onedim.py:91-96, smoothing/multidim.py:102-108. -/
structure StoredFeature where
  group : List String
  external : Bool
  nBins : List ℕ
  values : ℕ × List (ℕ × Flt ℝ)
  missing : ℝ

open Classical in
/-- `__getstate__` of the smoother of a fitted feature.
Models: cyclic_boosting/features.py:260-268, smoothing/onedim.py:91-96, smoothing/multidim.py:102-108. -/
noncomputable def FittedFeature.store (f : FittedFeature ℝ) : StoredFeature :=
  ⟨f.group, f.external, f.nBins, csrOf ((List.range f.nFinite).map fun b => .fin (f.factors b)), f.factors f.nFinite⟩

/-- `__setstate__` of the smoother of a fitted feature; the array is read by bin number.
Models: cyclic_boosting/features.py:260-268, smoothing/onedim.py:42-51,98-102, smoothing/multidim.py:41-59,110-115. -/
noncomputable def StoredFeature.load (p : StoredFeature) : FittedFeature ℝ :=
  ⟨p.group, p.external, p.nBins, fun b => match (csrToArray p.values)[b]? with
    | some v => v.getFin
    | none => p.missing⟩

/-- A fitted estimator in a pickle.
Models: cyclic_boosting/base.py:293-331, 713-776. -/
structure StoredModel where
  link : LinkKind
  scale : Flt ℝ
  offset : Flt ℝ
  features : List StoredFeature
  iterations : ℕ

/-- `pickle.dumps`.
Models: cyclic_boosting/smoothing/onedim.py:91-96, smoothing/multidim.py:102-108. -/
noncomputable def FittedModel.store (m : FittedModel) : StoredModel :=
  ⟨m.link, m.scale, m.offset, m.features.map FittedFeature.store, m.iterations⟩

/-- `pickle.loads`.
Models: cyclic_boosting/smoothing/onedim.py:98-102, smoothing/multidim.py:110-115. -/
noncomputable def StoredModel.load (p : StoredModel) : FittedModel :=
  ⟨p.link, p.scale, p.offset, p.features.map StoredFeature.load, p.iterations⟩

/-- An estimator object that was stored and loaded again: the other attributes are restored as they were.
Models: cyclic_boosting/base.py:293-331, smoothing/onedim.py:91-102, smoothing/multidim.py:102-115. -/
noncomputable def EstimatorObject.reloaded (o : EstimatorObject) : EstimatorObject :=
  { o with status := match o.status with
    | .fitted m => .fitted m.store.load
    | status => status }

/-- A pipeline that was stored and loaded again: the bins are restored as they were.
Models: cyclic_boosting/pipelines.py:173-177, smoothing/onedim.py:91-102, smoothing/multidim.py:102-115. -/
noncomputable def FittedPipeline.reloaded (P : FittedPipeline) : FittedPipeline := ⟨P.bins, P.model.store.load⟩

end CB
