import Verif.Model.Flt
import Verif.Model.BinarySearch
import Verif.Model.Binning
import Verif.Model.Multidim
import Verif.Spec.Multidim
import Verif.Spec.GammaMedian
import Verif.Lemmas.GammaMedian
import Verif.Lemmas.Multidim
import Verif.Spec.Search
import Verif.Spec.Binning
import Verif.Lemmas.BinarySearch
import Verif.Lemmas.Binning
import Verif.Lemmas.Reduce
import Verif.Lemmas.Cdf
import Verif.Props.BinNumbers
import Verif.Props.Fit
import Verif.Props.Multidim
import Verif.Model.Flags
import Verif.Props.Flags
import Verif.Props.FlagsText
import Verif.Model.Link
import Verif.Props.Link
import Verif.Props.Ecdf
import Verif.Model.Training
import Verif.Spec.Training
import Verif.Lemmas.Training
import Verif.Props.Training
import Verif.Props.TrainingExamples
import Verif.Props.Bounds
import Verif.Model.Predict
import Verif.Lemmas.Predict
import Verif.Props.Predict
import Verif.Props.Influence
import Verif.Model.Importance
import Verif.Props.Importance
import Verif.Model.Estimators
import Verif.Spec.Estimators
import Verif.Props.Estimators
import Verif.Props.GammaPrior
import Verif.Model.Regularize
import Verif.Props.Regularize
import Verif.Model.Classifier
import Verif.Props.Classifier
import Verif.Model.GenericLoss
import Verif.Props.GenericLoss
import Verif.Props.Quantile
import Verif.Lemmas.QuantileMatching
import Verif.Spec.QuantileMatching
import Verif.Model.QuantileMatching
import Verif.Props.QpdSemibounded
import Verif.Props.QpdBounded
import Verif.Props.QpdBase
import Verif.Props.QpdExtended
import Verif.Props.QpdChain
import Verif.Model.Price
import Verif.Props.Price
import Verif.Model.Nbinom
import Verif.Props.Nbinom
import Verif.Model.Gbs
import Verif.Props.Gbs
import Verif.Model.Interactions
import Verif.Props.Interactions
import Verif.Model.Pipelines
import Verif.Props.Pipelines
import Verif.Model.MetaSmoother
import Verif.Props.MetaSmoother
import Verif.Model.Location
import Verif.Props.Location
import Verif.Model.Neutralize
import Verif.Props.Neutralize
import Verif.Model.SmootherChoice
import Verif.Props.SmootherChoice
import Verif.Spec.NegBinomial
import Verif.Spec.Gamma
import Verif.Props.Stopping
import Verif.Props.Updates
import Verif.Props.Divergence
import Verif.Props.NegBinomial
import Verif.Props.Dispersion
import Verif.Props.PredictMore
import Verif.Model.OrthoFit
import Verif.Spec.LeastSquares
import Verif.Props.OrthoFit
import Verif.Model.FeatureSmooth
import Verif.Spec.Monotone
import Verif.Props.Monotone
import Verif.Spec.UnseenBins
import Verif.Props.UnseenBins
import Verif.Model.Baseline
import Verif.Spec.Baseline
import Verif.Props.Baseline
import Verif.Lemmas.Simulation
import Verif.Model.Fit
import Verif.Lemmas.Rows
import Verif.Spec.Rows
import Verif.Spec.Fit
import Verif.Props.Rows
import Verif.Props.Shift
import Verif.Props.WholeFit
import Verif.Props.WholeFitExample
import Verif.Model.BinSmoothers
import Verif.Spec.Descent
import Verif.Props.LossDescent
import Verif.Props.SmootherCentres
import Verif.Props.SmootherCentresExample
import Verif.Spec.WeightedMean
import Verif.Props.WeightedMean
import Verif.Spec.GroupBy
import Verif.Props.GroupBy
import Verif.Props.LinearFeature
import Verif.Props.ExtraSmoothers
import Verif.Model.GenericFit
import Verif.Spec.CostDescent
import Verif.Props.CostDescent
import Verif.Props.CostDescentExample
import Verif.Model.BinnedFit
import Verif.Lemmas.BinnedFit
import Verif.Props.BinnedFit
import Verif.Lemmas.BinEquivariance
import Verif.Spec.Units
import Verif.Props.Units
import Verif.Props.PipelineExample
import Verif.Spec.Unusable
import Verif.Props.PipelineRows
import Verif.Props.PipelineMissing
import Verif.Props.PipelineRowsExample
import Verif.Props.RowsGeneric
import Verif.Spec.Explicit
import Verif.Lemmas.Explicit
import Verif.Props.BaselineFitExample
import Verif.Props.BaselineFit
import Verif.Props.BinWeights
import Verif.Props.ApiExample
import Verif.Model.DispersionFit
import Verif.Spec.Dispersion
import Verif.Props.DispersionFit
import Verif.Props.DispersionFitExample
import Verif.Model.PriceFit
import Verif.Spec.PriceFit
import Verif.Props.PriceFit
import Verif.Props.PriceRows
import Verif.Props.PriceBase
import Verif.Props.PriceApi
import Verif.Props.PriceExample
import Verif.Props.DispersionObject
import Verif.Props.PriceTraining
import Verif.Props.PriceExponent
import Verif.Model.Histogram
import Verif.Spec.Histogram
import Verif.Props.Digitize
import Verif.Props.GroupStats
import Verif.Props.GroupedMeans
import Verif.Props.Histogram
import Verif.Model.Observers
import Verif.Props.Observers
import Verif.Props.ObserversExample
import Verif.Model.Pit
import Verif.Props.Pit
import Verif.Lemmas.Relabel
import Verif.Spec.Relabel
import Verif.Lemmas.RelabelBins
import Verif.Lemmas.RelabelEstimators
import Verif.Props.Relabel
import Verif.Model.CurveSmoothers
import Verif.Spec.Curves
import Verif.Lemmas.LeastSquares
import Verif.Props.Seasonal
import Verif.Props.CurveFits
import Verif.Model.Selection
import Verif.Props.Selection
import Verif.Model.QuantileFits
import Verif.Spec.QuantileFits
import Verif.Props.QuantileFits
import Verif.Model.ShapeFit
import Verif.Spec.QpdUnits
import Verif.Props.QpdUnits
import Verif.Props.QuantileShift
import Verif.Spec.Calibration
import Verif.Spec.Idle
import Verif.Props.Calibration
import Verif.Props.CalibrationQuantile
import Verif.Props.Idle
import Verif.Props.IdleMore
import Verif.Props.CalibrationExample
import Verif.Spec.OneFeature
import Verif.Props.OneFeature
import Verif.Props.OneFeatureLimit
import Verif.Props.OneFeatureExample
import Verif.Props.OneFeatureClosed
import Verif.Props.OneFeatureClosedExample
import Verif.Props.OneFeatureQuantile
import Verif.Props.OneFeatureQuantileExample
import Verif.Props.OneFeatureCosts
import Verif.Props.OneFeatureCostsExample
import Verif.Model.Clone
import Verif.Model.Analysis
import Verif.Model.PlotAxes
import Verif.Spec.Clone
import Verif.Props.Clone
import Verif.Props.Analysis
import Verif.Props.PlotAxes
import Verif.Lemmas.Scaling
import Verif.Spec.TargetUnits
import Verif.Props.TargetUnits
import Verif.Props.TargetUnitsSmoothers
import Verif.Props.TargetUnitsExample
import Verif.Props.PriorUnits
import Verif.Props.PriorUnitsExample
import Verif.Props.SwapClasses
import Verif.Spec.ClassifierQuantiles
import Verif.Props.ClassifierQuantiles
import Verif.Props.SwapClassesExample
import Verif.Spec.Settling
import Verif.Props.Settling
import Verif.Props.SettlingExample
import Verif.Spec.Superposition
import Verif.Props.Superposition
import Verif.Props.SuperpositionExample
import Verif.Spec.WeightScale
import Verif.Props.WeightScale
import Verif.Props.WeightScaleExample
import Verif.Lemmas.CyclicDescent
import Verif.Spec.Convergence
import Verif.Props.Convergence
import Verif.Props.ConvergenceExample
import Verif.Props.ConvergenceMore
import Verif.Spec.ConvergenceCosts
import Verif.Props.ConvergenceCosts
import Verif.Props.Crossing
import Verif.Model.ColumnAccess
import Verif.Spec.ColumnAccess
import Verif.Props.ColumnAccess
import Verif.Props.Cells
import Verif.Props.Noise
import Verif.Props.Resume
import Verif.Model.PlotLabels
import Verif.Props.PlotLabels
import Verif.Props.LocationMean
import Verif.Props.LocationMeanExample
import Verif.Props.LocationSettled
import Verif.Props.LocationSettledExample
import Verif.Props.UnseenMissing
import Verif.Props.UnseenMissingExample
import Verif.Spec.Rowwise
import Verif.Props.Rowwise
import Verif.Spec.ColumnOrder
import Verif.Lemmas.ColumnOrder
import Verif.Props.ColumnOrder
import Verif.Model.Store
import Verif.Props.Store
import Verif.Spec.Limits
import Verif.Lemmas.Limits
import Verif.Props.Limits
import Verif.Props.LimitsExample
import Verif.Spec.Rename
import Verif.Lemmas.Rename
import Verif.Props.Rename
import Verif.Props.RenameExample
import Verif.Props.RenamePrice
import Verif.Spec.Failure
import Verif.Props.Failure
import Verif.Props.FailureScale
import Verif.Props.FailurePipeline
import Verif.Props.FailureExample
import Verif.Model.Rounded
import Verif.Spec.Rounded
import Verif.Lemmas.Rounded
import Verif.Props.Rounded
import Verif.Props.RoundedExample
import Verif.Model.BinnerObject
import Verif.Spec.BinnerObject
import Verif.Lemmas.BinnerObject
import Verif.Props.BinnerObject
import Verif.Props.BinnerObjectExample
import Verif.Model.ArrayBinning
import Verif.Spec.ArrayBinning
import Verif.Lemmas.ArrayBinning
import Verif.Props.ArrayBinning
import Verif.Props.ArrayBinningExample
import Verif.Props.EcdfArray
import Verif.Props.EcdfArrayExample
import Verif.Props.NoExtrapolation
import Verif.Props.TargetDomain
import Verif.Props.SectionBinValues
import Verif.Model.Parallel
import Verif.Lemmas.Parallel
import Verif.Props.Parallel
import Verif.Props.NewtonRoot
import Verif.Props.IsotonicBest
import Verif.Model.Normal
import Verif.Model.ChainFit
import Verif.Model.QpdArrays
import Verif.Model.ColumnNames
import Verif.Props.QpdNormal
import Verif.Props.ChainFit
import Verif.Props.QpdArrays
import Verif.Props.ColumnNames
import Verif.Props.OneFeatureFactors
import Verif.Props.OneFeatureFactorsExample
import Verif.Model.FloatEstimates
import Verif.Spec.FloatEstimates
import Verif.Props.FloatEstimates
import Verif.Props.FloatEstimatesExample
import Verif.Spec.Uncertainties
import Verif.Props.Uncertainties
import Verif.Props.UncertaintiesExample
import Verif.Model.FeatureLookup
import Verif.Spec.FeatureLookup
import Verif.Props.FeatureLookup
import Verif.Props.StuckQuantile
import Verif.Model.ArrayViews
import Verif.Spec.ArrayViews
import Verif.Props.ArrayViews
import Verif.Model.BinColumn
import Verif.Props.BinColumn
import Verif.Model.KeptData
import Verif.Spec.KeptData
import Verif.Props.KeptData
import Verif.Model.PlotEnvironment
import Verif.Props.PlotEnvironment
import Verif.Model.SharedArrays
import Verif.Spec.SharedArrays
import Verif.Props.SharedArrays
import Verif.Model.ConcurrentPredict
import Verif.Spec.ConcurrentPredict
import Verif.Props.ConcurrentPredict
import Verif.Model.InteractionPlot
import Verif.Spec.InteractionPlot
import Verif.Props.InteractionPlot
import Verif.Model.ArrayClipping
import Verif.Spec.ArrayClipping
import Verif.Props.ArrayClipping
import Verif.Model.ErrorBars
import Verif.Props.ErrorBars
import Verif.Model.Interrupted
import Verif.Props.Interrupted
import Verif.Props.InterruptedLimit
import Verif.Model.InterruptedBinning
import Verif.Props.InterruptedBinning
import Verif.Model.PipelineObject
import Verif.Props.PipelineObject
import Verif.Props.PipelineObjectExample
import Verif.Props.PipelineColumns
