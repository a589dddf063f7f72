import Verif.Beam.Combine
import Verif.Beam.PerKey
import Verif.Lemmas.Bleu
import Verif.Lemmas.Combine
import Verif.Lemmas.CombineTotal
import Verif.Lemmas.ConfidencePipeline
import Verif.Lemmas.DictCombine
import Verif.Lemmas.EvalResults
import Verif.Lemmas.Extracts
import Verif.Lemmas.KerasModel
import Verif.Lemmas.LegacyPredict
import Verif.Lemmas.MatrixItems
import Verif.Lemmas.MetricCtors
import Verif.Lemmas.MetricRoundTrip
import Verif.Lemmas.MetricSpecs
import Verif.Lemmas.ModelOutputs
import Verif.Lemmas.Pipeline
import Verif.Lemmas.SingleRounding
import Verif.Lemmas.Slicer
import Verif.Lemmas.SlicerGen
import Verif.Lemmas.SparseRagged
import Verif.Lemmas.TensorSpecs
import Verif.Lemmas.TfMetrics
import Verif.Lemmas.Together
import Verif.Model.Aggregation
import Verif.Model.AllSlices
import Verif.Model.AnalysisTable
import Verif.Model.ArrayValues
import Verif.Model.AttributionMetrics
import Verif.Model.AttributionViews
import Verif.Model.Attributions
import Verif.Model.AutoPivot
import Verif.Model.Bleu
import Verif.Model.Boxes
import Verif.Model.BulkInference
import Verif.Model.Coco
import Verif.Model.CocoSetup
import Verif.Model.Combiners
import Verif.Model.Comparisons
import Verif.Model.Confidence
import Verif.Model.ConfidencePipeline
import Verif.Model.Config
import Verif.Model.ConfusionMatrices
import Verif.Model.ConfusionMetrics
import Verif.Model.Counterfactual
import Verif.Model.Counters
import Verif.Model.DataFrames
import Verif.Model.DetectionMetrics
import Verif.Model.EvalResults
import Verif.Model.Evaluate
import Verif.Model.EvaluationDicts
import Verif.Model.Extraction
import Verif.Model.Extracts
import Verif.Model.Features
import Verif.Model.Filters
import Verif.Model.Histogram
import Verif.Model.Identity
import Verif.Model.InPlace
import Verif.Model.Inputs
import Verif.Model.InvertLog
import Verif.Model.KerasMatrices
import Verif.Model.KerasModel
import Verif.Model.Keys
import Verif.Model.KeysAsked
import Verif.Model.KwargsOnly
import Verif.Model.LabelRange
import Verif.Model.Labels
import Verif.Model.LegacyBootstrap
import Verif.Model.LegacyFeatures
import Verif.Model.LegacyInputs
import Verif.Model.LegacyPredict
import Verif.Model.Loading
import Verif.Model.MatrixSetup
import Verif.Model.MetricConfigs
import Verif.Model.MetricCtors
import Verif.Model.MetricKeys
import Verif.Model.MetricSpecs
import Verif.Model.MetricsGraph
import Verif.Model.ModelInputs
import Verif.Model.ModelLoading
import Verif.Model.ModelOutputs
import Verif.Model.MultiClass
import Verif.Model.MultiClassMetric
import Verif.Model.MultiLabel
import Verif.Model.Ndcg
import Verif.Model.PerClass
import Verif.Model.Pipeline
import Verif.Model.PlotSetup
import Verif.Model.PlotViews
import Verif.Model.Plots
import Verif.Model.PrAuc
import Verif.Model.PreprocessingNames
import Verif.Model.PrivateNames
import Verif.Model.Queries
import Verif.Model.QueryMetrics
import Verif.Model.ResultFiles
import Verif.Model.Rouge
import Verif.Model.Sample
import Verif.Model.Segmentation
import Verif.Model.SelfMerge
import Verif.Model.SetMatch
import Verif.Model.SetMatchMetrics
import Verif.Model.SharedInputs
import Verif.Model.SliceKeys
import Verif.Model.SliceNames
import Verif.Model.Slicer
import Verif.Model.SlicingColumn
import Verif.Model.SparseRagged
import Verif.Model.SpecBuild
import Verif.Model.SpecProtos
import Verif.Model.SpecRepresentations
import Verif.Model.SqlSlices
import Verif.Model.StackBoxes
import Verif.Model.StandardExtracts
import Verif.Model.TFLite
import Verif.Model.TensorSpecs
import Verif.Model.TfMetrics
import Verif.Model.TfSpecs
import Verif.Model.Together
import Verif.Model.TopLevel
import Verif.Model.Validation
import Verif.Model.VarLen
import Verif.Model.Views
import Verif.Model.WorkerMetrics
import Verif.Props.Aggregation
import Verif.Props.AllSlices
import Verif.Props.AnalysisTable
import Verif.Props.ArrayValues
import Verif.Props.AttributionMetrics
import Verif.Props.AttributionViews
import Verif.Props.Attributions
import Verif.Props.Auc
import Verif.Props.AutoPivot
import Verif.Props.AverageCollisions
import Verif.Props.Bleu
import Verif.Props.BoxPairs
import Verif.Props.Boxes
import Verif.Props.BulkInference
import Verif.Props.CalibrationPlot
import Verif.Props.Coco
import Verif.Props.CocoSetup
import Verif.Props.Combiners
import Verif.Props.Comparisons
import Verif.Props.Confidence
import Verif.Props.ConfidenceDerived
import Verif.Props.ConfidenceSamples
import Verif.Props.Config
import Verif.Props.ConfigFromMetric
import Verif.Props.ConfusionMatrices
import Verif.Props.ConfusionMetrics
import Verif.Props.Counterfactual
import Verif.Props.Counters
import Verif.Props.CrossSlice
import Verif.Props.CrossSliceDiff
import Verif.Props.DataFrames
import Verif.Props.DetectionMetrics
import Verif.Props.EvalResults
import Verif.Props.Evaluate
import Verif.Props.EvaluationDicts
import Verif.Props.ExampleCount
import Verif.Props.Extraction
import Verif.Props.Extracts
import Verif.Props.ExtractsMerge
import Verif.Props.ExtractsTensors
import Verif.Props.Features
import Verif.Props.Filters
import Verif.Props.FractionalFlow
import Verif.Props.Histogram
import Verif.Props.HistogramMatrices
import Verif.Props.Identity
import Verif.Props.InPlace
import Verif.Props.Inference
import Verif.Props.Inputs
import Verif.Props.InputsFlow
import Verif.Props.InputsKeys
import Verif.Props.InputsTopK
import Verif.Props.InputsWeights
import Verif.Props.InvertLog
import Verif.Props.Jackknife
import Verif.Props.KerasMatrices
import Verif.Props.KerasModel
import Verif.Props.Keys
import Verif.Props.KeysAsked
import Verif.Props.KeysGet
import Verif.Props.KwargsOnly
import Verif.Props.LabelRange
import Verif.Props.Labels
import Verif.Props.LegacyBootstrap
import Verif.Props.LegacyFeatures
import Verif.Props.LegacyInputs
import Verif.Props.LegacyPredict
import Verif.Props.LoadedAttributions
import Verif.Props.Loading
import Verif.Props.MacroSpecs
import Verif.Props.MatchCalibration
import Verif.Props.MatricesOps
import Verif.Props.MatrixSetup
import Verif.Props.MetricConfigs
import Verif.Props.MetricCtors
import Verif.Props.MetricKeys
import Verif.Props.MetricSpecs
import Verif.Props.MetricsGraph
import Verif.Props.ModelInputs
import Verif.Props.ModelLoading
import Verif.Props.ModelOutputs
import Verif.Props.MultiClass
import Verif.Props.MultiClassMetric
import Verif.Props.MultiLabel
import Verif.Props.Ndcg
import Verif.Props.Pearson
import Verif.Props.PerClass
import Verif.Props.Pipeline
import Verif.Props.PlotSetup
import Verif.Props.PlotViews
import Verif.Props.Plots
import Verif.Props.Pointwise
import Verif.Props.PrAuc
import Verif.Props.PreprocessingNames
import Verif.Props.PrivateNames
import Verif.Props.Queries
import Verif.Props.QueryMetrics
import Verif.Props.Rebin
import Verif.Props.ResultFiles
import Verif.Props.Rouge
import Verif.Props.Sample
import Verif.Props.ScorePlots
import Verif.Props.Segmentation
import Verif.Props.SelfMerge
import Verif.Props.SetMatch
import Verif.Props.SetMatchMetrics
import Verif.Props.SharedInputs
import Verif.Props.SliceKeys
import Verif.Props.SliceNames
import Verif.Props.Slicer
import Verif.Props.SlicerSpec
import Verif.Props.SlicingColumn
import Verif.Props.SpecBuild
import Verif.Props.SpecComputations
import Verif.Props.SpecProtos
import Verif.Props.SpecRepresentations
import Verif.Props.SqlSlices
import Verif.Props.StackBoxes
import Verif.Props.StandardExtracts
import Verif.Props.TFLite
import Verif.Props.TensorSpecs
import Verif.Props.TfMetricKeys
import Verif.Props.TfMetrics
import Verif.Props.TfSpecs
import Verif.Props.Together
import Verif.Props.TopLevel
import Verif.Props.Validation
import Verif.Props.ValidationCombine
import Verif.Props.ValidationFailures
import Verif.Props.VarLen
import Verif.Props.Views
import Verif.Props.WorkerMetrics
import Verif.Py.Basic
import Verif.Py.DictLemmas
import Verif.Py.Float
import Verif.Py.RealFloat
import Verif.Py.Tree
