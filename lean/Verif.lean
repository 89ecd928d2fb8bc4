import Verif.Model.Alias
import Verif.Model.Axes
import Verif.Model.Basic
import Verif.Model.Carpet
import Verif.Model.Colors
import Verif.Model.Contours
import Verif.Model.Corner
import Verif.Model.CornerLabels
import Verif.Model.CornerPlot
import Verif.Model.CornerShared
import Verif.Model.CornerTop
import Verif.Model.Dist
import Verif.Model.Dist1d
import Verif.Model.Distribution
import Verif.Model.ExampleData
import Verif.Model.Finalize
import Verif.Model.Grid
import Verif.Model.GridArgs
import Verif.Model.Helpers
import Verif.Model.Hist2d
import Verif.Model.IntData
import Verif.Model.IntResample
import Verif.Model.KDE
import Verif.Model.Kernels
import Verif.Model.Legend
import Verif.Model.LinAlg
import Verif.Model.MidpointsNd
import Verif.Model.Missing
import Verif.Model.MissingResample
import Verif.Model.NDArr
import Verif.Model.Np
import Verif.Model.Options
import Verif.Model.Parse
import Verif.Model.Plot
import Verif.Model.ProportionalArrays
import Verif.Model.QuantilesAxis
import Verif.Model.Registry
import Verif.Model.RemCov
import Verif.Model.Resample
import Verif.Model.Rounded
import Verif.Model.RoundedCdf
import Verif.Model.RoundedEdges
import Verif.Model.RoundedSpacing
import Verif.Model.Sample
import Verif.Model.SampleArrays
import Verif.Model.SamplerGrid
import Verif.Model.Spacing
import Verif.Model.Squeeze
import Verif.Model.Text
import Verif.Model.Utils
import Verif.Proofs.BoxLaw
import Verif.Proofs.Chol
import Verif.Proofs.Consistency
import Verif.Proofs.Density
import Verif.Proofs.DensitySpec
import Verif.Proofs.Grid
import Verif.Proofs.Integrals
import Verif.Proofs.Interp
import Verif.Proofs.KernelL1
import Verif.Proofs.Law
import Verif.Proofs.LawAll
import Verif.Proofs.Marginal
import Verif.Proofs.Missing
import Verif.Proofs.MissingResample
import Verif.Proofs.Moments
import Verif.Proofs.Moments4
import Verif.Proofs.NDArr
import Verif.Proofs.NoiseMoments
import Verif.Proofs.NormalQuantile
import Verif.Proofs.Np
import Verif.Proofs.Rejection
import Verif.Proofs.RejectionBound
import Verif.Proofs.Rounding
import Verif.Proofs.Sample
import Verif.Proofs.SampleCov
import Verif.Proofs.SampleGrid
import Verif.Proofs.SortLaw
import Verif.Proofs.TiesEven
import Verif.Proofs.Underflow
import Verif.Props.Affine
import Verif.Props.Alias
import Verif.Props.Axes
import Verif.Props.Bandwidth
import Verif.Props.Bias
import Verif.Props.Boundary
import Verif.Props.Carpet
import Verif.Props.CarpetSmall
import Verif.Props.Cdf
import Verif.Props.CdfDefault
import Verif.Props.CdfIntegral
import Verif.Props.CdfOutlier
import Verif.Props.CdfRounded
import Verif.Props.CdfSpacing
import Verif.Props.Centroid
import Verif.Props.Colors
import Verif.Props.Confidence
import Verif.Props.ConfidenceWeights
import Verif.Props.Consistency
import Verif.Props.Contour
import Verif.Props.ContourKde
import Verif.Props.ContourLevels
import Verif.Props.CornerData
import Verif.Props.CornerDefaults
import Verif.Props.CornerLabels
import Verif.Props.CornerLimits
import Verif.Props.CornerPlot
import Verif.Props.CornerReflect
import Verif.Props.CornerShared
import Verif.Props.CornerTarget
import Verif.Props.CornerTop
import Verif.Props.Covariance
import Verif.Props.CumtrapzAxis
import Verif.Props.Density
import Verif.Props.Dist1d
import Verif.Props.Dist1dReflect
import Verif.Props.Dist2d
import Verif.Props.Dist2dOk
import Verif.Props.DistSample
import Verif.Props.Distribution
import Verif.Props.Edges
import Verif.Props.Edges1d
import Verif.Props.EdgesDegenerate
import Verif.Props.EdgesRounded
import Verif.Props.EdgesStrict
import Verif.Props.EdgesWeightsRounded
import Verif.Props.Evaluate
import Verif.Props.ExactParts
import Verif.Props.ExampleData
import Verif.Props.ExampleDataTruth
import Verif.Props.Examples
import Verif.Props.Extrema
import Verif.Props.Finalize
import Verif.Props.Frequencies
import Verif.Props.FromHist
import Verif.Props.Grid
import Verif.Props.GridArgs
import Verif.Props.GridLaw
import Verif.Props.GridLawInterp
import Verif.Props.GridPdf
import Verif.Props.GridPdfAll
import Verif.Props.GridPdfDefault
import Verif.Props.GridUnit
import Verif.Props.Helpers
import Verif.Props.Hist1d
import Verif.Props.Hist2d
import Verif.Props.Histogram
import Verif.Props.History
import Verif.Props.InexactWhitening
import Verif.Props.Init
import Verif.Props.IntData
import Verif.Props.IntResample
import Verif.Props.Invariance
import Verif.Props.KeepLaw
import Verif.Props.KwHistory
import Verif.Props.Legend
import Verif.Props.Levels
import Verif.Props.LinAlg
import Verif.Props.Lookup
import Verif.Props.Marginal
import Verif.Props.MarginalMass
import Verif.Props.MaskDense
import Verif.Props.Masks
import Verif.Props.MeanSquare
import Verif.Props.MidpointsNd
import Verif.Props.Minmax
import Verif.Props.Missing
import Verif.Props.MissingData
import Verif.Props.MissingResample
import Verif.Props.Moments
import Verif.Props.NoneReflect
import Verif.Props.Nonneg
import Verif.Props.Normal
import Verif.Props.Options
import Verif.Props.OutlierLaw
import Verif.Props.OutlierMean
import Verif.Props.Outliers
import Verif.Props.OutsideData
import Verif.Props.Overflow
import Verif.Props.PadHist
import Verif.Props.Params
import Verif.Props.ProportionalArrays
import Verif.Props.Quantiles
import Verif.Props.QuantilesAxis
import Verif.Props.QuantilesRounded
import Verif.Props.Reflect
import Verif.Props.ReflectArg
import Verif.Props.ReflectDims
import Verif.Props.ReflectFrequencies
import Verif.Props.ReflectLaw
import Verif.Props.ReflectSuccess
import Verif.Props.Registry
import Verif.Props.Regularity
import Verif.Props.RegularityReflect
import Verif.Props.RemCov
import Verif.Props.Repeated
import Verif.Props.Resample
import Verif.Props.ResampleLaw
import Verif.Props.ResampleReflect
import Verif.Props.ResampleWitness
import Verif.Props.RoundedExact
import Verif.Props.RoundedReflect
import Verif.Props.RoundedSampling
import Verif.Props.Rounding
import Verif.Props.Sample
import Verif.Props.SampleArrays
import Verif.Props.SampleLaw
import Verif.Props.SampleMoments
import Verif.Props.SamplerGrid
import Verif.Props.Scalars
import Verif.Props.Scatter
import Verif.Props.Spacing
import Verif.Props.SpacingRounded
import Verif.Props.SpacingStrict
import Verif.Props.Squeeze
import Verif.Props.StepCurve
import Verif.Props.Support
import Verif.Props.Text
import Verif.Props.TextFormat
import Verif.Props.TotalVariation
import Verif.Props.TotalVariationReflect
import Verif.Props.Underflow
import Verif.Props.UnderflowSampling
import Verif.Spec.Calls
import Verif.Spec.Density
import Verif.Spec.Grid
import Verif.Spec.Parse
import Verif.Spec.Random
import Verif.Spec.Rounding
import Verif.Spec.Sample
import Verif.Spec.Underflow
