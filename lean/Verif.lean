import Verif.Model.Numpy
import Verif.Model.Linear
import Verif.Lemmas.Pinv
import Verif.Lemmas.LinearRun
import Verif.Lemmas.MudMath
import Verif.Lemmas.Small
import Verif.Spec
import Verif.Props.Linear
import Verif.Props.LinearApi
import Verif.Props.Functionals
import Verif.Lemmas.Kaczmarz
import Verif.Lemmas.IterateRun
import Verif.Props.Iterate
import Verif.Model.Float
import Verif.Model.Wme
import Verif.Props.Wme
import Verif.Props.LinearWme
import Verif.Model.Iterative
import Verif.Props.Iterative
import Verif.Model.Density
import Verif.SpecDensity
import Verif.Lemmas.Argmax
import Verif.Lemmas.DensitySim
import Verif.Lemmas.DensityFit
import Verif.Lemmas.DensityCongr
import Verif.Lemmas.FScale
import Verif.Props.Density
import Verif.Props.DensityWeights
import Verif.Props.DensityPerm
import Verif.Props.DensitySelect
import Verif.Props.DensityDomain
import Verif.SpecBayes
import Verif.Props.Bayes
import Verif.Props.BayesExact
import Verif.Model.Norm
import Verif.Props.Norm
import Verif.Props.NormVec
import Verif.Model.NDArray
import Verif.Model.Util
import Verif.Model.SpatioTemporal
import Verif.SpecST
import Verif.Lemmas.NDArray
import Verif.Props.SampleData
import Verif.Props.SpatioTemporal
import Verif.Props.STDomain
import Verif.Props.STMud
import Verif.Props.STLoad
import Verif.Props.STLoad2
import Verif.Props.Util
import Verif.Props.UtilMore
import Verif.Model.Svd
import Verif.Model.Equipment
import Verif.Model.Mesh
import Verif.Model.Funs
import Verif.Lemmas.SvdExists
import Verif.Lemmas.Mesh
import Verif.Props.NullSpace
import Verif.Props.Svd
import Verif.Props.Equipment
import Verif.Props.Mesh
import Verif.Model.Examples
import Verif.Props.Funs
import Verif.Props.DataProb
import Verif.Props.Examples
import Verif.Model.PlotLinear
import Verif.Props.PlotLinear
import Verif.Model.Kde
import Verif.Lemmas.Gauss
import Verif.Props.Kde
import Verif.Props.KdeUnits
import Verif.Props.KdeZero
import Verif.Props.MoreData
import Verif.Props.MapLimit
import Verif.Model.ExamplesLinear
import Verif.Props.ExamplesLinear
import Verif.Model.ExamplesSimple
import Verif.Props.ExamplesSimple
import Verif.Model.PlotProb
import Verif.Lemmas.PlotSim
import Verif.Props.PlotProb
import Verif.Props.PlotBayes
import Verif.Model.Chain
import Verif.Props.Chain
import Verif.Model.PlotTs
import Verif.Props.PlotTs
import Verif.Model.Preprocessing
import Verif.Lemmas.SvdUnique
import Verif.Props.Preprocessing
import Verif.Model.ExamplesWme
import Verif.Props.ExamplesWme
import Verif.Props.DensityDefault
import Verif.Model.ExamplesHighDim
import Verif.Props.ExamplesHighDim
import Verif.Model.Comparison
import Verif.Props.Comparison
import Verif.Model.Poisson
import Verif.Props.Poisson
import Verif.Props.PoissonLoad
import Verif.Props.SensorOrder
import Verif.Model.PoissonRun
import Verif.Props.PoissonRun
import Verif.Props.PoissonTrials
import Verif.Props.PoissonSol
import Verif.Props.PoissonScipy
import Verif.Model.ExpDecay
import Verif.Props.ExpDecay
import Verif.Model.Adcirc
import Verif.Props.Adcirc
import Verif.Props.AdcircRun
import Verif.Model.Contours
import Verif.Props.Contours
import Verif.Props.ContoursRun
import Verif.Model.Fenics
import Verif.Props.Boundary
import Verif.Props.Fenics
import Verif.Model.Cli
import Verif.Props.Cli
import Verif.Model.Paper
import Verif.Props.AdcircScipy
import Verif.Props.Paper
import Verif.Props.PaperRun
import Verif.Model.CliLinear
import Verif.Model.PlotIo
import Verif.Props.CliLinear
import Verif.Props.PlotIo
import Verif.Lemmas.GaussMeasure
import Verif.Props.UpdatedLaw
import Verif.Lemmas.WhiteNoise
import Verif.Props.WmeLaw
import Verif.Props.WmeEstimate
import Verif.Props.RatioLimit
import Verif.Props.SampleMode
import Verif.Props.Stability
import Verif.Model.Rounded
import Verif.Props.Rounded
import Verif.Props.RoundedIterate
import Verif.Props.KdeConsistent
import Verif.Lemmas.EmpiricalCf
import Verif.Lemmas.MixtureClose
import Verif.Lemmas.KernelClose
import Verif.Lemmas.KernelAverage
import Verif.Lemmas.KernelUniform
import Verif.Props.KdeUniform
import Verif.Props.KdeMud
import Verif.Props.KdeRatio
import Verif.Props.NearestSample
import Verif.Props.LeastSquares
import Verif.Props.MudMap
import Verif.Model.PlotOpts
import Verif.Props.PlotOpts
import Verif.Props.ExceptionSafety
import Verif.Props.ExceptionSafetyBayes
import Verif.Props.ExceptionSafetyST
import Verif.Props.Batches
import Verif.Props.ObservationOrder
import Verif.Props.Unrelated
import Verif.Props.Uncertainty
import Verif.Props.Pooling
import Verif.Props.StoredResults
import Verif.Props.MeanSquare
import Verif.Props.MoreInformation
import Verif.Props.Calibrated
import Verif.Props.Settles
import Verif.Props.IterateUnits
import Verif.Props.Regions
import Verif.Props.VaguePrior
import Verif.Props.MaskIsSubset
import Verif.Props.Agreement
import Verif.Props.MeasurementUnits
import Verif.Props.WmeUnits
import Verif.Props.Merged
