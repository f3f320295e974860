import Verif.Core
import Verif.Model.Alias
import Verif.Model.Angles
import Verif.Model.Bessel
import Verif.Model.Callback
import Verif.Model.CallbackMulti
import Verif.Model.CallbackTriangle
import Verif.Model.Chebyshev
import Verif.Model.CholeskyUpdate
import Verif.Model.CircularBuffer
import Verif.Model.Complex
import Verif.Model.Convolution
import Verif.Model.Eigen
import Verif.Model.FFT
import Verif.Model.FixedMatrix
import Verif.Model.Geometry
import Verif.Model.Ieee
import Verif.Model.IeeeAngles
import Verif.Model.IeeeChebyshev
import Verif.Model.IeeeCheck
import Verif.Model.IeeeGeneration
import Verif.Model.IeeeGrid
import Verif.Model.IeeeInterp2d
import Verif.Model.IeeeNumerics
import Verif.Model.IeeePowerSeries
import Verif.Model.IeeeSignals
import Verif.Model.IeeeStdVector
import Verif.Model.IeeeUnit
import Verif.Model.IeeeVectors
import Verif.Model.Integers
import Verif.Model.Integration1d
import Verif.Model.Interp1d
import Verif.Model.Interp2d
import Verif.Model.Linterp
import Verif.Model.LinterpC
import Verif.Model.LinterpJumps
import Verif.Model.LongVectors
import Verif.Model.LookupTable1D
import Verif.Model.LookupTable2d
import Verif.Model.Matrix
import Verif.Model.MatrixOps
import Verif.Model.NonFinite
import Verif.Model.OutOfMemory
import Verif.Model.OutOfMemoryGrid
import Verif.Model.Polynomial
import Verif.Model.PowerSeries
import Verif.Model.RegularGridInterpolator
import Verif.Model.RegularGridNearest
import Verif.Model.Rounded
import Verif.Model.RoundedAngles
import Verif.Model.RoundedChebyshev
import Verif.Model.RoundedChebyshevCompute
import Verif.Model.RoundedChebyshevDerivative
import Verif.Model.RoundedConversion
import Verif.Model.RoundedGeometry
import Verif.Model.RoundedGrid
import Verif.Model.RoundedInterp2d
import Verif.Model.RoundedNearest
import Verif.Model.RoundedPowerSeries
import Verif.Model.RoundedPowerSeriesD
import Verif.Model.RoundedSignals
import Verif.Model.RoundedSimplex
import Verif.Model.RoundedSpecialFunctions
import Verif.Model.RoundedSpectrum
import Verif.Model.RoundedTriangle
import Verif.Model.RoundedUnit
import Verif.Model.RoundedVectors
import Verif.Model.Segment
import Verif.Model.SpecialFunctions
import Verif.Model.Spline
import Verif.Model.Storage
import Verif.Model.ThreadGrids
import Verif.Model.ThreadTables
import Verif.Model.Threads
import Verif.Model.Triangle
import Verif.Model.Unit
import Verif.Model.VectorClasses
import Verif.Model.Vectors
import Verif.Model.Widths
import Verif.Spec.Accuracy
import Verif.Spec.Angles
import Verif.Spec.Bessel
import Verif.Spec.Chebyshev
import Verif.Spec.CholeskyUpdate
import Verif.Spec.DocumentedInterp
import Verif.Spec.Extended
import Verif.Spec.Geometry
import Verif.Spec.Ieee
import Verif.Spec.Integers
import Verif.Spec.Integration1d
import Verif.Spec.Interp
import Verif.Spec.Lipschitz
import Verif.Spec.LookupTable
import Verif.Spec.Matrix
import Verif.Spec.MatrixOps
import Verif.Spec.NGrid
import Verif.Spec.NonFinite
import Verif.Spec.PowerSeries
import Verif.Spec.RegularGrid
import Verif.Spec.Series
import Verif.Spec.Signal
import Verif.Spec.Simplex
import Verif.Spec.SpecialFunctions
import Verif.Spec.Spline
import Verif.Spec.SplineFunction
import Verif.Spec.Storage
import Verif.Spec.Trend
import Verif.Spec.Triangle
import Verif.Spec.VectorClasses
import Verif.Lemmas.Accuracy
import Verif.Lemmas.Angles
import Verif.Lemmas.BSpline
import Verif.Lemmas.Bessel
import Verif.Lemmas.Chebyshev
import Verif.Lemmas.ChebyshevMath
import Verif.Lemmas.Cholesky
import Verif.Lemmas.CholeskyUpdate
import Verif.Lemmas.Constraint
import Verif.Lemmas.EulerGamma
import Verif.Lemmas.ExpInt
import Verif.Lemmas.ExpIntBranch
import Verif.Lemmas.ExpIntCert
import Verif.Lemmas.ExpIntChain
import Verif.Lemmas.ExpIntModel
import Verif.Lemmas.ExpIntPoints
import Verif.Lemmas.Factorisations
import Verif.Lemmas.Geometry
import Verif.Lemmas.GridCoupling
import Verif.Lemmas.Ieee
import Verif.Lemmas.IeeeBridge
import Verif.Lemmas.IeeeNear
import Verif.Lemmas.Integration1d
import Verif.Lemmas.Interp1d
import Verif.Lemmas.Interp2d
import Verif.Lemmas.Linterp
import Verif.Lemmas.LinterpCube
import Verif.Lemmas.Lipschitz
import Verif.Lemmas.LoadGrid
import Verif.Lemmas.LookupTable
import Verif.Lemmas.Loops
import Verif.Lemmas.Matrix
import Verif.Lemmas.Nearest
import Verif.Lemmas.NonFinite
import Verif.Lemmas.OutOfMemory
import Verif.Lemmas.PolyCheck
import Verif.Lemmas.Polynomial
import Verif.Lemmas.PowerSeries
import Verif.Lemmas.RegularGrid
import Verif.Lemmas.RegularGridHistory
import Verif.Lemmas.RoundedExpInt
import Verif.Lemmas.RoundedFraction
import Verif.Lemmas.RoundedFractionCert
import Verif.Lemmas.RoundedGrid
import Verif.Lemmas.Rounding
import Verif.Lemmas.Search
import Verif.Lemmas.Simplex
import Verif.Lemmas.SimplexLipschitz
import Verif.Lemmas.SimplexThreshold
import Verif.Lemmas.Spline
import Verif.Lemmas.SplineGlue
import Verif.Lemmas.SplineTheory
import Verif.Lemmas.Store
import Verif.Lemmas.Struve
import Verif.Lemmas.StruveIntegral
import Verif.Lemmas.StruveRelative
import Verif.Lemmas.StruveTail
import Verif.Lemmas.Threads
import Verif.Lemmas.Triangle
import Verif.Lemmas.Vectors
import Verif.Props.Accessors
import Verif.Props.Accuracy
import Verif.Props.AccuracyChebyshev
import Verif.Props.AddedNodes
import Verif.Props.Agreement
import Verif.Props.Alias
import Verif.Props.AngleRules
import Verif.Props.Angles
import Verif.Props.Assertions
import Verif.Props.AssertionsDouble
import Verif.Props.Bessel
import Verif.Props.Callback
import Verif.Props.CallbackFailures
import Verif.Props.CallbackMulti
import Verif.Props.CallbackTriangle
import Verif.Props.ChangeOfUnits
import Verif.Props.ChangeOfUnitsGrid
import Verif.Props.Chebyshev
import Verif.Props.ChebyshevAlgebra
import Verif.Props.ChebyshevTwice
import Verif.Props.CholeskyUpdate
import Verif.Props.Complex
import Verif.Props.ConstraintRules
import Verif.Props.Convergence
import Verif.Props.Convex
import Verif.Props.Convolution
import Verif.Props.DataErrors
import Verif.Props.Decompositions
import Verif.Props.Documented
import Verif.Props.DocumentedInterp
import Verif.Props.Equivalents
import Verif.Props.ExceptionTypes
import Verif.Props.ExitStatus
import Verif.Props.Fft
import Verif.Props.Filtering
import Verif.Props.FixedMatrix
import Verif.Props.Geometry
import Verif.Props.GridTrend
import Verif.Props.Ieee
import Verif.Props.IeeeAngles
import Verif.Props.IeeeChebyshev
import Verif.Props.IeeeCheck
import Verif.Props.IeeeGeneration
import Verif.Props.IeeeGrid
import Verif.Props.IeeeInterp2d
import Verif.Props.IeeeNumerics
import Verif.Props.IeeePowerSeries
import Verif.Props.IeeeSignals
import Verif.Props.IeeeStdVector
import Verif.Props.IeeeUnit
import Verif.Props.IeeeVectors
import Verif.Props.IntegerCalculus
import Verif.Props.IntegerVectors
import Verif.Props.Integers
import Verif.Props.IntegralRules
import Verif.Props.Integration1d
import Verif.Props.Interp1d
import Verif.Props.Interp2d
import Verif.Props.InverseTable
import Verif.Props.Kinematics
import Verif.Props.LinterpC
import Verif.Props.LinterpJumps
import Verif.Props.LinterpJumpsSeveral
import Verif.Props.Lipschitz
import Verif.Props.LongVectors
import Verif.Props.LookupRules
import Verif.Props.LookupTable
import Verif.Props.Matrix
import Verif.Props.MatrixOps
import Verif.Props.MatrixRules
import Verif.Props.Nearest
import Verif.Props.NearestAccuracy
import Verif.Props.NearestLife
import Verif.Props.NonFinite
import Verif.Props.OneAtATime
import Verif.Props.OutOfMemory
import Verif.Props.OutOfMemoryGrid
import Verif.Props.OutOfMemoryReported
import Verif.Props.Periodic
import Verif.Props.PolynomialRules
import Verif.Props.PowerSeries
import Verif.Props.PowerSeriesRules
import Verif.Props.PseudoInverseRules
import Verif.Props.RegularGrid
import Verif.Props.RepeatedIntegrals
import Verif.Props.RotationRules
import Verif.Props.Rounded
import Verif.Props.RoundedAccuracy
import Verif.Props.RoundedAngles
import Verif.Props.RoundedArange
import Verif.Props.RoundedChebyshev
import Verif.Props.RoundedChebyshevCompute
import Verif.Props.RoundedChebyshevCompute2
import Verif.Props.RoundedChebyshevDerivative
import Verif.Props.RoundedChebyshevDerivative2
import Verif.Props.RoundedConversion
import Verif.Props.RoundedConversionChain
import Verif.Props.RoundedEi
import Verif.Props.RoundedGeometry
import Verif.Props.RoundedGrid
import Verif.Props.RoundedIntegral
import Verif.Props.RoundedInterp2d
import Verif.Props.RoundedPowerSeries
import Verif.Props.RoundedPowerSeriesD
import Verif.Props.RoundedQuaternion
import Verif.Props.RoundedRange
import Verif.Props.RoundedSignals
import Verif.Props.RoundedSimplex
import Verif.Props.RoundedSpecialFunctions
import Verif.Props.RoundedSpectrum
import Verif.Props.RoundedStruve
import Verif.Props.RoundedTriangle
import Verif.Props.RoundedUnit
import Verif.Props.RoundedVectors
import Verif.Props.RunningConvolution
import Verif.Props.SampledSignals
import Verif.Props.SemiDefinite
import Verif.Props.Simplex
import Verif.Props.SimplexAccuracy
import Verif.Props.SimplexUnits
import Verif.Props.SolversAgree
import Verif.Props.SpacingRules
import Verif.Props.SpecialFunctions
import Verif.Props.SpectralAccuracy
import Verif.Props.SpectralDerivatives
import Verif.Props.Spectrum
import Verif.Props.SpectrumRules
import Verif.Props.Spline
import Verif.Props.SplineFew
import Verif.Props.SplineUnique
import Verif.Props.SplineUnits
import Verif.Props.Storage
import Verif.Props.Struve
import Verif.Props.SystemErrors
import Verif.Props.ThreadGrids
import Verif.Props.ThreadTables
import Verif.Props.Threads
import Verif.Props.Triangle
import Verif.Props.TriangleAccuracy
import Verif.Props.TriangleMotions
import Verif.Props.TwoMethods
import Verif.Props.Unit
import Verif.Props.VectorClasses
import Verif.Props.Vectors
import Verif.Props.Widths
