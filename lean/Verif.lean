import Verif.Model.Base
import Verif.Model.Bounds
import Verif.Model.Clone
import Verif.Model.Construct
import Verif.Model.Enums
import Verif.Model.FactorTest
import Verif.Model.Factors
import Verif.Model.Generic
import Verif.Model.Geometry
import Verif.Model.Graph
import Verif.Model.History
import Verif.Model.Kernels
import Verif.Model.Ldlt
import Verif.Model.Lifetime
import Verif.Model.Many
import Verif.Model.Names
import Verif.Model.Optimizer
import Verif.Model.Plot
import Verif.Model.Print
import Verif.Model.PublicStats
import Verif.Model.Python
import Verif.Model.RealArith
import Verif.Model.Signatures
import Verif.Model.Stopwatch
import Verif.Model.Variables
import Verif.Model.Verbose
import Verif.Model.Views
import Verif.Spec.Affine
import Verif.Spec.Clone
import Verif.Spec.Conditioning
import Verif.Spec.Construct
import Verif.Spec.Convergence
import Verif.Spec.Copy
import Verif.Spec.Correspond
import Verif.Spec.CorrespondWhile
import Verif.Spec.Determinism
import Verif.Spec.Equivalent
import Verif.Spec.Errors
import Verif.Spec.Estimator
import Verif.Spec.FactorTest
import Verif.Spec.Factors
import Verif.Spec.Frame
import Verif.Spec.FrameCovariance
import Verif.Spec.FrameTurn
import Verif.Spec.Fusion
import Verif.Spec.Geometry
import Verif.Spec.Graph
import Verif.Spec.Held
import Verif.Spec.Informative
import Verif.Spec.Joint
import Verif.Spec.Library
import Verif.Spec.Lifetime
import Verif.Spec.Limit
import Verif.Spec.LinearAlgebra
import Verif.Spec.LiveSettings
import Verif.Spec.Many
import Verif.Spec.Misfit
import Verif.Spec.Motion
import Verif.Spec.Network
import Verif.Spec.Optimizer
import Verif.Spec.Order
import Verif.Spec.Parts
import Verif.Spec.Path
import Verif.Spec.PlanarMap
import Verif.Spec.Plot
import Verif.Spec.PublicStats
import Verif.Spec.Python
import Verif.Spec.Renaming
import Verif.Spec.RenamingLibrary
import Verif.Spec.Repeats
import Verif.Spec.Report
import Verif.Spec.Resection
import Verif.Spec.Rounding
import Verif.Spec.Safe
import Verif.Spec.SolvableLinear
import Verif.Spec.SpaceMap
import Verif.Spec.Stationary
import Verif.Spec.Steps
import Verif.Spec.Triangulation
import Verif.Spec.Units
import Verif.Spec.Unused
import Verif.Spec.Variables
import Verif.Spec.Views
import Verif.Spec.Watches
import Verif.Lemmas.AffineStep
import Verif.Lemmas.Alike
import Verif.Lemmas.Attempts
import Verif.Lemmas.Blind
import Verif.Lemmas.Calculus
import Verif.Lemmas.Columns
import Verif.Lemmas.Convergence
import Verif.Lemmas.Copy
import Verif.Lemmas.Correspond
import Verif.Lemmas.CorrespondWhile
import Verif.Lemmas.CorrespondWhileDamped
import Verif.Lemmas.CovarianceBlock
import Verif.Lemmas.Defects
import Verif.Lemmas.Dense
import Verif.Lemmas.Descent
import Verif.Lemmas.Determined
import Verif.Lemmas.Ellipse
import Verif.Lemmas.Errors
import Verif.Lemmas.Eval
import Verif.Lemmas.FactorTest
import Verif.Lemmas.Factors
import Verif.Lemmas.Finalize
import Verif.Lemmas.Flags
import Verif.Lemmas.FrameCovariance
import Verif.Lemmas.FramePlane
import Verif.Lemmas.FrameSpace
import Verif.Lemmas.FrameTurn
import Verif.Lemmas.Fusion
import Verif.Lemmas.FusionStep
import Verif.Lemmas.GraphDerivative
import Verif.Lemmas.GraphDescent
import Verif.Lemmas.GraphJoint
import Verif.Lemmas.Held
import Verif.Lemmas.HeldLibrary
import Verif.Lemmas.History
import Verif.Lemmas.InStep
import Verif.Lemmas.Increments
import Verif.Lemmas.Informative
import Verif.Lemmas.Layout
import Verif.Lemmas.Ldlt
import Verif.Lemmas.Limit
import Verif.Lemmas.LinearConvergence
import Verif.Lemmas.Lists
import Verif.Lemmas.LiveSettings
import Verif.Lemmas.LogDeriv
import Verif.Lemmas.LogExp
import Verif.Lemmas.Moved
import Verif.Lemmas.Mute
import Verif.Lemmas.Names
import Verif.Lemmas.Network
import Verif.Lemmas.Noise
import Verif.Lemmas.NormalEq
import Verif.Lemmas.OptCovariance
import Verif.Lemmas.OptDamping
import Verif.Lemmas.OptForward
import Verif.Lemmas.OptFresh
import Verif.Lemmas.OptHistory
import Verif.Lemmas.OptLoop
import Verif.Lemmas.OptSteps
import Verif.Lemmas.OptSystem
import Verif.Lemmas.OptTotal
import Verif.Lemmas.OptTrace
import Verif.Lemmas.Order
import Verif.Lemmas.Parts
import Verif.Lemmas.Path
import Verif.Lemmas.Pivots
import Verif.Lemmas.Planar
import Verif.Lemmas.PlanarMap
import Verif.Lemmas.Plot
import Verif.Lemmas.Python
import Verif.Lemmas.Ready
import Verif.Lemmas.Renaming
import Verif.Lemmas.RenamingLibrary
import Verif.Lemmas.RenamingRun
import Verif.Lemmas.Repeats
import Verif.Lemmas.RepeatsBuild
import Verif.Lemmas.Rescaled
import Verif.Lemmas.Resection
import Verif.Lemmas.ResidualRows
import Verif.Lemmas.Resume
import Verif.Lemmas.ResumeDamped
import Verif.Lemmas.Rotation
import Verif.Lemmas.SaidTrials
import Verif.Lemmas.Scatter
import Verif.Lemmas.Shape
import Verif.Lemmas.Shift
import Verif.Lemmas.Smooth
import Verif.Lemmas.SolvableLinear
import Verif.Lemmas.SpaceMap
import Verif.Lemmas.Sparse
import Verif.Lemmas.SparseMat
import Verif.Lemmas.Stacked
import Verif.Lemmas.StackedProduct
import Verif.Lemmas.Stationary
import Verif.Lemmas.StepFacts
import Verif.Lemmas.Stops
import Verif.Lemmas.Told
import Verif.Lemmas.Triangulation
import Verif.Lemmas.Twin
import Verif.Lemmas.Units
import Verif.Lemmas.Values
import Verif.Lemmas.Variables
import Verif.Lemmas.Verbose
import Verif.Lemmas.Views
import Verif.Lemmas.Watches
import Verif.Lemmas.Wrap
import Verif.Props.AffineProblems
import Verif.Props.AfterRun
import Verif.Props.Approach
import Verif.Props.BestEstimate
import Verif.Props.Bounds
import Verif.Props.Clone
import Verif.Props.Conditioning
import Verif.Props.Construct
import Verif.Props.Convergence
import Verif.Props.Copy
import Verif.Props.Covariance
import Verif.Props.CovarianceLinearisation
import Verif.Props.CovarianceValue
import Verif.Props.Descent
import Verif.Props.Determinism
import Verif.Props.Drawing
import Verif.Props.DrawingEffects
import Verif.Props.DrawingLines
import Verif.Props.DrawingRegions
import Verif.Props.Enums
import Verif.Props.Equivalent
import Verif.Props.Errors
import Verif.Props.FactorTest
import Verif.Props.FactorTestLimits
import Verif.Props.FactorsBearing
import Verif.Props.FactorsBlocks
import Verif.Props.FactorsJoint
import Verif.Props.FactorsLinear
import Verif.Props.FactorsMotion
import Verif.Props.FactorsPlanar
import Verif.Props.FactorsPlane
import Verif.Props.FactorsRotation
import Verif.Props.Floating
import Verif.Props.Frame
import Verif.Props.FrameCovariance
import Verif.Props.Fusion
import Verif.Props.Geometry
import Verif.Props.GraphDefects
import Verif.Props.GraphDerivative
import Verif.Props.GraphEval
import Verif.Props.GraphJoint
import Verif.Props.GraphStructure
import Verif.Props.Held
import Verif.Props.Influence
import Verif.Props.Informative
import Verif.Props.InsertionOrder
import Verif.Props.Invariance
import Verif.Props.Kernels
import Verif.Props.Lifetime
import Verif.Props.LifetimeLibrary
import Verif.Props.Limit
import Verif.Props.LinearConvergence
import Verif.Props.LinearRuns
import Verif.Props.LiveSettings
import Verif.Props.Many
import Verif.Props.Misfit
import Verif.Props.Names
import Verif.Props.Network
import Verif.Props.NoDrift
import Verif.Props.NormalEquations
import Verif.Props.NumericalError
import Verif.Props.NumericalJacobian
import Verif.Props.Optimizer
import Verif.Props.OptimizerDefined
import Verif.Props.OptimizerFresh
import Verif.Props.OptimizerLimits
import Verif.Props.OptimizerReal
import Verif.Props.OptimizerStall
import Verif.Props.OptimizerSteps
import Verif.Props.Optimum
import Verif.Props.Parts
import Verif.Props.Path
import Verif.Props.PlanarMap
import Verif.Props.Printing
import Verif.Props.PublicStats
import Verif.Props.Python
import Verif.Props.ReadBack
import Verif.Props.Renaming
import Verif.Props.RenamingLibrary
import Verif.Props.Repeats
import Verif.Props.Report
import Verif.Props.Reported
import Verif.Props.Resection
import Verif.Props.Resume
import Verif.Props.ResumeDamped
import Verif.Props.RotationMatrix
import Verif.Props.Rounding
import Verif.Props.Safe
import Verif.Props.Signatures
import Verif.Props.Solvable
import Verif.Props.SolvableDamped
import Verif.Props.SpaceMap
import Verif.Props.Sphere
import Verif.Props.Stationary
import Verif.Props.Stopwatch
import Verif.Props.Tolerances
import Verif.Props.Triangulation
import Verif.Props.Turn
import Verif.Props.Unbiased
import Verif.Props.Undetermined
import Verif.Props.Units
import Verif.Props.Unrestorable
import Verif.Props.VariableOrder
import Verif.Props.Variables
import Verif.Props.Views
import Verif.Props.Watches
import Verif.Props.ZeroIncrement
import Verif.Examples.AdriftWorld
import Verif.Examples.IdleWorld
import Verif.Examples.MarkWorld
import Verif.Examples.PlanarWorld
import Verif.Examples.ResectWorld
import Verif.Examples.RouteWorld
import Verif.Examples.SightWorld
import Verif.Examples.SpaceWorld
import Verif.Examples.SquareWorld
import Verif.Examples.TinyGroups
import Verif.Examples.TinyHeld
import Verif.Examples.TinyParts
import Verif.Examples.TinyReordered
import Verif.Examples.TinyWorld
import Verif.Examples.Toy
import Verif.Examples.ToyClip
import Verif.Examples.ToyCurved
import Verif.Examples.ToyNaN
import Verif.Examples.ToyOpt
import Verif.Examples.ToyOptDefined
import Verif.Examples.ToyOptOrder
import Verif.Examples.ToyRounded
import Verif.Examples.TrackWorld
import Verif.Examples.ViewWorld
