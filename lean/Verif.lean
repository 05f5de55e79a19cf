import Verif.NumPy.Arr
import Verif.Model.Gradients
import Verif.Model.Arakawa
import Verif.Spec.Torus
import Verif.Lemmas.Stencil
import Verif.NumPy.Reduce
import Verif.Lemmas.StencilField
import Verif.Lemmas.TorusSums
import Verif.Spec.Index
import Verif.Props.Stencils
import Verif.Lemmas.Fourier
import Verif.NumPy.FFT
import Verif.Model.Poisson
import Verif.Lemmas.Poisson
import Verif.Model.Namespace
import Verif.Model.Zonal
import Verif.Model.Properties
import Verif.Model.HW
import Verif.Spec.HW
import Verif.Lemmas.HWBasic
import Verif.Lemmas.Namespace
import Verif.Lemmas.HWStep
import Verif.Spec.Fourier
import Verif.Lemmas.PhiField
import Verif.Props.Common
import Verif.Props.Poisson
import Verif.Lemmas.Spectral
import Verif.Props.Diagnostics
import Verif.Lemmas.HWField
import Verif.Props.HWCommon
import Verif.Props.HW
import Verif.Lemmas.HWLinear
import Verif.Props.HWHistory
import Verif.Props.Namespace
import Verif.Model.IO
import Verif.Lemmas.IO
import Verif.Lemmas.Crash
import Verif.Spec.IO
import Verif.Props.IO
import Verif.Model.Run2
import Verif.Spec.Run
import Verif.Lemmas.NSSet
import Verif.Lemmas.Run
import Verif.Lemmas.RunFile
import Verif.Lemmas.RunLoop
import Verif.Lemmas.RunProps
import Verif.Props.RunProperties
import Verif.Spec.Exact
import Verif.Lemmas.RunRows
import Verif.Lemmas.RunResult
import Verif.Lemmas.RunContinue
import Verif.Model.RunHW
import Verif.Lemmas.RunHW
import Verif.Props.RunDemo
import Verif.Props.Run
import Verif.Props.RunPhysics
import Verif.Props.RunContinue
import Verif.Spec.Run2
import Verif.Lemmas.Run2
import Verif.Lemmas.Run2File
import Verif.Props.Run2
import Verif.Spec.Run2Split
import Verif.Lemmas.Run2Split
import Verif.Props.RunRefuse
import Verif.Props.Run2Split
import Verif.Props.Run2Physics
import Verif.Props.Phase
import Verif.Props.RunMeta
import Verif.Lemmas.Growth
import Verif.Spec.Smooth
import Verif.Lemmas.Accuracy
import Verif.Lemmas.Sampling
import Verif.Props.Zonal
import Verif.Props.Accuracy
import Verif.Lemmas.RK4
import Verif.Lemmas.Convergence
import Verif.Lemmas.HWODE
import Verif.Props.Convergence
import Verif.NumPy.Nd
import Verif.Model.Downsample
import Verif.Spec.Downsample
import Verif.Lemmas.Downsample
import Verif.Lemmas.Resample
import Verif.Props.Downsample
import Verif.Model.Init
import Verif.Lemmas.Init
import Verif.Spec.Init
import Verif.Props.Init
import Verif.Spec.Double
import Verif.Lemmas.Double
import Verif.Model.Movie
import Verif.Lemmas.Movie
import Verif.Props.Movie
import Verif.Model.Plot
import Verif.Props.Plot
import Verif.Model.Helpers
import Verif.Lemmas.Helpers
import Verif.Spec.Table
import Verif.Props.Helpers
import Verif.Spec.RunCrash
import Verif.Lemmas.RunCrash
import Verif.Lemmas.RunCrash2
import Verif.Lemmas.RunFail
import Verif.Props.RunCrash
import Verif.Spec.PDE
import Verif.Lemmas.MolJac
import Verif.Lemmas.MolPhi
import Verif.Lemmas.MolMean
import Verif.Lemmas.Truncation
import Verif.Lemmas.MolStable
import Verif.Lemmas.MolMain
import Verif.Props.PDEConvergence
import Verif.Props.RunPDE
import Verif.Spec.Modes
import Verif.Lemmas.Modes
import Verif.Lemmas.NoBracket
import Verif.Props.Modes
import Verif.Props.Stability
import Verif.Model.Phiml
import Verif.Props.Phiml
import Verif.Model.Benchmark
import Verif.Props.Benchmark
import Verif.Lemmas.Budget
import Verif.Props.Budget
import Verif.Spec.Run2Crash
import Verif.Lemmas.Run2Crash
import Verif.Props.Run2Crash
import Verif.NumPy.Stack
import Verif.Model.Stacked
import Verif.Spec.Stack
import Verif.Lemmas.Stack
import Verif.Model.RunPropsHW
import Verif.Props.Stack
import Verif.Lemmas.Run2Props
import Verif.Props.Run2Props
import Verif.Spec.Rounding
import Verif.Lemmas.Rounding
import Verif.Props.Rounding
import Verif.Lemmas.Perturb
import Verif.Props.Perturb
import Verif.Spec.DriftWave
import Verif.Lemmas.DriftWave
import Verif.Props.DriftWave
import Verif.Lemmas.EnergyBound
import Verif.Props.EnergyBound
import Verif.Spec.Properties
import Verif.Lemmas.PropertyMeaning
import Verif.Props.PropertyMeaning
import Verif.Spec.Measured
import Verif.Lemmas.BoxMean
import Verif.Lemmas.Measured
import Verif.Lemmas.SpectralSmall
import Verif.Lemmas.Parts
import Verif.Lemmas.MeasuredState
import Verif.Props.Measured
import Verif.Spec.Summation
import Verif.Model.HWGen
import Verif.Lemmas.HWGen
import Verif.Lemmas.Accurate
import Verif.Lemmas.HWFloat
import Verif.Props.FloatCommon
import Verif.Props.Float
import Verif.Props.BadNames
import Verif.Props.RunRun2
import Verif.Lemmas.ZonalFlow
import Verif.Props.ZonalFlow
import Verif.Lemmas.Tile
import Verif.Props.Tile
import Verif.Props.FloatPDE
import Verif.Model.RunStart
import Verif.Props.RunStart
import Verif.Lemmas.Augment
import Verif.Props.Accumulate
import Verif.Lemmas.Scaling
import Verif.Props.Scaling
import Verif.Props.Offset
import Verif.Model.Parallel
import Verif.Lemmas.Parallel
import Verif.Props.Parallel
import Verif.Spec.Noise
import Verif.Lemmas.Noise
import Verif.Props.Noise
import Verif.Lemmas.StackSolve
import Verif.Props.StackSolve
import Verif.Lemmas.Decay
import Verif.Props.Decay
import Verif.Spec.Single
import Verif.Lemmas.Single
import Verif.Props.Times
import Verif.Model.Progress
import Verif.Lemmas.Progress
import Verif.Props.Progress
import Verif.Lemmas.RunPropsCrash
import Verif.Props.PropsCrash
import Verif.Lemmas.Run2Missing
import Verif.Props.PropList
import Verif.Props.Load
import Verif.Model.Colormap
import Verif.Spec.Colormap
import Verif.Lemmas.Rel
import Verif.Lemmas.Colormap
import Verif.Props.Colormap
import Verif.Model.MovieFile
import Verif.Props.MovieFile
import Verif.Model.Timetrace
import Verif.Props.Timetrace
import Verif.Model.Image
import Verif.Props.Image
import Verif.Model.RunAll
import Verif.Lemmas.NoOther
import Verif.Props.RunAll
import Verif.Props.RunAll2
import Verif.Props.Incomplete
import Verif.Props.Labels
import Verif.Lemmas.Run2Chain
import Verif.Props.Pieces
import Verif.Props.FloatDrift
import Verif.Model.Construct
import Verif.Spec.Construct
import Verif.Props.Construct
import Verif.Model.Timed
import Verif.Lemmas.Timed
import Verif.Props.Timed
import Verif.Model.Memory
import Verif.Spec.Memory
import Verif.Lemmas.Memory
import Verif.Props.Memory
import Verif.Model.Debug
import Verif.Spec.Debug
import Verif.Lemmas.Debug
import Verif.Props.Debug
import Verif.Props.RunFloat
import Verif.Props.Run2PDE
import Verif.Props.Run2Float
import Verif.Spec.BitContinue
import Verif.Lemmas.BitContinue
import Verif.Props.BitContinue
import Verif.Props.ContinueFloat
import Verif.Model.PropertiesGen
import Verif.Lemmas.PropsFloat
import Verif.Props.MeasuredFloat
import Verif.Props.StoredFloat
import Verif.Spec.RunResumed
import Verif.Lemmas.RunResumed
import Verif.Props.RunResumed
import Verif.Props.RunContinueFloat
import Verif.Props.RunContinueProps
import Verif.Props.ContinueProps
import Verif.Model.ColourRule
import Verif.Props.ColourLimits
import Verif.Props.FileBudget
import Verif.Props.FileRelations
import Verif.Lemmas.BudgetSnaps
import Verif.Props.FileGrowth
import Verif.Props.FileMeans
import Verif.Props.FileStability
import Verif.Props.Run2First
import Verif.Props.SineSeam
import Verif.Props.FileDecay
import Verif.Props.Run2Nan
import Verif.Props.PiecesPhysics
import Verif.Props.RunReported
import Verif.Props.RunBudget
import Verif.Props.FigurePath
import Verif.Props.DebugAge
