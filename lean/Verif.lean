import Verif.Model.Numpy
import Verif.Model.Basis
import Verif.Model.Solution
import Verif.Model.Dg
import Verif.Model.Rk
import Verif.Model.RkCoeffs
import Verif.Model.Integrate
import Verif.Model.Advection
import Verif.Proofs.Clock
import Verif.Props.Examples
import Verif.Props.Clock
import Verif.Model.Stability
import Verif.Spec.RungeKutta
import Verif.Proofs.RkStep
import Verif.Proofs.RkTables
import Verif.Proofs.RkLinear
import Verif.Proofs.RkRun
import Verif.Props.RungeKutta
import Verif.Spec.Legendre
import Verif.Proofs.Legendre
import Verif.Model.BasisInit
import Verif.Proofs.Basis
import Verif.Proofs.Gauss
import Verif.Props.Basis
import Verif.Spec.Dg
import Verif.Proofs.Dg
import Verif.Proofs.DgSpec
import Verif.Proofs.DgAdvection
import Verif.Props.ExamplesReal
import Verif.Props.Dg
import Verif.Proofs.Simulation
import Verif.Proofs.Runs
import Verif.Props.Runs
import Verif.Props.RunsLimited
import Verif.Model.Euler
import Verif.Spec.Euler
import Verif.Proofs.Euler
import Verif.Props.Euler
import Verif.Spec.Godunov
import Verif.Proofs.Godunov
import Verif.Props.Godunov
import Verif.Model.LinAlg
import Verif.Model.Limiter
import Verif.Spec.Sensor
import Verif.Proofs.Sensor
import Verif.Props.Sensor
import Verif.Spec.Limiter
import Verif.Proofs.LinAlg
import Verif.Proofs.Limiter
import Verif.Proofs.HrPoly
import Verif.Proofs.LimiterSol
import Verif.Props.Limiter
import Verif.Spec.Enhance
import Verif.Model.Enhance
import Verif.Proofs.Enhance
import Verif.Props.Enhance
import Verif.Model.Text
import Verif.Model.InitialConditions
import Verif.Model.Construct
import Verif.Proofs.Text
import Verif.Proofs.Construct
import Verif.Spec.InitialConditions
import Verif.Spec.Mesh
import Verif.Props.InitialConditions
import Verif.Props.Construct
import Verif.Model.Deck
import Verif.Spec.Deck
import Verif.Proofs.Deck
import Verif.Props.Deck
import Verif.Model.IO
import Verif.Proofs.IO
import Verif.Props.IO
import Verif.Model.DgStability
import Verif.Proofs.DgStability
import Verif.Props.DgStability
import Verif.Model.Main
import Verif.Proofs.Progress
import Verif.Proofs.Main
import Verif.Props.Main
import Verif.Spec.Decimal
import Verif.Props.Regressions
import Verif.Proofs.Superposition
import Verif.Props.Linear
import Verif.Proofs.Energy
import Verif.Props.Energy
import Verif.Props.RunsCode
import Verif.Props.UnitTests
import Verif.Spec.SemiDiscrete
import Verif.Proofs.Butcher
import Verif.Proofs.Total
import Verif.Proofs.LocalError
import Verif.Proofs.EulerSmooth
import Verif.Props.LocalError
import Verif.Proofs.Convergence
import Verif.Proofs.ConvergenceLinear
import Verif.Props.Convergence
import Verif.Proofs.Approx
import Verif.Proofs.AdvConv
import Verif.Spec.L2Error
import Verif.Props.AdvectionConvergence
import Verif.Spec.Variation
import Verif.Props.Monotone
import Verif.Proofs.Mirror
import Verif.Props.Mirror
import Verif.Model.FloatClock
import Verif.Spec.Binary64
import Verif.Proofs.Binary64
import Verif.Proofs.FloatClock
import Verif.Proofs.FloatTimes
import Verif.Props.FloatClock
import Verif.Model.Regressions
import Verif.Spec.Regressions
import Verif.Proofs.Regressions
import Verif.Props.RegressionTests
import Verif.Model.Study
import Verif.Props.Study
import Verif.Model.StabilityCurves
import Verif.Spec.StabilityCurves
import Verif.Proofs.StabilityCurves
import Verif.Props.StabilityCurves
import Verif.Model.Plot
import Verif.Spec.Plot
import Verif.Proofs.Plot
import Verif.Props.Plot
import Verif.Spec.Units
import Verif.Proofs.Units
import Verif.Proofs.UnitsRun
import Verif.Proofs.UnitsLoop
import Verif.Props.Units
import Verif.Spec.Positivity
import Verif.Proofs.Positivity
import Verif.Props.Positivity
import Verif.Props.Resume
import Verif.Proofs.OrderTable
import Verif.Proofs.NearOrder
import Verif.Props.NearOrder
import Verif.Model.Heap
import Verif.Spec.Heap
import Verif.Proofs.Heap
import Verif.Props.Heap
import Verif.Props.MonotoneSharp
import Verif.Props.StudyScripts
import Verif.Model.Log
import Verif.Props.Log
import Verif.Model.Entry
import Verif.Props.Entry
import Verif.Props.RegressionPlot
import Verif.Proofs.Autonomy
import Verif.Props.Autonomy
import Verif.Proofs.Mute
import Verif.Props.Mute
import Verif.Proofs.LimitedLinear
import Verif.Props.LimitedLinear
import Verif.Model.Checked
import Verif.Spec.Contact
import Verif.Proofs.Contact
import Verif.Proofs.Strict
import Verif.Props.Contact
import Verif.Spec.EntropyWave
import Verif.Proofs.DensityRun
import Verif.Proofs.StageClose
import Verif.Proofs.StageAgree
import Verif.Proofs.DensityWave
import Verif.Props.EntropyWave
import Verif.Proofs.Dispersion
import Verif.Props.Dispersion
import Verif.Spec.Steady
import Verif.Proofs.Steady
import Verif.Props.Steady
import Verif.Spec.Average
import Verif.Proofs.AdaptedNorm
import Verif.Proofs.WaveMode
import Verif.Proofs.WaveAverage
import Verif.Proofs.WaveStart
import Verif.Proofs.WaveRun
import Verif.Proofs.WaveBound
import Verif.Proofs.WaveSolver
import Verif.Proofs.WaveCells
import Verif.Props.SuperConvergence
import Verif.Model.Rounded
import Verif.Spec.Rounded
import Verif.Spec.RoundedRun
import Verif.Proofs.Rounded
import Verif.Proofs.RoundedStep
import Verif.Proofs.RoundedRun
import Verif.Proofs.RoundedRefine
import Verif.Props.Rounded
import Verif.Spec.LinearOrder
import Verif.Proofs.AverageRun
import Verif.Props.HighOrder
import Verif.Model.Nan
import Verif.Proofs.Nan
import Verif.Proofs.NanResidual
import Verif.Proofs.NanRun
import Verif.Props.Nan
import Verif.Spec.Shock
import Verif.Proofs.ShockSensor
import Verif.Props.ShockSensor
import Verif.Proofs.Causality
import Verif.Props.Causality
import Verif.Model.NanLimiter
import Verif.Proofs.NanLimiter
import Verif.Props.NanLimiter
import Verif.Proofs.Barrier
import Verif.Props.Barrier
import Verif.Proofs.NanSensor
import Verif.Props.NanLimited
import Verif.Props.Flags
import Verif.Props.Steps
import Verif.Proofs.Decay
import Verif.Props.Forget
import Verif.Proofs.Rk4Energy
import Verif.Props.Rk4Energy
import Verif.Props.Rk4Forget
import Verif.Props.Rk4Grow
import Verif.Props.Perturb
import Verif.Model.PlotCurve
import Verif.Props.PlotCurve
import Verif.Model.Helpers
import Verif.Props.Helpers
