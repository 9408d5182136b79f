import Verif.Linop.Core
import Verif.Linop.Spec
import Verif.Linop.Sound
import Verif.Linop.CtorSound
import Verif.Linop.Algebra
import Verif.Linop.Total
import Verif.Linop.Table
import Verif.Linop.Program
import Verif.Linop.ProgramSound
import Verif.Linop.ProgramTotal
import Verif.Linop.Counts
import Verif.Linop.Instances
import Verif.Linop.Grow
import Verif.Linop.Div
import Verif.Linop.Props
import Verif.Linop.PropsLemmas
import Verif.Linop.Props2
import Verif.Linop.Examples
import Verif.Solver.Arith
import Verif.Solver.Exact
import Verif.Solver.CG
import Verif.Solver.CGMath
import Verif.Solver.CGLemmas
import Verif.Solver.CGProps
import Verif.Solver.CGExact
import Verif.Solver.CGExamples
import Verif.Solver.Loop
import Verif.Solver.CGS
import Verif.Solver.BiCGSTAB
import Verif.Solver.TFQMR
import Verif.Solver.KrylovProps
import Verif.Solver.TFQMRProps
import Verif.Solver.KrylovExamples
import Verif.Tools.Quadratic
import Verif.Tools.QuadraticProps
import Verif.Tools.Checks
import Verif.Tools.ChecksProps
import Verif.Gallery.Poisson
import Verif.Gallery.PoissonLemmas
import Verif.Gallery.PoissonProps
import Verif.Lbfgs.Model
import Verif.Lbfgs.Spec
import Verif.Lbfgs.Rep
import Verif.Lbfgs.Lists
import Verif.Lbfgs.Compact
import Verif.Lbfgs.BFGS
import Verif.Lbfgs.Exact
import Verif.Lbfgs.CompactExact
import Verif.Lbfgs.Props
import Verif.Linop.Coord
import Verif.Linop.CoordLemmas
import Verif.Linop.CoordProps
import Verif.Linop.Diagonal
import Verif.Linop.DiagonalProps
import Verif.Blkop.Model
import Verif.Blkop.Spec
import Verif.Blkop.Lemmas
import Verif.Blkop.Ops
import Verif.Blkop.Upper
import Verif.Blkop.Flagged
import Verif.Blkop.Assign
import Verif.Blkop.Props
import Verif.Blkop.Diag
import Verif.Blkop.DiagProps
import Verif.Blkop.Examples
import Verif.Blkop.Index
import Verif.Blkop.IndexLemmas
import Verif.Blkop.IndexProps
import Verif.Blkop.AssignProps
import Verif.Blkop.AssignBad
import Verif.Blkop.IndexExamples
import Verif.Solver.Minres
import Verif.Solver.MinresProps
import Verif.Solver.MinresMath
import Verif.Solver.MinresExact
import Verif.Solver.MinresFindings
import Verif.Solver.Warp
import Verif.Solver.MinresPrecon
import Verif.Solver.MinresPreconProps
import Verif.Solver.Symmlq
import Verif.Solver.SymmlqProps
import Verif.Solver.LSQR
import Verif.Solver.BidiagMath
import Verif.Solver.LsqrMath
import Verif.Solver.LSQRProps
import Verif.Solver.LSQRExact
import Verif.Solver.LSQRConv
import Verif.Solver.LSMR
import Verif.Solver.LSMRProps
import Verif.Solver.LsmrMath
import Verif.Solver.LSMRNorm
import Verif.Solver.LSMRExact
import Verif.Solver.LSMRConv
import Verif.Solver.Craig
import Verif.Solver.CraigProps
import Verif.Solver.CraigMath
import Verif.Solver.CraigExact
import Verif.Solver.CraigConv
import Verif.Solver.CraigMR
import Verif.Solver.CraigmrProps
import Verif.Solver.CraigmrExact
import Verif.Solver.Options
import Verif.Solver.OptionsProps
import Verif.Solver.Heap
import Verif.Solver.HeapCG
import Verif.Solver.HeapCGS
import Verif.Solver.HeapBi
import Verif.Solver.HeapTF
import Verif.Solver.HeapMinres
import Verif.Solver.HeapShift
import Verif.Solver.HeapE
import Verif.Solver.HeapBidiag
import Verif.Solver.HeapLSQR
import Verif.Solver.HeapLSMR
import Verif.Solver.HeapCraig
import Verif.Solver.HeapCraigMR
import Verif.Solver.HeapAlias
import Verif.Solver.HeapSymmlq
import Verif.Solver.HeapSymmlqSim
import Verif.Solver.HeapProps
import Verif.Solver.HeapProps2
import Verif.Solver.HeapMoments
import Verif.Solver.FopMath
import Verif.Solver.KrylovConv
import Verif.Solver.KrylovConvProps
import Verif.Solver.SymmlqMath
import Verif.Solver.SymmlqExact
import Verif.Solver.SymmlqConvProps
import Verif.Solver.PreconTwo
import Verif.Solver.CraigPrecon
import Verif.Solver.CraigPreconProps
import Verif.Solver.LSQRPrecon
import Verif.Solver.LSQRPreconProps
import Verif.Solver.LSMRPrecon
import Verif.Solver.LSMRPreconProps
import Verif.Solver.SymmlqPrecon
import Verif.Solver.SymmlqPreconProps
import Verif.Solver.MinresCodes
import Verif.Solver.SymChecks
import Verif.Linop.Wrap
import Verif.Linop.WrapProps
import Verif.Linop.WrapExamples
import Verif.Linop.Dtype
import Verif.Linop.Session
import Verif.Linop.SessionProps
import Verif.Link.Bridge
import Verif.Link.Props
import Verif.Gallery.Energy
import Verif.Link.Gallery
import Verif.Link.Lbfgs
import Verif.Link.Block
import Verif.Solver.Reuse
import Verif.Solver.ReuseProps
import Verif.Solver.ReuseFindings
import Verif.Solver.Confined
import Verif.Solver.ComplexFindings
import Verif.Solver.ComplexReal
import Verif.Solver.ConfinedProps
import Verif.Solver.Rate
import Verif.Solver.RateMath
import Verif.Solver.CGOptimal
import Verif.Solver.RateProps
import Verif.Link.Rate
import Verif.Solver.Typed
import Verif.Solver.TypedMath
import Verif.Solver.TypedProps
import Verif.Solver.TypedFindings
import Verif.Threads.Pool
import Verif.Threads.Linop
import Verif.Threads.LinopMath
import Verif.Threads.Lbfgs
import Verif.Threads.LbfgsMath
import Verif.Threads.Props
import Verif.Solver.Scale
import Verif.Solver.ScaleKrylov
import Verif.Solver.ScaleProps
import Verif.Solver.ScaleLSQR
import Verif.Solver.ScaleLSQRProps
import Verif.Solver.ScaleLSMR
import Verif.Solver.Warm
import Verif.Solver.WarmProps
import Verif.Solver.RatePrecon
import Verif.Solver.Show
import Verif.Solver.ShowLemmas
import Verif.Solver.ShowProps
import Verif.Solver.ShowFindings
import Verif.Solver.ShowRows
import Verif.Solver.ScaleCraigmr
import Verif.Solver.ScaleCraig
import Verif.Solver.ScaleLSMRSim
import Verif.Solver.ScaleSymmlq
import Verif.Solver.ScaleMinres
import Verif.Solver.ScaleLsProps
import Verif.Solver.ScaleMinresFindings
import Verif.Solver.InterruptSpec
import Verif.Solver.Interrupt
import Verif.Solver.InterruptLemmas
import Verif.Solver.InterruptLs
import Verif.Solver.InterruptSq
import Verif.Solver.InterruptProps
import Verif.Solver.TypedLs
import Verif.Solver.TypedLsSpec
import Verif.Solver.TypedLsMath
import Verif.Solver.TypedLsProps
import Verif.Solver.TypedMinres
import Verif.Solver.TypedMinresMath
import Verif.Solver.TypedMinresProps
import Verif.Blkop.Counts
import Verif.Blkop.CountLemmas
import Verif.Blkop.CountProps
import Verif.Solver.Singular
import Verif.Solver.SingularProps
import Verif.Solver.CGCurv
import Verif.Solver.CGCurvProps
import Verif.Linop.SessionCounts
import Verif.Tools.Random
import Verif.Tools.RandomProps
import Verif.Tools.PowerProps
import Verif.Solver.Log
import Verif.Solver.LogLemmas
import Verif.Solver.LogProps
import Verif.Solver.RateSingular
import Verif.Solver.MinresLeast
import Verif.Solver.MinresLeastProps
import Verif.Solver.Monotone
import Verif.Solver.MonotoneProps
import Verif.Solver.MonotonePrecon
import Verif.Solver.Fresh
import Verif.Linop.Types
import Verif.Linop.TypesProps
import Verif.Solver.Rounding
import Verif.Solver.RoundingProps
import Verif.Solver.RoundingCGS
import Verif.Solver.FloatFormat
import Verif.Solver.FloatDense
import Verif.Solver.FloatProps
import Verif.Linop.FloatExpr
import Verif.Linop.FloatExprProps
import Verif.Solver.FloatRange
import Verif.Linop.FloatExprFinite
import Verif.Tools.FloatChecks
import Verif.Tools.FloatChecksProps
import Verif.Tools.FloatChecksWitness
import Verif.Solver.FloatWitness
import Verif.Gallery.FloatPoisson
import Verif.Gallery.FloatPoissonProps
import Verif.Gallery.FloatPoissonSolvers
import Verif.Tools.FloatQuadratic
import Verif.Tools.FloatQuadraticLemmas
import Verif.Tools.FloatQuadraticProps
import Verif.Tools.FloatQuadraticWitness
import Verif.Tools.FloatQuadraticLink
import Verif.Solver.FloatNormal
import Verif.Tools.FloatNewtonLemmas
import Verif.Tools.FloatNewtonProps
import Verif.Solver.RoundingBi
import Verif.Solver.FloatBi
import Verif.Gallery.FloatPoissonError
import Verif.Solver.InterruptSymmlq
import Verif.Solver.HeapSymmlqAlias
import Verif.Solver.LogSymmlq
import Verif.Solver.LogSymmlqLemmas
import Verif.Solver.LogSymmlqProps
