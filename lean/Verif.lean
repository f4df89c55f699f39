import Verif.Base
import Verif.Rat32
import Verif.Rat32Lemmas
import Verif.Pow
import Verif.Bits
import Verif.Crc
import Verif.Sort
import Verif.Blade
import Verif.Metrics
import Verif.BladeLemmas
import Verif.Clifford
import Verif.CliffordBasis
import Verif.Props.Rational
import Verif.Props.RationalCmp
import Verif.Props.Pow
import Verif.Props.Bits
import Verif.Props.Crc
import Verif.Props.Sort
import Verif.Props.Blade
import Verif.MvNested
import Verif.MvFlat
import Verif.Spec.MvVal
import Verif.Spec.MvCanon
import Verif.OutRel
import Verif.MvValue
import Verif.MvCanon
import Verif.MvRefine
import Verif.MvRefineCollate
import Verif.MvRefineOps
import Verif.Spec.MvLayout
import Verif.Spec.Grade
import Verif.Props.Mv
import Verif.Props.MvOps
import Verif.MvSource
import Verif.Props.Reverse
import Verif.Props.Unique
import Verif.ExteriorBasis
import Verif.Props.Dual
import Verif.Props.Laws
import Verif.Props.Null
import Verif.Props.Divide
import Verif.Pseudo
import Verif.Props.Pseudo
import Verif.Stack
import Verif.Props.Stack
import Verif.Tuple
import Verif.Props.Tuple
import Verif.Entity
import Verif.Props.Entity
import Verif.Engine
import Verif.Props.Engine
import Verif.Named
import Verif.Props.Named
import Verif.Props.Coords
import Verif.Props.Geometry
import Verif.Expr
import Verif.Machine
import Verif.Spec.Tree
import Verif.Props.Machine
import Verif.Spec.Value
import Verif.Spec.RatValue
import Verif.Props.Expr
import Verif.Spec.Refine
import Verif.Props.Refine
import Verif.Props.ExprFalse
import Verif.Props.Capacity
import Verif.Reshape
import Verif.Subtree
import Verif.ReshapeScan
import Verif.Spec.Program
import Verif.TreeEqv
import Verif.ReshapeEmit
import Verif.ReshapeDone
import Verif.ReshapeQuot
import Verif.Props.Reshape
import Verif.Spec.CliffValue
import Verif.Props.CliffRefine
import Verif.Compute
import Verif.Conformance
import Verif.Props.Compute
import Verif.ReshapePlain
import Verif.Props.Results
import Verif.Spec.NullValue
import Verif.Props.ComputeNull
import Verif.Spec.QuotValue
import Verif.Spec.Fine
import Verif.Props.Quotient
import Verif.Props.QuotCompute
import Verif.Props.QuotFalse
import Verif.Spec.Values
import Verif.Props.Sparse
import Verif.Props.SparseFalse
import Verif.Spec.QuotTree
import Verif.Props.QuotTree
import Verif.Props.Normalize
import Verif.Versor
import Verif.Props.RunView
import Verif.Props.MotorRun
import Verif.Spec.Exp
import Verif.Spec.Pga
import Verif.Props.ExpSeries
import Verif.Props.Pga
import Verif.Props.Motor
import Verif.Props.Log
import Verif.Spec.Lambda
import Verif.Props.Lambda
import Verif.Props.LambdaCompute
import Verif.Props.LambdaFalse
import Verif.Props.LambdaCap
import Verif.Spec.LambdaMore
import Verif.Props.LambdaMore
import Verif.Props.LambdaQuot
import Verif.Props.LambdaExamples
import Verif.Props.PolyRun
import Verif.Props.SandwichPolys
import Verif.Spec.Motion
import Verif.Props.Sandwich
import Verif.Props.Incidence
import Verif.Props.MetricPolys
import Verif.Props.Metric
import Verif.Props.Lines
import Verif.Props.Screw
import Verif.Props.ExpJoin
import Verif.Props.ExpMove
import Verif.Props.PolyNull
import Verif.Props.NestedRun
import Verif.Props.ConformalPolys
import Verif.Props.ConformalVersors
import Verif.Props.ConformalInversion
import Verif.Spec.Conformal
import Verif.Props.Conformal
import Verif.Rounded
import Verif.Spec.Rounding
import Verif.Props.Rounded
import Verif.Props.RoundedRun
import Verif.Props.RoundedGeometry
import Verif.Literals
import Verif.Format
import Verif.Spec.Text
import Verif.Props.Text
import Verif.Props.Repack
import Verif.Props.NamedArgs
import Verif.Props.ConformalTuple
import Verif.Props.Steps
import Verif.Props.StepsUse
import Verif.Props.StepsMotor
import Verif.Props.StepsNull
import Verif.Props.StepsQuot
import Verif.Props.StepsTuple
import Verif.Props.FlatRun
import Verif.Props.MovePolys
import Verif.Props.Moves
import Verif.Spec.Plane
import Verif.Props.PlanePolys
import Verif.Props.Plane
import Verif.Props.NullShared
import Verif.Props.LambdaNull
import Verif.Props.NullQuot
import Verif.Props.TupleQuot
import Verif.Props.SparseQuot
import Verif.Props.SparseTuple
import Verif.Spec.NullValues
import Verif.Props.SparseNull
import Verif.Props.SparseLambda
import Verif.Props.Hypotheses
import Verif.Spec.RoundedLimit
import Verif.Props.RoundedLimit
import Verif.Props.RoundedExp
import Verif.Props.RoundedQuot
import Verif.Props.RoundedUnit
import Verif.Props.RoundedTuple
import Verif.ExpCompute
import Verif.Spec.Turn
import Verif.Props.ExpRun
import Verif.Props.ExpAlgebras
import Verif.Props.PgaVersors
import Verif.Props.RoundedIeee
import Verif.Spec.Round
import Verif.Props.RoundPolys
import Verif.Props.Round
import Verif.Spec.Ieee
import Verif.Props.IeeeFormat
import Verif.Props.IeeeRun
import Verif.Props.IeeeMore
import Verif.Spec.RoundedTemps
import Verif.Props.RoundedTemps
import Verif.Props.RoundedTempsUse
import Verif.Props.RoundedTempsExp
