import Verif.Props.Agree
import Verif.Props.Algebra2
import Verif.Props.All
import Verif.Props.AnyNode
import Verif.Props.AutoDiff
import Verif.Props.Bias
import Verif.Props.BinaryAssign2
import Verif.Props.BinaryAssign2Self
import Verif.Props.CheckNear
import Verif.Props.CheckTests
import Verif.Props.Checked
import Verif.Props.Constructors
import Verif.Props.Cont
import Verif.Props.ContCorr
import Verif.Props.ContFalse
import Verif.Props.ContRest
import Verif.Props.ContSteady
import Verif.Props.Convert
import Verif.Props.Cost
import Verif.Props.Cost2
import Verif.Props.Degenerate
import Verif.Props.Distr
import Verif.Props.Doc
import Verif.Props.Error2
import Verif.Props.Error2Fun
import Verif.Props.Error2More
import Verif.Props.Error2More2
import Verif.Props.Error2Ratio
import Verif.Props.FirstOrder
import Verif.Props.Float
import Verif.Props.FloatConv
import Verif.Props.FloatConv2
import Verif.Props.FloatCtor
import Verif.Props.FloatExact
import Verif.Props.FloatExact2
import Verif.Props.FloatFail2
import Verif.Props.FloatMath
import Verif.Props.FloatMath2
import Verif.Props.FloatMatrix
import Verif.Props.FloatMatrix2
import Verif.Props.FloatMatrix3
import Verif.Props.FloatNum
import Verif.Props.FloatUReals
import Verif.Props.Format
import Verif.Props.FormatAgain
import Verif.Props.FormatFP
import Verif.Props.FormatSecond
import Verif.Props.FormatText
import Verif.Props.Functions
import Verif.Props.Functions2
import Verif.Props.Generic
import Verif.Props.GradHess
import Verif.Props.HessCalls
import Verif.Props.Integers
import Verif.Props.Integers2
import Verif.Props.Iterators
import Verif.Props.Joined
import Verif.Props.Joined2
import Verif.Props.Kurt
import Verif.Props.Larger
import Verif.Props.LargerAssign
import Verif.Props.LargerFloat
import Verif.Props.Law
import Verif.Props.Law2
import Verif.Props.Law2False
import Verif.Props.LawAll
import Verif.Props.Math
import Verif.Props.Math2
import Verif.Props.MathNaN
import Verif.Props.MathNaN2
import Verif.Props.Memory
import Verif.Props.Memory2
import Verif.Props.Mixed
import Verif.Props.MomCost
import Verif.Props.Moments
import Verif.Props.Moves
import Verif.Props.NumDiff
import Verif.Props.Order
import Verif.Props.Precision
import Verif.Props.PrecisionRange2
import Verif.Props.PrecisionRatio
import Verif.Props.Predicates
import Verif.Props.PredicatesFloat
import Verif.Props.Programs
import Verif.Props.Range
import Verif.Props.Range2
import Verif.Props.Repro
import Verif.Props.Rounding
import Verif.Props.SameFunction
import Verif.Props.SameFunction2
import Verif.Props.Schedule
import Verif.Props.SecondOrder
import Verif.Props.SignedZero
import Verif.Props.SignedZero2
import Verif.Props.Sparse
import Verif.Props.Special
import Verif.Props.Stat
import Verif.Props.StatIt
import Verif.Props.Tail
import Verif.Props.TailJoint
import Verif.Props.TailSharp
import Verif.Props.Taylor
import Verif.Props.Threads
import Verif.Props.UReals
import Verif.Props.URealsMore
import Verif.Props.Units
import Verif.Conform
import Verif.Audit
