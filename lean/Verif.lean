import Verif.Model.Backward
import Verif.Model.Basic
import Verif.Model.Call
import Verif.Model.Handle
import Verif.Model.Heap
import Verif.Model.Init
import Verif.Model.Layout
import Verif.Model.Ops
import Verif.Model.Parse
import Verif.Model.Print
import Verif.Model.Scalar
import Verif.Model.SizeText
import Verif.Model.Tensor
import Verif.Spec.Accum
import Verif.Spec.Again
import Verif.Spec.Apart
import Verif.Spec.Api
import Verif.Spec.Binary
import Verif.Spec.Cat
import Verif.Spec.Consult
import Verif.Spec.Control
import Verif.Spec.Copying
import Verif.Spec.Deriv
import Verif.Spec.Descent
import Verif.Spec.Detach
import Verif.Spec.Format
import Verif.Spec.Forward
import Verif.Spec.Frame
import Verif.Spec.Grad
import Verif.Spec.Graph
import Verif.Spec.Handle
import Verif.Spec.Heap
import Verif.Spec.Ieee
import Verif.Spec.IeeeRounding
import Verif.Spec.InPlace
import Verif.Spec.Index
import Verif.Spec.Init
import Verif.Spec.Interleave
import Verif.Spec.Joins
import Verif.Spec.Laws
import Verif.Spec.Lifetime
import Verif.Spec.Linked
import Verif.Spec.MeanGrad
import Verif.Spec.Memory
import Verif.Spec.Order
import Verif.Spec.Outcome
import Verif.Spec.Print
import Verif.Spec.Program
import Verif.Spec.Quotient
import Verif.Spec.Rational
import Verif.Spec.Reduce
import Verif.Spec.Ring
import Verif.Spec.Rounding
import Verif.Spec.Scalar
import Verif.Spec.Scaling
import Verif.Spec.Shared
import Verif.Spec.Slice
import Verif.Spec.Tangent
import Verif.Spec.Totals
import Verif.Spec.Toy
import Verif.Spec.Train
import Verif.Spec.ViewGrad
import Verif.Spec.Watch
import Verif.Spec.Whole
import Verif.Lemmas.Abs
import Verif.Lemmas.Accum
import Verif.Lemmas.Accumulate
import Verif.Lemmas.Again
import Verif.Lemmas.Agree
import Verif.Lemmas.All
import Verif.Lemmas.Apart
import Verif.Lemmas.Arith
import Verif.Lemmas.BackFrame
import Verif.Lemmas.Binary
import Verif.Lemmas.BinaryStop
import Verif.Lemmas.Box
import Verif.Lemmas.Build
import Verif.Lemmas.Calls
import Verif.Lemmas.Cat
import Verif.Lemmas.Cells
import Verif.Lemmas.ConstQuotient
import Verif.Lemmas.Consult
import Verif.Lemmas.Control
import Verif.Lemmas.Create
import Verif.Lemmas.Cycles
import Verif.Lemmas.Deriv
import Verif.Lemmas.DerivCat
import Verif.Lemmas.DerivKinds
import Verif.Lemmas.DerivSeed
import Verif.Lemmas.DerivStep
import Verif.Lemmas.DerivVisit
import Verif.Lemmas.Descent
import Verif.Lemmas.DescentRuns
import Verif.Lemmas.Ends
import Verif.Lemmas.Exact
import Verif.Lemmas.Examples
import Verif.Lemmas.Existing
import Verif.Lemmas.Extreme
import Verif.Lemmas.Feed
import Verif.Lemmas.FeedBack
import Verif.Lemmas.FeedCalls
import Verif.Lemmas.FeedKernels
import Verif.Lemmas.FeedLoop
import Verif.Lemmas.FeedStep
import Verif.Lemmas.FeedTrain
import Verif.Lemmas.FeedViews
import Verif.Lemmas.Format
import Verif.Lemmas.Forward
import Verif.Lemmas.ForwardBack
import Verif.Lemmas.ForwardCalls
import Verif.Lemmas.ForwardLift
import Verif.Lemmas.ForwardOps
import Verif.Lemmas.ForwardPrograms
import Verif.Lemmas.ForwardRuns
import Verif.Lemmas.Frame
import Verif.Lemmas.Fresh
import Verif.Lemmas.Graph
import Verif.Lemmas.GraphKeep
import Verif.Lemmas.GraphOrder
import Verif.Lemmas.GraphStep
import Verif.Lemmas.Handle
import Verif.Lemmas.InPlace
import Verif.Lemmas.Init
import Verif.Lemmas.Interleave
import Verif.Lemmas.Joins
import Verif.Lemmas.Laws
import Verif.Lemmas.Layout
import Verif.Lemmas.Lifetime
import Verif.Lemmas.Linked
import Verif.Lemmas.LinkedCalls
import Verif.Lemmas.LinkedOps
import Verif.Lemmas.LinkedRun
import Verif.Lemmas.Local
import Verif.Lemmas.MeanGrad
import Verif.Lemmas.Mem
import Verif.Lemmas.MemKernels
import Verif.Lemmas.MemNew
import Verif.Lemmas.MemViews
import Verif.Lemmas.Monad
import Verif.Lemmas.Odo
import Verif.Lemmas.Order
import Verif.Lemmas.Outcome
import Verif.Lemmas.OutcomeUnary
import Verif.Lemmas.Owner
import Verif.Lemmas.Parse
import Verif.Lemmas.Print
import Verif.Lemmas.Program
import Verif.Lemmas.ProgramCalls
import Verif.Lemmas.ProgramRest
import Verif.Lemmas.ProgramViews
import Verif.Lemmas.Reduce
import Verif.Lemmas.Regression
import Verif.Lemmas.Regularize
import Verif.Lemmas.Reshape
import Verif.Lemmas.Ring
import Verif.Lemmas.Rounding
import Verif.Lemmas.RoundingSum
import Verif.Lemmas.Runs
import Verif.Lemmas.Scalar
import Verif.Lemmas.Shared
import Verif.Lemmas.SizeText
import Verif.Lemmas.Slice
import Verif.Lemmas.Slots
import Verif.Lemmas.Tangent
import Verif.Lemmas.Totals
import Verif.Lemmas.Track
import Verif.Lemmas.TrackBack
import Verif.Lemmas.TrainedRuns
import Verif.Lemmas.Twin
import Verif.Lemmas.TwinCalls
import Verif.Lemmas.TwinRun
import Verif.Lemmas.Valid
import Verif.Lemmas.ViewGrad
import Verif.Lemmas.ViewOps
import Verif.Lemmas.Views
import Verif.Lemmas.Watch
import Verif.Lemmas.Weighted
import Verif.Lemmas.Whole
import Verif.Props.Accum
import Verif.Props.Accumulate
import Verif.Props.Again
import Verif.Props.Apart
import Verif.Props.BackFrame
import Verif.Props.BackMem
import Verif.Props.Backward
import Verif.Props.Cat
import Verif.Props.Checks
import Verif.Props.Construct
import Verif.Props.Consult
import Verif.Props.Control
import Verif.Props.CopyLaws
import Verif.Props.Deriv
import Verif.Props.Descent
import Verif.Props.Elementwise
import Verif.Props.Flags
import Verif.Props.Format
import Verif.Props.Frame
import Verif.Props.GradBugs
import Verif.Props.GradRules
import Verif.Props.Guards
import Verif.Props.Handle
import Verif.Props.Ieee
import Verif.Props.InPlace
import Verif.Props.Init
import Verif.Props.Interleave
import Verif.Props.Joins
import Verif.Props.Laws
import Verif.Props.Layout
import Verif.Props.Lifetime
import Verif.Props.Linked
import Verif.Props.MeanGrad
import Verif.Props.Memory
import Verif.Props.Noexcept
import Verif.Props.Order
import Verif.Props.Outcome
import Verif.Props.OutcomeUnary
import Verif.Props.Print
import Verif.Props.Program
import Verif.Props.Quotient
import Verif.Props.Reduce
import Verif.Props.Reshape
import Verif.Props.ReshapeLaws
import Verif.Props.Ring
import Verif.Props.RingTotals
import Verif.Props.Rounding
import Verif.Props.ScalarLaws
import Verif.Props.Shared
import Verif.Props.SizeText
import Verif.Props.Slice
import Verif.Props.Tangent
import Verif.Props.Totals
import Verif.Props.Training
import Verif.Props.Traversal
import Verif.Props.ViewGrad
import Verif.Props.ViewLaws
import Verif.Props.ViewRoot
import Verif.Props.Watch
import Verif.Props.Whole
