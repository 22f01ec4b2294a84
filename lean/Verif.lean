import Verif.Lemmas.AutogradArr
import Verif.Lemmas.AutogradProg
import Verif.Lemmas.AutogradRun
import Verif.Lemmas.AutogradView
import Verif.Lemmas.Backward
import Verif.Lemmas.BackwardNodes
import Verif.Lemmas.Basic
import Verif.Lemmas.Basics
import Verif.Lemmas.Blas
import Verif.Lemmas.Broadcast
import Verif.Lemmas.BroadcastShapes
import Verif.Lemmas.CheckedInt
import Verif.Lemmas.Completes
import Verif.Lemmas.EinsumEllipsis
import Verif.Lemmas.EinsumEmpty
import Verif.Lemmas.EinsumFinal
import Verif.Lemmas.EinsumOrder
import Verif.Lemmas.EinsumParse
import Verif.Lemmas.EinsumPlan
import Verif.Lemmas.EinsumReject
import Verif.Lemmas.EinsumRun
import Verif.Lemmas.Elementwise
import Verif.Lemmas.FloatError
import Verif.Lemmas.FloatExact
import Verif.Lemmas.FloatMean
import Verif.Lemmas.Flow
import Verif.Lemmas.History
import Verif.Lemmas.Ieee
import Verif.Lemmas.IeeeNearest
import Verif.Lemmas.IeeeOrder
import Verif.Lemmas.IeeeRange
import Verif.Lemmas.IeeeRem
import Verif.Lemmas.IeeeRound
import Verif.Lemmas.Index
import Verif.Lemmas.Inj
import Verif.Lemmas.IntOps
import Verif.Lemmas.Iter
import Verif.Lemmas.Jacobian
import Verif.Lemmas.KeepLengths
import Verif.Lemmas.KernelSteps
import Verif.Lemmas.Kernels
import Verif.Lemmas.Laws
import Verif.Lemmas.Layout
import Verif.Lemmas.Leaves
import Verif.Lemmas.MatrixOps
import Verif.Lemmas.Nearest
import Verif.Lemmas.Nested
import Verif.Lemmas.NoFlags
import Verif.Lemmas.Overflow
import Verif.Lemmas.Ownership
import Verif.Lemmas.Pair
import Verif.Lemmas.Print
import Verif.Lemmas.Reduce
import Verif.Lemmas.ReduceGradient
import Verif.Lemmas.Related
import Verif.Lemmas.RelatedSession
import Verif.Lemmas.Rounding
import Verif.Lemmas.RunningError
import Verif.Lemmas.Session
import Verif.Lemmas.Shapes
import Verif.Lemmas.Simd
import Verif.Lemmas.SimdEmpty
import Verif.Lemmas.SimdReduce
import Verif.Lemmas.Sop
import Verif.Lemmas.Sticky
import Verif.Lemmas.SumProduct
import Verif.Lemmas.Tagged
import Verif.Lemmas.TensorMemory
import Verif.Lemmas.Transfer
import Verif.Lemmas.TransferGrad
import Verif.Lemmas.TransferRun
import Verif.Lemmas.TransferSession
import Verif.Lemmas.Uniform
import Verif.Lemmas.Vdsp
import Verif.Lemmas.ViewOps
import Verif.Lemmas.Views
import Verif.Lemmas.WeakArr
import Verif.Lemmas.WeakGradient
import Verif.Lemmas.WeakSession
import Verif.Model.Advance
import Verif.Model.Autograd
import Verif.Model.Basics
import Verif.Model.Blas
import Verif.Model.CheckedInt
import Verif.Model.Core
import Verif.Model.Einsum
import Verif.Model.FloatArith
import Verif.Model.FloatMacros
import Verif.Model.Floats
import Verif.Model.History
import Verif.Model.Ieee
import Verif.Model.IeeeRem
import Verif.Model.IntOps
import Verif.Model.Iter
import Verif.Model.Kernels
import Verif.Model.Layout
import Verif.Model.Macros
import Verif.Model.MatrixOps
import Verif.Model.Nested
import Verif.Model.NumCast
import Verif.Model.Overflow
import Verif.Model.Ownership
import Verif.Model.Print
import Verif.Model.Random
import Verif.Model.Ranges
import Verif.Model.Reduce
import Verif.Model.Simd
import Verif.Model.SumOfProducts
import Verif.Model.TensorMemory
import Verif.Model.Usize
import Verif.Model.UsizeSlice
import Verif.Model.Vdsp
import Verif.Model.Views
import Verif.Props.Advance
import Verif.Props.AlmostEq
import Verif.Props.AssignArith
import Verif.Props.Autograd
import Verif.Props.AutogradReal
import Verif.Props.Backprop
import Verif.Props.Batches
import Verif.Props.Benchmarks
import Verif.Props.Blas
import Verif.Props.BlasGradient
import Verif.Props.Broadcast
import Verif.Props.CheckedInt
import Verif.Props.Collapse
import Verif.Props.Construct
import Verif.Props.Consuming
import Verif.Props.Convert
import Verif.Props.Einsum
import Verif.Props.EinsumCount
import Verif.Props.EinsumLimits
import Verif.Props.Elementwise
import Verif.Props.Empty
import Verif.Props.EmptyProducts
import Verif.Props.Exact
import Verif.Props.ExactAssign
import Verif.Props.ExactFill
import Verif.Props.ExactHistory
import Verif.Props.ExactIter
import Verif.Props.ExactReduce
import Verif.Props.ExactSlice
import Verif.Props.FloatArith
import Verif.Props.FloatLoops
import Verif.Props.Floats
import Verif.Props.Freezing
import Verif.Props.GradientFrame
import Verif.Props.GradientIeee
import Verif.Props.GradientRounding
import Verif.Props.GradientShared
import Verif.Props.GradientStatus
import Verif.Props.Gradients
import Verif.Props.HighRank
import Verif.Props.History
import Verif.Props.Ieee
import Verif.Props.IeeeExact
import Verif.Props.IeeeOrder
import Verif.Props.IeeeRange
import Verif.Props.IeeeRounded
import Verif.Props.IntOps
import Verif.Props.Interleaved
import Verif.Props.Iter
import Verif.Props.Laws
import Verif.Props.LeastSquares
import Verif.Props.LinearAlgebra
import Verif.Props.LinearLayer
import Verif.Props.LossSum
import Verif.Props.Macros
import Verif.Props.MatrixOps
import Verif.Props.Nested
import Verif.Props.Overflow
import Verif.Props.Ownership
import Verif.Props.Passes
import Verif.Props.Print
import Verif.Props.RandintShare
import Verif.Props.Random
import Verif.Props.RangeLength
import Verif.Props.RangeOrder
import Verif.Props.Ranges
import Verif.Props.ReadOnly
import Verif.Props.Reduce
import Verif.Props.Rewriting
import Verif.Props.Scopes
import Verif.Props.Separate
import Verif.Props.Shapes
import Verif.Props.SharedViews
import Verif.Props.Simd
import Verif.Props.Sums
import Verif.Props.TensorMemory
import Verif.Props.TensorMemoryExact
import Verif.Props.Trace
import Verif.Props.TrainingLoop
import Verif.Props.Unused
import Verif.Props.Usize
import Verif.Props.UsizeSlice
import Verif.Props.ValueIndependence
import Verif.Props.ValueIndependenceArr
import Verif.Props.Vdsp
import Verif.Props.Views
import Verif.Props.Weighted
import Verif.Spec.Autograd
import Verif.Spec.Broadcast
import Verif.Spec.Convert
import Verif.Spec.Curves
import Verif.Spec.Einsum
import Verif.Spec.History
import Verif.Spec.Ieee
import Verif.Spec.IeeeOrder
import Verif.Spec.IeeeRange
import Verif.Spec.IntOps
import Verif.Spec.Jacobian
import Verif.Spec.Laws
import Verif.Spec.Matrix
import Verif.Spec.Nearest
import Verif.Spec.Nested
import Verif.Spec.NoFlags
import Verif.Spec.Origins
import Verif.Spec.Ownership
import Verif.Spec.Passes
import Verif.Spec.Print
import Verif.Spec.Reduce
import Verif.Spec.Rounding
import Verif.Spec.RunningError
import Verif.Spec.Shapes
import Verif.Spec.Slices
import Verif.Spec.Tensor
import Verif.Spec.TensorMemory
import Verif.Spec.Views
