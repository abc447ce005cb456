import Verif.Model.Types
import Verif.Model.Simplify
import Verif.Spec.Eval
import Verif.Lemmas.Eval
import Verif.Props.DeadNodes
import Verif.Props.RenamePasses
import Verif.Spec.Tensor
import Verif.Spec.RealOps
import Verif.Props.RenamePassCases
import Verif.Model.PostProcess
import Verif.Props.PostProcess
import Verif.Props.PostProcessCases
import Verif.Spec.ShapeOps
import Verif.Spec.Typing
import Verif.Model.ConstantShape
import Verif.Lemmas.Replace
import Verif.Lemmas.Check
import Verif.Props.ConstantShape
import Verif.Props.ConstantShapeCases
import Verif.Spec.Values
import Verif.Model.ConstantFold
import Verif.Lemmas.Flat
import Verif.Props.ConstantFold
import Verif.Props.NumSem
import Verif.Props.ConstantFoldCases
import Verif.Model.PermuteReshape
import Verif.Spec.Transpose
import Verif.Props.PermuteReshape
import Verif.Props.PermuteReshapeCases
import Verif.Model.Sanitize
import Verif.Props.Sanitize
import Verif.Model.Naming
import Verif.Lemmas.TypeNames
import Verif.Props.Naming
import Verif.Model.GraphBuild
import Verif.Spec.OnnxGraph
import Verif.Props.GraphBuild
import Verif.Props.GraphBuildCases
import Verif.Model.TopSort
import Verif.Props.TopSort
import Verif.Model.OuterScope
import Verif.Spec.Scope
import Verif.Props.OuterScope
import Verif.Model.Broadcast
import Verif.Spec.Broadcast
import Verif.Lemmas.Shapes
import Verif.Props.Broadcast
import Verif.Model.TypeInference
import Verif.Spec.Truth
import Verif.Props.TypeInference
import Verif.Spec.OpShapes
import Verif.Model.OpRules
import Verif.Props.OpRules
import Verif.Model.OpRules2
import Verif.Spec.OpShapes2
import Verif.Props.OpRules2
import Verif.Model.Reshape
import Verif.Spec.Reshape
import Verif.Props.Reshape
import Verif.Model.Split
import Verif.Props.Split
import Verif.Props.SplitValues
import Verif.Props.ShapeOp
import Verif.Spec.Burn
import Verif.Spec.DepthSpace
import Verif.Model.DepthSpace
import Verif.Props.DepthSpace
import Verif.Spec.GatherND
import Verif.Model.GatherND
import Verif.Props.GatherND
import Verif.Spec.MatMul
import Verif.Model.MatMul
import Verif.Props.MatMul
import Verif.Spec.OpShapes3
import Verif.Model.OpRules3
import Verif.Props.OpRules3
import Verif.Spec.Moves
import Verif.Model.Ownership
import Verif.Props.Ownership
import Verif.Props.OwnershipClones
import Verif.Props.OwnershipSub
import Verif.Props.OwnershipBodies
import Verif.Model.Written
import Verif.Props.Written
import Verif.Model.Lift
import Verif.Spec.Lift
import Verif.Props.Lift
import Verif.Spec.Loop
import Verif.Model.LoopGen
import Verif.Props.Loop
import Verif.Props.LoopMain
import Verif.Props.LoopCases
import Verif.Props.LoopScan
import Verif.Spec.Window
import Verif.Model.Padding
import Verif.Model.Conv
import Verif.Props.Padding
import Verif.Props.Conv
import Verif.Props.ConstantMarks
import Verif.Model.ShapeSlice
import Verif.Props.ShapeSlice
import Verif.Spec.BurnAxis
import Verif.Spec.CumSum
import Verif.Model.CumSum
import Verif.Props.CumSum
import Verif.Spec.Range
import Verif.Model.RangeMod
import Verif.Props.RangeMod
import Verif.Model.TensorStore
import Verif.Props.TensorStore
import Verif.Model.ExternalPath
import Verif.Props.ExternalPath
import Verif.Model.NodeSpec
import Verif.Props.NodeSpec
import Verif.Model.Attention
import Verif.Spec.Attention
import Verif.Spec.AttentionSem
import Verif.Props.Attention
import Verif.Props.AttentionCases
import Verif.Lemmas.GoodRun
import Verif.Model.SimplifyGraph
import Verif.Props.SimplifyGraph
import Verif.Props.SimplifyGraphCases
import Verif.Model.Boundary
import Verif.Spec.Boundary
import Verif.Props.Boundary
import Verif.Model.Pipeline
import Verif.Lemmas.Pipeline
import Verif.Props.Pipeline
import Verif.Props.PipelineCases
import Verif.Props.Fields
import Verif.Props.TensorDecode
import Verif.Spec.Fusion
import Verif.Spec.Linear
import Verif.Model.Coalesce
import Verif.Model.Linear
import Verif.Props.Fusion
import Verif.Props.Linear
import Verif.Props.FusionCases
import Verif.Model.Noop
import Verif.Spec.NoopOps
import Verif.Props.Noop
import Verif.Props.NoopCases
import Verif.Spec.Generated
import Verif.Model.Elementwise
import Verif.Props.Elementwise
import Verif.Spec.Reduce
import Verif.Model.Reduce
import Verif.Props.Reduce
import Verif.Props.LogSumExp
import Verif.Spec.Views
import Verif.Model.Views
import Verif.Props.Views
import Verif.Spec.Concat
import Verif.Model.Concat
import Verif.Props.Concat
import Verif.Spec.Select
import Verif.Model.Select
import Verif.Model.ShapeOp
import Verif.Props.Select
import Verif.Spec.Gather
import Verif.Model.Gather
import Verif.Props.Gather
import Verif.Spec.Slice
import Verif.Model.Slice
import Verif.Props.Slice
import Verif.Spec.AxisOps
import Verif.Model.AxisOps
import Verif.Props.AxisOps
import Verif.Spec.Fill
import Verif.Model.Fill
import Verif.Props.Fill
import Verif.Spec.Scatter
import Verif.Model.Scatter
import Verif.Props.Scatter
import Verif.Spec.Recurrent
import Verif.Model.Recurrent
import Verif.Lemmas.Box
import Verif.Props.Recurrent
import Verif.Props.RecurrentOps
import Verif.Spec.Unary
import Verif.Model.Unary
import Verif.Props.Unary
import Verif.Spec.Norm
import Verif.Model.Norm
import Verif.Props.Norm
import Verif.Spec.Elem
import Verif.Model.Cast
import Verif.Props.Cast
import Verif.Model.MatMulInteger
import Verif.Props.MatMulInteger
import Verif.Spec.Resize
import Verif.Model.Resize
import Verif.Props.Resize
import Verif.Spec.Scan
import Verif.Model.ScanGen
import Verif.Props.Scan
import Verif.Props.ScanCases
import Verif.Spec.AttentionOp
import Verif.Model.AttentionGen
import Verif.Props.AttentionGen
import Verif.Props.AttentionGenCases
import Verif.Spec.Col2Im
import Verif.Model.Col2Im
import Verif.Props.Col2Im
import Verif.Spec.Random
import Verif.Model.Random
import Verif.Props.Random
import Verif.Spec.WindowOps
import Verif.Model.WindowGen
import Verif.Props.WindowOps
import Verif.Props.WindowValues
import Verif.Spec.Sampling
import Verif.Model.Sampling
import Verif.Props.Sampling
import Verif.Model.Registry
import Verif.Spec.OnnxRun
import Verif.Props.RegistryBroadcast
import Verif.Props.Registry
import Verif.Model.HashOrder
import Verif.Props.HashOrder
import Verif.Props.Preferences
import Verif.Props.Operators
import Verif.Spec.Program
import Verif.Model.Forward
import Verif.Spec.Forward
import Verif.Lemmas.Forward
import Verif.Props.Forward
import Verif.Spec.RunValues
import Verif.Spec.OnnxMeaning
import Verif.Model.NodeCode
import Verif.Props.Supported
import Verif.Props.NodeCode
import Verif.Props.WindowUnique
import Verif.Props.NodeCodeAll
import Verif.Props.NodeCodeData
import Verif.Props.NodeCodeMore
import Verif.Props.NodeCodeScatter
import Verif.Props.NodeCodeRange
import Verif.Props.NodeCodeInt
import Verif.Props.NodeCodeNet
import Verif.Props.WholeModel
import Verif.Spec.ElemRun
import Verif.Props.ElemTypes
import Verif.Props.ElemRules
import Verif.Spec.EndToEnd
import Verif.Props.EndToEnd
import Verif.Props.EndToEndCases
import Verif.Model.Declared
import Verif.Spec.Declared
import Verif.Props.Declared
import Verif.Props.Attributes
import Verif.Model.ModelGen
import Verif.Props.ModelGen
import Verif.Model.DeadConstants
import Verif.Spec.NestedRun
import Verif.Props.DeadConstants
import Verif.Props.ImportMarks
import Verif.Model.Literals
import Verif.Spec.Literals
import Verif.Props.Literals
import Verif.Model.Captured
import Verif.Props.Captured
