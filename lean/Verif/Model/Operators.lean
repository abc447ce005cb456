import Verif.Model.Naming

/-!
# Which operators are read, accepted and generated

The tables are extracted from the source files named beside them.
-/

namespace OnnxIR

variable {V : Type}

namespace Ops

/-- crates/onnx-ir/src/ir/node.rs:161-408 `define_node_enum!`: the members of `NodeType`, which are also
those of `Node`. -/
def members : List String :=
  ["Add", "Sub", "Mul", "Div", "Neg", "Abs", "Pow", "Reciprocal", "Sqrt", "Exp", "Log", "Ceil",
   "Floor", "Round", "Sign", "Erf", "Sin", "Cos", "Tan", "Asin", "Acos", "Atan", "Sinh", "Cosh",
   "Tanh", "Asinh", "Acosh", "Atanh", "Relu", "Sigmoid", "Softmax", "LogSoftmax", "LeakyRelu",
   "HardSigmoid", "Elu", "Selu", "Celu", "Gelu", "Mish", "Softplus", "Softsign", "ThresholdedRelu",
   "HardSwish", "PRelu", "Equal", "Greater", "GreaterOrEqual", "Less", "LessOrEqual", "And", "Or",
   "Xor", "Not", "Where", "BitwiseAnd", "BitwiseOr", "BitwiseXor", "BitwiseNot", "BitShift",
   "ArgMax", "ArgMin", "ReduceMax", "ReduceMin", "ReduceMean", "ReduceSum", "ReduceProd", "ReduceL1",
   "ReduceL2", "ReduceLogSum", "ReduceLogSumExp", "ReduceSumSquare", "Max", "Min", "Mean", "Sum",
   "Cast", "Clip", "Concat", "Expand", "Flatten", "Gather", "GatherElements", "GatherND", "Pad",
   "Reshape", "Resize", "Scatter", "ScatterElements", "ScatterND", "Shape", "Size", "Slice", "Split",
   "Squeeze", "Tile", "Transpose", "Unsqueeze", "DepthToSpace", "SpaceToDepth", "MatMul",
   "MatMulInteger", "Gemm", "Conv1d", "Conv2d", "Conv3d", "ConvTranspose1d", "ConvTranspose2d",
   "ConvTranspose3d", "AveragePool1d", "AveragePool2d", "MaxPool1d", "MaxPool2d",
   "GlobalAveragePool", "GlobalMaxPool", "BatchNormalization", "InstanceNormalization",
   "LayerNormalization", "GroupNormalization", "Dropout", "Linear", "Attention", "Constant",
   "ConstantOfShape", "EyeLike", "Identity", "RandomNormal", "RandomUniform", "RandomNormalLike",
   "RandomUniformLike", "Bernoulli", "Range", "OneHot", "If", "Loop", "Scan", "IsInf", "IsNaN",
   "NonZero", "TopK", "Unique", "Trilu", "Mod", "CumSum", "AffineGrid", "AveragePool",
   "BlackmanWindow", "CastLike", "CenterCropPad", "Col2Im", "Compress", "ConcatFromSequence", "Conv",
   "ConvInteger", "ConvTranspose", "Dft", "DeformConv", "DequantizeLinear", "Det",
   "DynamicQuantizeLinear", "Einsum", "GridSample", "Gru", "HammingWindow", "HannWindow", "Hardmax",
   "Im", "ImageDecoder", "LpNormalization", "LpPool", "Lrn", "Lstm", "MaxPool", "MaxRoiPool",
   "MaxUnpool", "MeanVarianceNormalization", "MelWeightMatrix", "Multinomial",
   "NegativeLogLikelihoodLoss", "NonMaxSuppression", "Optional", "OptionalGetElement",
   "OptionalHasElement", "QLinearConv", "QLinearMatMul", "QuantizeLinear", "RMSNormalization", "Rnn",
   "RegexFullMatch", "ReverseSequence", "RoiAlign", "RotaryEmbedding", "SequenceAt",
   "SequenceConstruct", "SequenceEmpty", "SequenceErase", "SequenceInsert", "SequenceLength",
   "SequenceMap", "Shrink", "SoftmaxCrossEntropyLoss", "SplitToSequence", "Stft", "StringConcat",
   "StringNormalizer", "StringSplit", "Swish", "TensorScatter", "TfIdfVectorizer", "Upsample"]

/-- Lower case for ASCII letters (`eq_ignore_ascii_case`). -/
def lower (c : Char) : Char := if 'A' ≤ c ∧ c ≤ 'Z' then Char.ofNat (c.toNat + 32) else c

/-- Equality up to the case of ASCII letters. -/
def sameIgnoringCase (a b : String) : Bool := a.toList.map lower == b.toList.map lower

/-- crates/onnx-ir/src/proto_conversion.rs:607 `NodeType::from_str`, derived by strum with
`ascii_case_insensitive` (ir/node.rs:81-82): the first member equal to the name up to case; `none` for
the panic "Unknown node type". The domain of the node is not read anywhere. -/
def read (domain opType : String) : Option String :=
  let _ := domain
  members.find? fun t => sameIgnoringCase t opType

/-- crates/onnx-ir/src/registry.rs:113-646 `with_standard_processors`: operator and processor. -/
def processors : List (String × String) :=
  [("Add", "ArithmeticBinaryProcessor"), ("Sub", "ArithmeticBinaryProcessor"),
   ("Mul", "ArithmeticBinaryProcessor"), ("Div", "ArithmeticBinaryProcessor"),
   ("Pow", "PowProcessor"), ("Max", "MaxProcessor"), ("Min", "MinProcessor"),
   ("And", "AndProcessor"), ("Or", "OrProcessor"), ("Xor", "XorProcessor"), ("Sum", "SumProcessor"),
   ("Mean", "MeanProcessor"), ("Abs", "AbsProcessor"), ("Neg", "NegProcessor"),
   ("Ceil", "CeilProcessor"), ("Floor", "FloorProcessor"), ("Sqrt", "SqrtProcessor"),
   ("Exp", "ExpProcessor"), ("Log", "LogProcessor"), ("Reciprocal", "ReciprocalProcessor"),
   ("Round", "RoundProcessor"), ("Sign", "SignProcessor"), ("Sin", "SinProcessor"),
   ("Cos", "CosProcessor"), ("Tan", "TanProcessor"), ("Sinh", "SinhProcessor"),
   ("Cosh", "CoshProcessor"), ("Tanh", "TanhProcessor"), ("Asin", "AsinProcessor"),
   ("Acos", "AcosProcessor"), ("Atan", "AtanProcessor"), ("Asinh", "AsinhProcessor"),
   ("Acosh", "AcoshProcessor"), ("Atanh", "AtanhProcessor"), ("Erf", "ErfProcessor"),
   ("Relu", "ReluProcessor"), ("Sigmoid", "SigmoidProcessor"), ("Gelu", "GeluProcessor"),
   ("Mish", "MishProcessor"), ("Softplus", "SoftplusProcessor"), ("Softsign", "SoftsignProcessor"),
   ("Celu", "CeluProcessor"), ("Elu", "EluProcessor"), ("Selu", "SeluProcessor"),
   ("Swish", "SwishProcessor"), ("Not", "NotProcessor"), ("AveragePool1d", "AvgPool1dProcessor"),
   ("AveragePool2d", "AvgPool2dProcessor"), ("MaxPool1d", "MaxPool1dProcessor"),
   ("MaxPool2d", "MaxPool2dProcessor"), ("GlobalAveragePool", "GlobalAveragePoolProcessor"),
   ("Identity", "IdentityProcessor"), ("GlobalMaxPool", "UnsupportedProcessor"),
   ("GatherND", "GatherNDProcessor"), ("Scatter", "UnsupportedProcessor"),
   ("ScatterElements", "ScatterElementsProcessor"), ("ScatterND", "ScatterNDProcessor"),
   ("Unique", "UnsupportedProcessor"), ("CumSum", "CumSumProcessor"), ("Conv1d", "Conv1dProcessor"),
   ("Conv2d", "Conv2dProcessor"), ("Conv3d", "Conv3dProcessor"),
   ("ConvTranspose1d", "Convtranspose1dProcessor"), ("ConvTranspose2d", "Convtranspose2dProcessor"),
   ("ConvTranspose3d", "Convtranspose3dProcessor"), ("DeformConv", "DeformConvProcessor"),
   ("BatchNormalization", "BatchNormProcessor"), ("InstanceNormalization", "InstanceNormProcessor"),
   ("LayerNormalization", "LayerNormProcessor"), ("GroupNormalization", "GroupNormProcessor"),
   ("Reshape", "ReshapeProcessor"), ("Transpose", "TransposeProcessor"),
   ("Flatten", "FlattenProcessor"), ("Squeeze", "SqueezeProcessor"),
   ("Unsqueeze", "UnsqueezeProcessor"), ("Clip", "ClipProcessor"), ("Col2Im", "Col2ImProcessor"),
   ("Dropout", "DropoutProcessor"), ("Pad", "PadProcessor"), ("ReduceMax", "ReduceProcessor"),
   ("ReduceMin", "ReduceProcessor"), ("ReduceMean", "ReduceProcessor"),
   ("ReduceProd", "ReduceProcessor"), ("ReduceSum", "ReduceProcessor"),
   ("ReduceSumSquare", "ReduceProcessor"), ("ReduceL1", "ReduceProcessor"),
   ("ReduceL2", "ReduceProcessor"), ("ReduceLogSum", "ReduceProcessor"),
   ("ReduceLogSumExp", "ReduceProcessor"), ("MatMul", "MatMulProcessor"),
   ("Linear", "LinearProcessor"), ("Gemm", "GemmProcessor"),
   ("MatMulInteger", "MatMulIntegerProcessor"), ("Concat", "ConcatProcessor"),
   ("Split", "SplitProcessor"), ("Gather", "GatherProcessor"),
   ("GatherElements", "GatherElementsProcessor"), ("Slice", "SliceProcessor"),
   ("Tile", "TileProcessor"), ("Expand", "ExpandProcessor"), ("Equal", "ComparisonProcessor"),
   ("Greater", "ComparisonProcessor"), ("Less", "ComparisonProcessor"),
   ("GreaterOrEqual", "ComparisonProcessor"), ("LessOrEqual", "ComparisonProcessor"),
   ("IsInf", "IsInfProcessor"), ("IsNaN", "IsNaNProcessor"), ("Cast", "CastProcessor"),
   ("Shape", "ShapeProcessor"), ("Size", "SizeProcessor"), ("Constant", "ConstantProcessor"),
   ("ConstantOfShape", "ConstantOfShapeProcessor"), ("OneHot", "OneHotProcessor"),
   ("Where", "WhereProcessor"), ("NonZero", "NonZeroProcessor"), ("ArgMax", "ArgMaxProcessor"),
   ("ArgMin", "ArgMinProcessor"), ("TopK", "TopKProcessor"), ("Resize", "ResizeProcessor"),
   ("GridSample", "GridSampleProcessor"), ("DepthToSpace", "DepthToSpaceProcessor"),
   ("SpaceToDepth", "SpaceToDepthProcessor"), ("RandomNormal", "RandomProcessor"),
   ("RandomUniform", "RandomProcessor"), ("RandomNormalLike", "RandomLikeProcessor"),
   ("RandomUniformLike", "RandomLikeProcessor"), ("Bernoulli", "BernoulliProcessor"),
   ("EyeLike", "EyeLikeProcessor"), ("Range", "RangeProcessor"), ("Attention", "AttentionProcessor"),
   ("BitShift", "BitShiftProcessor"), ("BitwiseAnd", "BitwiseAndProcessor"),
   ("BitwiseOr", "BitwiseOrProcessor"), ("BitwiseXor", "BitwiseXorProcessor"),
   ("BitwiseNot", "BitwiseNotProcessor"), ("Mod", "ModuloProcessor"), ("Trilu", "TriluProcessor"),
   ("LeakyRelu", "LeakyReluProcessor"), ("HardSigmoid", "HardSigmoidProcessor"),
   ("HardSwish", "HardSwishProcessor"), ("Hardmax", "HardmaxProcessor"),
   ("Softmax", "SoftmaxProcessor"), ("LogSoftmax", "LogSoftmaxProcessor"),
   ("PRelu", "PReluProcessor"), ("ThresholdedRelu", "ThresholdedReluProcessor"),
   ("If", "IfProcessor"), ("Loop", "LoopProcessor"), ("Scan", "ScanProcessor"),
   ("Lstm", "LstmProcessor"), ("Rnn", "RnnProcessor"), ("Gru", "GruProcessor")]

/-- The node a processor builds, for the processors of one operator (`build_node` in
crates/onnx-ir/src/node/*.rs). -/
def builds : List (String × String) :=
  [("AbsProcessor", "Abs"), ("AcosProcessor", "Acos"), ("AcoshProcessor", "Acosh"),
   ("AndProcessor", "And"), ("ArgMaxProcessor", "ArgMax"), ("ArgMinProcessor", "ArgMin"),
   ("AsinProcessor", "Asin"), ("AsinhProcessor", "Asinh"), ("AtanProcessor", "Atan"),
   ("AtanhProcessor", "Atanh"), ("AttentionProcessor", "Attention"),
   ("AvgPool1dProcessor", "AveragePool1d"), ("AvgPool2dProcessor", "AveragePool2d"),
   ("BatchNormProcessor", "BatchNormalization"), ("BernoulliProcessor", "Bernoulli"),
   ("BitShiftProcessor", "BitShift"), ("BitwiseAndProcessor", "BitwiseAnd"),
   ("BitwiseNotProcessor", "BitwiseNot"), ("BitwiseOrProcessor", "BitwiseOr"),
   ("BitwiseXorProcessor", "BitwiseXor"), ("CastProcessor", "Cast"), ("CeilProcessor", "Ceil"),
   ("CeluProcessor", "Celu"), ("ClipProcessor", "Clip"), ("Col2ImProcessor", "Col2Im"),
   ("ConcatProcessor", "Concat"), ("ConstantOfShapeProcessor", "ConstantOfShape"),
   ("ConstantProcessor", "Constant"), ("Conv1dProcessor", "Conv1d"), ("Conv2dProcessor", "Conv2d"),
   ("Conv3dProcessor", "Conv3d"), ("Convtranspose1dProcessor", "ConvTranspose1d"),
   ("Convtranspose2dProcessor", "ConvTranspose2d"), ("Convtranspose3dProcessor", "ConvTranspose3d"),
   ("CosProcessor", "Cos"), ("CoshProcessor", "Cosh"), ("CumSumProcessor", "CumSum"),
   ("DeformConvProcessor", "DeformConv"), ("DepthToSpaceProcessor", "DepthToSpace"),
   ("DropoutProcessor", "Dropout"), ("EluProcessor", "Elu"), ("ErfProcessor", "Erf"),
   ("ExpProcessor", "Exp"), ("ExpandProcessor", "Expand"), ("EyeLikeProcessor", "EyeLike"),
   ("FlattenProcessor", "Flatten"), ("FloorProcessor", "Floor"),
   ("GatherElementsProcessor", "GatherElements"), ("GatherNDProcessor", "GatherND"),
   ("GatherProcessor", "Gather"), ("GeluProcessor", "Gelu"), ("GemmProcessor", "Gemm"),
   ("GlobalAveragePoolProcessor", "GlobalAveragePool"), ("GridSampleProcessor", "GridSample"),
   ("GroupNormProcessor", "GroupNormalization"), ("GruProcessor", "Gru"),
   ("HardSigmoidProcessor", "HardSigmoid"), ("HardSwishProcessor", "HardSwish"),
   ("HardmaxProcessor", "Hardmax"), ("IdentityProcessor", "Identity"), ("IfProcessor", "If"),
   ("InstanceNormProcessor", "InstanceNormalization"), ("IsInfProcessor", "IsInf"),
   ("IsNaNProcessor", "IsNaN"), ("LayerNormProcessor", "LayerNormalization"),
   ("LeakyReluProcessor", "LeakyRelu"), ("LinearProcessor", "Linear"), ("LogProcessor", "Log"),
   ("LogSoftmaxProcessor", "LogSoftmax"), ("LoopProcessor", "Loop"), ("LstmProcessor", "Lstm"),
   ("MatMulIntegerProcessor", "MatMulInteger"), ("MatMulProcessor", "MatMul"),
   ("MaxPool1dProcessor", "MaxPool1d"), ("MaxPool2dProcessor", "MaxPool2d"), ("MaxProcessor", "Max"),
   ("MeanProcessor", "Mean"), ("MinProcessor", "Min"), ("MishProcessor", "Mish"),
   ("ModuloProcessor", "Mod"), ("NegProcessor", "Neg"), ("NonZeroProcessor", "NonZero"),
   ("NotProcessor", "Not"), ("OneHotProcessor", "OneHot"), ("OrProcessor", "Or"),
   ("PReluProcessor", "PRelu"), ("PadProcessor", "Pad"), ("PowProcessor", "Pow"),
   ("RangeProcessor", "Range"), ("ReciprocalProcessor", "Reciprocal"), ("ReluProcessor", "Relu"),
   ("ReshapeProcessor", "Reshape"), ("ResizeProcessor", "Resize"), ("RnnProcessor", "Rnn"),
   ("RoundProcessor", "Round"), ("ScanProcessor", "Scan"),
   ("ScatterElementsProcessor", "ScatterElements"), ("ScatterNDProcessor", "ScatterND"),
   ("SeluProcessor", "Selu"), ("ShapeProcessor", "Shape"), ("SigmoidProcessor", "Sigmoid"),
   ("SignProcessor", "Sign"), ("SinProcessor", "Sin"), ("SinhProcessor", "Sinh"),
   ("SizeProcessor", "Size"), ("SliceProcessor", "Slice"), ("SoftmaxProcessor", "Softmax"),
   ("SoftplusProcessor", "Softplus"), ("SoftsignProcessor", "Softsign"),
   ("SpaceToDepthProcessor", "SpaceToDepth"), ("SplitProcessor", "Split"), ("SqrtProcessor", "Sqrt"),
   ("SqueezeProcessor", "Squeeze"), ("SumProcessor", "Sum"), ("SwishProcessor", "Swish"),
   ("TanProcessor", "Tan"), ("TanhProcessor", "Tanh"),
   ("ThresholdedReluProcessor", "ThresholdedRelu"), ("TileProcessor", "Tile"),
   ("TopKProcessor", "TopK"), ("TransposeProcessor", "Transpose"), ("TriluProcessor", "Trilu"),
   ("UnsqueezeProcessor", "Unsqueeze"), ("WhereProcessor", "Where"), ("XorProcessor", "Xor")]

/-- The same for processors of several operators (`match builder.node_type`, with a panic for any other
type): processor, operator, node. -/
def buildsBy : List (String × String × String) :=
  [("ArithmeticBinaryProcessor", "Add", "Add"), ("ArithmeticBinaryProcessor", "Sub", "Sub"),
   ("ArithmeticBinaryProcessor", "Mul", "Mul"), ("ArithmeticBinaryProcessor", "Div", "Div"),
   ("ComparisonProcessor", "Equal", "Equal"), ("ComparisonProcessor", "Greater", "Greater"),
   ("ComparisonProcessor", "GreaterOrEqual", "GreaterOrEqual"),
   ("ComparisonProcessor", "Less", "Less"), ("ComparisonProcessor", "LessOrEqual", "LessOrEqual"),
   ("RandomLikeProcessor", "RandomNormalLike", "RandomNormalLike"),
   ("RandomLikeProcessor", "RandomUniformLike", "RandomUniformLike"),
   ("RandomProcessor", "RandomNormal", "RandomNormal"),
   ("RandomProcessor", "RandomUniform", "RandomUniform"),
   ("ReduceProcessor", "ReduceMax", "ReduceMax"), ("ReduceProcessor", "ReduceMin", "ReduceMin"),
   ("ReduceProcessor", "ReduceMean", "ReduceMean"), ("ReduceProcessor", "ReduceSum", "ReduceSum"),
   ("ReduceProcessor", "ReduceProd", "ReduceProd"),
   ("ReduceProcessor", "ReduceSumSquare", "ReduceSumSquare"),
   ("ReduceProcessor", "ReduceL1", "ReduceL1"), ("ReduceProcessor", "ReduceL2", "ReduceL2"),
   ("ReduceProcessor", "ReduceLogSum", "ReduceLogSum"),
   ("ReduceProcessor", "ReduceLogSumExp", "ReduceLogSumExp"),
   ("UnsupportedProcessor", "GlobalMaxPool", "GlobalMaxPool"),
   ("UnsupportedProcessor", "Scatter", "Scatter"), ("UnsupportedProcessor", "Unique", "Unique")]

/-- The node built for an operator: its processor's `build_node`. -/
def build (op : String) : Option String :=
  (processors.lookup op).bind fun p =>
    match builds.lookup p with
    | some n => some n
    | none => (buildsBy.find? fun b => b.1 == p && b.2.1 == op).map fun b => b.2.2

/-- crates/burn-onnx/src/burn/node_codegen.rs:60-251 `impl_node_codegen_dispatch!`: the nodes with code
generation; `forward`, `inputs` and `outputs` panic for the others (lines 15-34). -/
def generated : List String :=
  ["Add", "Sub", "Mul", "Div", "Max", "Min", "MatMul", "Equal", "Greater", "GreaterOrEqual", "Less",
   "LessOrEqual", "And", "Or", "Xor", "Abs", "Acos", "Acosh", "Asin", "Asinh", "Atan", "Atanh",
   "Ceil", "Cos", "Cosh", "Erf", "Exp", "Floor", "Identity", "Log", "Neg", "Not", "Reciprocal",
   "Round", "Sigmoid", "Sign", "Sin", "Sinh", "Sqrt", "Tan", "Tanh", "Relu", "Gelu", "Mish",
   "LeakyRelu", "HardSigmoid", "HardSwish", "Softmax", "LogSoftmax", "PRelu", "Celu", "Elu", "Selu",
   "Softplus", "Softsign", "ThresholdedRelu", "Swish", "Hardmax", "Reshape", "Flatten", "Squeeze",
   "Unsqueeze", "Transpose", "Shape", "Size", "Concat", "Split", "Slice", "Gather", "GatherElements",
   "GatherND", "ScatterElements", "ScatterND", "Tile", "Expand", "Pad", "Conv1d", "Conv2d", "Conv3d",
   "ConvTranspose1d", "ConvTranspose2d", "ConvTranspose3d", "DeformConv", "Col2Im", "AveragePool1d",
   "AveragePool2d", "MaxPool1d", "MaxPool2d", "GlobalAveragePool", "BatchNormalization",
   "LayerNormalization", "GroupNormalization", "InstanceNormalization", "Cast", "Clip", "CumSum",
   "Dropout", "Where", "ArgMax", "ArgMin", "TopK", "NonZero", "OneHot", "Pow", "Mod", "Trilu",
   "BitShift", "BitwiseAnd", "BitwiseOr", "BitwiseXor", "BitwiseNot", "Sum", "Mean", "Gemm",
   "Linear", "MatMulInteger", "Constant", "ConstantOfShape", "EyeLike", "Range", "RandomNormal",
   "RandomUniform", "RandomNormalLike", "RandomUniformLike", "Bernoulli", "DepthToSpace",
   "SpaceToDepth", "Resize", "GridSample", "IsInf", "IsNaN", "Attention", "If", "Loop", "Scan",
   "Lstm", "Rnn", "Gru", "ReduceMax", "ReduceMin", "ReduceMean", "ReduceProd", "ReduceSum",
   "ReduceSumSquare", "ReduceL1", "ReduceL2", "ReduceLogSum", "ReduceLogSumExp"]

end Ops

/-- What `remap_node_type` looks at: the `kernel_shape` attribute, and the type of the second input. -/
structure Ops.Site (V : Type) where
  kernel : Option (AttrVal V)
  weight : Option ArgType

namespace Ops

/-- crates/onnx-ir/src/phases/node_conversion.rs:358-377 `remap_node_with_kernel_shape`: the number of
kernel axes; `none` for a panic. `weight.rank - 2` panics for a smaller rank (in a release build it wraps
around and no operator is found for it, which panics as well). -/
def kernelAxes (op : String) (s : Site V) : Option Nat :=
  match s.kernel with
  | some (.i64s ks) => some ks.length
  | some _ => none
  | none =>
    if op = "Conv" ∨ op = "ConvTranspose" then
      match s.weight with
      | some (.tensor t) => if 2 ≤ t.rank then some (t.rank - 2) else none
      | _ => none
    else none

/-- node_conversion.rs:380-412 `remap_node_type`; `none` for a panic. -/
def remap (op : String) (s : Site V) : Option String :=
  if op = "Conv" then (kernelAxes op s).bind fun d =>
    match d with
    | 1 => some "Conv1d" | 2 => some "Conv2d" | 3 => some "Conv3d" | _ => none
  else if op = "ConvTranspose" then (kernelAxes op s).bind fun d =>
    match d with
    | 1 => some "ConvTranspose1d" | 2 => some "ConvTranspose2d" | 3 => some "ConvTranspose3d" | _ => none
  else if op = "MaxPool" then (kernelAxes op s).bind fun d =>
    match d with
    | 1 => some "MaxPool1d" | 2 => some "MaxPool2d" | _ => none
  else if op = "AveragePool" then (kernelAxes op s).bind fun d =>
    match d with
    | 1 => some "AveragePool1d" | 2 => some "AveragePool2d" | _ => none
  else some op

/-- registry.rs:87-89 `contains`. -/
def accepted (op : String) : Bool := (processors.lookup op).isSome

/-- What happens to the operators of a graph on import (before any other check of the nodes). -/
inductive Outcome
  /-- A panic while the nodes are read. -/
  | panics
  /-- The error of type_inference.rs:42-50 `UnsupportedOps`, with the operator and the name of each node. -/
  | refused (ops : List (String × String))
  /-- The operators, as the processors see them. -/
  | ok (ops : List String)
deriving DecidableEq, Repr

/-- A node as the file has it: domain, operator, name, and what remapping looks at. -/
structure Entry (V : Type) where
  domain : String
  opType : String
  name : String
  site : Site V

/-- Reading one node (proto_conversion.rs:607, node_conversion.rs:174). -/
def Entry.op (e : Entry V) : Option String := (read e.domain e.opType).bind fun t => remap t e.site

/-- Reading the nodes (node_conversion.rs:155-214), then the check of type_inference.rs:42-50. Fusion
(`coalesce`), which replaces registered operators by registered operators, is left out. -/
def outcome (g : List (Entry V)) : Outcome :=
  match g.mapM fun e => e.op.map fun o => (o, e.name) with
  | none => .panics
  | some ops =>
    let bad := ops.filter fun o => !accepted o.1
    if bad.isEmpty then .ok (ops.map (·.1)) else .refused bad

/-- Generating the code of a node built by its processor: the member of the dispatch that writes it, or
`none` for a panic. -/
def codeOf (op : String) : Option String :=
  (build op).bind fun n => if generated.contains n then some n else none

/-- crates/onnx-ir/src/pipeline.rs:371-378 `extract_opset_version`: the version of the first import with
an empty domain; `none` for the error. `as usize` of a negative number wraps around. -/
def opsetVersion (imports : List (String × Int)) : Option Nat :=
  (imports.find? fun i => i.1.isEmpty).map fun i => (i.2 % 2 ^ 64).toNat

end Ops

end OnnxIR
