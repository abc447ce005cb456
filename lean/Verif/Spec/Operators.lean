import Verif.Model.Types

/-!
# ONNX operators and the documented support
-/

namespace OnnxIR.Onnx

/-- The operators of the default ONNX domain (one file each in onnx-spec/ops). -/
def operators : List String :=
  ["Abs", "Acos", "Acosh", "Add", "AffineGrid", "And", "ArgMax", "ArgMin", "Asin", "Asinh", "Atan",
   "Atanh", "Attention", "AveragePool", "BatchNormalization", "Bernoulli", "BitShift", "BitwiseAnd",
   "BitwiseNot", "BitwiseOr", "BitwiseXor", "BlackmanWindow", "Cast", "CastLike", "Ceil", "Celu",
   "CenterCropPad", "Clip", "Col2Im", "Compress", "Concat", "ConcatFromSequence", "Constant",
   "ConstantOfShape", "Conv", "ConvInteger", "ConvTranspose", "Cos", "Cosh", "CumSum", "DFT",
   "DeformConv", "DepthToSpace", "DequantizeLinear", "Det", "Div", "Dropout",
   "DynamicQuantizeLinear", "Einsum", "Elu", "Equal", "Erf", "Exp", "Expand", "EyeLike", "Flatten",
   "Floor", "GRU", "Gather", "GatherElements", "GatherND", "Gelu", "Gemm", "GlobalAveragePool",
   "GlobalLpPool", "GlobalMaxPool", "Greater", "GreaterOrEqual", "GridSample", "GroupNormalization",
   "HammingWindow", "HannWindow", "HardSigmoid", "HardSwish", "Hardmax", "Identity", "If",
   "ImageDecoder", "InstanceNormalization", "IsInf", "IsNaN", "LRN", "LSTM", "LayerNormalization",
   "LeakyRelu", "Less", "LessOrEqual", "Log", "LogSoftmax", "Loop", "LpNormalization", "LpPool",
   "MatMul", "MatMulInteger", "Max", "MaxPool", "MaxRoiPool", "MaxUnpool", "Mean",
   "MeanVarianceNormalization", "MelWeightMatrix", "Min", "Mish", "Mod", "Mul", "Multinomial", "Neg",
   "NegativeLogLikelihoodLoss", "NonMaxSuppression", "NonZero", "Not", "OneHot", "Optional",
   "OptionalGetElement", "OptionalHasElement", "Or", "PRelu", "Pad", "Pow", "QLinearConv",
   "QLinearMatMul", "QuantizeLinear", "RMSNormalization", "RNN", "RandomNormal", "RandomNormalLike",
   "RandomUniform", "RandomUniformLike", "Range", "Reciprocal", "ReduceL1", "ReduceL2",
   "ReduceLogSum", "ReduceLogSumExp", "ReduceMax", "ReduceMean", "ReduceMin", "ReduceProd",
   "ReduceSum", "ReduceSumSquare", "RegexFullMatch", "Relu", "Reshape", "Resize", "ReverseSequence",
   "RoiAlign", "RotaryEmbedding", "Round", "STFT", "Scan", "Scatter", "ScatterElements", "ScatterND",
   "Selu", "SequenceAt", "SequenceConstruct", "SequenceEmpty", "SequenceErase", "SequenceInsert",
   "SequenceLength", "SequenceMap", "Shape", "Shrink", "Sigmoid", "Sign", "Sin", "Sinh", "Size",
   "Slice", "Softmax", "SoftmaxCrossEntropyLoss", "Softplus", "Softsign", "SpaceToDepth", "Split",
   "SplitToSequence", "Sqrt", "Squeeze", "StringConcat", "StringNormalizer", "StringSplit", "Sub",
   "Sum", "Swish", "Tan", "Tanh", "TensorScatter", "TfIdfVectorizer", "ThresholdedRelu", "Tile",
   "TopK", "Transpose", "Trilu", "Unique", "Unsqueeze", "Upsample", "Where", "Xor"]

/-- SUPPORTED-ONNX-OPS.md:10-214, the names marked as imported. -/
def documentedSupported : List String :=
  ["Abs", "Acos", "Acosh", "Add", "And", "ArgMax", "ArgMin", "Asin", "Asinh", "Atan", "Atanh",
   "Attention", "AveragePool1d", "AveragePool2d", "BatchNormalization", "Bernoulli", "BitShift",
   "BitwiseAnd", "BitwiseNot", "BitwiseOr", "BitwiseXor", "Cast", "Ceil", "Celu", "Clip", "Col2Im",
   "Concat", "Constant", "ConstantOfShape", "Conv1d", "Conv2d", "Conv3d", "ConvTranspose1d",
   "ConvTranspose2d", "ConvTranspose3d", "Cos", "Cosh", "CumSum", "DeformConv", "DepthToSpace",
   "Div", "Dropout", "Elu", "Equal", "Erf", "Exp", "Expand", "EyeLike", "Flatten", "Floor", "Gather",
   "GatherElements", "GatherND", "Gelu", "Gemm", "GlobalAveragePool", "Greater", "GreaterOrEqual",
   "GridSample", "GroupNormalization", "GRU", "Hardmax", "HardSigmoid", "HardSwish", "Identity",
   "If", "InstanceNormalization", "IsInf", "IsNaN", "LayerNormalization", "LeakyRelu", "Less",
   "LessOrEqual", "Linear", "Log", "LogSoftmax", "Loop", "LSTM", "MatMul", "MatMulInteger", "Max",
   "MaxPool1d", "MaxPool2d", "Mean", "Min", "Mish", "Mod", "Mul", "Neg", "NonZero", "Not", "OneHot",
   "Or", "Pad", "Pow", "PRelu", "RNN", "RandomNormal", "RandomNormalLike", "RandomUniform",
   "RandomUniformLike", "Range", "Reciprocal", "ReduceL", "ReduceLogSum", "ReduceLogSumExp",
   "ReduceMax", "ReduceMean", "ReduceMin", "ReduceProd", "ReduceSum", "ReduceSumSquare", "Relu",
   "Reshape", "Resize", "Round", "Scan", "ScatterElements", "ScatterND", "Selu", "Shape", "Sigmoid",
   "Sign", "Sin", "Sinh", "Size", "Slice", "Softmax", "Softplus", "Softsign", "SpaceToDepth",
   "Split", "Sqrt", "Squeeze", "Sub", "Sum", "Swish", "Tan", "Tanh", "ThresholdedRelu", "Tile",
   "TopK", "Transpose", "Trilu", "Where", "Xor", "Unsqueeze"]

/-- SUPPORTED-ONNX-OPS.md:10-214, the names marked as not imported. -/
def documentedUnsupported : List String :=
  ["AffineGrid", "BlackmanWindow", "CastLike", "CenterCropPad", "Compress", "ConcatFromSequence",
   "ConvInteger", "DequantizeLinear", "Det", "DFT", "DynamicQuantizeLinear", "Einsum",
   "GlobalLpPool", "GlobalMaxPool", "HammingWindow", "HannWindow", "Im", "ImageDecoder",
   "LpNormalization", "LpPool", "LRN", "MaxRoiPool", "MaxUnpool", "MeanVarianceNormalization",
   "MelWeightMatrix", "Multinomial", "NegativeLogLikelihoodLoss", "NonMaxSuppression", "Optional",
   "OptionalGetElement", "OptionalHasElement", "QLinearConv", "QLinearMatMul", "QuantizeLinear",
   "RMSNormalization", "RegexFullMatch", "ReverseSequence", "RoiAlign", "RotaryEmbedding", "Scatter",
   "SequenceAt", "SequenceConstruct", "SequenceEmpty", "SequenceErase", "SequenceInsert",
   "SequenceLength", "SequenceMap", "Shrink", "SoftmaxCrossEntropyLoss", "SplitToSequence", "STFT",
   "StringConcat", "StringNormalizer", "StringSplit", "TensorScatter", "TfIdfVectorizer", "Unique",
   "Upsample"]

/-- Equal up to the case of ASCII letters. -/
def EqUpToCase (a b : String) : Prop := a.toList.map Char.toLower = b.toList.map Char.toLower

/-- The operators that become one operator for each number of kernel axes, with the numbers for which
there is one. -/
def windowOperators : List (String × List Nat) :=
  [("Conv", [1, 2, 3]), ("ConvTranspose", [1, 2, 3]), ("MaxPool", [1, 2]), ("AveragePool", [1, 2])]

/-- The number of kernel axes of a window operator, from its `kernel_shape` attribute or, for
convolutions, from its weights. -/
inductive KernelAxes {V : Type} : String → Option (AttrVal V) → Option ArgType → Nat → Prop
  | given (op : String) (ks : List Int) (w : Option ArgType) : KernelAxes op (some (.i64s ks)) w ks.length
  | weights (op : String) (t : TensorType) (d : Nat) (hop : op = "Conv" ∨ op = "ConvTranspose")
      (h : t.rank = d + 2) : KernelAxes op none (some (.tensor t)) d

end OnnxIR.Onnx
