import Verif.Model.Types

/-!
# Names of nodes and of the values they produce

crates/onnx-ir/src/graph_state.rs:26-78 `NameRegistry`, the counters of
crates/onnx-ir/src/phases/node_conversion.rs:42-64 and 330-355, and the output names of
graph_state.rs:358-388 `add_node`.

Simplification: a node type is its display name (strum's `Display` prints the variant's name), and
the counter map is a list of bindings, newest first. `seen_names` is written but never read and is
left out.
-/

namespace OnnxIR

/-- crates/onnx-ir/src/ir/node.rs:161-408: the variants of `NodeType`, in order. -/
def nodeTypes : List String :=
  ["Add", "Sub", "Mul", "Div", "Neg", "Abs", "Pow", "Reciprocal", "Sqrt", "Exp", "Log", "Ceil",
   "Floor", "Round", "Sign", "Erf", "Sin", "Cos", "Tan", "Asin", "Acos", "Atan", "Sinh", "Cosh",
   "Tanh", "Asinh", "Acosh", "Atanh", "Relu", "Sigmoid", "Softmax", "LogSoftmax", "LeakyRelu",
   "HardSigmoid", "Elu", "Selu", "Celu", "Gelu", "Mish", "Softplus", "Softsign",
   "ThresholdedRelu", "HardSwish", "PRelu", "Equal", "Greater", "GreaterOrEqual", "Less",
   "LessOrEqual", "And", "Or", "Xor", "Not", "Where", "BitwiseAnd", "BitwiseOr", "BitwiseXor",
   "BitwiseNot", "BitShift", "ArgMax", "ArgMin", "ReduceMax", "ReduceMin", "ReduceMean",
   "ReduceSum", "ReduceProd", "ReduceL1", "ReduceL2", "ReduceLogSum", "ReduceLogSumExp",
   "ReduceSumSquare", "Max", "Min", "Mean", "Sum", "Cast", "Clip", "Concat", "Expand", "Flatten",
   "Gather", "GatherElements", "GatherND", "Pad", "Reshape", "Resize", "Scatter",
   "ScatterElements", "ScatterND", "Shape", "Size", "Slice", "Split", "Squeeze", "Tile",
   "Transpose", "Unsqueeze", "DepthToSpace", "SpaceToDepth", "MatMul", "MatMulInteger", "Gemm",
   "Conv1d", "Conv2d", "Conv3d", "ConvTranspose1d", "ConvTranspose2d", "ConvTranspose3d",
   "AveragePool1d", "AveragePool2d", "MaxPool1d", "MaxPool2d", "GlobalAveragePool",
   "GlobalMaxPool", "BatchNormalization", "InstanceNormalization", "LayerNormalization",
   "GroupNormalization", "Dropout", "Linear", "Attention", "Constant", "ConstantOfShape",
   "EyeLike", "Identity", "RandomNormal", "RandomUniform", "RandomNormalLike",
   "RandomUniformLike", "Bernoulli", "Range", "OneHot", "If", "Loop", "Scan", "IsInf", "IsNaN",
   "NonZero", "TopK", "Unique", "Trilu", "Mod", "CumSum", "AffineGrid", "AveragePool",
   "BlackmanWindow", "CastLike", "CenterCropPad", "Col2Im", "Compress", "ConcatFromSequence",
   "Conv", "ConvInteger", "ConvTranspose", "Dft", "DeformConv", "DequantizeLinear", "Det",
   "DynamicQuantizeLinear", "Einsum", "GridSample", "Gru", "HammingWindow", "HannWindow",
   "Hardmax", "Im", "ImageDecoder", "LpNormalization", "LpPool", "Lrn", "Lstm", "MaxPool",
   "MaxRoiPool", "MaxUnpool", "MeanVarianceNormalization", "MelWeightMatrix", "Multinomial",
   "NegativeLogLikelihoodLoss", "NonMaxSuppression", "Optional", "OptionalGetElement",
   "OptionalHasElement", "QLinearConv", "QLinearMatMul", "QuantizeLinear", "RMSNormalization",
   "Rnn", "RegexFullMatch", "ReverseSequence", "RoiAlign", "RotaryEmbedding", "SequenceAt",
   "SequenceConstruct", "SequenceEmpty", "SequenceErase", "SequenceInsert", "SequenceLength",
   "SequenceMap", "Shrink", "SoftmaxCrossEntropyLoss", "SplitToSequence", "Stft", "StringConcat",
   "StringNormalizer", "StringSplit", "Swish", "TensorScatter", "TfIdfVectorizer", "Upsample"]

/-- The display name of a node type of the model (crates/onnx-ir/src/ir/node.rs:81
`#[derive(Display)]`). -/
def NodeType.display : NodeType → String
  | .add => "Add" | .sub => "Sub" | .mul => "Mul" | .div => "Div" | .pow => "Pow"
  | .relu => "Relu" | .ceil => "Ceil" | .floor => "Floor" | .round => "Round" | .sign => "Sign"
  | .abs => "Abs" | .neg => "Neg" | .sqrt => "Sqrt" | .cast => "Cast"
  | .constant => "Constant" | .identity => "Identity"
  | .shape => "Shape" | .gather => "Gather" | .slice => "Slice" | .concat => "Concat"
  | .unsqueeze => "Unsqueeze" | .squeeze => "Squeeze" | .reshape => "Reshape"
  | .transpose => "Transpose" | .matMul => "MatMul" | .gemm => "Gemm" | .linear => "Linear"
  | .softmax => "Softmax" | .attention => "Attention"
  | .other s => s

/-- `HashMap<NodeType, usize>` (graph_state.rs:30, node_conversion.rs:42). -/
abbrev Counters := List (String × Nat)

/-- The count of a type; an absent entry counts 0. -/
def Counters.count (c : Counters) (t : String) : Nat := (mapGet c t).getD 0

/-- graph_state.rs:56-60 and node_conversion.rs:347-350:
`.entry(t).and_modify(|e| *e += 1).or_insert(1)`. -/
def Counters.bump (c : Counters) (t : String) : Counters := (t, c.count t + 1) :: c

/-- graph_state.rs:62 and node_conversion.rs:352: `format!("{}{}", node_type, counter).to_lowercase()`.
The names of node types are ASCII. -/
def nodeName (t : String) (n : Nat) : String := (t ++ toString n).map Char.toLower

/-- graph_state.rs:52-68 `generate_node_name` and node_conversion.rs:330-355 `rename_node`: both
count and name in the same way. -/
def genName (c : Counters) (t : String) : String × Counters :=
  (nodeName t (c.count t + 1), c.bump t)

/-- The names handed out by a sequence of calls on one set of counters. The registry is shared
(`Rc<RefCell<..>>`), so calls of several graphs on one registry are one sequence. -/
def genNames (c : Counters) : List String → List String
  | [] => []
  | t :: ts => (genName c t).1 :: genNames (genName c t).2 ts

/-- graph_state.rs:379: `format!("{}_out{}", node.name, out_count)`. -/
def outName (node : String) (k : Nat) : String := node ++ "_out" ++ toString k

/-- graph_state.rs:375-385: the output names of one node with `n` outputs. -/
def outNamesOf (node : String) (n : Nat) : List String := (List.range n).map fun i => outName node (i + 1)

/-- node_conversion.rs:170-191: the name a node ends up with. It is named by its type; if
`coalesce` changes the type to `fused` it is named again, and the first name is dropped. -/
def nameNode (c : Counters) (t : String) : Option String → String × Counters
  | none => genName c t
  | some t' => genName (genName c t).2 t'

/-- The names of the nodes of one graph, in order. -/
def nameNodes (c : Counters) : List (String × Option String) → List String
  | [] => []
  | (t, f) :: ns => (nameNode c t f).1 :: nameNodes (nameNode c t f).2 ns

/-- The counters after naming the nodes of one graph. -/
def nameNodesEnd (c : Counters) : List (String × Option String) → Counters
  | [] => c
  | (t, f) :: ns => nameNodesEnd (nameNode c t f).2 ns

/-- graph_state.rs:573-577 with node_conversion.rs:53-63: the initializers of a graph without a
registry are `constant1`, `constant2`, ...; the local counter starts after them. -/
def initNames (n : Nat) : List String := (List.range n).map fun i => "constant" ++ toString (i + 1)

/-- node_conversion.rs:53-63: the local counters at the start. -/
def initCounters (n : Nat) : Counters := if n > 0 then [("Constant", n)] else []

/-- graph_state.rs:72-77 `set_initial_counter`. -/
def setInitial (c : Counters) (t : String) (n : Nat) : Counters := if n > 0 then (t, n) :: c else c

/-- node_conversion.rs:137-148: the registry for the subgraphs of a control-flow node of type `t`
in a graph without a registry, made from the local counters `c`. (The map has one entry per key;
the model's list may have older entries of a key further back, which are never read.) -/
def nestedRegistry (c : Counters) (t : String) : Counters :=
  setInitial (c.map fun e => (e.1, e.2 + 1)) t 1

end OnnxIR
