import Verif.Model.Conv
import Verif.Model.DepthSpace
import Verif.Model.GatherND
import Verif.Model.OpRules3
import Verif.Model.Preferences
import Verif.Model.Random
import Verif.Model.Reshape
import Verif.Model.Split
import Verif.Model.TensorDecode
import Verif.Model.TypeInference

/-!
# The table of operator rules

crates/onnx-ir/src/registry.rs:107-646 maps every operator to a processor; here the processors are
the rules of `Model/OpRules*` and `Model/Reshape`, with the attributes and constant inputs they read.
Operators not in the table keep the rule of the `Rules` they are added to.
-/

namespace OnnxIR

variable {V : Type}

/-- What a processor can ask of the constant stored for an argument (crates/onnx-ir/src/ir/argument.rs
`Argument::value`, which depends on the source and the name only, and `TensorData`): the value, its
shape, element type, and its contents as integers (`to_i64_vec`). -/
structure Store (V : Type) where
  value : String → Src V → Option V
  dims : V → List Nat
  dtype : V → DType
  ints : V → Option (List Int)

/-- The constant stored for an argument. -/
def Store.read (S : Store V) (a : Arg V) : Option V := S.value a.name a.src

namespace Infer

/-- The `infer_types` functions of the table. -/
inductive Rule
  | same | broadcast (d : Option DType) | constant | cast | transpose | flatten | squeeze | unsqueeze
  | gather | concat | reshape | shape | matmul | matmulInteger | gemm | reduce | argmax | topk
  | gatherElements | scatter | conv (axes : Nat) | deformConv | rankOnly | copied | batchNorm
  | depthToSpace | spaceToDepth | gatherND | split | nonZero | oneHot | constantOfShape | eyeLike
  | bernoulli | randomLike | range | dropout | size | expand | where_
deriving DecidableEq, Repr

/-- crates/onnx-ir/src/registry.rs:113-646, restricted to the operators whose rules are modelled. -/
def ruleTable : List (NodeType × Rule) :=
  ([.abs, .neg, .ceil, .floor, .sqrt, .round, .sign, .relu, .identity, .softmax, .other "Exp",
    .other "Log", .other "Reciprocal", .other "Sin", .other "Cos", .other "Tan", .other "Sinh",
    .other "Cosh", .other "Tanh", .other "Asin", .other "Acos", .other "Atan", .other "Asinh",
    .other "Acosh", .other "Atanh", .other "Erf", .other "Sigmoid", .other "Gelu", .other "Mish",
    .other "Softplus", .other "Softsign", .other "Celu", .other "Elu", .other "Selu", .other "Swish",
    .other "Not", .other "Clip", .other "CumSum", .other "HardSigmoid", .other "HardSwish",
    .other "Hardmax", .other "LeakyRelu", .other "LogSoftmax", .other "ThresholdedRelu",
    .other "BitwiseNot", .other "Trilu", .other "InstanceNormalization",
    .other "GroupNormalization", .other "LayerNormalization"].map (·, Rule.same)) ++
  ([.add, .sub, .mul, .div, .pow, .other "Max", .other "Min", .other "And", .other "Or", .other "Xor",
    .other "Sum", .other "Mean", .other "Mod", .other "BitShift", .other "BitwiseAnd",
    .other "BitwiseOr", .other "BitwiseXor", .other "PRelu"].map (·, Rule.broadcast none)) ++
  ([.other "Equal", .other "Greater", .other "Less", .other "GreaterOrEqual",
    .other "LessOrEqual", .other "IsInf", .other "IsNaN"].map (·, Rule.broadcast (some .bool))) ++
  ([.other "AveragePool1d", .other "AveragePool2d", .other "GridSample"].map (·, Rule.rankOnly)) ++
  ([.other "MaxPool1d", .other "MaxPool2d", .other "ConvTranspose1d", .other "ConvTranspose2d",
    .other "ConvTranspose3d", .other "GlobalAveragePool", .other "Pad", .other "Tile"].map
      (·, Rule.copied)) ++
  ([.other "ReduceMax", .other "ReduceMin", .other "ReduceMean", .other "ReduceProd",
    .other "ReduceSum", .other "ReduceSumSquare", .other "ReduceL1", .other "ReduceL2",
    .other "ReduceLogSum", .other "ReduceLogSumExp"].map (·, Rule.reduce)) ++
  [(.constant, .constant), (.cast, .cast), (.transpose, .transpose), (.other "Flatten", .flatten),
    (.squeeze, .squeeze), (.unsqueeze, .unsqueeze), (.gather, .gather), (.concat, .concat),
    (.reshape, .reshape), (.shape, .shape), (.matMul, .matmul), (.other "MatMulInteger", .matmulInteger),
    (.gemm, .gemm), (.other "ArgMax", .argmax), (.other "ArgMin", .argmax), (.other "TopK", .topk),
    (.other "GatherElements", .gatherElements), (.other "ScatterElements", .scatter),
    (.other "ScatterND", .scatter), (.other "Conv1d", .conv 1), (.other "Conv2d", .conv 2),
    (.other "Conv3d", .conv 3), (.other "DeformConv", .deformConv), (.other "BatchNormalization", .batchNorm),
    (.other "DepthToSpace", .depthToSpace), (.other "SpaceToDepth", .spaceToDepth),
    (.other "GatherND", .gatherND), (.other "Split", .split), (.other "NonZero", .nonZero),
    (.other "OneHot", .oneHot), (.other "ConstantOfShape", .constantOfShape), (.other "EyeLike", .eyeLike),
    (.other "Bernoulli", .bernoulli), (.other "RandomNormalLike", .randomLike),
    (.other "RandomUniformLike", .randomLike), (.other "Range", .range), (.other "Dropout", .dropout),
    (.other "Size", .size), (.other "Expand", .expand), (.other "Where", .where_)]

/-- The rule of an operator. -/
def ruleOf (t : NodeType) : Option Rule := ruleTable.lookup t

/-- An integer attribute with its default; `into_i64` panics on another kind
(crates/onnx-ir/src/ir/attribute.rs). -/
def attrInt (n : Node V) (key : String) (d : Int) : Option Int :=
  match n.attrs.lookup key with
  | none => some d
  | some (.i64 v) => some v
  | some _ => none

/-- An optional integer attribute. -/
def attrInt? (n : Node V) (key : String) : Option (Option Int) :=
  match n.attrs.lookup key with
  | none => some none
  | some (.i64 v) => some (some v)
  | some _ => none

/-- An optional attribute that is a list of integers. -/
def attrInts (n : Node V) (key : String) : Option (Option (List Int)) :=
  match n.attrs.lookup key with
  | none => some none
  | some (.i64s v) => some (some v)
  | some _ => none

/-- The type of an input. -/
def inTy (n : Node V) (k : Nat) : Option ArgType := n.inputs[k]?.map Arg.ty

/-- squeeze.rs:217-262 `extract_config`: the axes known at import; `none` inside when there are none
or they are only known at run time. -/
def squeezeAxes (S : Store V) (opset : Nat) (n : Node V) : Option (Option (List Int)) :=
  match attrInts n "axes" with
  | none => none
  | some (some as) => if 13 ≤ opset then none else some (if as = [] then none else some as)
  | some none =>
    match n.inputs[1]? with
    | none => some none
    | some a => match S.read a with
      | none => some none
      | some v => some (S.ints v)

/-- The integers of a stored value; fails when it has other elements. -/
def readInts (S : Store V) (a : Arg V) : Option (Option (List Int)) :=
  match S.read a with
  | none => some none
  | some v => (S.ints v).map some

/-- unsqueeze.rs:101-195 `extract_config`; the checks on the element type of scalar axes are left
out (more nodes pass in the model). -/
def unsqueezeAxes (S : Store V) (opset : Nat) (n : Node V) : Option (Option (List Int)) :=
  match attrInts n "axes" with
  | none => none
  | some (some as) => if 13 ≤ opset then none else some (some as)
  | some none =>
    match n.inputs[1]? with
    | none => none
    | some a =>
      match a.ty with
      | .tensor t => if t.rank ≠ 0 ∧ t.rank ≠ 1 then none else readInts S a
      | .shape _ => none
      | _ => readInts S a

/-- reshape.rs:223-237 `get_static_shape`. -/
def reshapeTarget (S : Store V) (n : Node V) : Option (Option (List Int)) :=
  match n.inputs[1]?.bind S.read with
  | some v => some (S.ints v)
  | none => attrInts n "shape"

/-- reduce.rs:250-295 `extract_config`: the axes of a constant input win over the attribute, and must
be `i64`. -/
def reduceAxes (S : Store V) (n : Node V) : Option (List Int) :=
  match n.inputs[1]?.bind S.read with
  | some v => if S.dtype v = .i64 then S.ints v else none
  | none => (attrInts n "axes").map (·.getD [])

/-- An optional string attribute. -/
def attrStr (n : Node V) (key : String) : Option (Option String) :=
  match n.attrs.lookup key with
  | none => some none
  | some (.str v) => some (some v)
  | some _ => none

/-- The attributes of a convolution (conv2d.rs:253-271, deform_conv.rs:276-292). -/
def windowAttrs (n : Node V) : Option WindowAttrs :=
  match attrInts n "kernel_shape", attrInts n "strides", attrInts n "pads", attrInts n "dilations",
    attrStr n "auto_pad" with
  | some k, some s, some p, some d, some a =>
    some { kernelShape := k, strides := s, pads := p, dilations := d, autoPad := a }
  | _, _, _, _, _ => none

/-- split.rs:103-119: sizes from the second input when there is one, else from the attribute. -/
def splitSizes (S : Store V) (n : Node V) : Option (Option (List Int)) :=
  if 1 < n.inputs.length then
    some (((n.inputs[1]?.bind S.read).filter fun v => S.dtype v == .i64).bind S.ints)
  else attrInts n "split"

/-- The element type of the attribute `dtype` (`DataType::from_i32`). -/
def attrDtype (n : Node V) : Option (Option DType) :=
  match attrInt? n "dtype" with
  | none => none
  | some none => some none
  | some (some d) => (Decode.elementType d).map some

/-- The output types a rule gives; outputs beyond the list keep theirs. Checks on attributes that
only produce errors are left out (more nodes pass in the model) except where a comment says so. -/
def apply (S : Store V) (opset : Nat) (n : Node V) (prefs : OutPrefs) : Rule → Option (List ArgType)
  | .same => (sameAsInput (n.inputs.map Arg.ty)).map ([·])
  | .broadcast d => (broadcastOutputType (n.inputs.map Arg.ty) d).map ([·])
  | .constant =>
    match n.inputs[0]?.bind S.read, n.outputs[0]? with
    | some v, some o =>
      some [Infer.constant (S.dtype v) (S.dims v) ((prefs o.name).contains .shape)
        ((prefs o.name).contains .scalarNative)]
    | _, _ => none
  | .cast =>
    match n.attrs.lookup "to", inTy n 0 with
    | some (.i64 d), some x => (Decode.elementType d).bind fun d => (Infer.cast d x).map ([·])
    | _, _ => none
  | .transpose =>
    match attrInts n "perm", inTy n 0 with
    | some perm, some x => (Infer.transpose perm x).map ([·])
    | _, _ => none
  | .flatten =>
    match attrInt? n "axis", inTy n 0 with
    | some a, some x => (Infer.flatten a x).map ([·])
    | _, _ => none
  | .squeeze =>
    match squeezeAxes S opset n, inTy n 0 with
    | some as, some x => (Infer.squeeze as x).map ([·])
    | _, _ => none
  | .unsqueeze =>
    match unsqueezeAxes S opset n, inTy n 0, n.outputs[0]? with
    | some as, some x, some o => (Infer.unsqueeze as (inTy n 1) o.ty x).map ([·])
    | _, _, _ => none
  | .gather =>
    match attrInt n "axis" 0, inTy n 0, inTy n 1 with
    | some a, some x, some i => (Infer.gather a x i).map ([·])
    | _, _, _ => none
  | .concat =>
    match n.attrs.lookup "axis" with
    | some (.i64 _) => (Infer.concat (n.inputs.map fun a => (a.ty, (S.read a).map S.dims))).map ([·])
    | _ => none
  | .reshape =>
    match attrInt n "allowzero" 0, reshapeTarget S n, inTy n 0, n.outputs[0]? with
    | some az, some tg, some x, some o => (Infer.reshape (az == 1) tg (inTy n 1) o.ty x).map ([·])
    | _, _, _, _ => none
  | .shape =>
    match attrInt? n "start", attrInt? n "end", inTy n 0 with
    | some s, some e, some x => (Infer.shape s e x).map ([·])
    | _, _, _ => none
  | .matmul =>
    match inTy n 0, inTy n 1 with
    | some a, some b => (Infer.matmul a b).map ([·])
    | _, _ => none
  | .matmulInteger =>
    match inTy n 0, inTy n 1 with
    | some a, some b => (Infer.matmulInteger a b).map ([·])
    | _, _ => none
  | .gemm =>
    match inTy n 0, inTy n 1 with
    | some a, some b => (Infer.gemm a b).map ([·])
    | _, _ => none
  | .reduce =>
    match reduceAxes S n, attrInt n "keepdims" 1, inTy n 0 with
    | some as, some k, some x => (Infer.reduce as (k == 1) x).map ([·])
    | _, _, _ => none
  | .argmax =>
    match attrInt n "keepdims" 1, inTy n 0 with
    | some k, some x => if k = 0 ∨ k = 1 then (Infer.argmax (k != 0) x).map ([·]) else none
    | _, _ => none
  | .topk => (inTy n 0).bind fun x => (Infer.topk x).map fun p => [p.1, p.2]
  | .gatherElements =>
    match inTy n 0, inTy n 1 with
    | some x, some i => some (match Infer.gatherElements x i with | some t => [t] | none => [])
    | _, _ => none
  | .scatter =>
    match inTy n 0 with
    | some (.tensor t) => some [.tensor t]
    | some _ => some []
    | none => none
  | .conv axes =>
    match windowAttrs n, inTy n 0, inTy n 1 with
    | some a, some x, some w =>
      let weight := (n.inputs[1]?.bind S.read).map S.dims
      ((match axes with
        | 1 => Infer.conv1d a x w weight
        | 2 => Infer.conv2d a x w weight
        | 3 => Infer.conv3d a x w weight
        | _ => none)).map ([·])
    | _, _, _ => none
  | .deformConv =>
    match windowAttrs n, inTy n 0, inTy n 1 with
    | some a, some x, some w => (Infer.deformConv a x w ((n.inputs[1]?.bind S.read).map S.dims)).map ([·])
    | _, _, _ => none
  | .rankOnly => (inTy n 0).bind fun x => (Infer.rankOnly x).map ([·])
  | .copied => (inTy n 0).bind fun x => (Infer.copyFirst x).map ([·])
  | .batchNorm =>
    match inTy n 0, inTy n 1 with
    | some x, some sc => (Infer.batchNorm sc ((n.inputs[1]?.bind S.read).map S.dims) x).map ([·])
    | _, _ => none
  | .depthToSpace =>
    match n.attrs.lookup "blocksize", inTy n 0 with
    | some (.i64 b), some x => (Infer.depthToSpace (OnnxIR.asUsize b) x).map ([·])
    | _, _ => none
  | .spaceToDepth =>
    match n.attrs.lookup "blocksize", inTy n 0 with
    | some (.i64 b), some x => (Infer.spaceToDepth (OnnxIR.asUsize b) x).map ([·])
    | _, _ => none
  | .gatherND =>
    match attrInt n "batch_dims" 0, inTy n 0, inTy n 1 with
    | some b, some x, some i => (Infer.gatherND b x i).map ([·])
    | _, _, _ => none
  | .split =>
    match attrInt n "axis" 0, splitSizes S n, inTy n 0 with
    | some a, some sizes, some x => (List.range n.outputs.length).mapM (Infer.splitOutput x a sizes)
    | _, _, _ => none
  | .nonZero => (inTy n 0).bind fun x => (Infer.nonZero x).map ([·])
  | .oneHot =>
    match inTy n 0, n.outputs[0]?.bind fun o => o.ty.elemType with
    | some x, some d => (Infer.oneHot d x).map ([·])
    | _, _ => none
  | .constantOfShape =>
    match (match n.attrs.lookup "value" with
      | none => some DType.f32
      | some (.tensor v) => some (S.dtype v)
      | _ => none), inTy n 0 with
    | some d, some x => (Infer.constantOfShape d ((n.inputs[0]?.bind S.read).bind S.ints) x).map ([·])
    | _, _ => none
  | .eyeLike =>
    match attrDtype n, inTy n 0 with
    | some d, some (.tensor t) =>
      if t.rank = 2 then (Infer.likeInput (d.getD t.dtype) (.tensor t)).map ([·]) else none
    | _, _ => none
  | .bernoulli =>
    match attrDtype n, inTy n 0 with
    | some d, some (.tensor t) => (Infer.likeInput (Infer.bernoulliElem d t.dtype) (.tensor t)).map ([·])
    | _, _ => none
  | .randomLike =>
    match attrDtype n, inTy n 0 with
    | some d, some x => (Infer.randomLikeType d x).map ([·])
    | _, _ => none
  | .range => ((inTy n 0).bind ArgType.elemType).map fun d => [Infer.ofRank d 1]
  | .dropout =>
    (sameAsInput (n.inputs.map Arg.ty)).map fun t =>
      match inTy n 0 with
      | some x => if n.outputs.length = 2 then t :: (Infer.likeInput .bool x).toList else [t]
      | none => [t]
  | .size => some [Infer.size]
  | .where_ =>
    match inTy n 0, inTy n 1, inTy n 2 with
    | some c, some x, some y => (Infer.where_ c x y).map ([·])
    | _, _, _ => none
  | .expand =>
    match n.inputs[1]? , inTy n 0, n.outputs[0]? with
    | some a, some x, some o => (readInts S a).bind fun target => (Infer.expand target a.ty o.ty x).map ([·])
    | _, _, _ => none

end Infer

/-- crates/onnx-ir/src/registry.rs: the rules of the table, and those of `E` for the other operators.
Which operators are registered and the specifications of C49 are those of `E`; the preferences of
consumers are those of `Model/Preferences`. -/
def registry (S : Store V) (opset : Nat) (E : Rules V) : Rules V where
  registered := E.registered
  valid := E.valid
  infer n prefs :=
    match Infer.ruleOf n.ty with
    | some r => Infer.apply S opset n prefs r
    | none => E.infer n prefs
  wants := Infer.wantsOf

end OnnxIR
