import Verif.Spec.OnnxRun

/-!
# Runs whose element types follow the ONNX operator definitions

A run is represented by the element types of the values it computes. `ElemLaw.Gives` says, operator by
operator, which element type an output has; written from the type constraints of the ONNX operator
definitions. It reads names, sources and attributes of a node only, never its annotations.
-/

namespace OnnxIR

variable {V : Type}

/-- Element types of the values of a run, by name. -/
abbrev Elems := String → Option DType

/-- The annotation is right about a value with elements of type `d`; the dimensions of a tensor are
64-bit integers. -/
def ArgType.HasElem (t : ArgType) (d : DType) : Prop :=
  match t with
  | .tensor u => u.dtype = d
  | .scalarTensor e => e = d
  | .scalarNative e => e = d
  | .shape _ => d = .i64

/-- What a value is annotated with before anything is known about it. -/
def ArgType.Unknown (t : ArgType) : Prop := t = .tensor ⟨.f32, 0, none⟩

/-- The annotation is true of the run, as far as element types go. -/
def ElemTrue (δ : Elems) (a : Arg V) : Prop := ∀ d, δ a.name = some d → a.ty.HasElem d

/-- If the run computes the value, its elements are 64-bit integers. -/
def IsI64 (δ : Elems) (x : String) : Prop := ∀ d, δ x = some d → d = .i64

/-- The rule for a node is sound for the element types of a run: if the inputs are annotated truthfully,
the outputs truthfully or not at all, and only 64-bit integers are asked to become dimensions, then the
rule annotates each output truthfully or not at all; and the node asks for dimensions only where the run
has 64-bit integers. -/
def ElemSoundFor (R : Rules V) (δ : Elems) (n : Node V) : Prop :=
  (∀ (m : Node V) prefs tys, m.skel = n.skel → (∀ a ∈ m.inputs, ElemTrue δ a) →
    (∀ o ∈ m.outputs, ElemTrue δ o ∨ o.ty.Unknown) →
    (∀ o ∈ m.outputs, Pref.shape ∈ prefs o.name → IsI64 δ o.name) → R.infer m prefs = some tys →
    ∀ (k : Nat) (o : Arg V), m.outputs[k]? = some o →
      ((tys[k]?).getD o.ty).Unknown ∨ ∀ d, δ o.name = some d → ((tys[k]?).getD o.ty).HasElem d) ∧
  ∀ m : Node V, m.skel = n.skel → (∀ a ∈ m.inputs, ElemTrue δ a) →
    ∀ x, (x, Pref.shape) ∈ R.wants m → IsI64 δ x

namespace Onnx

/-- The numbers of the element types (onnx.proto3, `TensorProto.DataType`). -/
def typeCode : DType → Int
  | .f32 => 1 | .u8 => 2 | .i8 => 3 | .u16 => 4 | .i16 => 5 | .i32 => 6 | .i64 => 7 | .bool => 9
  | .f16 => 10 | .f64 => 11 | .u32 => 12 | .u64 => 13 | .bf16 => 16

/-- Element type of an input. -/
def inElem (δ : Elems) (k : Skeleton V) (i : Nat) : Option DType := k.inputs[i]?.bind fun a => δ a.1

/-- All inputs have elements of one type. -/
def OneType (δ : Elems) (k : Skeleton V) : Prop := ∃ d, ∀ a ∈ k.inputs, δ a.1 = some d

/-- The element-type laws of the ONNX operators. -/
inductive ElemLaw
  | first          -- that of the first input
  | common         -- that of all inputs
  | power          -- that of the first input; the second may have another
  | compare        -- truth values, from inputs of one type
  | fixed (d : DType)
  | stored         -- that of the constant
  | cast | unsqueeze | gather | oneHot | fill | like | bernoulli | randomLike | topk | dropout | reshape | expand
  | select         -- that of the second and third input
deriving DecidableEq, Repr

/-- The laws of the operators named by a string. -/
def namedElemLaws : List (String × ElemLaw) :=
  (["Exp", "Log", "Reciprocal", "Sin", "Cos", "Tan", "Sinh", "Cosh", "Tanh", "Asin", "Acos", "Atan",
    "Asinh", "Acosh", "Atanh", "Erf", "Sigmoid", "Gelu", "Mish", "Softplus", "Softsign", "Celu", "Elu",
    "Selu", "Swish", "Not", "Clip", "CumSum", "HardSigmoid", "HardSwish", "Hardmax", "LeakyRelu",
    "LogSoftmax", "ThresholdedRelu", "BitwiseNot", "Trilu", "InstanceNormalization",
    "GroupNormalization", "LayerNormalization", "AveragePool1d", "AveragePool2d", "GridSample",
    "MaxPool1d", "MaxPool2d", "ConvTranspose1d", "ConvTranspose2d", "ConvTranspose3d",
    "GlobalAveragePool", "Pad", "Tile", "ReduceMax", "ReduceMin", "ReduceMean", "ReduceProd",
    "ReduceSum", "ReduceSumSquare", "ReduceL1", "ReduceL2", "ReduceLogSum", "ReduceLogSumExp",
    "Flatten", "GatherElements", "ScatterElements", "ScatterND", "Conv1d", "Conv2d", "Conv3d",
    "DeformConv", "BatchNormalization", "DepthToSpace", "SpaceToDepth", "GatherND", "Split", "Range"].map
      (·, .first)) ++
  (["Max", "Min", "And", "Or", "Xor", "Sum", "Mean", "Mod", "BitShift", "BitwiseAnd", "BitwiseOr",
    "BitwiseXor", "PRelu"].map (·, .common)) ++
  (["Equal", "Greater", "Less", "GreaterOrEqual", "LessOrEqual", "IsInf", "IsNaN"].map (·, .compare)) ++
  [("MatMulInteger", .fixed .i32), ("ArgMax", .fixed .i64), ("ArgMin", .fixed .i64), ("TopK", .topk),
   ("NonZero", .fixed .i64), ("OneHot", .oneHot), ("ConstantOfShape", .fill), ("EyeLike", .like),
   ("Bernoulli", .bernoulli), ("RandomNormalLike", .randomLike), ("RandomUniformLike", .randomLike),
   ("Dropout", .dropout), ("Size", .fixed .i64), ("Expand", .expand), ("Where", .select)]

/-- The law of an operator. -/
def elemLawOf : NodeType → Option ElemLaw
  | .add | .sub | .mul | .div | .concat => some .common
  | .pow => some .power
  | .relu | .ceil | .floor | .round | .sign | .abs | .neg | .sqrt | .identity | .softmax | .squeeze
  | .transpose | .matMul | .gemm => some .first
  | .reshape => some .reshape
  | .cast => some .cast
  | .constant => some .stored
  | .shape => some (.fixed .i64)
  | .gather => some .gather
  | .unsqueeze => some .unsqueeze
  | .other name => namedElemLaws.lookup name
  | _ => none

/-- The element type of output `j`. `stored` is that of the constant of the node's first input,
`elemOf` that of a tensor given as an attribute. -/
def ElemLaw.Gives (δ : Elems) (stored : Option DType) (elemOf : V → DType) (k : Skeleton V) (j : Nat) (d : DType) :
    ElemLaw → Prop
  | .first | .common | .power | .unsqueeze | .gather | .reshape | .expand => inElem δ k 0 = some d
  | .compare => d = .bool
  | .fixed e => d = e
  | .stored => stored = some d
  | .cast => k.attrs.lookup "to" = some (.i64 (typeCode d))
  | .oneHot => inElem δ k 2 = some d
  | .select => inElem δ k 1 = some d
  | .fill => k.attrs.lookup "value" = none ∧ d = .f32 ∨ ∃ v, k.attrs.lookup "value" = some (.tensor v) ∧ d = elemOf v
  | .like | .bernoulli | .randomLike =>
    k.attrs.lookup "dtype" = none ∧ inElem δ k 0 = some d ∨ k.attrs.lookup "dtype" = some (.i64 (typeCode d))
  | .topk => if j = 0 then inElem δ k 0 = some d else d = .i64
  | .dropout => if j = 0 then inElem δ k 0 = some d else d = .bool

/-- The type constraints of the inputs. -/
def ElemLaw.Inputs (δ : Elems) (k : Skeleton V) : ElemLaw → Prop
  | .common | .compare => OneType δ k
  | .reshape | .expand => ∀ d, inElem δ k 1 = some d → d = .i64
  | .select => inElem δ k 0 = some .bool ∧ inElem δ k 1 = inElem δ k 2
  | _ => True

/-- The run follows the law of the node. -/
def ElemLaw.Holds (δ : Elems) (stored : Option DType) (elemOf : V → DType) (k : Skeleton V) (l : ElemLaw) : Prop :=
  l.Inputs δ k ∧ ∀ (j : Nat) y, k.outputs[j]? = some y → ∀ d, δ y.1 = some d → l.Gives δ stored elemOf k j d

end Onnx

end OnnxIR
