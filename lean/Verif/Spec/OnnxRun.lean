import Verif.Spec.OpShapes3
import Verif.Spec.Reshape
import Verif.Spec.Truth
import Verif.Spec.Window

/-!
# Runs whose shapes follow the ONNX operator definitions

A run is given by the shapes of its values (`Shapes`) and the contents of its integer values
(`Contents`). `Law.Holds` says, operator by operator, how the shape of the output of a node follows
from the shapes and contents of its inputs and from its attributes; written from the ONNX operator
definitions, not from the code. It reads names, sources and attributes of a node only
(`Skeleton`), never its annotations.
-/

namespace OnnxIR

variable {V : Type}

/-- Contents of integer values of a run, by name. -/
abbrev Contents := String → Option (List Int)

namespace Onnx

/-- Shape of an input. -/
def inShape (σ : Shapes) (k : Skeleton V) (i : Nat) : Option (List Nat) := k.inputs[i]?.bind fun a => σ a.1

/-- Contents of an input. -/
def inInts (ν : Contents) (k : Skeleton V) (i : Nat) : Option (List Int) := k.inputs[i]?.bind fun a => ν a.1

/-- The node has one output, and if the run computes it, its shape has the property. -/
def Single (σ : Shapes) (k : Skeleton V) (p : List Nat → Prop) : Prop :=
  ∃ y src, k.outputs = [(y, src)] ∧ ∀ out, σ y = some out → p out

/-- An integer attribute with its default. -/
def IntAttr (k : Skeleton V) (key : String) (d a : Int) : Prop :=
  k.attrs.lookup key = none ∧ a = d ∨ k.attrs.lookup key = some (.i64 a)

/-- An optional integer attribute. -/
def OptAttr (k : Skeleton V) (key : String) (a : Option Int) : Prop :=
  k.attrs.lookup key = none ∧ a = none ∨ ∃ v, k.attrs.lookup key = some (.i64 v) ∧ a = some v

/-- A list of integers given as an attribute or, failing that, as the contents of the second input, a
vector. -/
def ListGiven (σ : Shapes) (ν : Contents) (k : Skeleton V) (key : String) (l : List Int) : Prop :=
  k.attrs.lookup key = some (.i64s l) ∧ k.inputs.length = 1 ∨
  k.attrs.lookup key = none ∧ inInts ν k 1 = some l ∧ inShape σ k 1 = some [l.length]

/-- A list attribute of sizes, in the range of an i64, with its default. -/
def SizesGiven (k : Skeleton V) (key : String) (d l : List Nat) : Prop :=
  (∀ v ∈ l, v < 2 ^ 63) ∧
    (k.attrs.lookup key = none ∧ l = d ∨ k.attrs.lookup key = some (.i64s (l.map Int.ofNat)) ∧ l ≠ [])

/-- The attribute `pads`: no padding by default. -/
def PadsGiven (k : Skeleton V) (n : Nat) (pads : List (Nat × Nat)) : Prop :=
  k.attrs.lookup "pads" = none ∧ pads = List.replicate n (0, 0) ∨
    ∃ l, k.attrs.lookup "pads" = some (.i64s l) ∧ PadsAttr n l pads

/-- The attribute `auto_pad`. -/
def ModeGiven (k : Skeleton V) (m : PadMode) : Prop :=
  k.attrs.lookup "auto_pad" = none ∧ m = .notSet ∨ k.attrs.lookup "auto_pad" = some (.str m.text)

/-- A convolution with `n` spatial axes: input `N × C × …`, weight `M × C/group × kernel`. -/
def ConvRun (σ : Shapes) (k : Skeleton V) (n : Nat) (m : PadMode) (pads : List (Nat × Nat)) (out : List Nat) : Prop :=
  ∃ xs ws ss ds, inShape σ k 0 = some xs ∧ inShape σ k 1 = some ws ∧
    SizesGiven k "kernel_shape" (ws.drop 2) (ws.drop 2) ∧ SizesGiven k "strides" (List.replicate n 1) ss ∧
    SizesGiven k "dilations" (List.replicate n 1) ds ∧ PadsGiven k n pads ∧ ConvShape m pads ss ds xs ws out

/-- The shape laws of the ONNX operators. -/
inductive Law
  | same | broadcast | constant | transpose | flatten | squeeze | unsqueeze | gather | concat | reshape
  | shape | matmul | gemm | reduce | argmax | topk | gatherElements | scatter | conv (n : Nat)
  | deformConv | keepRank | resized | batchNorm | depthToSpace | spaceToDepth | gatherND | split | nonZero
  | oneHot | constantOfShape | vector | sameAll | scalar | expand | select
deriving DecidableEq, Repr

/-- The laws of the operators named by a string. -/
def namedLaws : List (String × Law) :=
  (["Exp", "Log", "Reciprocal", "Sin", "Cos", "Tan", "Sinh", "Cosh", "Tanh", "Asin", "Acos", "Atan",
    "Asinh", "Acosh", "Atanh", "Erf", "Sigmoid", "Gelu", "Mish", "Softplus", "Softsign", "Celu", "Elu",
    "Selu", "Swish", "Not", "Clip", "CumSum", "HardSigmoid", "HardSwish", "Hardmax", "LeakyRelu",
    "LogSoftmax", "ThresholdedRelu", "BitwiseNot", "Trilu", "InstanceNormalization",
    "GroupNormalization", "LayerNormalization", "EyeLike", "Bernoulli", "RandomNormalLike",
    "RandomUniformLike"].map (·, .same)) ++
  (["Max", "Min", "And", "Or", "Xor", "Sum", "Mean", "Mod", "BitShift", "BitwiseAnd", "BitwiseOr",
    "BitwiseXor", "Equal", "Greater", "Less", "GreaterOrEqual", "LessOrEqual", "PRelu", "IsInf",
    "IsNaN"].map (·, .broadcast)) ++
  (["ReduceMax", "ReduceMin", "ReduceMean", "ReduceProd", "ReduceSum", "ReduceSumSquare", "ReduceL1",
    "ReduceL2", "ReduceLogSum", "ReduceLogSumExp"].map (·, .reduce)) ++
  (["AveragePool1d", "AveragePool2d", "GridSample"].map (·, .keepRank)) ++
  (["MaxPool1d", "MaxPool2d", "ConvTranspose1d", "ConvTranspose2d", "ConvTranspose3d",
    "GlobalAveragePool", "Pad", "Tile"].map (·, .resized)) ++
  [("Flatten", .flatten), ("MatMulInteger", .matmul), ("ArgMax", .argmax), ("ArgMin", .argmax),
   ("TopK", .topk), ("GatherElements", .gatherElements), ("ScatterElements", .scatter),
   ("ScatterND", .scatter), ("Conv1d", .conv 1), ("Conv2d", .conv 2), ("Conv3d", .conv 3),
   ("DeformConv", .deformConv), ("BatchNormalization", .batchNorm), ("DepthToSpace", .depthToSpace),
   ("SpaceToDepth", .spaceToDepth), ("GatherND", .gatherND), ("Split", .split), ("NonZero", .nonZero),
   ("OneHot", .oneHot), ("ConstantOfShape", .constantOfShape), ("Range", .vector),
   ("Dropout", .sameAll), ("Size", .scalar), ("Expand", .expand), ("Where", .select)]

/-- The law of an operator. -/
def lawOf : NodeType → Option Law
  | .add | .sub | .mul | .div | .pow => some .broadcast
  | .relu | .ceil | .floor | .round | .sign | .abs | .neg | .sqrt | .cast | .identity | .softmax => some .same
  | .constant => some .constant
  | .shape => some .shape
  | .gather => some .gather
  | .concat => some .concat
  | .unsqueeze => some .unsqueeze
  | .squeeze => some .squeeze
  | .reshape => some .reshape
  | .transpose => some .transpose
  | .matMul => some .matmul
  | .gemm => some .gemm
  | .other name => namedLaws.lookup name
  | _ => none

/-- The run follows the law of the node. The stored constant of a Constant node (its shape is
`stored 0`) is the value of its output. -/
def Law.Holds (σ : Shapes) (ν : Contents) (stored : Nat → Option (List Nat)) (k : Skeleton V) : Law → Prop
  | .same => Single σ k fun out => inShape σ k 0 = some out
  | .broadcast => Single σ k fun out => ∃ ss, k.inputs.mapM (fun a => σ a.1) = some ss ∧ bcastAll ss = some out
  | .constant => Single σ k fun out => stored 0 = some out
  | .transpose => Single σ k fun out => ∃ s perm, inShape σ k 0 = some s ∧ Onnx.transpose perm s = some out ∧
      (k.attrs.lookup "perm" = some (.i64s (perm.map Int.ofNat)) ∨
        k.attrs.lookup "perm" = none ∧ perm = (List.range s.length).reverse)
  | .flatten => Single σ k fun out => ∃ s a, inShape σ k 0 = some s ∧ IntAttr k "axis" 1 a ∧
      Onnx.flatten a s = some out
  | .squeeze => Single σ k fun out => ∃ s, inShape σ k 0 = some s ∧
      ((∃ as, ListGiven σ ν k "axes" as ∧ Onnx.squeeze as s = some out) ∨
        k.attrs.lookup "axes" = none ∧ k.inputs.length = 1 ∧ out = squeezeAll s)
  | .unsqueeze => Single σ k fun out => ∃ s as, inShape σ k 0 = some s ∧ ListGiven σ ν k "axes" as ∧
      Unsqueeze as s out
  | .gather => Single σ k fun out => ∃ s si a, inShape σ k 0 = some s ∧ inShape σ k 1 = some si ∧
      IntAttr k "axis" 0 a ∧ Onnx.gather a s si = some out
  | .concat => Single σ k fun out => ∃ ss a i, k.inputs.mapM (fun x => σ x.1) = some ss ∧
      k.attrs.lookup "axis" = some (.i64 a) ∧ axis out.length a = some i ∧ Concat i ss out
  | .reshape => Single σ k fun out => ∃ s az target, inShape σ k 0 = some s ∧
      IntAttr k "allowzero" 0 az ∧ (az = 0 ∨ az = 1) ∧ ListGiven σ ν k "shape" target ∧
      Reshape (az == 1) target s out
  | .shape => Single σ k fun out => ∃ s start stop, inShape σ k 0 = some s ∧ IntAttr k "start" 0 start ∧
      OptAttr k "end" stop ∧ out = [(onnxShape start stop s).length]
  | .matmul => Single σ k fun out => ∃ a b, inShape σ k 0 = some a ∧ inShape σ k 1 = some b ∧
      Onnx.matmul a b = some out
  | .gemm => Single σ k fun out => ∃ a b ta tb, inShape σ k 0 = some a ∧ inShape σ k 1 = some b ∧
      IntAttr k "transA" 0 ta ∧ IntAttr k "transB" 0 tb ∧ Onnx.gemm (ta != 0) (tb != 0) a b = some out
  | .reduce => Single σ k fun out => ∃ s keep, inShape σ k 0 = some s ∧ IntAttr k "keepdims" 1 keep ∧
      (keep = 0 ∨ keep = 1) ∧
      ((∃ as, ListGiven σ ν k "axes" as ∧ Onnx.reduce as (keep == 1) s = some out) ∨
        k.attrs.lookup "axes" = none ∧ k.inputs.length = 1 ∧ Onnx.reduce [] (keep == 1) s = some out)
  | .argmax => Single σ k fun out => ∃ s a keep, inShape σ k 0 = some s ∧ IntAttr k "axis" 0 a ∧
      IntAttr k "keepdims" 1 keep ∧ Onnx.argmax a (keep == 1) s = some out
  | .topk => ∃ y z src src', k.outputs = [(y, src), (z, src')] ∧ ∀ w out, w = y ∨ w = z → σ w = some out →
      ∃ s a m, inShape σ k 0 = some s ∧ IntAttr k "axis" (-1) a ∧ Onnx.topk a m s = some out
  | .gatherElements => Single σ k fun out => inShape σ k 1 = some out ∧
      ∃ s, inShape σ k 0 = some s ∧ s.length = out.length
  | .scatter => Single σ k fun out => inShape σ k 0 = some out
  | .conv n => Single σ k fun out => ∃ m pads, ModeGiven k m ∧ ConvRun σ k n m pads out
  | .deformConv => Single σ k fun out => ∃ pads, ConvRun σ k 2 .notSet pads out
  | .keepRank => Single σ k fun out => ∃ s, inShape σ k 0 = some s ∧ out.length = s.length
  | .resized => Single σ k fun out => ∃ s, inShape σ k 0 = some s ∧ out.length = s.length
  | .batchNorm => Single σ k fun out => ∃ s c, inShape σ k 0 = some s ∧ inShape σ k 1 = some c ∧
      Onnx.batchNorm s c = some out
  | .depthToSpace => Single σ k fun out => ∃ bs b c h w : Nat, k.attrs.lookup "blocksize" = some (.i64 bs) ∧
      bs < 2 ^ 63 ∧ inShape σ k 0 = some [b, c * (bs * bs), h, w] ∧ out = [b, c, h * bs, w * bs]
  | .spaceToDepth => Single σ k fun out => ∃ bs b c h w : Nat, k.attrs.lookup "blocksize" = some (.i64 bs) ∧
      bs < 2 ^ 63 ∧ inShape σ k 0 = some [b, c, h * bs, w * bs] ∧ out = [b, c * bs * bs, h, w]
  | .gatherND => Single σ k fun out => ∃ (b n : Nat) (s pre : List Nat), IntAttr k "batch_dims" 0 b ∧
      b < 2 ^ 63 ∧ inShape σ k 0 = some s ∧ inShape σ k 1 = some (pre ++ [n]) ∧ b + n ≤ s.length ∧
      out = pre ++ s.drop (b + n)
  | .split => ∃ s a i, inShape σ k 0 = some s ∧ IntAttr k "axis" 0 a ∧ axis s.length a = some i ∧
      ∀ (j : Nat) y out, k.outputs[j]? = some y → σ y.1 = some out → ∃ d : Nat, out = s.set i d ∧
        (k.inputs.length = 1 ∧ (∀ l v, k.attrs.lookup "split" = some (.i64s l) → l[j]? = some v → v = d) ∨
          ∃ l, inInts ν k 1 = some l ∧ ∀ v, l[j]? = some v → v = d)
  | .nonZero => Single σ k fun out => ∃ s found, inShape σ k 0 = some s ∧ out = Onnx.nonZero found s
  | .oneHot => Single σ k fun out => ∃ s a depth, inShape σ k 0 = some s ∧ IntAttr k "axis" (-1) a ∧
      Onnx.oneHot a depth s = some out
  | .constantOfShape => Single σ k fun out => ∃ v, inInts ν k 0 = some v ∧ inShape σ k 0 = some [v.length] ∧
      Onnx.constantOfShape v = some out
  | .vector => Single σ k fun out => out.length = 1
  | .sameAll => k.outputs.length ≤ 2 ∧
      ∀ y ∈ k.outputs, ∀ out, σ y.1 = some out → inShape σ k 0 = some out
  | .scalar => Single σ k fun out => out = []
  | .expand => Single σ k fun out => ∃ s t, inShape σ k 0 = some s ∧ inInts ν k 1 = some (t.map Int.ofNat) ∧
      inShape σ k 1 = some [t.length] ∧ Onnx.expand s t = some out
  | .select => Single σ k fun out => ∃ c x y, inShape σ k 0 = some c ∧ inShape σ k 1 = some x ∧ inShape σ k 2 = some y ∧
      bcastAll [c, x, y] = some out

end Onnx

end OnnxIR
