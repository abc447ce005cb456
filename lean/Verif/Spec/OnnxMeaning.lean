import Verif.Spec.RunValues
import Verif.Spec.AxisOps
import Verif.Spec.Concat
import Verif.Spec.CumSum
import Verif.Spec.DepthSpace
import Verif.Spec.OpShapes2
import Verif.Spec.Fill
import Verif.Spec.Gather
import Verif.Spec.GatherND
import Verif.Spec.Linear
import Verif.Spec.MatMul
import Verif.Spec.Norm
import Verif.Spec.OpShapes
import Verif.Spec.Pieces
import Verif.Spec.Range
import Verif.Spec.Reduce
import Verif.Spec.Reshape
import Verif.Spec.Scatter
import Verif.Spec.Select
import Verif.Spec.ShapeOps
import Mathlib.Data.Int.Bitwise
import Verif.Spec.Slice
import Verif.Spec.WindowOps

/-!
# What ONNX operators compute

The operators of the statements about whole graphs: their names and what they make of attributes and operands. Independent of
the code. Elements are real numbers, integers or truth values. `erf` is the error function.
-/

namespace OnnxIR

inductive Arith
  | add | sub | mul | div
deriving DecidableEq

inductive Comparison
  | equal | greater | greaterOrEqual | less | lessOrEqual
deriving DecidableEq

inductive Logic
  | and | or | xor
deriving DecidableEq

inductive Reduce
  | sum | mean | max | min | prod | l1 | l2 | sumSquare | logSum
deriving DecidableEq

/-- Operators. `linear` is the product of the last dimension with a matrix, plus a bias, that MatMul, Add and Gemm nodes are
fused into. -/
inductive Op
  | unary (op : UnaryOp)
  | act (op : ActOp)
  | not
  | arith (op : Arith)
  | compare (op : Comparison)
  | logic (op : Logic)
  | matMul | gemm | linear
  | reshape | transpose | flatten | squeeze | unsqueeze
  | concat | constant | softmax | logSoftmax | gather
  | conv (axes : Nat) | maxPool (axes : Nat) | averagePool (axes : Nat) | globalAveragePool
  | batchNorm | layerNorm | instanceNorm
  | reduce (op : Reduce)
  | shape | clip | sum | pow
  | pad | tile | trilu | dropout | depthToSpace | spaceToDepth | expand | mean | maximum | minimum | argMax | argMin | slice
  | prelu | groupNorm
  | where_ | cast | split | gatherElements | hardmax | topK | scatterND | convTranspose (axes : Nat)
  | cumSum | scatterElements | gatherND | nonZero | logSumExp
  | range | oneHot | constantOfShape | mod | identity | eyeLike
  | bitwise (op : Logic) | bitwiseNot | matMulInteger
deriving DecidableEq

/-- The names of the operators. -/
def opNames : List (NodeType × Op) :=
  [(.abs, .unary .abs), (.other "Acos", .unary .acos), (.other "Acosh", .unary .acosh), (.other "Asin", .unary .asin),
   (.other "Asinh", .unary .asinh), (.other "Atan", .unary .atan), (.other "Atanh", .unary .atanh), (.ceil, .unary .ceil),
   (.other "Cos", .unary .cos), (.other "Cosh", .unary .cosh), (.other "Erf", .unary .erf), (.other "Exp", .unary .exp),
   (.floor, .unary .floor), (.other "Log", .unary .log), (.neg, .unary .neg), (.other "Reciprocal", .unary .reciprocal),
   (.round, .unary .round), (.sign, .unary .sign), (.other "Sin", .unary .sin), (.other "Sinh", .unary .sinh),
   (.sqrt, .unary .sqrt), (.other "Tan", .unary .tan), (.other "Tanh", .unary .tanh),
   (.relu, .act .relu), (.other "LeakyRelu", .act .leakyRelu), (.other "Elu", .act .elu), (.other "Celu", .act .celu),
   (.other "Gelu", .act .gelu), (.other "HardSigmoid", .act .hardSigmoid), (.other "HardSwish", .act .hardSwish),
   (.other "Mish", .act .mish), (.other "Sigmoid", .act .sigmoid), (.other "Softplus", .act .softplus),
   (.other "Softsign", .act .softsign), (.other "Swish", .act .swish), (.other "ThresholdedRelu", .act .thresholdedRelu),
   (.other "Not", .not), (.add, .arith .add), (.sub, .arith .sub), (.mul, .arith .mul), (.div, .arith .div),
   (.other "Equal", .compare .equal), (.other "Greater", .compare .greater),
   (.other "GreaterOrEqual", .compare .greaterOrEqual), (.other "Less", .compare .less),
   (.other "LessOrEqual", .compare .lessOrEqual), (.other "And", .logic .and), (.other "Or", .logic .or),
   (.other "Xor", .logic .xor), (.matMul, .matMul), (.gemm, .gemm), (.linear, .linear), (.reshape, .reshape),
   (.transpose, .transpose), (.other "Flatten", .flatten), (.squeeze, .squeeze), (.unsqueeze, .unsqueeze),
   (.concat, .concat), (.constant, .constant), (.softmax, .softmax), (.other "LogSoftmax", .logSoftmax), (.gather, .gather),
   (.other "Conv1d", .conv 1), (.other "Conv2d", .conv 2), (.other "Conv3d", .conv 3), (.other "MaxPool1d", .maxPool 1),
   (.other "MaxPool2d", .maxPool 2), (.other "AveragePool1d", .averagePool 1), (.other "AveragePool2d", .averagePool 2),
   (.other "GlobalAveragePool", .globalAveragePool), (.other "BatchNormalization", .batchNorm),
   (.other "LayerNormalization", .layerNorm), (.other "InstanceNormalization", .instanceNorm),
   (.other "ReduceSum", .reduce .sum), (.other "ReduceMean", .reduce .mean), (.other "ReduceMax", .reduce .max),
   (.other "ReduceMin", .reduce .min), (.other "ReduceProd", .reduce .prod), (.other "ReduceL1", .reduce .l1),
   (.other "ReduceL2", .reduce .l2), (.other "ReduceSumSquare", .reduce .sumSquare), (.other "ReduceLogSum", .reduce .logSum),
   (.shape, .shape), (.other "Clip", .clip), (.other "Sum", .sum), (.pow, .pow), (.other "Pad", .pad), (.other "Tile", .tile),
   (.other "Trilu", .trilu), (.other "Dropout", .dropout), (.other "DepthToSpace", .depthToSpace),
   (.other "SpaceToDepth", .spaceToDepth), (.other "Expand", .expand), (.other "Mean", .mean), (.other "Max", .maximum),
   (.other "Min", .minimum), (.other "ArgMax", .argMax), (.other "ArgMin", .argMin), (.slice, .slice),
   (.other "PRelu", .prelu), (.other "GroupNormalization", .groupNorm),
   (.other "Where", .where_), (.cast, .cast), (.other "Split", .split), (.other "GatherElements", .gatherElements),
   (.other "Hardmax", .hardmax), (.other "TopK", .topK), (.other "ScatterND", .scatterND),
   (.other "ConvTranspose1d", .convTranspose 1), (.other "ConvTranspose2d", .convTranspose 2),
   (.other "ConvTranspose3d", .convTranspose 3), (.other "CumSum", .cumSum), (.other "ScatterElements", .scatterElements),
   (.other "GatherND", .gatherND), (.other "NonZero", .nonZero),
   (.other "ReduceLogSumExp", .logSumExp), (.other "Range", .range), (.other "OneHot", .oneHot),
   (.other "ConstantOfShape", .constantOfShape), (.other "Mod", .mod), (.identity, .identity),
   (.other "EyeLike", .eyeLike), (.other "BitwiseAnd", .bitwise .and), (.other "BitwiseOr", .bitwise .or),
   (.other "BitwiseXor", .bitwise .xor), (.other "BitwiseNot", .bitwiseNot), (.other "MatMulInteger", .matMulInteger)]

/-- The operator of a name. -/
def opOf (t : NodeType) : Option Op := opNames.lookup t

/-- The attributes of a node. -/
abbrev Attrs := List (String × AttrVal OVal)

namespace Onnx

/-! ### Attributes -/

/-- The number a 32-bit pattern stands for (IEEE 754; infinities and NaN are read as their finite continuation). -/
noncomputable def f32 (bits : Nat) : ℝ :=
  let s : ℝ := if bits / 2 ^ 31 % 2 = 0 then 1 else -1
  let e : Nat := bits / 2 ^ 23 % 256
  let m : ℝ := (bits % 2 ^ 23 : Nat)
  if e = 0 then s * (m / 2 ^ 23) * 2 ^ (-126 : Int) else s * (1 + m / 2 ^ 23) * 2 ^ ((e : Int) - 127)

/-- An optional integer attribute. -/
def HasInt (as : Attrs) (key : String) (v : Option Int) : Prop := as.lookup key = v.map .i64

/-- An optional attribute that is a list of integers. -/
def HasInts (as : Attrs) (key : String) (v : Option (List Int)) : Prop := as.lookup key = v.map .i64s

/-- An optional attribute that is a number. -/
def HasFloat (as : Attrs) (key : String) (v : Option ℝ) : Prop :=
  ∃ b : Option Nat, as.lookup key = b.map .f32 ∧ v = b.map f32

/-- The attributes of an activation function. -/
def ActAttr (as : Attrs) (a : ActAttrs) : Prop :=
  HasFloat as "alpha" a.alpha ∧ HasFloat as "beta" a.beta ∧ HasFloat as "gamma" a.gamma ∧
    (a.approximate = true ↔ as.lookup "approximate" = some (.str "tanh"))

/-! ### Functions of elements -/

noncomputable def arithReal : Arith → ℝ → ℝ → ℝ
  | .add => (· + ·)
  | .sub => (· - ·)
  | .mul => (· * ·)
  | .div => (· / ·)

/-- Integer division truncates. -/
def arithInt : Arith → Int → Int → Int
  | .add => (· + ·)
  | .sub => (· - ·)
  | .mul => (· * ·)
  | .div => Int.tdiv

/-- A comparison in a linear order. -/
noncomputable def compareFn {α : Type} [LinearOrder α] : Comparison → α → α → Bool
  | .equal => fun a b => decide (a = b)
  | .greater => fun a b => decide (b < a)
  | .greaterOrEqual => fun a b => decide (b ≤ a)
  | .less => fun a b => decide (a < b)
  | .lessOrEqual => fun a b => decide (a ≤ b)

def logicFn : Logic → Bool → Bool → Bool
  | .and => (· && ·)
  | .or => (· || ·)
  | .xor => (· != ·)

/-- The sum of products of integers. -/
def dotZ (a b : List Int) : Int := (List.zipWith (· * ·) a b).sum

/-- The sum of products. -/
def dotR (a b : List ℝ) : ℝ := (List.zipWith (· * ·) a b).sum

/-- Softmax of a list. -/
noncomputable def softmaxList (l : List ℝ) : List ℝ := l.map fun x => Real.exp x / (l.map Real.exp).sum

/-- LogSoftmax of a list. -/
noncomputable def logSoftmaxList (l : List ℝ) : List ℝ := l.map fun x => x - Real.log (l.map Real.exp).sum

/-- The greatest element of a list, and the least one. -/
noncomputable def maxList : List ℝ → ℝ
  | [] => default
  | a :: l => l.foldl max a

noncomputable def minList : List ℝ → ℝ
  | [] => default
  | a :: l => l.foldl min a

/-- The reductions of a list: what is done to each element, to the list and to the result. -/
noncomputable def reduceFn : Reduce → (ℝ → ℝ) × (List ℝ → ℝ) × (ℝ → ℝ)
  | .sum => (id, List.sum, id)
  | .mean => (id, fun l => l.sum / l.length, id)
  | .max => (id, maxList, id)
  | .min => (id, minList, id)
  | .prod => (id, List.prod, id)
  | .l1 => (fun x => |x|, List.sum, id)
  | .l2 => (fun x => x ^ 2, List.sum, Real.sqrt)
  | .sumSquare => (fun x => x ^ 2, List.sum, id)
  | .logSum => (id, List.sum, Real.log)

/-! ### Windows -/

/-- An attribute that is a list of sizes, with its default. -/
def HasSizes (as : Attrs) (key : String) (default l : List Nat) : Prop :=
  ∃ v, HasInts as key v ∧ v.getD (default.map Int.ofNat) = l.map Int.ofNat

/-- The attributes of an operator with a window of size `ks` along `d` axes: padding, strides and dilations. `ps` are the amounts
of padding for an input of size `xs`. The window has to fit in along every axis. -/
structure Windowed (as : Attrs) (d : Nat) (xs ks ss ds : List Nat) (ps : List (Nat × Nat)) : Prop where
  axes : xs.length = d ∧ ks.length = d
  strides : HasSizes as "strides" (List.replicate d 1) ss
  dilations : HasSizes as "dilations" (List.replicate d 1) ds
  padding : ∃ m amounts v, (as.lookup "auto_pad" = none ∧ m = .notSet ∨ as.lookup "auto_pad" = some (.str m.text)) ∧
    HasInts as "pads" v ∧ PadsAttr d (v.getD (List.replicate (2 * d) 0)) amounts ∧ AllAutoPadded m amounts xs ks ss ds ps
  fits : ∀ a ∈ windowAxes ps xs ks ss ds, 0 < a.input ∧ 0 < a.kernel ∧ 0 < a.stride ∧ a.Fits 0

/-- No window lies in the padding as a whole. -/
def NoEmptyWindow (as : List Axis) (outs : List Nat) : Prop :=
  ∀ o, InRange outs o → ∃ k r, InRange (as.map (·.kernel)) k ∧ cells as o k = some r

/-! ### Operators that do not look at elements -/

/-- The same relation for tensors of all kinds. -/
def Rel (P : {α : Type} → [Elem α] → Tensor α → Tensor α → Prop) : OVal → OVal → Prop
  | .float X, .float Z => P X Z
  | .int X, .int Z => P X Z
  | .bool X, .bool Z => P X Z
  | _, _ => False

/-- The same for two operands and a result, all of one kind. -/
def Rel2 (P : {α : Type} → [Elem α] → Tensor α → Tensor α → Tensor α → Prop) : OVal → OVal → OVal → Prop
  | .float X, .float Y, .float Z => P X Y Z
  | .int X, .int Y, .int Z => P X Y Z
  | .bool X, .bool Y, .bool Z => P X Y Z
  | _, _, _ => False

/-- The same for an operand and several results, all of one kind. -/
def RelMany (P : {α : Type} → [Elem α] → Tensor α → List (Tensor α) → Prop) (ys : List OVal) : OVal → Prop
  | .float X => ∃ Zs, ys = Zs.map .float ∧ P X Zs
  | .int X => ∃ Zs, ys = Zs.map .int ∧ P X Zs
  | .bool X => ∃ Zs, ys = Zs.map .bool ∧ P X Zs

/-- The same relation for lists of tensors of all kinds. -/
def RelAll (P : {α : Type} → [Elem α] → List (Tensor α) → Tensor α → Prop) (vs : List OVal) : OVal → Prop
  | .float Z => ∃ Xs, vs = Xs.map .float ∧ P Xs Z
  | .int Z => ∃ Xs, vs = Xs.map .int ∧ P Xs Z
  | .bool Z => ∃ Xs, vs = Xs.map .bool ∧ P Xs Z

/-- `w` has the elements of `v` in the shape `out`. -/
def View (v w : OVal) (out : List Nat) : Prop := Rel (fun X Z => Viewed X Z out) v w

/-- The axes of Squeeze and Unsqueeze: from the second operand, or from the attribute (up to version 12). -/
def AxesOf (as : Attrs) (xs : List (Option OVal)) (v : OVal) (axes : Option (List Int)) : Prop :=
  (xs = [some v] ∧ HasInts as "axes" axes) ∨
    ∃ t : Tensor Int, xs = [some v, some (.int t)] ∧ as.lookup "axes" = none ∧ t.shape = [t.data.length] ∧ axes = some t.data

/-- The bounds of Clip: inputs (scalars, each may be left out), or attributes up to version 10. -/
def ClipBounds (as : Attrs) (xs : List (Option OVal)) (lo hi : Option ℝ) : Prop :=
  (xs = [] ∧ HasFloat as "min" lo ∧ HasFloat as "max" hi) ∨
    ∃ l h : Option (Tensor ℝ), (xs = [l.map .float] ∧ h = none ∨ xs = [l.map .float, h.map .float]) ∧
      (∀ t ∈ l, t.shape = []) ∧ (∀ t ∈ h, t.shape = []) ∧ lo = l.map (·.get []) ∧ hi = h.map (·.get []) ∧
      as.lookup "min" = none ∧ as.lookup "max" = none

/-- The amounts and the value of Pad: inputs (the value may be left out), or attributes up to version 10. -/
def PadOperands (as : Attrs) (xs : List (Option OVal)) (X : Tensor ℝ) (pads : List Int) (value : ℝ) : Prop :=
  (xs = [some (.float X)] ∧ HasInts as "pads" (some pads) ∧ as.lookup "paddings" = none ∧
    ∃ v, HasFloat as "value" v ∧ value = v.getD 0) ∨
    ∃ (t : Tensor Int) (v : Option (Tensor ℝ)), (xs = [some (.float X), some (.int t)] ∧ v = none ∨
        xs = [some (.float X), some (.int t), v.map .float]) ∧
      t.shape = [t.data.length] ∧ pads = t.data ∧ (∀ u ∈ v, u.shape = []) ∧ value = (v.map (·.get [])).getD 0 ∧
      as.lookup "pads" = none ∧ as.lookup "paddings" = none ∧ as.lookup "value" = none

/-- The name of a mode of Pad. -/
def fillText : FillMode → String
  | .constant => "constant"
  | .reflect => "reflect"
  | .edge => "edge"

/-- The name of a mode of DepthToSpace. -/
def depthText : DepthMode → String
  | .dcr => "DCR"
  | .crd => "CRD"

/-- The diagonal of Trilu: a scalar, or left out. -/
def Diagonal (xs : List (Option OVal)) (v : OVal) (k : Int) : Prop :=
  (xs = [some v] ∧ k = 0) ∨ ∃ t : Tensor Int, xs = [some v, some (.int t)] ∧ t.shape = [] ∧ k = t.get []

/-- The list that an operand of Slice is, or what holds when it is left out. -/
def ListOr (x : Option (Option OVal)) (dflt l : List Int) : Prop :=
  (x = none ∧ l = dflt) ∨ ∃ t : Tensor Int, x = some (some (.int t)) ∧ t.shape = [t.data.length] ∧ l = t.data

/-- Starts, ends, axes and steps of Slice: operands, or attributes (without steps) up to version 9. -/
def SliceBounds (as : Attrs) (xs : List (Option OVal)) (v : OVal) (S E A T : List Int) : Prop :=
  (xs = [some v] ∧ HasInts as "starts" (some S) ∧ HasInts as "ends" (some E) ∧ T = List.replicate S.length 1 ∧
    ∃ a, HasInts as "axes" a ∧ A = a.getD ((List.range S.length).map Int.ofNat)) ∨
    (xs.head? = some (some v) ∧ 3 ≤ xs.length ∧ xs.length ≤ 5 ∧ ListOr xs[1]? [] S ∧ ListOr xs[2]? [] E ∧
      ListOr xs[3]? ((List.range S.length).map Int.ofNat) A ∧ ListOr xs[4]? (List.replicate S.length 1) T)

/-- What the element types that Cast names by their numbers can hold: real numbers (for which rounding is not looked at), truth values,
or the integers of a range. -/
inductive CastTarget
  | float
  | bool
  | int (lo hi : Int)

/-- The element types with their numbers (onnx.proto, `TensorProto.DataType`). -/
def castTarget : Int → Option CastTarget
  | 1 | 10 | 11 | 16 => some .float
  | 9 => some .bool
  | 2 => some (.int 0 (2 ^ 8 - 1))
  | 3 => some (.int (-2 ^ 7) (2 ^ 7 - 1))
  | 4 => some (.int 0 (2 ^ 16 - 1))
  | 5 => some (.int (-2 ^ 15) (2 ^ 15 - 1))
  | 6 => some (.int (-2 ^ 31) (2 ^ 31 - 1))
  | 7 => some (.int (-2 ^ 63) (2 ^ 63 - 1))
  | 12 => some (.int 0 (2 ^ 32 - 1))
  | 13 => some (.int 0 (2 ^ 64 - 1))
  | _ => none

/-- A real number without its fraction. -/
noncomputable def towardsZero (x : ℝ) : Int := if 0 ≤ x then ⌊x⌋ else ⌈x⌉

/-- The elements as real numbers, integers, truth values. -/
noncomputable def toReals : OVal → Tensor ℝ
  | .float X => X
  | .int X => X.map fun k : Int => (k : ℝ)
  | .bool X => X.map fun b => if b then 1 else 0

noncomputable def toInts : OVal → Tensor Int
  | .float X => X.map towardsZero
  | .int X => X
  | .bool X => X.map fun b => if b then 1 else 0

noncomputable def toBools : OVal → Tensor Bool
  | .float X => X.map fun x => decide (x ≠ 0)
  | .int X => X.map fun k => decide (k ≠ 0)
  | .bool X => X

/-- `w` is `v` cast to an element type; numbers outside of the range of an integer type are left out. -/
def CastT (t : CastTarget) (v w : OVal) : Prop :=
  match t with
  | .float => w = .float (toReals v)
  | .bool => w = .bool (toBools v)
  | .int lo hi => w = .int (toInts v) ∧ ∀ k ∈ (toInts v).data, lo ≤ k ∧ k ≤ hi

/-- The truth values of a matrix: true on diagonal `k` (above the main one when positive). -/
def diagonalT (k : Int) (rows cols : Nat) : Tensor Bool :=
  Tensor.ofFn [rows, cols] fun i => decide ((i.getD 1 0 : Int) = i.getD 0 0 + k)

/-- `w` is `m` with elements of the type an attribute names, or of the kind of those of `v`. -/
def AsTyped (dtype : Option Int) (v m w : OVal) : Prop :=
  match dtype, v with
  | some d, _ => ∃ t, castTarget d = some t ∧ CastT t m w
  | none, .float _ => w = .float (toReals m)
  | none, .int _ => w = .int (toInts m)
  | none, .bool _ => w = .bool (toBools m)

/-- The sizes of Split: an operand, an attribute (up to version 12) or the number of results. -/
def SplitSizesOf (as : Attrs) (xs : List (Option OVal)) (v : OVal) (a results : Nat) (sizes : List Nat) : Prop :=
  (∃ t : Tensor Int, xs = [some v, some (.int t)] ∧ t.shape = [t.data.length] ∧ t.data = sizes.map Int.ofNat ∧ as.lookup "num_outputs" = none) ∨
  (xs = [some v] ∧ HasInts as "split" (some (sizes.map Int.ofNat)) ∧ as.lookup "num_outputs" = none) ∨
  (xs = [some v] ∧ as.lookup "split" = none ∧ (as.lookup "num_outputs" = none ∨ as.lookup "num_outputs" = some (.i64 (Int.ofNat results))) ∧
    EvenSizes (v.shape.getD a 0) results sizes)

/-- The number of elements TopK takes: an operand, or an attribute up to version 9. -/
def TopCount (as : Attrs) (xs : List (Option OVal)) (X : Tensor ℝ) (k : Nat) : Prop :=
  (∃ t : Tensor Int, xs = [some (.float X), some (.int t)] ∧ t.shape = [1] ∧ t.data = [Int.ofNat k]) ∨
  (xs = [some (.float X)] ∧ HasInt as "k" (some (Int.ofNat k)))

/-- The name of a reduction of ScatterND. -/
def scatterText : ScatterRed → String
  | .none => "none"
  | .add => "add"
  | .mul => "mul"
  | .max => "max"
  | .min => "min"

/-- The arithmetic of the real numbers and of the integers. -/
noncomputable def scatterReal : ScatterArith ℝ := ⟨(· + ·), (· - ·), (· * ·), max, min⟩

def scatterInt : ScatterArith Int := ⟨(· + ·), (· - ·), (· * ·), max, min⟩

/-- What a node computes: attributes, operands, results. -/
def Meaning (erf : ℝ → ℝ) (opset : Nat) : Op → Attrs → List (Option OVal) → List OVal → Prop
  | .unary op, _, xs, ys => ∃ X, xs = [some (.float X)] ∧ ys = [.float (X.map (unary erf op))]
  | .act op, as, xs, ys => ∃ X a, ActAttr as a ∧ xs = [some (.float X)] ∧ ys = [.float (X.map (act erf a op))]
  | .not, _, xs, ys => ∃ X, xs = [some (.bool X)] ∧ ys = [.bool (X.map (!·))]
  | .arith op, _, xs, ys =>
    (∃ X Y Z, xs = [some (.float X), some (.float Y)] ∧ Tensor.zipBcast (arithReal op) X Y = some Z ∧ ys = [.float Z]) ∨
      ∃ X Y Z, xs = [some (.int X), some (.int Y)] ∧ Tensor.zipBcast (arithInt op) X Y = some Z ∧ ys = [.int Z]
  | .compare op, _, xs, ys =>
    (∃ X Y Z, xs = [some (.float X), some (.float Y)] ∧ Tensor.zipBcast (compareFn op) X Y = some Z ∧ ys = [.bool Z]) ∨
      ∃ X Y Z, xs = [some (.int X), some (.int Y)] ∧ Tensor.zipBcast (compareFn op) X Y = some Z ∧ ys = [.bool Z]
  | .logic op, _, xs, ys =>
    ∃ X Y Z, xs = [some (.bool X), some (.bool Y)] ∧ Tensor.zipBcast (logicFn op) X Y = some Z ∧ ys = [.bool Z]
  | .matMul, _, xs, ys => ∃ X Y Z, xs = [some (.float X), some (.float Y)] ∧ MatMul dotR X Y Z ∧ ys = [.float Z]
  | .gemm, as, xs, ys =>
    ∃ A B C Y alpha beta ta tb, HasFloat as "alpha" alpha ∧ HasFloat as "beta" beta ∧ HasInt as "transA" ta ∧
      HasInt as "transB" tb ∧ xs = [some (.float A), some (.float B)] ++ (C.map fun c => some (OVal.float c)).toList ∧
      gemmVal dotR (· * ·) (· + ·) (alpha.getD 1) (beta.getD 1) (ta.getD 0 != 0) (tb.getD 0 != 0) A B C = some Y ∧ ys = [.float Y]
  | .linear, as, xs, ys =>
    ∃ X W B Y t, HasInt as "transpose_weight" t ∧
      xs = [some (.float X), some (.float W)] ++ (B.map fun b => some (OVal.float b)).toList ∧ ys = [.float Y] ∧
      if t = some 1 then gemmVal dotR (· * ·) (· + ·) 1 1 false true X W B = some Y
      else match B with
        | none => MatMul dotR X W Y
        | some b => ∃ p, MatMul dotR X W p ∧ Tensor.zipBcast (· + ·) p b = some Y
  | .reshape, as, xs, ys =>
    ∃ v t out w az, xs = [some v, some (.int t)] ∧ t.shape = [t.data.length] ∧ HasInt as "allowzero" az ∧
      Reshape (az == some 1) t.data v.shape out ∧ View v w out ∧ ys = [w]
  | .transpose, as, xs, ys =>
    ∃ v w perm given out, xs = [some v] ∧ HasInts as "perm" given ∧
      given.getD ((List.range v.shape.length).reverse.map Int.ofNat) = perm.map Int.ofNat ∧
      transpose perm v.shape = some out ∧ ys = [w] ∧
      Rel (fun X Z => Z.shape = out ∧ ∀ i, InRange X.shape i → Z.get (perm.map (i.getD · 0)) = X.get i) v w
  | .flatten, as, xs, ys =>
    ∃ v w a out, xs = [some v] ∧ HasInt as "axis" a ∧ flatten (a.getD 1) v.shape = some out ∧ View v w out ∧ ys = [w]
  | .squeeze, as, xs, ys =>
    ∃ v w axes out, AxesOf as xs v axes ∧
      (match axes with
        | none => out = squeezeAll v.shape
        | some ax => squeeze ax v.shape = some out) ∧ View v w out ∧ ys = [w]
  | .unsqueeze, as, xs, ys =>
    ∃ v w axes out, AxesOf as xs v (some axes) ∧ Unsqueeze axes v.shape out ∧ View v w out ∧ ys = [w]
  | .concat, as, xs, ys =>
    ∃ vs w a k, xs = vs.map some ∧ HasInt as "axis" (some a) ∧ axis w.shape.length a = some k ∧
      RelAll (fun Xs Z => ConcatT k (Xs.map Tensor.vec) Z) vs w ∧ ys = [w]
  | .constant, _, xs, ys => ∃ v, xs = [some v] ∧ ys = [v]
  | .softmax, as, xs, ys =>
    ∃ X axis a, xs = [some (.float X)] ∧ HasInt as "axis" axis ∧
      index X.shape.length (axis.getD (if opset < 13 then 1 else -1)) = some a ∧ ys = [.float (alongT softmaxList opset a X)]
  | .logSoftmax, as, xs, ys =>
    ∃ X axis a, xs = [some (.float X)] ∧ HasInt as "axis" axis ∧
      index X.shape.length (axis.getD (if opset < 13 then 1 else -1)) = some a ∧
      ys = [.float (alongT logSoftmaxList opset a X)]
  | .gather, as, xs, ys =>
    ∃ v I w axis a, xs = [some v, some (.int I)] ∧ HasInt as "axis" axis ∧ index v.shape.length (axis.getD 0) = some a ∧
      Rel (fun X Z => GatherT a X I Z) v w ∧ ys = [w]
  | .conv d, as, xs, ys =>
    ∃ (X W : Tensor ℝ) (B : Option (Tensor ℝ)) (Y : Tensor ℝ) (g : Option Int) (groups n cg mg : Nat) (sx ks ss ds : List Nat)
      (ps : List (Nat × Nat)) (outs : List Nat),
      xs = [some (.float X), some (.float W)] ++ (B.map fun b => some (OVal.float b)).toList ∧
      HasInt as "group" g ∧ g.getD 1 = (groups : Int) ∧ 0 < groups ∧ X.shape = n :: groups * cg :: sx ∧
      W.shape = groups * mg :: cg :: ks ∧ (∀ b ∈ B, b.shape = [groups * mg]) ∧ HasSizes as "kernel_shape" ks ks ∧
      Windowed as d sx ks ss ds ps ∧ ConvT (windowAxes ps sx ks ss ds) groups n cg mg outs X W B Y ∧ ys = [.float Y]
  | .maxPool d, as, xs, ys =>
    ∃ X Y n c sx ks ss ds ps outs, xs = [some (.float X)] ∧ X.shape = n :: c :: sx ∧ HasInts as "kernel_shape" (some (ks.map Int.ofNat)) ∧
      (as.lookup "ceil_mode" = none ∨ as.lookup "ceil_mode" = some (.i64 0)) ∧ Windowed as d sx ks ss ds ps ∧
      MaxPoolT (windowAxes ps sx ks ss ds) n c outs X Y ∧ NoEmptyWindow (windowAxes ps sx ks ss ds) outs ∧ ys = [.float Y]
  | .averagePool d, as, xs, ys =>
    ∃ X Y n c sx ks ss ds ps outs cip, xs = [some (.float X)] ∧ X.shape = n :: c :: sx ∧
      HasInts as "kernel_shape" (some (ks.map Int.ofNat)) ∧ (as.lookup "ceil_mode" = none ∨ as.lookup "ceil_mode" = some (.i64 0)) ∧
      HasInt as "count_include_pad" cip ∧ Windowed as d sx ks ss ds ps ∧
      AveragePoolT (windowAxes ps sx ks ss ds) (cip.getD 0 = 1) n c outs X Y ∧ NoEmptyWindow (windowAxes ps sx ks ss ds) outs ∧
      ys = [.float Y]
  | .globalAveragePool, _, xs, ys => ∃ X Y, xs = [some (.float X)] ∧ GlobalAveragePoolT X Y ∧ ys = [.float Y]
  | .batchNorm, as, xs, ys =>
    ∃ X s b m v eps n c sx, xs = [some (.float X), some (.float s), some (.float b), some (.float m), some (.float v)] ∧
      HasFloat as "epsilon" eps ∧ (as.lookup "training_mode" = none ∨ as.lookup "training_mode" = some (.i64 0)) ∧
      X.shape = n :: c :: sx ∧ (∀ t ∈ [s, b, m, v], t.shape = [c]) ∧
      ys = [.float (batchNormT (eps.getD 0.00001) X s b m v)]
  | .layerNorm, as, xs, ys =>
    ∃ X s B eps axis a, xs = [some (.float X), some (.float s)] ++ (B.map fun b => some (OVal.float b)).toList ∧
      HasFloat as "epsilon" eps ∧ HasInt as "axis" axis ∧ index X.shape.length (axis.getD (-1)) = some a ∧
      (∀ t ∈ s :: B.toList, bcast t.shape (X.shape.drop a) = some (X.shape.drop a)) ∧
      ys = [.float (layerNormT (eps.getD 0.00001) a X s B)]
  | .instanceNorm, as, xs, ys =>
    ∃ X s b eps n c sx, xs = [some (.float X), some (.float s), some (.float b)] ∧ HasFloat as "epsilon" eps ∧
      X.shape = n :: c :: sx ∧ s.shape = [c] ∧ b.shape = [c] ∧ ys = [.float (instanceNormT (eps.getD 0.00001) X s b)]
  | .reduce op, as, xs, ys =>
    ∃ X axes keep Z, AxesOf as xs (.float X) axes ∧ HasInt as "keepdims" keep ∧
      (as.lookup "noop_with_empty_axes" = none ∨ as.lookup "noop_with_empty_axes" = some (.i64 0)) ∧
      reduceT (reduceFn op).2.1 (axes.getD []) (keep.getD 1 != 0) (X.map (reduceFn op).1) = some Z ∧
      ys = [.float (Z.map (reduceFn op).2.2)]
  | .shape, as, xs, ys =>
    ∃ v start stop Z, xs = [some v] ∧ HasInt as "start" start ∧ HasInt as "end" stop ∧
      Z.shape = [Z.data.length] ∧ Z.data = onnxShape (start.getD 0) stop v.shape ∧ ys = [.int Z]
  | .clip, as, xs, ys =>
    ∃ X lo hi, xs.head? = some (some (.float X)) ∧ ClipBounds as xs.tail lo hi ∧
      ys = [.float (X.map (clipElem (fun a b => decide (a ≤ b)) lo hi))]
  | .sum, _, xs, ys => ∃ Xs Z, xs = Xs.map (fun X => some (.float X)) ∧ sumT (· + ·) Xs = some Z ∧ ys = [.float Z]
  | .pow, _, xs, ys =>
    ∃ (X Y Z : Tensor ℝ), xs = [some (.float X), some (.float Y)] ∧ ((∀ a ∈ X.data, 0 < a) ∨ ∀ b ∈ Y.data, ∃ k : Nat, b = k) ∧
      Tensor.zipBcast (fun a b => a ^ b) X Y = some Z ∧ ys = [.float Z]
  | .pad, as, xs, ys =>
    ∃ X mode pads value Z, PadOperands as xs X pads value ∧
      (as.lookup "mode" = none ∧ mode = .constant ∨ as.lookup "mode" = some (.str (fillText mode))) ∧
      PadT mode pads value X Z ∧ ys = [.float Z]
  | .tile, _, xs, ys =>
    ∃ v t w, xs = [some v, some (.int t)] ∧ t.shape = [t.data.length] ∧ Rel (fun X Z => TileT t.data X Z) v w ∧ ys = [w]
  | .trilu, as, xs, ys =>
    ∃ v w u k, Diagonal xs v k ∧ HasInt as "upper" u ∧ v.kind ≠ .bool ∧ 2 ≤ v.shape.length ∧
      Rel (fun X Z => Z = triluT (Elem.ofInt 0) (u.getD 1 != 0) k X) v w ∧ ys = [w]
  | .dropout, _, xs, ys =>
    ∃ X, xs.head? = some (some (.float X)) ∧
      (xs[2]? = none ∨ xs[2]? = some none ∨ xs[2]? = some (some (.bool ⟨[], [false], rfl⟩))) ∧ ys = [.float X]
  | .depthToSpace, as, xs, ys =>
    ∃ v w bs m, xs = [some v] ∧ HasInt as "blocksize" (some (Int.ofNat bs)) ∧ 0 < bs ∧
      (as.lookup "mode" = none ∧ m = .dcr ∨ as.lookup "mode" = some (.str (depthText m))) ∧
      Rel (fun X Z => DepthToSpace m bs X Z) v w ∧ ys = [w]
  | .spaceToDepth, as, xs, ys =>
    ∃ v w bs, xs = [some v] ∧ HasInt as "blocksize" (some (Int.ofNat bs)) ∧ 0 < bs ∧
      Rel (fun X Z => SpaceToDepth bs X Z) v w ∧ ys = [w]
  | .expand, _, xs, ys =>
    ∃ (v : OVal) (t : Tensor Int) (target out : List Nat) (w : OVal), xs = [some v, some (.int t)] ∧ t.shape = [t.data.length] ∧ t.data = target.map Int.ofNat ∧
      Onnx.expand v.shape target = some out ∧
      Rel (fun X Z => Z.shape = out ∧ ∀ i, InRange out i → Z.get i = X.get (proj X.shape i)) v w ∧ ys = [w]
  | .mean, _, xs, ys =>
    ∃ Xs Z, xs = Xs.map (fun X => some (.float X)) ∧ sumT (· + ·) Xs = some Z ∧ ys = [.float (Z.map (· / Xs.length))]
  | .maximum, _, xs, ys =>
    ∃ X Y Z, xs = [some (.float X), some (.float Y)] ∧ Tensor.zipBcast max X Y = some Z ∧ ys = [.float Z]
  | .minimum, _, xs, ys =>
    ∃ X Y Z, xs = [some (.float X), some (.float Y)] ∧ Tensor.zipBcast min X Y = some Z ∧ ys = [.float Z]
  | .argMax, as, xs, ys =>
    ∃ X axis keep a Z, xs = [some (.float X)] ∧ HasInt as "axis" axis ∧ HasInt as "keepdims" keep ∧
      index X.shape.length (axis.getD 0) = some a ∧
      (as.lookup "select_last_index" = none ∨ as.lookup "select_last_index" = some (.i64 0)) ∧
      ArgMaxT (· < ·) a (keep.getD 1 != 0) X Z ∧ ys = [.int Z]
  | .argMin, as, xs, ys =>
    ∃ X axis keep a Z, xs = [some (.float X)] ∧ HasInt as "axis" axis ∧ HasInt as "keepdims" keep ∧
      index X.shape.length (axis.getD 0) = some a ∧
      (as.lookup "select_last_index" = none ∨ as.lookup "select_last_index" = some (.i64 0)) ∧
      ArgMaxT (· > ·) a (keep.getD 1 != 0) X Z ∧ ys = [.int Z]
  | .slice, as, xs, ys =>
    ∃ v w S E A T, SliceBounds as xs v S E A T ∧ E.length = S.length ∧ A.length = S.length ∧ T.length = S.length ∧
      Rel (fun X Z => sliceT (A.zip (S.zip (E.zip T))) X = some Z) v w ∧ ys = [w]
  | .prelu, _, xs, ys =>
    ∃ X S Z, xs = [some (.float X), some (.float S)] ∧ bcast X.shape S.shape = some X.shape ∧
      Tensor.zipBcast prelu X S = some Z ∧ ys = [.float Z]
  | .groupNorm, as, xs, ys =>
    ∃ X s b eps groups n k sx, xs = [some (.float X), some (.float s), some (.float b)] ∧ HasFloat as "epsilon" eps ∧
      HasInt as "num_groups" (some (Int.ofNat groups)) ∧ 0 < groups ∧ X.shape = n :: groups * k :: sx ∧
      s.shape = [if opset < 21 then groups else groups * k] ∧ b.shape = s.shape ∧
      ys = [.float (groupNormT (eps.getD 0.00001) groups (opset < 21) X s b)]
  | .where_, _, xs, ys =>
    ∃ C v w y, xs = [some (.bool C), some v, some w] ∧ Rel2 (fun X Y Z => whereT C X Y = some Z) v w y ∧ ys = [y]
  | .cast, as, xs, ys => ∃ v w d t, xs = [some v] ∧ HasInt as "to" (some d) ∧ castTarget d = some t ∧ CastT t v w ∧ ys = [w]
  | .split, as, xs, ys =>
    ∃ v axis a sizes, HasInt as "axis" axis ∧ Onnx.axis v.shape.length (axis.getD 0) = some a ∧
      SplitSizesOf as xs v a ys.length sizes ∧ RelMany (fun X Zs => SplitT a sizes X Zs) ys v
  | .gatherElements, as, xs, ys =>
    ∃ v I w axis a, xs = [some v, some (.int I)] ∧ HasInt as "axis" axis ∧ index v.shape.length (axis.getD 0) = some a ∧
      Rel (fun X Z => GatherElementsT a X I Z) v w ∧ ys = [w]
  | .hardmax, as, xs, ys =>
    ∃ X axis a Z, xs = [some (.float X)] ∧ HasInt as "axis" axis ∧
      index X.shape.length (axis.getD (if opset < 13 then 1 else -1)) = some a ∧
      (∀ first : List ℝ → Nat, (∀ l, l ≠ [] → FirstMax (· < ·) l (first l)) → Z = alongT (hardmaxList 0 1 first) opset a X) ∧
      ys = [.float Z]
  | .topK, as, xs, ys =>
    ∃ X k axis a V I, TopCount as xs X k ∧ HasInt as "axis" axis ∧ index X.shape.length (axis.getD (-1)) = some a ∧
      (as.lookup "largest" = none ∨ as.lookup "largest" = some (.i64 1)) ∧
      (as.lookup "sorted" = none ∨ as.lookup "sorted" = some (.i64 1)) ∧ TopKT (· < ·) a k X V I ∧ ys = [.float V, .int I]
  | .scatterND, as, xs, ys =>
    ∃ (I : Tensor Int) (red : ScatterRed) (ls ks ss : List Nat),
      (as.lookup "reduction" = none ∧ red = .none ∨ as.lookup "reduction" = some (.str (scatterText red))) ∧
      ((∃ X U Z, xs = [some (.float X), some (.int I), some (.float U)] ∧ ScatterNDT scatterReal red ls ks ss X I U Z ∧ ys = [.float Z]) ∨
        ∃ X U Z, xs = [some (.int X), some (.int I), some (.int U)] ∧ ScatterNDT scatterInt red ls ks ss X I U Z ∧ ys = [.int Z])
  | .cumSum, as, xs, ys =>
    ∃ (t : Tensor Int) (exclusive reverse : Option Int), t.shape = [] ∧ HasInt as "exclusive" exclusive ∧ HasInt as "reverse" reverse ∧
      ((∃ X Z : Tensor ℝ, xs = [some (.float X), some (.int t)] ∧
          IsCumSum X (t.get []) (exclusive.getD 0 != 0) (reverse.getD 0 != 0) Z ∧ ys = [.float Z]) ∨
        ∃ X Z : Tensor Int, xs = [some (.int X), some (.int t)] ∧
          IsCumSum X (t.get []) (exclusive.getD 0 != 0) (reverse.getD 0 != 0) Z ∧ ys = [.int Z])
  | .scatterElements, as, xs, ys =>
    ∃ (I : Tensor Int) (red : ScatterRed) (axis : Option Int) (a : Nat), HasInt as "axis" axis ∧
      (as.lookup "reduction" = none ∧ red = .none ∨ as.lookup "reduction" = some (.str (scatterText red))) ∧
      ((∃ X U Z, xs = [some (.float X), some (.int I), some (.float U)] ∧ index X.shape.length (axis.getD 0) = some a ∧
          ScatterElementsT scatterReal red a X I U Z ∧ ys = [.float Z]) ∨
        ∃ X U Z, xs = [some (.int X), some (.int I), some (.int U)] ∧ index X.shape.length (axis.getD 0) = some a ∧
          ScatterElementsT scatterInt red a X I U Z ∧ ys = [.int Z])
  | .gatherND, as, xs, ys =>
    ∃ (v w : OVal) (I : Tensor Int) (b : Option Int), xs = [some v, some (.int I)] ∧ HasInt as "batch_dims" b ∧ 0 ≤ b.getD 0 ∧
      Rel (fun X Z => GatherND (b.getD 0).toNat X I Z) v w ∧ ys = [w]
  | .nonZero, _, xs, ys =>
    haveI := Classical.propDecidable
    (∃ X : Tensor ℝ, xs = [some (.float X)] ∧ ys = [.int (nonzeroT (fun x => decide (x = 0)) X)]) ∨
      (∃ X : Tensor Int, xs = [some (.int X)] ∧ ys = [.int (nonzeroT (fun x => decide (x = 0)) X)]) ∨
      ∃ X : Tensor Bool, xs = [some (.bool X)] ∧ ys = [.int (nonzeroT (fun x => !x) X)]
  | .range, _, xs, ys =>
    ∃ start limit delta Z : Tensor Int, xs = [some (.int start), some (.int limit), some (.int delta)] ∧ start.shape = [] ∧
      limit.shape = [] ∧ delta.shape = [] ∧ Z.shape = [Z.data.length] ∧
      IsRange (start.get []) (limit.get []) (delta.get []) (Z.data.map fun v : Int => (v : Rat)) ∧ ys = [.int Z]
  | .identity, _, xs, ys => ∃ v, xs = [some v] ∧ ys = [v]
  | .eyeLike, as, xs, ys =>
    ∃ v w rows cols k dtype, xs = [some v] ∧ v.shape = [rows, cols] ∧ HasInt as "k" k ∧ HasInt as "dtype" dtype ∧
      AsTyped dtype v (.bool (diagonalT (k.getD 0) rows cols)) w ∧ ys = [w]
  | .bitwise op, _, xs, ys =>
    ∃ (X Y Z : Tensor Int), xs = [some (.int X), some (.int Y)] ∧ bcast X.shape Y.shape = some Z.shape ∧
      (∀ i, InRange Z.shape i → ∀ b, (Z.get i).testBit b = logicFn op ((X.get (proj X.shape i)).testBit b) ((Y.get (proj Y.shape i)).testBit b)) ∧
      ys = [.int Z]
  -- Integers with a sign; the complement of one without depends on its size.
  | .bitwiseNot, _, xs, ys =>
    ∃ (X Z : Tensor Int), xs = [some (.int X)] ∧ Z.shape = X.shape ∧ (∀ i, InRange X.shape i → ∀ b, (Z.get i).testBit b = !(X.get i).testBit b) ∧
      ys = [.int Z]
  | .matMulInteger, _, xs, ys =>
    ∃ X Y Z za zb, (zb.isSome → za.isSome) ∧ xs = ([X, Y] ++ za.toList ++ zb.toList).map (fun t => some (OVal.int t)) ∧
      MatMul dotZ (centred 2 za X) (centred 1 zb Y) Z ∧ ys = [.int Z]
  | .mod, as, xs, ys =>
    ∃ (X Y Z : Tensor Int) (flag : Option Int), xs = [some (.int X), some (.int Y)] ∧ HasInt as "fmod" flag ∧
      bcast X.shape Y.shape = some Z.shape ∧
      (∀ i, InRange Z.shape i → IsMod (flag.getD 0 != 0) (X.get (proj X.shape i)) (Y.get (proj Y.shape i)) (Z.get i)) ∧ ys = [.int Z]
  | .constantOfShape, as, xs, ys =>
    ∃ (t : Tensor Int) (dims : List Nat), xs = [some (.int t)] ∧ t.shape = [t.data.length] ∧ t.data = dims.map Int.ofNat ∧
      ((as.lookup "value" = none ∧ ys = [.float (Tensor.ofFn dims fun _ => 0)]) ∨
        (∃ v x, as.lookup "value" = some (.tensor (.float v)) ∧ v.data = [x] ∧ ys = [.float (Tensor.ofFn dims fun _ => x)]) ∨
        (∃ v x, as.lookup "value" = some (.tensor (.int v)) ∧ v.data = [x] ∧ ys = [.int (Tensor.ofFn dims fun _ => x)]) ∨
        ∃ v x, as.lookup "value" = some (.tensor (.bool v)) ∧ v.data = [x] ∧ ys = [.bool (Tensor.ofFn dims fun _ => x)])
  | .oneHot, as, xs, ys =>
    ∃ (I D : Tensor Int) (V : Tensor ℝ) (off on : ℝ) (d a : Nat) (axis : Option Int), xs = [some (.int I), some (.int D), some (.float V)] ∧
      D.data = [(d : Int)] ∧ V.data = [off, on] ∧ HasInt as "axis" axis ∧ index (I.shape.length + 1) (axis.getD (-1)) = some a ∧
      ys = [.float (oneHotT d a on off I)]
  | .logSumExp, as, xs, ys =>
    ∃ X axes keep Z, AxesOf as xs (.float X) axes ∧ HasInt as "keepdims" keep ∧
      (as.lookup "noop_with_empty_axes" = none ∨ as.lookup "noop_with_empty_axes" = some (.i64 0)) ∧
      reduceT (fun l => Real.log (l.map Real.exp).sum) (axes.getD []) (keep.getD 1 != 0) X = some Z ∧ ys = [.float Z]
  | .convTranspose d, as, xs, ys =>
    ∃ (X W : Tensor ℝ) (B : Option (Tensor ℝ)) (Y : Tensor ℝ) (g : Option Int) (groups n cg mg : Nat) (es : List TAxis)
      (v : Option (List Int)) (outs : List Nat),
      xs = [some (.float X), some (.float W)] ++ (B.map fun b => some (OVal.float b)).toList ∧
      HasInt as "group" g ∧ g.getD 1 = (groups : Int) ∧ 0 < groups ∧ es.length = d ∧
      X.shape = n :: groups * cg :: es.map (·.input) ∧ W.shape = groups * cg :: mg :: es.map (·.kernel) ∧
      (∀ b ∈ B, b.shape = [groups * mg]) ∧ HasSizes as "kernel_shape" (es.map (·.kernel)) (es.map (·.kernel)) ∧
      HasSizes as "strides" (List.replicate d 1) (es.map (·.stride)) ∧ HasSizes as "dilations" (List.replicate d 1) (es.map (·.dilation)) ∧
      HasSizes as "output_padding" (List.replicate d 0) (es.map (·.outPad)) ∧
      HasInts as "pads" v ∧ PadsAttr d (v.getD (List.replicate (2 * d) 0)) (es.map (·.pad)) ∧
      (as.lookup "auto_pad" = none ∨ as.lookup "auto_pad" = some (.str "NOTSET")) ∧ as.lookup "output_shape" = none ∧
      (∀ e ∈ es, 0 < e.kernel ∧ 0 < e.stride ∧ 0 < e.input) ∧ ConvTransposeT es groups n cg mg outs X W B Y ∧ ys = [.float Y]

end Onnx

end OnnxIR
