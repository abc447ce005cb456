import Verif.Model.NodeCode
import Verif.Props.Concat
import Verif.Props.Elementwise
import Verif.Props.Gather
import Verif.Props.Reduce
import Verif.Props.Select
import Verif.Props.ShapeOp
import Verif.Props.Unary
import Verif.Props.Views
import Verif.Props.WindowValues

/-!
# The nodes for which generated code is right

Guards of the theorem about whole models: the combinations of types, attributes and operands under which the theorems about the
single operators hold. What happens outside of them is in the files of these operators.
-/

namespace OnnxIR

open Gen

/-- What the generator can read of constants. -/
structure StoreOk (st : Store OVal) : Prop where
  embedded : ∀ x v, st.value x (.static v) = some v
  dims : ∀ v, st.dims v = v.shape
  ints : ∀ t, st.ints (.int t) = some t.data
  others : ∀ v, v.kind ≠ .int → st.ints v = none

/-- Inferring the types of the node again changes nothing. -/
def Typed (st : Store OVal) (opset : Nat) (n : Node OVal) : Prop :=
  ∀ r, Infer.ruleOf n.ty = some r → ∃ prefs, Infer.apply st opset n prefs r = some (n.outputs.map Arg.ty)

/-- The combinations of types of an element-wise operator: arrays meet arrays of their length, vectors and, for some operators,
scalars. -/
def PairOk (scalars : Bool) : ArgType → ArgType → Prop
  | .shape m, .shape k => m = k
  | .shape _, .tensor t => t.rank = 1
  | .tensor t, .shape _ => t.rank = 1
  | .shape _, .scalarTensor _ => scalars = true
  | .shape _, .scalarNative _ => scalars = true
  | .scalarTensor _, .shape _ => scalars = true
  | .scalarNative _, .shape _ => scalars = true
  | _, _ => True

/-- Items of arrays for which arithmetic in `i64` is exact. -/
def ExactOn : Arith → Int → Int → Prop
  | .add, a, b => FitsI64 (a + b)
  | .sub, a, b => FitsI64 (a - b)
  | .mul, a, b => FitsI64 (a * b)
  | .div, _, b => b ≠ 0

/-- The integers that meet when at least one operand is an array. -/
def ItemsExact (op : Arith) (lt rt : ArgType) (X Y : List Int) : Prop :=
  match lt, rt with
  | .shape _, .shape _ => ∀ p ∈ X.zip Y, ExactOn op p.1 p.2
  | .shape _, _ => ∀ a ∈ X, ∀ b ∈ Y, ExactOn op a b
  | _, .shape _ => ∀ a ∈ X, ∀ b ∈ Y, ExactOn op a b
  | _, _ => True

/-- The inputs from number one on have values when the model is imported, and the type of number one says their shape. -/
def ConstantFrom1 (st : Store OVal) (n : Node OVal) (xs : List (Option OVal)) : Prop :=
  (∀ (k : Nat) (a : Arg OVal), n.inputs[k + 1]? = some a → ∃ v, st.read a = some v) ∧
  ∀ w W, n.inputs[1]? = some w → xs[1]? = some (some W) → w.ty.staticShapeKnown = some W.shape

/-- The first input is a tensor that exists when the code runs. -/
def TensorAtRunTime (n : Node OVal) : Prop := ∀ a, n.inputs[0]? = some a → AtRunTime a ∧ ∃ t, a.ty = .tensor t

/-- The sizes given by attributes of an operator with windows fit into `i64`, and a window size that is given is not empty. -/
def WindowAttrsOk (n : Node OVal) : Prop :=
  (∀ key ∈ ["kernel_shape", "strides", "dilations"], ∀ l, Onnx.HasInts n.attrs key (some l) → ∀ v ∈ l, v < 2 ^ 63) ∧
  n.attrs.lookup "kernel_shape" ≠ some (.i64s [])

/-- Padding that depends on the size of the input: the size is known and right. -/
def SameModeOk (n : Node OVal) (xs : List (Option OVal)) : Prop :=
  n.attrs.lookup "auto_pad" = some (.str "SAME_UPPER") ∨ n.attrs.lookup "auto_pad" = some (.str "SAME_LOWER") →
    ∀ a v, n.inputs[0]? = some a → xs[0]? = some (some v) → a.ty.Admits v.shape ∧ a.ty.staticShapeKnown ≠ none

/-- The padding is the same before and after each axis. -/
def Symmetric (n : Node OVal) (d : Nat) (xs : List (Option OVal)) (ks : List Nat) : Prop :=
  ∀ v b c sx ss ds ps, xs[0]? = some (some v) → v.shape = b :: c :: sx → Onnx.Windowed n.attrs d sx ks ss ds ps → ∀ p ∈ ps, p.1 = p.2

/-- The casts of native numbers that compile, by the kind of the number and the number of the target type. -/
def NativeCastOk (k : ElemKind) (d : Int) : Prop :=
  match k with
  | .float => d ∈ [1, 10, 11, 2, 3, 4, 6, 7]
  | .int => d ∈ [1, 10, 11, 2, 3, 4, 5, 6, 7, 12, 13]
  | .bool => d ∈ [9, 2, 3, 4, 6, 7]

/-- The guards. -/
def Supported (pick : Nat → Int → Option Nat) (st : Store OVal) (opset : Nat) (n : Node OVal) (xs : List (Option OVal)) :
    Op → Prop
  | .unary op => ∀ a ∈ n.inputs, AtRunTime a ∧ (∀ k, a.ty ≠ .shape k) ∧ (a.ty.isOnDevice = false → op ∉ nativeGaps)
  | .act op => (∀ a ∈ n.inputs, AtRunTime a ∧ a.ty.isOnDevice = true) ∧ op ≠ .selu ∧
      n.attrs.lookup "approximate" ≠ some (.str "tanh") ∧ ∀ a, Onnx.ActAttr n.attrs a → a.Ok op
  | .not => ∀ a ∈ n.inputs, AtRunTime a ∧ a.ty.isOnDevice = true
  | .arith op => ∀ a b, n.inputs = [a, b] → AtRunTime a ∧ AtRunTime b ∧ PairOk true a.ty b.ty ∧
      (op = .div → a.ty.kind = .int → (∃ d, a.ty = .scalarNative d) → b.ty.isOnDevice = false) ∧
      ∀ X Y, xs = [some (.int X), some (.int Y)] → ItemsExact op a.ty b.ty X.data Y.data
  | .compare _ => ∀ a b, n.inputs = [a, b] → AtRunTime a ∧ AtRunTime b ∧ PairOk false a.ty b.ty
  | .logic _ => ∀ a ∈ n.inputs, AtRunTime a
  | .matMul => (∀ a ∈ n.inputs, AtRunTime a) ∧
      ∀ X Y, xs = [some (.float X), some (.float Y)] → ¬ (X.shape.length = 1 ∧ Y.shape.length = 1)
  | .gemm => (∀ a ∈ n.inputs, AtRunTime a) ∧ ∀ c, n.inputs[2]? = some c → ∀ d, c.ty ≠ .scalarTensor d
  | .linear => (∀ a, n.inputs[0]? = some a → AtRunTime a) ∧
      (∀ (k : Nat) (w : Arg OVal), n.inputs[k + 1]? = some w → ∃ v, w.src = .static v) ∧
      (∀ w W, n.inputs[1]? = some w → xs[1]? = some (some W) → w.ty.staticShapeKnown = some W.shape) ∧
      ∀ W, xs[1]? = some (some (.float W)) → W.shape.length = 2 ∧ ∀ B t, xs[2]? = some (some (.float B)) →
        Onnx.HasInt n.attrs "transpose_weight" t → B.shape = [W.shape.getD (if t = some 1 then 0 else 1) 0]
  | .reshape => n.attrs.lookup "shape" = none ∧ ∀ a s, n.inputs = [a, s] → AtRunTime a ∧
      ∀ v t az out, xs = [some v, some (.int t)] → Onnx.HasInt n.attrs "allowzero" az →
        Onnx.Reshape (az == some 1) t.data v.shape out →
        ((st.read s).isSome = true ∧ ReshapeHandles t.data a.ty ∧ ReshapeReads (az == some 1) t.data out) ∨
        (st.read s = none ∧ AtRunTime s ∧ a.ty.isOnDevice = true ∧ out ≠ [] ∧ (∀ o ∈ n.outputs, ∃ u, o.ty = .tensor u) ∧
          ((∃ k, s.ty = .shape k) ∧ ReshapeReads (az == some 1) t.data out ∨
            (∃ u, s.ty = .tensor u) ∧ t.data = out.map Int.ofNat ∧ ∀ d ∈ out, d < 2 ^ 63))
  | .transpose => ∀ a ∈ n.inputs, AtRunTime a
  | .flatten => (∀ a ∈ n.inputs, AtRunTime a) ∧
      ∀ v a (k : Nat), xs = [some v] → Onnx.HasInt n.attrs "axis" a → (a.getD 1 = k ∨ a.getD 1 + v.shape.length = k) →
        0 ∉ v.shape.take k ∧ prodShape (v.shape.take k) < 2 ^ 31
  | .squeeze => (∀ a, n.inputs[0]? = some a → AtRunTime a ∧ ∀ t p, a.ty = .tensor t → t.staticShape = some p →
        ∃ dims, allKnown p = some dims) ∧
      (n.inputs.length = 1 → n.attrs.lookup "axes" = none → ∀ a v, n.inputs[0]? = some a → xs[0]? = some (some v) → a.ty.Admits v.shape) ∧
      (n.attrs.lookup "axes" ≠ none → opset < 13 ∧ n.attrs.lookup "axes" ≠ some (.i64s [])) ∧
      ∀ s, n.inputs[1]? = some s → (st.read s).isSome = true ∧ xs[1]? ≠ some (some (.int ⟨[0], [], rfl⟩))
  | .unsqueeze => (∀ a, n.inputs[0]? = some a → AtRunTime a ∧
        ∀ v axes, Onnx.AxesOf n.attrs xs v (some axes) → UnsqueezeHandles axes a.ty) ∧
      (n.attrs.lookup "axes" ≠ none → opset < 13) ∧
      ∀ s, n.inputs[1]? = some s → (∃ t, s.ty = .tensor t) ∧ (st.read s = none → AtRunTime s ∧
        ∀ t, xs[1]? = some (some (.int t)) → s.ty.Admits t.shape)
  | .concat => (∀ a ∈ n.inputs, AtRunTime a) ∧ ConcatOk (n.inputs.map Arg.ty) ∧
      (∀ a ax, n.inputs.head? = some a → n.attrs.lookup "axis" = some (.i64 ax) → ax < 0 → a.ty.isScalar = false) ∧
      ∀ o ∈ n.outputs, ∀ k, o.ty = .shape k → ∀ a ∈ n.inputs, ∀ d, a.ty = .scalarNative d → d = .i64
  | .constant => (∀ a ∈ n.inputs, ∃ v, a.src = .static v) ∧
      ∀ v, xs = [some v] → (v.shape = [] → st.dtype v ∈ [DType.f16, .f32, .f64, .i32, .i64, .bool]) ∧
        (∀ o ∈ n.outputs, ∀ k, o.ty = .shape k → st.dtype v = .i64 ∨ st.dtype v = .i32)
  | .softmax | .logSoftmax => (∀ a ∈ n.inputs, AtRunTime a) ∧ (opset < 13 → ∀ X axis a, xs = [some (.float X)] →
      Onnx.HasInt n.attrs "axis" axis → Onnx.index X.shape.length (axis.getD 1) = some a → prodShape (X.shape.drop (a + 1)) = 1)
  | .gather => ∀ a i, n.inputs = [a, i] → AtRunTime a ∧ AtRunTime i ∧
      ∀ v I axis k, xs = [some v, some (.int I)] → Onnx.HasInt n.attrs "axis" axis →
        Onnx.index v.shape.length (axis.getD 0) = some k → GatherOk a.ty i.ty I ∧
          ∀ j ∈ I.data, pick (v.shape.getD k 0) j = Onnx.index (v.shape.getD k 0) j
  | .conv d => (∀ a, n.inputs[0]? = some a → AtRunTime a) ∧ ConstantFrom1 st n xs ∧ WindowAttrsOk n ∧ SameModeOk n xs ∧
      (∀ W, xs[1]? = some (some W) → ∀ k ∈ W.shape, k < 2 ^ 63) ∧ (∀ g, Onnx.HasInt n.attrs "group" (some g) → g < 2 ^ 63) ∧
      (d = 3 → ∀ W : OVal, xs[1]? = some (some W) → Symmetric n d xs (W.shape.drop 2))
  | .maxPool _ => (∀ a ∈ n.inputs, AtRunTime a) ∧ WindowAttrsOk n ∧ SameModeOk n xs
  | .averagePool d => (∀ a ∈ n.inputs, AtRunTime a) ∧ WindowAttrsOk n ∧ SameModeOk n xs ∧
      (∀ l, Onnx.HasInts n.attrs "dilations" (some l) → ∀ e ∈ l, e = 1) ∧
      (n.attrs.lookup "count_include_pad" = some (.i64 1) ∨
        ∀ ks : List Nat, Onnx.HasInts n.attrs "kernel_shape" (some (ks.map Int.ofNat)) → Symmetric n d xs ks)
  | .globalAveragePool => (∀ a ∈ n.inputs, AtRunTime a) ∧
      ∀ v, xs[0]? = some (some v) → v.shape.length = 3 ∨ v.shape.length = 4
  | .batchNorm => (∀ a, n.inputs[0]? = some a → AtRunTime a) ∧ n.attrs.lookup "epsilon" ≠ none ∧
      (ConstantFrom1 st n xs ∨ (∀ a ∈ n.inputs, AtRunTime a) ∧ ∃ a ∈ n.inputs.tail, st.read a = none)
  | .layerNorm => (∀ a, n.inputs[0]? = some a → AtRunTime a) ∧ ConstantFrom1 st n xs ∧
      (n.attrs.lookup "axis" = none ∨ n.attrs.lookup "axis" = some (.i64 (-1))) ∧
      ∀ S, xs[1]? = some (some S) → S.shape.length = 1 ∧ ∀ B, xs[2]? = some (some B) → B.shape = S.shape
  | .instanceNorm => (∀ a, n.inputs[0]? = some a → AtRunTime a) ∧ ConstantFrom1 st n xs ∧
      ∀ v, xs[0]? = some (some v) → 2 < prodShape v.shape
  | .reduce op => (∀ a, n.inputs[0]? = some a → AtRunTime a ∧ ∃ t, a.ty = .tensor t) ∧
      (∀ s, n.inputs[1]? = some s → ∃ v, st.read s = some v ∧ st.dtype v = .i64) ∧
      (∀ k, Onnx.HasInt n.attrs "keepdims" (some k) → k = 0 ∨ k = 1) ∧
      ∀ v axes, xs[0]? = some (some v) → Onnx.AxesOf n.attrs xs v axes →
        (op ∈ [.mean, .max, .min] → 0 ∉ v.shape) ∧
        (axes.getD [] = [] ∨ Onnx.HasInt n.attrs "keepdims" none ∨ Onnx.HasInt n.attrs "keepdims" (some 1) ∨
          (axes.getD []).length < v.shape.length)
  | .logSumExp => (∀ a, n.inputs[0]? = some a → AtRunTime a ∧ ∃ t, a.ty = .tensor t) ∧
      (∀ s, n.inputs[1]? = some s → ∃ v, st.read s = some v ∧ st.dtype v = .i64) ∧
      (∀ k, Onnx.HasInt n.attrs "keepdims" (some k) → k = 0 ∨ k = 1) ∧
      ∀ v axes, xs[0]? = some (some v) → Onnx.AxesOf n.attrs xs v axes → 0 ∉ v.shape ∧
        (axes.getD [] = [] ∨ Onnx.HasInt n.attrs "keepdims" none ∨ Onnx.HasInt n.attrs "keepdims" (some 1))
  | .shape => (∀ a ∈ n.inputs, AtRunTime a ∧ ((∃ t, a.ty = .tensor t) ∨
        (∃ k, a.ty = .shape k) ∧ n.attrs.lookup "start" = none ∧ n.attrs.lookup "end" = none)) ∧
      ∀ v start stop, xs = [some v] → Onnx.HasInt n.attrs "start" start → Onnx.HasInt n.attrs "end" stop →
        0 ≤ fromBack v.shape.length (start.getD 0) ∧
        fromBack v.shape.length (start.getD 0) ≤ fromBack v.shape.length (stop.getD v.shape.length) ∧
        fromBack v.shape.length (stop.getD v.shape.length) ≤ v.shape.length
  | .clip => (∀ a, n.inputs[0]? = some a → AtRunTime a ∧ a.ty.isOnDevice = true) ∧
      (∀ (k : Nat) (a : Arg OVal), n.inputs[k + 1]? = some a → a.src = .optional ∨ ∃ v, st.read a = some v ∧ st.dtype v ≠ .bf16) ∧
      ∀ lo hi, Onnx.ClipBounds n.attrs xs.tail lo hi → (lo.isSome ∨ hi.isSome) ∧ ∀ l h, lo = some l → hi = some h → l ≤ h
  | .sum => (∀ a ∈ n.inputs, AtRunTime a) ∧ ∃ r, SumOk r (n.inputs.map Arg.ty)
  | .pow => ∀ a ∈ n.inputs, AtRunTime a ∧ ∀ k, a.ty ≠ .shape k
  | .pad => TensorAtRunTime n ∧ (∀ b, n.attrs.lookup "value" = some (.f32 b) → b / 2 ^ 23 % 256 ≠ 255) ∧ (∀ s, n.inputs[1]? = some s → ∃ v, st.read s = some v) ∧
      ∀ c, n.inputs[2]? = some c → c.src = .optional ∨ (∃ v, st.read c = some v ∧ st.dtype v ≠ .bf16) ∨
        st.read c = none ∧ AtRunTime c
  | .tile | .trilu => TensorAtRunTime n ∧ ∀ s, n.inputs[1]? = some s → ∃ v, st.read s = some v ∧ st.dtype v = .i64
  | .dropout => TensorAtRunTime n ∧ ((∃ b, n.attrs.lookup "ratio" = some (.f32 b)) ∨ n.attrs.lookup "ratio" = none ∧
      ∃ s t, n.inputs[1]? = some s ∧ st.read s = some (.float t) ∧ st.dtype (.float t) ≠ .bf16 ∧ t.shape = [])
  | .depthToSpace | .spaceToDepth => (∀ a ∈ n.inputs, AtRunTime a) ∧ ∀ b, Onnx.HasInt n.attrs "blocksize" (some b) → b < 2 ^ 63
  | .expand => (∀ a, n.inputs[0]? = some a → AtRunTime a ∧ (∀ d, a.ty ≠ .scalarTensor d) ∧ ∀ k, a.ty ≠ .shape k) ∧
      (∀ s, n.inputs[1]? = some s → ∃ v, st.read s = some v) ∧
      ∀ v t, xs = [some v, some (.int t)] → t.data ≠ [] ∧ v.shape.length ≤ t.data.length ∧ 0 ∉ v.shape
  | .mean => (∀ a ∈ n.inputs, AtRunTime a) ∧ (∃ a ∈ n.inputs, a.ty.isOnDevice = true) ∧ ∃ r, SumOk r (n.inputs.map Arg.ty)
  | .maximum | .minimum => ∀ a ∈ n.inputs, AtRunTime a ∧ ∃ t, a.ty = .tensor t
  | .argMax | .argMin => ∀ a ∈ n.inputs, AtRunTime a
  | .slice => TensorAtRunTime n ∧ (∀ o ∈ n.outputs, ∃ t, o.ty = .tensor t) ∧
      (∀ (k : Nat) (a : Arg OVal), n.inputs[k + 1]? = some a → ∃ v, st.read a = some v) ∧
      ∀ v S E A T, Onnx.SliceBounds n.attrs xs v S E A T →
        S ≠ [] ∧ (∀ t ∈ T, 0 < t) ∧ (∀ e ∈ E, e = 2 ^ 63 - 1 ∨ e ≤ 2 ^ 31 - 1) ∧ ∀ d ∈ v.shape, d < 2 ^ 63
  | .prelu => TensorAtRunTime n ∧ ∀ s, n.inputs[1]? = some s → (∃ v, st.read s = some v) ∧
      ∀ X S : OVal, xs = [some X, some S] → PReluOk X.shape S.shape s.ty
  | .groupNorm => (∀ a, n.inputs[0]? = some a → AtRunTime a) ∧ ConstantFrom1 st n xs ∧
      (∀ g, Onnx.HasInt n.attrs "num_groups" (some g) → g < 2 ^ 63) ∧
      ∀ v, xs[0]? = some (some v) → 2 < prodShape v.shape ∧
        (opset < 21 → ∀ b c sx, v.shape = b :: c :: sx → Onnx.HasInt n.attrs "num_groups" (some (Int.ofNat c)))
  | .where_ => ∀ c x y, n.inputs = [c, x, y] → AtRunTime c ∧ AtRunTime x ∧ AtRunTime y ∧ [c.name, x.name, y.name].Nodup ∧
      ∀ {α : Type} [Elem α] (C : Tensor Bool) (X Y Z : Tensor α), xs = [some (.bool C), some (Elem.wrap X), some (Elem.wrap Y)] →
        Onnx.whereT C X Y = some Z → WhereOk c.ty x.ty y.ty Y Z
  | .cast => ∀ a ∈ n.inputs, AtRunTime a ∧ ∀ s d, a.ty = .scalarNative s → Onnx.HasInt n.attrs "to" (some d) → NativeCastOk s.kind d
  | .split => TensorAtRunTime n ∧ (∀ a v, n.inputs[0]? = some a → xs[0]? = some (some v) → a.ty.Admits v.shape) ∧
      (∀ s, n.inputs[1]? = some s → (∃ v, st.read s = some v ∧ st.dtype v = .i64) ∧ ∃ t, s.ty = .tensor t ∧ t.rank = 1 ∧ t.dtype = .i64) ∧
      (∀ k, Onnx.HasInt n.attrs "num_outputs" (some k) → k < 2 ^ 63) ∧ n.outputs ≠ [] ∧
      ∀ v a sizes, xs[0]? = some (some v) → Onnx.SplitSizesOf n.attrs xs v a n.outputs.length sizes → ∀ d ∈ sizes, 0 < d
  | .gatherElements => (∀ a ∈ n.inputs, AtRunTime a ∧ ∃ t, a.ty = .tensor t) ∧
      ∀ v I axis k, xs = [some v, some (.int I)] → Onnx.HasInt n.attrs "axis" axis →
        Onnx.index v.shape.length (axis.getD 0) = some k → I.shape.set k 0 = v.shape.set k 0 ∧
          ∀ j ∈ I.data, pick (v.shape.getD k 0) j = Onnx.index (v.shape.getD k 0) j
  | .hardmax => (∀ a ∈ n.inputs, AtRunTime a) ∧ ∀ X axis a, xs = [some (.float X)] → Onnx.HasInt n.attrs "axis" axis →
      Onnx.index X.shape.length (axis.getD (if opset < 13 then 1 else -1)) = some a → 0 < X.shape.getD a 0 ∧
        (opset < 13 → prodShape (X.shape.drop (a + 1)) = 1)
  | .topK => TensorAtRunTime n ∧ (∀ s, n.inputs[1]? = some s → ∃ v, st.read s = some v ∧ st.dtype v = .i64) ∧
      ∀ X k, Onnx.TopCount n.attrs xs X k → k < 2 ^ 63
  | .scatterND => (∀ a ∈ n.inputs, AtRunTime a ∧ ∃ t, a.ty = .tensor t) ∧ (n.inputs.map Arg.name).Nodup ∧
      ∀ v : OVal, xs[0]? = some (some v) → 0 ∉ v.shape
  | .cumSum => TensorAtRunTime n ∧
      (∀ s, n.inputs[1]? = some s → ∃ v, st.read s = some v ∧ (st.dtype v = .i64 ∨ st.dtype v = .i32)) ∧
      ∀ v : OVal, xs[0]? = some (some v) → v.shape.length < 2 ^ 62
  | .scatterElements => (∀ a ∈ n.inputs, AtRunTime a ∧ ∃ t, a.ty = .tensor t) ∧ (n.inputs.map Arg.name).Nodup ∧
      (∀ p ∈ n.attrs, p.1 ∈ ["axis", "reduction"]) ∧
      ∀ v I u axis k, xs = [some v, some (.int I), u] → Onnx.HasInt n.attrs "axis" axis →
        Onnx.index v.shape.length (axis.getD 0) = some k →
        n.attrs.lookup "reduction" ∈ [none, some (.str "none"), some (.str "add")] → I.shape.set k 0 = v.shape.set k 0 ∧
          ∀ j ∈ I.data, pick (v.shape.getD k 0) j = Onnx.index (v.shape.getD k 0) j
  | .gatherND => (∀ a ∈ n.inputs, AtRunTime a ∧ ∃ t, a.ty = .tensor t) ∧ (n.inputs.map Arg.name).Nodup ∧
      (∀ p ∈ n.attrs, p.1 = "batch_dims") ∧ (∀ o ∈ n.outputs, ∃ t, o.ty = .tensor t) ∧
      (∀ v : OVal, xs[0]? = some (some v) → 0 ∉ v.shape)
  | .nonZero => TensorAtRunTime n
  | .range => (∀ a ∈ n.inputs, (AtRunTime a ∧ a.ty = .scalarNative .i64 ∧ st.read a = none) ∨ ∃ v, st.read a = some v ∧ st.dtype v = .i64) ∧
      ∀ delta : Tensor Int, xs[2]? = some (some (.int delta)) → 0 < delta.get [] ∧ delta.get [] < 2 ^ 63
  | .mod => ∀ a ∈ n.inputs, AtRunTime a ∧ ∃ t, a.ty = .tensor t
  | .identity => ∀ a ∈ n.inputs, AtRunTime a
  | .bitwise _ => ∀ a ∈ n.inputs, AtRunTime a ∧ ∀ k, a.ty ≠ .shape k
  | .bitwiseNot => ∀ a ∈ n.inputs, AtRunTime a ∧ ∃ t, a.ty = .tensor t ∧ t.dtype ∈ [DType.i8, .i16, .i32, .i64]
  | .matMulInteger => (n.inputs.map Arg.name).Nodup ∧ (∀ a ∈ n.inputs, AtRunTime a ∧ a.ty.isOnDevice = true) ∧
      (∀ X Y : Tensor Int, xs[0]? = some (some (.int X)) → xs[1]? = some (some (.int Y)) → ¬ (X.shape.length = 1 ∧ Y.shape.length = 1)) ∧
      (∀ t : Tensor Int, xs[2]? = some (some (.int t)) → t.shape = []) ∧
      ∀ Y t : Tensor Int, xs[1]? = some (some (.int Y)) → xs[3]? = some (some (.int t)) →
        t.shape = [] ∨ 2 ≤ Y.shape.length ∧ t.shape = Y.shape.drop (Y.shape.length - 1)
  | .eyeLike => ∀ a ∈ n.inputs, AtRunTime a ∧ ∃ t, a.ty = .tensor t
  | .constantOfShape => (∀ a ∈ n.inputs, (AtRunTime a ∧ (∃ k, a.ty = .shape k) ∧ st.read a = none) ∨ ∃ v, st.read a = some v) ∧
      (∀ o ∈ n.outputs, ∃ t, o.ty = .tensor t) ∧ (∀ t : Tensor Int, xs[0]? = some (some (.int t)) → t.data ≠ [] ∧ ∀ d ∈ t.data, 1 ≤ d) ∧
      ∀ v, n.attrs.lookup "value" = some (.tensor v) → st.dtype v ∈ [DType.f32, .f64, .i32, .i64, .bool] ∧ (st.dtype v).kind = v.kind
  | .oneHot => TensorAtRunTime n ∧ (∀ d, n.inputs[1]? = some d → ∃ v, st.read d = some v ∧ st.dtype v = .i64) ∧
      (∀ v, n.inputs[2]? = some v → ∃ c, st.read v = some c) ∧
      (∀ I D : Tensor Int, xs[0]? = some (some (.int I)) → xs[1]? = some (some (.int D)) →
        ∀ j ∈ I.data, ∀ d ∈ D.data, -d ≤ j ∧ j < d) ∧
      ∀ V : Tensor ℝ, xs[2]? = some (some (.float V)) → ∀ v ∈ V.data, ∃ k : Int, v = k
  | .convTranspose _ => (∀ a, n.inputs[0]? = some a → AtRunTime a) ∧ ConstantFrom1 st n xs ∧ WindowAttrsOk n ∧
      (∀ p ∈ n.attrs, p.1 ∈ ["kernel_shape", "strides", "pads", "dilations", "group", "output_padding", "auto_pad"]) ∧
      (∀ l, Onnx.HasInts n.attrs "output_padding" (some l) → ∀ v ∈ l, v < 2 ^ 63) ∧
      (∀ W, xs[1]? = some (some W) → ∀ k ∈ W.shape, k < 2 ^ 63) ∧ (∀ g, Onnx.HasInt n.attrs "group" (some g) → g < 2 ^ 63) ∧
      ∀ l, Onnx.HasInts n.attrs "pads" (some l) → (∀ v ∈ l, v < 2 ^ 63) ∧ l.take (l.length / 2) = l.drop (l.length / 2)

/-- Names that an operand of an operator must not have: the code of the operator uses them for itself. Only an input of the graph
can have such a name. -/
def ownNames : Op → List String
  | .arith _ => ["result", "__scalar"]
  | .compare _ => ["shape_tensor"]
  | .gather => ["indices"]
  | .flatten => ["leading_dim"]
  | .batchNorm => ["scale", "bias", "mean", "var"]
  | .layerNorm | .groupNorm => ["dtype"]
  | .reduce _ | .logSumExp => ["input_dtype", "input_shape", "input_double", "input_max_reduced", "input_exp_reduced", "exp_sum_reduced"]
  | .depthToSpace | .spaceToDepth => ["b", "c", "h", "w"]
  | .expand => ["onnx_shape", "input_dims", "shape"]
  | .where_ => ["cond", "result"]
  | .scatterND => ["data_dims", "indices_dims", "indices_data", "indices_values", "r", "q", "k", "data_strides", "num_updates", "slice_size",
      "total_size", "output_flat", "updates_flat"]
  | .gatherND => ["data_dims", "indices_dims", "indices_data", "indices_values", "r", "q", "b", "k", "data_strides", "batch_count",
      "lookups_per_batch", "slice_size", "total_data_size", "batch_data_stride", "total_slices", "output_size", "flat_indices", "data_flat",
      "indices_tensor"]
  | .scatterElements => ["data_dims", "updates_dims", "indices_data", "indices_values", "r", "dim", "data_strides", "idx_strides",
      "total_data", "total_updates", "output_flat", "updates_flat", "gathered"]
  | _ => []

/-- Names used for the rest of the body once they are declared. -/
def bodyNames : List String := ["shape_data", "shape_array", "__scalar_idx", "actual_idx", "split_tensors", "dim_size", "chunk",
  "sizes"]

/-- No operand is called like a variable of the generated code. -/
def NamesFree (n : Node OVal) (op : Op) : Prop := ∀ a ∈ n.inputs, a.name ∉ ownNames op ∧ a.name ∉ bodyNames

end OnnxIR
