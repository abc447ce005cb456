import Verif.Model.AxisOps
import Verif.Model.Cast
import Verif.Model.Concat
import Verif.Model.CumSum
import Verif.Model.DepthSpace
import Verif.Model.Elementwise
import Verif.Model.Fill
import Verif.Model.Forward
import Verif.Model.Gather
import Verif.Model.GatherND
import Verif.Model.Linear
import Verif.Model.MatMul
import Verif.Model.Norm
import Verif.Model.RangeMod
import Verif.Model.MatMulInteger
import Verif.Model.Reduce
import Verif.Model.Registry
import Verif.Model.Scatter
import Verif.Model.Select
import Verif.Model.ShapeOp
import Verif.Model.Slice
import Verif.Model.SplitValues
import Verif.Model.Views
import Verif.Model.WindowGen
import Verif.Model.Written
import Verif.Spec.OnnxMeaning

/-!
# The code of every node

The node modules of crates/burn-onnx/src/burn/node put together: the configuration is read from attributes and constant inputs as
the processors of crates/onnx-ir/src/node do, the inputs are mentioned through the scope, and the effect is the one of the
models of the single modules. `none` is a panic of the generator.
-/

namespace OnnxIR.Gen

open Infer

/-- An effect on one value. -/
def eff1 (f : RustVal → Option RustVal) : List RustVal → Option (List RustVal)
  | [x] => (f x).map ([·])
  | _ => none

/-- An effect on two values. -/
def eff2 (f : RustVal → RustVal → Option RustVal) : List RustVal → Option (List RustVal)
  | [x, y] => (f x y).map ([·])
  | _ => none

/-- A method of tensors of floating-point numbers (or code on native ones); on other types it does not compile. -/
def onFloat (f : GVal ℝ → Option (GVal ℝ)) : RustVal → Option RustVal
  | .float v => (f v).map .float
  | _ => none

/-- A function of tensors. -/
def onDev (f : Tensor ℝ → Option (Tensor ℝ)) : RustVal → Option RustVal :=
  onFloat fun v => match v with
    | .dev u => (f u).map .dev
    | _ => none

/-- The same for tensors of truth values. -/
def onBool (f : GVal Bool → Option (GVal Bool)) : RustVal → Option RustVal
  | .bool v => (f v).map .bool
  | _ => none

/-- Two operands of the same kind. -/
def onSame (ff : GVal ℝ → GVal ℝ → Option RustVal) (fi : GVal Int → GVal Int → Option RustVal)
    (fb : GVal Bool → GVal Bool → Option RustVal) : RustVal → RustVal → Option RustVal
  | .float x, .float y => ff x y
  | .int x, .int y => fi x y
  | .bool x, .bool y => fb x y
  | _, _ => none

/-- Two tensors of floating-point numbers. -/
def onDev2 (f : Tensor ℝ → Tensor ℝ → Option (Tensor ℝ)) : RustVal → RustVal → Option RustVal
  | .float (.dev x), .float (.dev y) => (f x y).map fun z => .float (.dev z)
  | _, _ => none

/-- A value and integers. -/
noncomputable def onIndexed (f : {α : Type} → [Elem α] → GVal α → GVal Int → Option (GVal α)) : RustVal → RustVal → Option RustVal
  | x, .int j => x.lift fun v => f v j
  | _, _ => none

/-- add.rs, sub.rs, mul.rs, div.rs on floating-point numbers. -/
noncomputable def arithReal : Arith → BinCode ℝ ℝ
  | .add => addCode (· + ·)
  | .sub => subCode (· - ·)
  | .mul => mulCode (· * ·)
  | .div => divCode (· / ·) (· * ·) (·⁻¹)

/-- The same on integers; integer tensors have no `recip` (div.rs:50-51 does not compile for them). -/
def arithInt : Arith → BinCode Int Int
  | .add => addCode (· + ·)
  | .sub => subCode (· - ·)
  | .mul => mulCode (· * ·)
  | .div => { divCode Int.tdiv (· * ·) id with nativeDev := none }

/-- equal.rs, greater.rs, greater_equal.rs, lower.rs, lower_equal.rs. -/
noncomputable def compareCode {α : Type} [LinearOrder α] : Comparison → BinCode α Bool
  | .equal => equalCode fun a b => decide (a = b)
  | .greater => greaterCode fun a b => decide (a < b)
  | .greaterOrEqual => greaterEqualCode fun a b => decide (a ≤ b)
  | .less => lessCode fun a b => decide (a < b)
  | .lessOrEqual => lessEqualCode fun a b => decide (a ≤ b)

/-- bool_and.rs, bool_or.rs, bool_xor.rs. -/
def logicCode : Logic → BinCode Bool Bool
  | .and => andCode
  | .or => orCode
  | .xor => xorCode

/-- Code of two operands of one kind. -/
noncomputable def bin {α β : Type} [Elem α] [Elem β] (c : BinCode α β) (lt rt : ArgType) (x y : GVal α) : Option RustVal :=
  (genBinary Elem.ofInt Elem.toInt c lt rt x y).map Elem.rust

/-- An optional number (`into_f32`, which panics on another kind). -/
noncomputable def attrFloat (n : Node OVal) (key : String) : Option (Option ℝ) :=
  match n.attrs.lookup key with
  | none => some none
  | some (.f32 b) => some (some (Onnx.f32 b))
  | some _ => none

/-- The configuration of an activation function (see `actCall`). -/
noncomputable def actAttrs (n : Node OVal) : Option ActAttrs :=
  match attrFloat n "alpha", attrFloat n "beta", attrFloat n "gamma" with
  | some a, some b, some g =>
    some ⟨a, b, g, match n.attrs.lookup "approximate" with
      | some (.str s) => s == "tanh"
      | _ => false⟩
  | _, _, _ => none

/-- gemm.rs:12-72. `C` may be a native number (54-57), which is added to every element. -/
noncomputable def gemmCode (alpha beta : ℝ) (ta tb : Bool) : List RustVal → Option (List RustVal)
  | [.float (.dev a), .float (.dev b)] =>
    (gemm 1 Onnx.dotR (· * ·) (· + ·) alpha beta ta tb a b none).map fun z => [.float (.dev z)]
  | [.float (.dev a), .float (.dev b), .float (.dev c)] =>
    (gemm 1 Onnx.dotR (· * ·) (· + ·) alpha beta ta tb a b (some c)).map fun z => [.float (.dev z)]
  | [.float (.dev a), .float (.dev b), .float (.native c)] =>
    (gemm 1 Onnx.dotR (· * ·) (· + ·) alpha beta ta tb a b none).map fun z =>
      [.float (.dev (z.map (· + if beta = 1 then c else c * beta)))]
  | _ => none

/-- gemm.rs:46-58: how the optional `C` is written; a tensor on the device with no dimensions is a panic. -/
def gemmBias : Option (Arg OVal) → Option (List Use)
  | none => some []
  | some c =>
    match c.ty with
    | .tensor _ => some [.arg 2]
    | .scalarNative _ => some [.name 2]
    | _ => none

/-- The tensor embedded in an argument. -/
def staticFloat (a : Arg OVal) : Option (Tensor ℝ) :=
  match a.src with
  | .static (.float t) => some t
  | _ => none

/-- linear.rs:12-82: a field with the weights, which have to be embedded and of known shape (a type
with another shape than the value is taken as an error). -/
noncomputable def linearCode (n : Node OVal) : Option (NodeCode RustVal) :=
  match n.inputs, attrInt n "transpose_weight" 0 with
  | [_, w], some t =>
    (staticFloat w).bind fun W => if w.ty.staticShapeKnown ≠ some W.shape then none else
      some ⟨[.arg 0], eff1 (onDev fun x => linear Onnx.dotR (· + ·) (t == 1) x W none)⟩
  | [_, w, b], some t =>
    (staticFloat w).bind fun W => (staticFloat b).bind fun B => if w.ty.staticShapeKnown ≠ some W.shape then none else
      some ⟨[.arg 0], eff1 (onDev fun x => linear Onnx.dotR (· + ·) (t == 1) x W (some B))⟩
  | _, _ => none

/-- The value of an argument that is a tensor of numbers. -/
def readFloat (st : Store OVal) (a : Arg OVal) : Option (Tensor ℝ) :=
  match st.read a with
  | some (.float t) => some t
  | _ => none

/-- A parameter of a normalisation. -/
def paramIn (st : Store OVal) : Option (Arg OVal) → ParamIn
  | none => .absent
  | some a => match readFloat st a with
    | some t => .constant t
    | none => .other

/-- The third input of a convolution. -/
def convBias (st : Store OVal) : Option (Arg OVal) → ConvBias ℝ
  | none => .absent
  | some a => match readFloat st a with
    | some t => .const t
    | none => .omitted

/-- conv1d.rs, conv2d.rs, conv3d.rs (see `genConv`): the channels are those of the type of the weights (conv2d.rs:15-18); a type with
another shape than the value is taken as an error. -/
noncomputable def convCode (st : Store OVal) (n : Node OVal) (d : Nat) : Option (NodeCode RustVal) :=
  match n.inputs[0]?, n.inputs[1]?, windowAttrs n, attrInt? n "group" with
  | some x, some w, some a, some g =>
    (readFloat st w).bind fun W => if w.ty.staticShapeKnown ≠ some W.shape then none else
      match d with
      | 1 => some ⟨[.arg 0], eff1 (onDev fun X => genConv 1 paddingConfig1d padding1 a g x.ty X W (convBias st n.inputs[2]?))⟩
      | 2 => some ⟨[.arg 0], eff1 (onDev fun X => genConv 2 paddingConfig2d padding2 a g x.ty X W (convBias st n.inputs[2]?))⟩
      | 3 => some ⟨[.arg 0], eff1 (onDev fun X => genConv 3 paddingConfig3d padding3 a g x.ty X W (convBias st n.inputs[2]?))⟩
      | _ => none
  | _, _, _, _ => none

/-- The attributes of pooling (max_pool2d.rs, avg_pool2d.rs of onnx-ir). -/
def poolAttrs (n : Node OVal) : Option WindowAttrs :=
  match windowAttrs n, attrInt? n "ceil_mode" with
  | some a, some c => some { a with ceilMode := c }
  | _, _ => none

/-- max_pool1d.rs, max_pool2d.rs (see `genMaxPool`), where a window that lies in the padding as a whole gives minus infinity, which is
no real number. -/
noncomputable def maxPoolReal {P : Type} (d : Nat) (pc : List Int → Option P) (padding : WindowConfig P → ArgType → Option Burn.Padding)
    (a : WindowAttrs) (xt : ArgType) (x : Tensor ℝ) : Option (Tensor ℝ) :=
  (genMaxPool d pc padding a xt (x.map fun r : ℝ => (r : WithBot ℝ))).bind fun y =>
    if ⊥ ∈ y.data then none else some (y.map fun r => r.unbotD 0)

/-- max_pool1d.rs, max_pool2d.rs. -/
noncomputable def maxPoolCode (n : Node OVal) (d : Nat) : Option (NodeCode RustVal) :=
  match n.inputs[0]?, poolAttrs n with
  | some x, some a =>
    match d with
    | 1 => some ⟨[.arg 0], eff1 (onDev (maxPoolReal 1 paddingConfig1d padding1 a x.ty))⟩
    | 2 => some ⟨[.arg 0], eff1 (onDev (maxPoolReal 2 paddingConfig2d padding2 a x.ty))⟩
    | _ => none
  | _, _ => none

/-- avg_pool1d.rs, avg_pool2d.rs (see `genAvgPool`). -/
noncomputable def averagePoolCode (n : Node OVal) (d : Nat) : Option (NodeCode RustVal) :=
  match n.inputs[0]?, poolAttrs n, attrInt? n "count_include_pad" with
  | some x, some a, some c =>
    match d with
    | 1 => some ⟨[.arg 0], eff1 (onDev (genAvgPool 1 paddingConfig1d padding1 a c x.ty))⟩
    | 2 => some ⟨[.arg 0], eff1 (onDev (genAvgPool 2 paddingConfig2d padding2 a c x.ty))⟩
    | _ => none
  | _, _, _ => none

/-- batch_norm.rs:14-92 (see `genBatchNorm`): a field when the four parameters have values, otherwise operators on tensors. -/
noncomputable def batchNormCode (st : Store OVal) (n : Node OVal) : Option (NodeCode RustVal) :=
  match n.inputs, attrFloat n "epsilon" with
  | [_, s, b, m, v], some e =>
    match readFloat st s, readFloat st b, readFloat st m, readFloat st v with
    | some S, some B, some M, some V =>
      if s.ty.staticShapeKnown ≠ some S.shape then none else
      some ⟨[.arg 0], eff1 (onDev fun x => genBatchNorm e true S B M V x)⟩
    | _, _, _, _ => some ⟨[.arg 0, .arg 1, .arg 2, .arg 3, .arg 4], fun
      | [.float (.dev x), .float (.dev s), .float (.dev b), .float (.dev m), .float (.dev v)] =>
        (genBatchNorm e false s b m v x).map fun z => [.float (.dev z)]
      | _ => none⟩
  | _, _ => none

/-- layer_norm.rs (see `genLayerNorm`); the number of features is that of the type of the scale (16-20). -/
noncomputable def layerNormCode (st : Store OVal) (n : Node OVal) : Option (NodeCode RustVal) :=
  match n.inputs[1]?, attrFloat n "epsilon", attrInt? n "axis" with
  | some s, some e, some ax =>
    if (readFloat st s).map Tensor.shape ≠ s.ty.staticShapeKnown then none else
    some ⟨[.arg 0], eff1 (onDev (genLayerNorm e ax (paramIn st (some s)) (paramIn st n.inputs[2]?)))⟩
  | _, _, _ => none

/-- instance_norm.rs (see `genInstanceNorm`). -/
noncomputable def instanceNormCode (st : Store OVal) (n : Node OVal) : Option (NodeCode RustVal) :=
  match n.inputs[1]?, attrFloat n "epsilon" with
  | some s, some e =>
    if (readFloat st s).map Tensor.shape ≠ s.ty.staticShapeKnown then none else
    some ⟨[.arg 0], eff1 (onDev (genInstanceNorm e (paramIn st (some s)) (paramIn st n.inputs[2]?)))⟩
  | _, _ => none

/-- reduce.rs:274-335 (see `genLogSumExp`). -/
noncomputable def logSumExpOn (dims : List Nat) (keep : Bool) (ty : ArgType) : GVal ℝ → Option (GVal ℝ)
  | .dev u => genLogSumExp (fun l => match l with | [] => default | a :: l => l.foldl max a) List.sum (· + ·) (· - ·) Real.exp Real.log
      dims keep ty u
  | _ => none

/-- reduce.rs:190-273: what is done to the elements, the method of tensors and what is done to the result. -/
noncomputable def reduceCode : Reduce → (ℝ → ℝ) × (List ℝ → ℝ) × (ℝ → ℝ)
  | .sum => (id, List.sum, id)
  | .mean => (id, fun l => l.sum / l.length, id)
  | .max => (id, fun l => match l with | [] => default | a :: l => l.foldl max a, id)
  | .min => (id, fun l => match l with | [] => default | a :: l => l.foldl min a, id)
  | .prod => (id, List.prod, id)
  | .l1 => (fun x => |x|, List.sum, id)
  | .l2 => (fun x => x * x, List.sum, Real.sqrt)
  | .sumSquare => (fun x => x * x, List.sum, id)
  | .logSum => (id, List.sum, Real.log)

/-- A bound of Clip (clip.rs:129-168 of onnx-ir): the attribute, or else the input; a value whose element type `scalar_f64` does not
know is silently no bound. -/
noncomputable def clipBound (st : Store OVal) (n : Node OVal) (key : String) (k : Nat) : Option (Option (ClipBound ℝ)) :=
  match attrFloat n key with
  | none => none
  | some (some x) => some (some (.fixed x))
  | some none =>
    match n.inputs[k]? with
    | none => some none
    | some a =>
      match a.src with
      | .optional => some none
      | _ =>
        match st.read a with
        | none => some (some .runtime)
        | some v => if st.dtype v = .bf16 then some none else
          match v with
          | .float t => t.data.head?.map fun x => some (.fixed x)
          | _ => none

/-- shape.rs:12-59. -/
def shapeCode (start stop : Option Int) : ArgType → RustVal → Option RustVal
  | .tensor _, .float (.dev u) => (genShape start stop u.shape).map fun l => .int (.shape l)
  | .tensor _, .int (.dev u) => (genShape start stop u.shape).map fun l => .int (.shape l)
  | .tensor _, .bool (.dev u) => (genShape start stop u.shape).map fun l => .int (.shape l)
  | _, _ => none

/-- The numbers of a value that holds a target shape at run time. -/
def targetOf : RustVal → Option (List Int)
  | .int (.shape l) => some l
  | .int (.dev u) => some u.data
  | _ => none

/-- constant.rs:15-250 (see `genConstant`), for data of element type `d`; a value of rank 0 gets a dimension. -/
def constCode {α : Type} [Elem α] (d : DType) (ty : ArgType) (T : Tensor α) : Option (GVal α) :=
  match ty with
  | .tensor _ => (Burn.reshape T (if T.shape = [] then [1] else T.shape)).map .dev
  | .scalarTensor _ => if scalarReadable d then (Burn.reshape T (if T.shape = [] then [1] else T.shape)).map .dev else none
  | .scalarNative _ => if scalarReadable d then T.data.head?.map .native else none
  | .shape k => if (d = .i64 ∨ d = .i32) ∧ T.data.length = k then some (.shape (T.data.map Elem.toInt)) else none

/-- The same for every kind of value. -/
noncomputable def constOf (d : DType) (ty : ArgType) : OVal → Option RustVal
  | .float T => (constCode d ty T).map .float
  | .int T => (constCode d ty T).map .int
  | .bool T => (constCode d ty T).map .bool

/-- Values all of one kind. -/
def floats : List RustVal → Option (List (GVal ℝ))
  | [] => some []
  | .float v :: vs => (floats vs).map (v :: ·)
  | _ => none

/-- Values all of one kind. -/
def ints : List RustVal → Option (List (GVal Int))
  | [] => some []
  | .int v :: vs => (ints vs).map (v :: ·)
  | _ => none

/-- Values all of one kind. -/
def bools : List RustVal → Option (List (GVal Bool))
  | [] => some []
  | .bool v :: vs => (bools vs).map (v :: ·)
  | _ => none

/-- concat.rs:12-121; the inputs have one kind of elements. -/
noncomputable def concatCode (axis : Nat) (ot : ArgType) (tys : List ArgType) (vs : List RustVal) : Option (List RustVal) :=
  match floats vs, ints vs, bools vs with
  | some fs, none, none => (genConcat Elem.toInt axis ot tys fs).map fun z => [.float z]
  | none, some is, none => (genConcat Elem.toInt axis ot tys is).map fun z => [.int z]
  | none, none, some bs => (genConcat Elem.toInt axis ot tys bs).map fun z => [.bool z]
  | _, _, _ => none

/-- The attributes of Transpose: transpose.rs of onnx-ir, `perm` with its default, `as usize`. -/
def permOf (n : Node OVal) : Option (List Nat) :=
  match attrInts n "perm", inTy n 0 with
  | some p, some (.tensor t) => some ((p.getD ((List.range t.rank).reverse.map Int.ofNat)).map Int.toNat)
  | _, _ => none

/-- A function of tensors with elements of any kind. -/
noncomputable def onAny (f : {α : Type} → [Elem α] → Tensor α → Option (Tensor α)) : RustVal → Option RustVal :=
  RustVal.lift fun v => match v with
    | .dev u => (f u).map .dev
    | _ => none

/-- A function of tensors of numbers. -/
noncomputable def onNumbers (f : {α : Type} → [Elem α] → Tensor α → Option (Tensor α)) : RustVal → Option RustVal
  | .bool _ => none
  | r => onAny f r

/-- `scalar_f64` (crates/onnx-ir/src/ir/tensor_data_ext.rs:48-67) of a tensor of floating-point numbers; integers are not modelled. -/
def scalarFloat (st : Store OVal) (v : OVal) : Option ℝ :=
  match v with
  | .float t => if st.dtype v = .bf16 then none else t.data.head?
  | _ => none

/-- crates/onnx-ir/src/node/pad.rs:210-262 `get_pads`: `pads` or `paddings`, else the second input. An input known at run time only is
a panic (burn pad.rs:26-30); the length and the signs are looked at in `padPairs`. -/
def padAmounts (st : Store OVal) (n : Node OVal) : Option (List Int) :=
  match n.attrs.lookup "pads", n.attrs.lookup "paddings" with
  | some (.i64s l), none => some l
  | none, some (.i64s l) => some l
  | none, none => (n.inputs[1]?.bind st.read).bind st.ints
  | _, _ => none

/-- Where the constant of Pad comes from (pad.rs:299-342 `get_constant_value`): known, or the third input. An attribute that is infinite or not
a number does not compile (burn pad.rs:36, see C62; in the other modes it would); in a constant input it is not represented. -/
noncomputable def padConstant (st : Store OVal) (n : Node OVal) : Option (Option ℝ) :=
  match n.attrs.lookup "value" with
  | some (.f32 b) => if b / 2 ^ 23 % 256 = 255 then none else some (some (Onnx.f32 b))
  | some _ => none
  | none =>
    match n.inputs[2]? with
    | none => some (some 0)
    | some a =>
      match a.src with
      | .optional => some (some 0)
      | _ =>
        match st.read a with
        | none => some none
        | some v => (scalarFloat st v).map some

/-- pad.rs:190-208 `get_mode`. -/
def padMode (n : Node OVal) : Option FillMode :=
  match n.attrs.lookup "mode" with
  | none => some .constant
  | some (.str s) => if s = "constant" then some .constant else if s = "reflect" then some .reflect else
      if s = "edge" then some .edge else none
  | some _ => none

/-- burn pad.rs:14-76 (see `genPad`), on floating-point numbers; the value of an input is looked at in mode `constant` only. -/
noncomputable def padCode (st : Store OVal) (n : Node OVal) : Option (NodeCode RustVal) :=
  match padMode n, padAmounts st n, padConstant st n with
  | some m, some ps, some (some c) => some ⟨[.arg 0], eff1 (onDev (genPad n.inputs.length m (.static ps) (.static true c)))⟩
  | some .constant, some ps, some none =>
    (inTy n 2).map fun ty => ⟨[.arg 0, .arg 2], eff2 fun
      | .float (.dev x), .float c => (genPad n.inputs.length .constant (.static ps) (.runtime ty c) x).map fun z => .float (.dev z)
      | _, _ => none⟩
  | some m, some ps, some none => some ⟨[.arg 0], eff1 (onDev (genPad n.inputs.length m (.static ps) (.static true 0)))⟩
  | _, _, _ => none

/-- crates/onnx-ir/src/node/tile.rs:109-126: `to_vec::<i64>().unwrap()`. -/
def tileRepeats (st : Store OVal) (n : Node OVal) : Option (List Int) :=
  match n.inputs[1]? with
  | none => some []
  | some a => (st.read a).bind fun v => if st.dtype v = .i64 then st.ints v else none

/-- crates/onnx-ir/src/node/trilu.rs:110-128: `scalar_i64` (of an integer; of a floating-point number it is not modelled), or zero. -/
def triluIn (st : Store OVal) (n : Node OVal) : Option DiagIn :=
  match n.inputs[1]? with
  | none => some .absent
  | some a =>
    match st.read a with
    | none => some .runtime
    | some v => if st.dtype v ∈ [DType.i64, .i32, .i8, .u8, .u16] then
        match v with
        | .int t => t.data.head?.map .static
        | _ => none
      else if st.dtype v ∈ [DType.f32, .f64] then none else some (.static 0)

/-- crates/onnx-ir/src/node/dropout.rs:120-161 and crates/burn-onnx/src/burn/node/dropout.rs: a field; the module returns its input
when no gradients are recorded. The ratio is an attribute or a constant; without one there is an error, and known at run time only
it is a panic. The mask is never written: nodes with one are left out. -/
noncomputable def dropoutCode (st : Store OVal) (n : Node OVal) : Option (NodeCode RustVal) :=
  let code : NodeCode RustVal := ⟨[.arg 0], eff1 (onDev some)⟩
  if n.outputs.length ≠ 1 then none else
  match n.attrs.lookup "ratio" with
  | some (.f32 _) => some code
  | some _ => none
  | none => ((n.inputs[1]?.bind st.read).bind (scalarFloat st)).map fun _ => code

/-- depth_to_space.rs:156-181 of onnx-ir. -/
def depthMode (n : Node OVal) : Option Onnx.DepthMode :=
  match n.attrs.lookup "mode" with
  | none => some .dcr
  | some (.str s) => if s = "DCR" then some .dcr else if s = "CRD" then some .crd else none
  | some _ => none

/-- `blocksize as usize`. -/
def blockSize (n : Node OVal) : Option Nat :=
  match n.attrs.lookup "blocksize" with
  | some (.i64 b) => some (OnnxIR.asUsize b)
  | _ => none

/-- The position of the first of the greatest elements (the methods `argmax` and `argmin` of Burn, see C61). -/
noncomputable def firstGreatest (lt : ℝ → ℝ → Prop) (l : List ℝ) : Nat :=
  haveI := Classical.propDecidable
  l.findIdx fun x => decide (∀ y ∈ l, ¬ lt x y)

/-- argmax.rs:101-150 and argmin.rs of onnx-ir, and burn argmax.rs:12-52 (see `genArgMax`), of floating-point numbers:
`select_last_index` must be zero. -/
noncomputable def argMaxCode (lt : ℝ → ℝ → Prop) (n : Node OVal) : Option (NodeCode RustVal) :=
  match attrInt? n "axis", attrInt n "keepdims" 1, attrInt n "select_last_index" 0, n.outputs with
  | some ax, some k, some l, [o] => if (k = 0 ∨ k = 1) ∧ l = 0 then
      some ⟨[.arg 0], eff1 fun
        | .float (.dev u) => (genArgMax (firstGreatest lt) ax (k != 0) o.ty u).map .int
        | _ => none⟩
      else none
  | _, _, _, _ => none

/-- A list of integers among the inputs of Slice (crates/onnx-ir/src/node/slice.rs:273-323), constants only. -/
def sliceList (st : Store OVal) (n : Node OVal) (k : Nat) : Option (Option SliceIn) :=
  match n.inputs[k]? with
  | none => some none
  | some a => ((st.read a).bind st.ints).map fun l => some (.static l)

/-- slice.rs:225-390 and burn slice.rs:33-461 (see `genSlice`) for bounds that are constants, or attributes when there is one input. -/
noncomputable def sliceCode (st : Store OVal) (n : Node OVal) : Option (NodeCode RustVal) :=
  if n.inputs.length < 2 then
    match attrInts n "starts", attrInts n "ends", attrInts n "axes" with
    | some (some s), some (some e), some a =>
      some ⟨[.arg 0], eff1 (onAny fun u =>
        genSlice (.static s) (.static e) (some (.static (a.getD (upTo s.length)))) (some (.static (List.replicate s.length 1))) u)⟩
    | _, _, _ => none
  else
    match sliceList st n 1, sliceList st n 2, sliceList st n 3, sliceList st n 4 with
    | some (some s), some (some e), some a, some t => some ⟨[.arg 0], eff1 (onAny fun u => genSlice s e a t u)⟩
    | _, _, _, _ => none

/-- group_norm.rs (see `genGroupNorm`); the number of features is that of the type of the scale. -/
noncomputable def groupNormCode (st : Store OVal) (n : Node OVal) : Option (NodeCode RustVal) :=
  match n.inputs[1]?, attrFloat n "epsilon", n.attrs.lookup "num_groups" with
  | some s, some e, some (.i64 g) =>
    if (readFloat st s).map Tensor.shape ≠ s.ty.staticShapeKnown then none else
    some ⟨[.arg 0], eff1 (onDev (genGroupNorm e (some (OnnxIR.asUsize g)) (paramIn st (some s)) (paramIn st n.inputs[2]?)))⟩
  | _, _, _ => none

/-- Values of one kind under a condition; `c`, `y`, `x` in the order in which where_op.rs:24-69 asks for them. -/
noncomputable def whereCode (ot ct xt yt : ArgType) : List RustVal → Option (List RustVal)
  | [.bool c, .float y, .float x] => (genWhere Elem.ofInt ot ct xt yt c x y).map fun z => [.float z]
  | [.bool c, .int y, .int x] => (genWhere Elem.ofInt ot ct xt yt c x y).map fun z => [.int z]
  | [.bool c, .bool y, .bool x] => (genWhere Elem.ofInt ot ct xt yt c x y).map fun z => [.bool z]
  | _ => none

/-- burn cast.rs:62-98 on a tensor: the kind of the elements changes. Ranges and rounding are not represented here (C68 has them). -/
noncomputable def castDev (dst : DType) : OVal → RustVal := fun v =>
  match dst.kind with
  | .float => .float (.dev (Onnx.toReals v))
  | .int => .int (.dev (Onnx.toInts v))
  | .bool => .bool (.dev (Onnx.toBools v))

/-- burn cast.rs:22-57 on a native number (see `castNative`): Rust's `as` knows no conversion of a number to a truth value, and none of
a truth value to a floating-point number. -/
noncomputable def castNum (src dst : DType) : RustVal → Option RustVal := fun r =>
  if castSkipped src dst then some r
  else (castTarget dst).bind fun ty =>
    match r, ty.kind with
    | .float (.native x), .float => some (.float (.native x))
    | .float (.native x), .int => some (.int (.native (Onnx.towardsZero x)))
    | .int (.native k), .float => some (.float (.native k))
    | .int (.native k), .int => some (.int (.native k))
    | .bool (.native b), .int => some (.int (.native (if b then 1 else 0)))
    | .bool (.native b), .bool => some (.bool (.native b))
    | _, _ => none

/-- burn cast.rs:14-168. -/
noncomputable def castCode (dst : DType) (ty : ArgType) : RustVal → Option RustVal
  | .float (.dev u) => some (castDev dst (.float u))
  | .int (.dev u) => some (castDev dst (.int u))
  | .bool (.dev u) => some (castDev dst (.bool u))
  | .int (.shape l) =>
    match dst.kind with
    | .int => some (.int (.shape l))
    | .float => some (.float (.dev (Burn.ofShape (fun k : Int => (k : ℝ)) l)))
    | .bool => some (.bool (.dev (Burn.ofShape (· != 0) l)))
  | r =>
    match ty with
    | .scalarNative src => castNum src dst r
    | _ => none

/-- crates/onnx-ir/src/node/split.rs:267-333: where the sizes come from, and the checks of the type of the second input. -/
def splitIn (st : Store OVal) (n : Node OVal) : Option SplitArg :=
  if 1 < n.inputs.length then
    n.inputs[1]?.bind fun a =>
      match a.ty with
      | .tensor t => if t.rank ≠ 1 ∨ t.dtype ≠ .i64 then none else
          match st.read a with
          | none => some .runtimeInput
          | some v => (st.ints v).map .constInput
      | _ => none
  else
    match attrInts n "split" with
    | some (some l) => some (.attr l)
    | some none => some .absent
    | none => none

/-- burn split.rs:12-57 (see `genSplit`) on a tensor of each kind. -/
def splitEffect (c : SplitConfig) (outputs : Nat) : List RustVal → Option (List RustVal)
  | [.float (.dev u)] => (genSplit c outputs u).map fun zs => zs.map fun z => .float (.dev z)
  | [.int (.dev u)] => (genSplit c outputs u).map fun zs => zs.map fun z => .int (.dev z)
  | [.bool (.dev u)] => (genSplit c outputs u).map fun zs => zs.map fun z => .bool (.dev z)
  | _ => none

/-- Split of tensors. -/
def splitCode (st : Store OVal) (n : Node OVal) : Option (NodeCode RustVal) :=
  match inTy n 0, attrInt n "axis" 0, attrInt? n "num_outputs", splitIn st n with
  | some (.tensor t), some ax, some k, some arg =>
    (splitConfig t.rank t.staticShape ax (k.map OnnxIR.asUsize) arg n.outputs.length).map fun c =>
      ⟨[.arg 0], splitEffect c n.outputs.length⟩
  | _, _, _, _ => none

/-- gather_elements.rs:12-21: a method of tensors. -/
def gatherElementsOn {α : Type} [Inhabited α] (pick : Nat → Int → Option Nat) (axis : Int) : GVal α → GVal Int → Option (GVal α)
  | .dev u, .dev i => (genGatherElements pick axis u i).map .dev
  | _, _ => none

/-- Positions with the greater elements first, equal ones from the left (the method `topk_with_indices` of Burn, see C61). -/
noncomputable def greatestFirst (l : List ℝ) : List Nat :=
  haveI := Classical.propDecidable
  (List.range l.length).mergeSort fun p q =>
    decide (l.getD q 0 < l.getD p 0) || (decide (l.getD p 0 = l.getD q 0) && decide (p ≤ q))

/-- crates/onnx-ir/src/node/topk.rs:155-177: `as_slice::<i64>().unwrap()[0] as usize`, or the attribute. -/
def topCount (st : Store OVal) (n : Node OVal) : Option TopKIn :=
  match n.inputs[1]? with
  | some a =>
    match st.read a with
    | none => some .runtime
    | some v => if st.dtype v = .i64 then ((st.ints v).bind List.head?).map fun k => .static (OnnxIR.asUsize k) else none
  | none =>
    match attrInt? n "k" with
    | some (some k) => some (.static (OnnxIR.asUsize k))
    | _ => none

/-- burn top_k.rs:14-34 (see `genTopK`), of floating-point numbers. -/
noncomputable def topKEffect (axis : Option Int) (k : TopKIn) (largest sorted : Int) : List RustVal → Option (List RustVal)
  | [.float (.dev u)] => (genTopK greatestFirst axis k largest sorted u).map fun z => [.float (.dev z.1), .int (.dev z.2)]
  | _ => none

/-- topk.rs:97-195. -/
noncomputable def topKCode (st : Store OVal) (n : Node OVal) : Option (NodeCode RustVal) :=
  match attrInt? n "axis", attrInt n "largest" 1, attrInt n "sorted" 1, topCount st n with
  | some ax, some l, some s, some k => some ⟨[.arg 0], topKEffect ax k l s⟩
  | _, _, _, _ => none

/-- crates/onnx-ir/src/node/scatter_nd.rs:79-110. -/
def scatterRed (n : Node OVal) : Option ScatterRed :=
  match n.attrs.lookup "reduction" with
  | none => some .none
  | some (.str s) => if s = "none" then some .none else if s = "add" then some .add else if s = "mul" then some .mul else
      if s = "max" then some .max else if s = "min" then some .min else none
  | some _ => none

/-- burn scatter_nd.rs:14-107 (see `genScatterND`) on tensors of numbers. -/
noncomputable def scatterNDEffect (red : ScatterRed) : List RustVal → Option (List RustVal)
  | [.float (.dev x), .int (.dev i), .float (.dev u)] =>
    (genScatterND Onnx.scatterReal (fun a b => decide (b ≤ a)) (fun a b => decide (a ≤ b)) false red x i u).map fun z => [.float (.dev z)]
  | [.int (.dev x), .int (.dev i), .int (.dev u)] =>
    (genScatterND Onnx.scatterInt (fun a b => decide (b ≤ a)) (fun a b => decide (a ≤ b)) false red x i u).map fun z => [.int (.dev z)]
  | _ => none

/-- burn scatter_elements.rs:14-136 (see `genScatterElements`) on tensors of numbers. -/
noncomputable def scatterElementsEffect (pick : Nat → Int → Option Nat) (red : ScatterRed) (axis : Option Int) :
    List RustVal → Option (List RustVal)
  | [.float (.dev x), .int (.dev i), .float (.dev u)] =>
    (genScatterElements Onnx.scatterReal (fun a b => decide (b ≤ a)) (fun a b => decide (a ≤ b)) pick false red axis x i u).map fun z =>
      [.float (.dev z)]
  | [.int (.dev x), .int (.dev i), .int (.dev u)] =>
    (genScatterElements Onnx.scatterInt (fun a b => decide (b ≤ a)) (fun a b => decide (a ≤ b)) pick false red axis x i u).map fun z =>
      [.int (.dev z)]
  | _ => none

/-- crates/onnx-ir/src/node/scatter_elements.rs:81-142: other attributes are refused; `reduction` is read as for ScatterND. Operands
that are one variable are not modelled. -/
noncomputable def scatterElementsCode (pick : Nat → Int → Option Nat) (n : Node OVal) : Option (NodeCode RustVal) :=
  if n.attrs.any (fun p => ["axis", "reduction"].contains p.1 == false) || !decide (n.inputs.map Arg.name).Nodup then none else
  match scatterRed n, attrInt? n "axis" with
  | some red, some axis => some ⟨[.arg 0, .arg 1, .arg 2], scatterElementsEffect pick red axis⟩
  | _, _ => none

/-- crates/onnx-ir/src/node/cumsum.rs:83-104: the constant axis, read with `to_i64_vec`, must be one number. An axis computed at run
time (see `cumSumRuntime`) is not modelled here. -/
def cumSumAxisIn (st : Store OVal) (n : Node OVal) : Option Int :=
  (n.inputs[1]?).bind fun a => (st.read a).bind fun v =>
    if st.dtype v = .i64 ∨ st.dtype v = .i32 then
      match st.ints v with
      | some [k] => some k
      | _ => none
    else none

/-- burn cumsum.rs:53-114 (see `cumSumStatic`) on tensors of numbers. -/
noncomputable def cumSumOn (k : Int) (e r : Option Int) : RustVal → Option RustVal
  | .float (.dev x) => (cumSumStatic x k e r).map fun z => .float (.dev z)
  | .int (.dev x) => (cumSumStatic x k e r).map fun z => .int (.dev z)
  | _ => none

/-- burn cumsum.rs:6-51: only the data is an operand. -/
noncomputable def cumSumCode (st : Store OVal) (n : Node OVal) : Option (NodeCode RustVal) :=
  match cumSumAxisIn st n, attrInt? n "exclusive", attrInt? n "reverse" with
  | some k, some e, some r => some ⟨[.arg 0], eff1 (cumSumOn k e r)⟩
  | _, _, _ => none

/-- gathernd.rs:71-152 (see `gatherND`), a result that is a tensor. -/
def gatherNDOn {α : Type} [Inhabited α] (b : Int) : GVal α → GVal Int → Option (GVal α)
  | .dev u, .dev i => (gatherND (Infer.asUsize b) u i).map .dev
  | _, _ => none

/-- crates/onnx-ir/src/node/gathernd.rs:152-170: other attributes are refused. A result that is a scalar (see `gatherNDScalar`) and
operands that are one variable are not modelled here. -/
noncomputable def gatherNDCode (n : Node OVal) : Option (NodeCode RustVal) :=
  if n.attrs.any (fun p => p.1 != "batch_dims") || !decide (n.inputs.map Arg.name).Nodup then none else
  match attrInt n "batch_dims" 0, n.outputs.map Arg.ty with
  | some b, [.tensor _] => some ⟨[.arg 0, .arg 1], eff2 (onIndexed fun v j => gatherNDOn b v j)⟩
  | _, _ => none

/-- crates/onnx-ir/src/node/range.rs:166-188 and burn range.rs:18-42: an operand of Range, a number known at import (`some`) or one
mentioned by its name. Simplified: only `i64`, and `none` for an operand that is a tensor on the device, which the code would read
back. -/
def rangeOperand (st : Store OVal) (a : Arg OVal) : Option (Option Int) :=
  match st.read a with
  | some v => if st.dtype v = .i64 then (st.ints v).bind fun l => l.head?.map some else none
  | none => if a.ty = .scalarNative .i64 then some none else none

/-- burn range.rs:32: the operands mentioned, `k` the number of the first. -/
def mentionedFrom (k : Nat) : List (Option Int) → List Use
  | [] => []
  | some _ :: l => mentionedFrom (k + 1) l
  | none :: l => .name k :: mentionedFrom (k + 1) l

/-- burn range.rs:44-46: all operands, with the values of the mentioned ones filled in. -/
def fillOperands : List (Option Int) → List RustVal → Option (List Int)
  | [], _ => some []
  | some v :: l, rs => (fillOperands l rs).map (v :: ·)
  | none :: l, .int (.native v) :: rs => (fillOperands l rs).map (v :: ·)
  | none :: _, _ => none

/-- burn range.rs:48-50 (see `Gen.range`). -/
def rangeEffect (ops : List (Option Int)) (rs : List RustVal) : Option (List RustVal) :=
  match fillOperands ops rs with
  | some [s, l, d] => (Gen.range (.constInt s) (.constInt l) (.constInt d)).map fun z =>
      [.int (.dev ⟨[z.length], z, by simp [prodShape]⟩)]
  | _ => none

/-- burn range.rs:14-51. -/
def rangeCode (st : Store OVal) (n : Node OVal) : Option (NodeCode RustVal) :=
  match n.inputs with
  | [a, b, c] => (rangeOperand st a).bind fun s => (rangeOperand st b).bind fun l => (rangeOperand st c).map fun d =>
      ⟨mentionedFrom 0 [s, l, d], rangeEffect [s, l, d]⟩
  | _ => none

/-- one_hot.rs:60-81 (see `genOneHot`) for integer indices and a floating-point result. -/
noncomputable def oneHotOn (d : Nat) (off on : ℝ) (axis : Option Int) : RustVal → Option RustVal
  | .int (.dev I) => (genOneHot (fun x => (Onnx.towardsZero x : ℝ)) true (.static .i64 d) (.static off on) axis I).map fun z =>
      .float (.dev z)
  | _ => none

/-- crates/onnx-ir/src/node/one_hot.rs:152-201 and burn one_hot.rs:15-89: depth and values are constants, the depth an `i64`.
Simplified: the values are floating-point numbers, whose rounding to `f32` is not modelled. -/
noncomputable def oneHotCode (st : Store OVal) (n : Node OVal) : Option (NodeCode RustVal) :=
  match n.inputs, attrInt? n "axis" with
  | [_, d, v], some axis =>
    (st.read d).bind fun dv => (readFloat st v).bind fun V =>
      match st.ints dv, V.data with
      | some (k :: _), [off, on] => if st.dtype dv ≠ .i64 then none else some ⟨[.arg 0], eff1 (oneHotOn (Infer.asUsize k) off on axis)⟩
      | _, _ => none
  | _, _ => none

/-- Burn's `bitwise_and`, `bitwise_or` and `bitwise_xor` (bitwiseand.rs, bitwiseor.rs, bitwisexor.rs:12-54). -/
def bitsOf : Logic → Int → Int → Int
  | .and => Int.land
  | .or => Int.lor
  | .xor => Int.xor

/-- bitwisenot.rs:12-19: a method of tensors. -/
def complement : RustVal → Option RustVal
  | .int (.dev x) => some (.int (.dev (x.map Int.lnot)))
  | _ => none

/-- matmul_integer.rs:12-108 (see `matmulInteger`). All operands are mentioned before the expression that uses them in another order,
so they must be different values (`nodeCode`). -/
def matMulIntegerEffect : List RustVal → Option (List RustVal)
  | [.int (.dev x), .int (.dev y)] => (matmulInteger Onnx.dotZ none none x y).map fun z => [.int (.dev z)]
  | [.int (.dev x), .int (.dev y), .int za] => (matmulInteger Onnx.dotZ (some za) none x y).map fun z => [.int (.dev z)]
  | [.int (.dev x), .int (.dev y), .int za, .int zb] => (matmulInteger Onnx.dotZ (some za) (some zb) x y).map fun z => [.int (.dev z)]
  | _ => none

/-- eye_like.rs:38-42: `diag_mask(shape, k).bool_not()`; the mask is false on the diagonal (see `Burn.diagMask`). -/
def eyeMask (k : Int) : List Nat → Option (Tensor Bool)
  | [rows, cols] => some ((Tensor.ofFn [rows, cols] fun i => (i.getD 0 0 : Int) - (i.getD 1 0 - k) != 0).map fun b => !b)
  | _ => none

/-- eye_like.rs:14-42: the mask of the sizes of a tensor, with elements of type `d`. -/
noncomputable def eyeOn (k : Int) (d : DType) : RustVal → Option RustVal
  | .float (.dev x) => (eyeMask k x.shape).map fun m => castDev d (.bool m)
  | .int (.dev x) => (eyeMask k x.shape).map fun m => castDev d (.bool m)
  | .bool (.dev x) => (eyeMask k x.shape).map fun m => castDev d (.bool m)
  | _ => none

/-- modulo.rs:13-131 on integers (see `modElem`): two native numbers use `%` whatever the attribute. The operands other than zero
divisors; Burn panics for those, Lean's functions do not. -/
def modCode (fmod : Bool) : BinCode Int Int where
  method a b := if fmod then a.tmod b else a.fmod b
  devNative := some fun a b => if fmod then a.tmod b else a.fmod b
  nativeDev := some fun a b => if fmod then a.tmod b else a.fmod b
  natives := some Int.tmod

/-- constant_of_shape.rs:100-125: one number, reshaped to `rank` dimensions and expanded. -/
def filled {α : Type} [Elem α] (rank : Nat) (x : α) (dims : List Int) : Option RustVal :=
  ((Burn.reshape (Burn.single x) (List.replicate rank 1)).bind fun u => Burn.expandTo u dims).map fun z => Elem.rust (.dev z)

/-- constant_of_shape.rs:83-99: `ones` or `zeros`, as booleans. -/
def filledBool (b : Bool) (dims : List Int) : Option RustVal :=
  if ∀ d ∈ dims, 0 ≤ d then some (.bool (.dev (Tensor.ofFn (dims.map Int.toNat) fun _ => b))) else none

/-- constant_of_shape.rs:17-44, 73-126 (see `genConstantOfShape`) with a result that is a tensor; the value has one of the element
types that are written into the code. -/
noncomputable def filledOf (st : Store OVal) (n : Node OVal) (rank : Nat) : Option (List Int → Option RustVal) :=
  match n.attrs.lookup "value" with
  | none => some (filled rank (0 : ℝ))
  | some (.tensor (.float v)) => if st.dtype (.float v) ∈ [DType.f32, .f64] then v.data.head?.map (filled rank) else none
  | some (.tensor (.int v)) => if st.dtype (.int v) ∈ [DType.i32, .i64] then v.data.head?.map (filled rank) else none
  | some (.tensor (.bool v)) => v.data.head?.map filledBool
  | _ => none

/-- constant_of_shape.rs:56-61: the sizes are those of an array. -/
def withSizes (f : List Int → Option RustVal) : RustVal → Option RustVal
  | .int (.shape l) => f l
  | _ => none

/-- constant_of_shape.rs:46-62: the sizes, known at import or an array. Simplified: only results that are tensors (see
`genConstantOfShape` for the others). -/
noncomputable def filledCode (st : Store OVal) (n : Node OVal) : Option (NodeCode RustVal) :=
  match n.inputs, n.outputs with
  | [a], [o] =>
    match o.ty with
    | .tensor t => (filledOf st n t.rank).bind fun f =>
      match (st.read a).bind st.ints with
      | some dims => some ⟨[], fun _ => (f dims).map ([·])⟩
      | none => some ⟨[.name 0], eff1 (withSizes f)⟩
    | _ => none
  | _, _ => none

/-- nonzero.rs:13-45 (see `genNonZero`); booleans are taken as they are. -/
noncomputable def nonZeroOn : RustVal → Option RustVal :=
  haveI := Classical.propDecidable
  fun v => match v with
    | .float (.dev x) => some (.int (.dev (genNonZero (fun x => decide (x = 0)) x)))
    | .int (.dev x) => some (.int (.dev (genNonZero (fun x => decide (x = 0)) x)))
    | .bool (.dev x) => some (.int (.dev (genNonZero (fun x => !x) x)))
    | _ => none

/-- The attributes of ConvTranspose (conv_transpose2d.rs:85-131 of onnx-ir); others are refused. -/
def transposeAttrs (n : Node OVal) : Option TransposeAttrs :=
  if n.attrs.any fun p => ["kernel_shape", "strides", "pads", "dilations", "group", "output_padding", "auto_pad"].contains p.1 == false then none else
  match windowAttrs n, attrInts n "output_padding", attrInt? n "group" with
  | some a, some o, some g => some ⟨a.kernelShape, a.strides, a.pads, a.dilations, a.autoPad, o, g⟩
  | _, _, _ => none

/-- conv_transpose_1d.rs, conv_transpose_2d.rs, conv_transpose_3d.rs (see `genConvTranspose`); a type of the weights with another shape
than the value is taken as an error. -/
noncomputable def convTransposeCode (st : Store OVal) (n : Node OVal) (d : Nat) : Option (NodeCode RustVal) :=
  match n.inputs[1]?, transposeAttrs n with
  | some w, some a =>
    (readFloat st w).bind fun W => if w.ty.staticShapeKnown ≠ some W.shape then none else
      some ⟨[.arg 0], eff1 (onDev fun X => genConvTranspose d a X W (convBias st n.inputs[2]?))⟩
  | _, _ => none

/-- The code of a node (Pow and Reduce* only of floating-point numbers). `st` gives the constants, `pick` is Burn's reading of an index. -/
noncomputable def nodeCode (erf : ℝ → ℝ) (pick : Nat → Int → Option Nat) (st : Store OVal) (opset : Nat) (n : Node OVal) :
    Op → Option (NodeCode RustVal)
  | .unary op => (inTy n 0).map fun t => ⟨[.arg 0], eff1 (onFloat (genUnary erf op t))⟩
  | .act op =>
    match inTy n 0, actAttrs n with
    | some t, some a => some ⟨[.arg 0], eff1 (onFloat (genAct erf 0 0 a op t))⟩
    | _, _ => none
  | .not => (inTy n 0).map fun t => ⟨[.arg 0], eff1 (onBool (genNot (!·) t))⟩
  | .arith op =>
    match inTy n 0, inTy n 1 with
    | some lt, some rt => some ⟨[.arg 0, .arg 1],
        eff2 (onSame (bin (arithReal op) lt rt) (bin (arithInt op) lt rt) fun _ _ => none)⟩
    | _, _ => none
  | .compare op =>
    match inTy n 0, inTy n 1 with
    | some lt, some rt => some ⟨[.arg 0, .arg 1],
        eff2 (onSame (bin (compareCode op) lt rt) (bin (compareCode op) lt rt) fun _ _ => none)⟩
    | _, _ => none
  | .logic op =>
    match inTy n 0, inTy n 1 with
    | some lt, some rt => some ⟨[.arg 0, .arg 1],
        eff2 (onSame (fun _ _ => none) (fun _ _ => none) (bin (logicCode op) lt rt))⟩
    | _, _ => none
  | .matMul => some ⟨[.arg 0, .arg 1], eff2 (onDev2 (matmul Onnx.dotR))⟩
  | .gemm =>
    match attrFloat n "alpha", attrFloat n "beta", attrInt n "transA" 0, attrInt n "transB" 0 with
    | some al, some be, some ta, some tb =>
      (gemmBias n.inputs[2]?).map fun us =>
        ⟨.arg 0 :: .arg 1 :: us, gemmCode (al.getD 1) (be.getD 1) (ta != 0) (tb != 0)⟩
    | _, _, _, _ => none
  | .linear => linearCode n
  | .reshape =>
    match reshapeTarget st n, n.inputs, n.outputs with
    | some (some tg), a :: _, [o] =>
      some ⟨[.arg 0], eff1 (RustVal.lift fun v => genReshape Elem.ofInt tg a.ty o.ty v)⟩
    | some none, [a, s], [o] => some ⟨[.arg 0, .name 1], eff2 fun x t => (targetOf t).bind fun tg =>
        if a.ty.isOnDevice then x.lift fun v => genReshapeRuntime tg s.ty o.ty v else none⟩
    | _, _, _ => none
  | .transpose => (permOf n).map fun p => ⟨[.arg 0], eff1 (RustVal.lift fun v => genTranspose p v)⟩
  | .flatten =>
    match attrInt n "axis" 1, inTy n 0 with
    | some a, some (.tensor t) =>
      some ⟨[.arg 0], eff1 (RustVal.lift fun v => genFlatten (normAxis t.rank a).toNat v)⟩
    | _, _ => none
  | .squeeze =>
    match squeezeAxes st opset n, n.inputs, n.outputs with
    | some (some as), a :: _, [o] =>
      some ⟨[.arg 0], eff1 (RustVal.lift fun v => genSqueeze Elem.ofInt (.static as) a.ty o.ty v)⟩
    | some none, [a], [o] => some ⟨[.arg 0], eff1 (RustVal.lift fun v => genSqueeze Elem.ofInt .absent a.ty o.ty v)⟩
    | some none, a :: _, [o] => some ⟨[.arg 0], eff1 (RustVal.lift fun v => genSqueeze Elem.ofInt .runtime a.ty o.ty v)⟩
    | _, _, _ => none
  | .unsqueeze =>
    match unsqueezeAxes st opset n, n.inputs, n.outputs with
    | some (some as), a :: _, [o] =>
      some ⟨[.arg 0], eff1 (RustVal.lift fun v => genUnsqueeze Elem.toInt as a.ty o.ty v)⟩
    | some none, [a, _], [o] => some ⟨[.arg 0, .name 1], eff2 fun x t => (targetOf t).bind fun as =>
        x.lift fun v => genUnsqueeze Elem.toInt as a.ty o.ty v⟩
    | _, _, _ => none
  | .concat =>
    match n.attrs.lookup "axis", n.inputs, n.outputs with
    | some (.i64 ax), a :: _, [o] =>
      some ⟨(List.range n.inputs.length).map .arg, concatCode (concatAxis ax a.ty) o.ty (n.inputs.map Arg.ty)⟩
    | _, _, _ => none
  | .constant =>
    match n.inputs, n.outputs with
    | [a], [o] => (st.read a).map fun v => ⟨[], fun _ => (constOf (st.dtype v) o.ty v).map ([·])⟩
    | _, _ => none
  | .softmax => (attrInt? n "axis").map fun a => ⟨[.arg 0], eff1 (onDev (genAlong Onnx.softmaxList opset a))⟩
  | .logSoftmax => (attrInt? n "axis").map fun a => ⟨[.arg 0], eff1 (onDev (genAlong Onnx.logSoftmaxList opset a))⟩
  | .gather =>
    match attrInt n "axis" 0, n.inputs, n.outputs with
    | some ax, [a, i], [o] => if a.ty.isScalar then some ⟨[.arg 0], eff1 some⟩ else some ⟨[.arg 0, .arg 1],
        eff2 (onIndexed fun v j => genGather pick Elem.ofInt ax a.ty i.ty o.ty v j)⟩
    | _, _, _ => none
  | .conv d => convCode st n d
  | .maxPool d => maxPoolCode n d
  | .averagePool d => averagePoolCode n d
  | .globalAveragePool => (inTy n 0).map fun t => ⟨[.arg 0], eff1 (onDev (genGlobalAvgPool t))⟩
  | .batchNorm => batchNormCode st n
  | .layerNorm => layerNormCode st n
  | .instanceNorm => instanceNormCode st n
  | .reduce op =>
    match reduceAxes st n, attrInt n "keepdims" 1, n.inputs[0]?, n.outputs with
    | some as, some k, some x, [o] => (reduceDims x.ty.rank as).map fun dims => ⟨[.arg 0], eff1 (onFloat fun v =>
        match v with
        | .dev u => genReduce (reduceCode op).2.1 (reduceCode op).1 (reduceCode op).2.2 dims (k == 1) o.ty u
        | _ => none)⟩
    | _, _, _, _ => none
  | .logSumExp =>
    match reduceAxes st n, attrInt n "keepdims" 1, n.inputs[0]?, n.outputs with
    | some as, some k, some x, [o] => (reduceDims x.ty.rank as).map fun dims => ⟨[.arg 0], eff1 (onFloat (logSumExpOn dims (k == 1) o.ty))⟩
    | _, _, _, _ => none
  | .shape =>
    match attrInt? n "start", attrInt? n "end", n.inputs, n.outputs with
    | some s, some e, [a], [o] =>
      match a.ty, o.ty with
      | .tensor t, .shape _ => some ⟨[.arg 0], eff1 (shapeCode s e (.tensor t))⟩
      | .shape k, .shape _ => some ⟨[], fun _ => some [.int (.shape (genShapeOfShape k))]⟩
      | _, _ => none
    | _, _, _, _ => none
  | .clip =>
    match clipBound st n "min" 1, clipBound st n "max" 2 with
    | some lo, some hi => if lo.isNone && hi.isNone then none else
        some ⟨[.arg 0], eff1 (onFloat (genClip (fun a b => decide (a ≤ b)) lo hi))⟩
    | _, _ => none
  | .sum => some ⟨(List.range n.inputs.length).map .arg, fun vs =>
      (floats vs).bind fun fs => (genSum (· + ·) fs).map fun z => [.float z]⟩
  | .pow =>
    match inTy n 0, inTy n 1 with
    | some lt, some rt => some ⟨[.arg 0, .arg 1],
        eff2 (onSame (bin (powCode (fun a b => a ^ b) false true) lt rt) (fun _ _ => none) fun _ _ => none)⟩
    | _, _ => none
  | .pad => padCode st n
  | .tile => (tileRepeats st n).map fun rs => ⟨[.arg 0], eff1 (onAny fun u => genTile (.static rs) u)⟩
  | .trilu =>
    match attrInt n "upper" 1, triluIn st n with
    | some u, some d => some ⟨[.arg 0], eff1 (onNumbers fun x => genTrilu (Elem.ofInt 0) (u != 0) d x)⟩
    | _, _ => none
  | .dropout => dropoutCode st n
  | .depthToSpace =>
    match blockSize n, depthMode n with
    | some bs, some m => some ⟨[.arg 0], eff1 (onAny fun u => depthToSpace m bs u)⟩
    | _, _ => none
  | .spaceToDepth => (blockSize n).map fun bs => ⟨[.arg 0], eff1 (onAny fun u => spaceToDepth bs u)⟩
  | .expand =>
    match n.inputs, n.outputs with
    | [a, s], [o] => ((st.read s).bind st.ints).map fun tg => ⟨[.arg 0], eff1 (RustVal.lift fun v => genExpand tg a.ty o.ty v)⟩
    | _, _ => none
  | .mean => some ⟨(List.range n.inputs.length).map .arg, fun vs =>
      (floats vs).bind fun fs => (genMean (· + ·) (fun (x : ℝ) k => x / k) fs).map fun z => [.float z]⟩
  | .maximum =>
    match inTy n 0, inTy n 1 with
    | some lt, some rt => some ⟨[.arg 0, .arg 1], eff2 (onSame (bin (pairCode max) lt rt) (fun _ _ => none) fun _ _ => none)⟩
    | _, _ => none
  | .minimum =>
    match inTy n 0, inTy n 1 with
    | some lt, some rt => some ⟨[.arg 0, .arg 1], eff2 (onSame (bin (pairCode min) lt rt) (fun _ _ => none) fun _ _ => none)⟩
    | _, _ => none
  | .argMax => argMaxCode (· < ·) n
  | .argMin => argMaxCode (· > ·) n
  | .slice => sliceCode st n
  | .prelu => n.inputs[1]?.map fun s => ⟨[.arg 0], eff1 (onDev (genPRelu s.ty (readFloat st s)))⟩
  | .groupNorm => groupNormCode st n
  | .where_ =>
    match n.inputs, n.outputs with
    | [c, x, y], [o] => if (n.inputs.map Arg.name).Nodup then
        some ⟨[.arg 0, .arg 2, .arg 1], whereCode o.ty c.ty x.ty y.ty⟩ else none
    | _, _ => none
  | .cast =>
    match inTy n 0, attrInt? n "to" with
    | some ty, some (some d) => (Decode.elementType d).map fun dst => ⟨[.arg 0], eff1 (castCode dst ty)⟩
    | _, _ => none
  | .split => splitCode st n
  | .gatherElements => (attrInt n "axis" 0).map fun ax =>
      ⟨[.arg 0, .arg 1], eff2 (onIndexed fun v j => gatherElementsOn pick ax v j)⟩
  | .hardmax => (attrInt? n "axis").map fun a => ⟨[.arg 0], eff1 (onDev (genHardmax 1 (firstGreatest (· < ·)) opset a))⟩
  | .topK => topKCode st n
  | .scatterND => (scatterRed n).bind fun red => if (n.inputs.map Arg.name).Nodup then
      some ⟨[.arg 0, .arg 1, .arg 2], scatterNDEffect red⟩ else none
  | .convTranspose d => convTransposeCode st n d
  | .cumSum => cumSumCode st n
  | .scatterElements => scatterElementsCode pick n
  | .gatherND => gatherNDCode n
  | .range => rangeCode st n
  | .oneHot => oneHotCode st n
  | .constantOfShape => filledCode st n
  | .identity => some ⟨[.arg 0], eff1 some⟩
  | .bitwise op =>
    match inTy n 0, inTy n 1 with
    | some lt, some rt => some ⟨[.arg 0, .arg 1], eff2 (onSame (fun _ _ => none) (bin (bitwiseCode (bitsOf op)) lt rt) fun _ _ => none)⟩
    | _, _ => none
  | .bitwiseNot => some ⟨[.arg 0], eff1 complement⟩
  | .matMulInteger => if (n.inputs.map Arg.name).Nodup then some ⟨(List.range n.inputs.length).map .arg, matMulIntegerEffect⟩ else none
  | .eyeLike =>
    match attrInt n "k" 0, n.outputs with
    | some k, [o] =>
      match o.ty with
      | .tensor t => some ⟨[.arg 0], eff1 (eyeOn k t.dtype)⟩
      | _ => none
    | _, _ => none
  | .mod =>
    match attrInt? n "fmod", inTy n 0, inTy n 1 with
    | some flag, some lt, some rt =>
      some ⟨[.arg 0, .arg 1], eff2 (onSame (fun _ _ => none) (bin (modCode (modFlag flag)) lt rt) fun _ _ => none)⟩
    | _, _, _ => none
  | .nonZero =>
    match inTy n 0 with
    | some (.tensor _) => some ⟨[.arg 0], eff1 nonZeroOn⟩
    | _ => none

/-- The local variables that the code of an operator may declare before it mentions an operand, and those that a Reshape to a tensor,
a Gather of one element of a shape or a Split leave in the body (Model/Written.lean). -/
def blockLocals (op : Op) : List String :=
  (match op with
    | .arith _ => declared shapeScalarText ++ declared scalarShapeText
    | .compare _ => declared equalShapeText
    | .gather => declared gatherScalarText ++ declared gatherShapeText
    | .flatten => declared flattenText
    | .batchNorm => declared batchNormText
    | .layerNorm | .groupNorm => declared normCastText
    | .reduce _ | .logSumExp => declared reduceCastText ++ declared logSumExpText
    | .depthToSpace | .spaceToDepth => declared depthSpaceText
    | .expand => declared expandText
    | .where_ => declared whereScalarsText ++ declared whereShapesText
    | .scatterND => declared scatterNDText
    | .gatherND => declared gatherNDText
    | .scatterElements => declared scatterElementsText ++ declared scatterDiffText
    | _ => []) ++ declared reshapeTensorText ++ declared gatherOfShapeText ++ declared splitText ++ declared splitEvenText

/-- crates/burn-onnx/src/burn/node/mod.rs: the module of an operator (see C79). `none` also stands for code in which an operand
is called like a local variable and so is not the graph's value (C81). -/
noncomputable def codeOf (erf : ℝ → ℝ) (pick : Nat → Int → Option Nat) (st : Store OVal) (opset : Nat) (n : Node OVal) :
    Option (NodeCode RustVal) :=
  (opOf n.ty).bind fun op =>
    if n.inputs.any fun a => (blockLocals op).contains a.name then none else nodeCode erf pick st opset n op

end OnnxIR.Gen
