import Verif.Spec.Unary
import Verif.Model.Broadcast

/-!
# Generated code of element-wise operators with one input

Models the forward code in `crates/burn-onnx/src/burn/node/` of the operators in `Spec/Unary`, with the configuration from
`crates/onnx-ir/src/node/`. `none` is a panic of the generator or code that does not compile.
-/

namespace OnnxIR

/-- The kind of an element type: Burn's tensors are `Float`, `Int` or `Bool`. -/
def DType.kind : DType → ElemKind
  | .f64 | .f32 | .f16 | .bf16 => .float
  | .bool => .bool
  | _ => .int

/-- The kind of the elements of a value. -/
def ArgType.kind : ArgType → ElemKind
  | .scalarTensor d => d.kind
  | .scalarNative d => d.kind
  | .shape _ => .int
  | .tensor t => t.dtype.kind

namespace Gen

/-- The method written after the input: line 17 of `abs.rs`, `acos.rs`, `acosh.rs`, `asin.rs`, `asinh.rs`, `atan.rs`, `atanh.rs`,
`ceil.rs`, `cos.rs`, `cosh.rs`, `erf.rs`, `exp.rs`, `floor.rs`, `log.rs`, `reciprocal.rs`, `round.rs`, `sign.rs`, `sin.rs`,
`sinh.rs`, `sqrt.rs`, `tan.rs`, `tanh.rs`, and line 21 of `neg.rs`. -/
def methodName : UnaryOp → String
  | .abs => "abs"
  | .acos => "acos"
  | .acosh => "acosh"
  | .asin => "asin"
  | .asinh => "asinh"
  | .atan => "atan"
  | .atanh => "atanh"
  | .ceil => "ceil"
  | .cos => "cos"
  | .cosh => "cosh"
  | .erf => "erf"
  | .exp => "exp"
  | .floor => "floor"
  | .log => "log"
  | .neg => "neg"
  | .reciprocal => "recip"
  | .round => "round"
  | .sign => "sign"
  | .sin => "sin"
  | .sinh => "sinh"
  | .sqrt => "sqrt"
  | .tan => "tan"
  | .tanh => "tanh"

/-- A method that exists for the kind of the elements. -/
noncomputable def pickMethod (kind : ElemKind) : Option (List ElemKind × (ℝ → ℝ)) → Option (ℝ → ℝ)
  | some (kinds, f) => if kind ∈ kinds then some f else none
  | none => none

/-- The forward code (`abs.rs` 12-19 and the others, `neg.rs` 12-29) on a value of type `ty`. Arrays have none of the methods. -/
noncomputable def genUnary (erf : ℝ → ℝ) (op : UnaryOp) (ty : ArgType) (v : GVal ℝ) : Option (GVal ℝ) :=
  match ty, v with
  | .tensor _, .dev u | .scalarTensor _, .dev u => (pickMethod ty.kind (Burn.method erf (methodName op))).map fun f => .dev (u.map f)
  | .scalarNative _, .native x =>
    if op = .neg then some (.native (-x))
    else (pickMethod ty.kind (rustMethod (methodName op))).map fun f => .native (f x)
  | _, _ => none

/-- `bitwise_not` and `bool_not` (`bitwisenot.rs` 12-19, `not.rs` 12-19): methods of tensors only. -/
def genNot {α : Type} (f : α → α) (ty : ArgType) (v : GVal α) : Option (GVal α) :=
  match ty, v with
  | .tensor _, .dev u | .scalarTensor _, .dev u => some (.dev (u.map f))
  | _, _ => none

/-- The function called for an activation, with its arguments (line 18 of `celu.rs`, `elu.rs`, `leaky_relu.rs`,
`thresholded_relu.rs`; 17 of `gelu.rs`, `hard_swish.rs`, `mish.rs`, `relu.rs`, `sigmoid.rs`, `softplus.rs`, `softsign.rs`;
19 of `hard_sigmoid.rs`; `selu.rs` 15-37; `swish.rs` 16-25). The configuration is read as in onnx-ir `celu.rs` 75-84,
`elu.rs` 76-85, `hard_sigmoid.rs` 83-98, `leaky_relu.rs` 89-101, `selu.rs` 83-96, `swish.rs` 72-81 and
`thresholded_relu.rs` 75-84; Gelu has none (`gelu.rs` 32-62). `seluAlpha` and `seluGamma` are the constants inside Burn. Decimal
constants stand for themselves. -/
noncomputable def actCall (erf : ℝ → ℝ) (seluAlpha seluGamma : ℝ) (a : ActAttrs) : ActOp → Option (ℝ → ℝ)
  | .relu => some fun x => max x 0
  | .leakyRelu => some fun x => Burn.leakyRelu x (a.alpha.getD 0.01)
  | .elu => some fun x => Burn.elu x (a.alpha.getD 1)
  | .celu => some fun x => Burn.celu x (a.alpha.getD 1)
  | .selu =>
    if 0.000001 < |a.alpha.getD 1.6732631921768188 - 1.6732631921768188| then none
    else if 0.000001 < |a.gamma.getD 1.0507010221481323 - 1.0507010221481323| then none
    else some (Burn.selu seluAlpha seluGamma)
  | .gelu => some (Burn.gelu erf)
  | .hardSigmoid => some fun x => Burn.hardSigmoid x (a.alpha.getD 0.2) (a.beta.getD 0.5)
  | .hardSwish => some fun x => x * Burn.hardSigmoid x (1 / 6) 0.5
  | .mish => some fun x => x * Real.tanh (Burn.softplus x 1)
  | .sigmoid => some Burn.sigmoid
  | .softplus => some fun x => Burn.softplus x 1
  | .softsign => some fun x => x / (1 + |x|)
  | .swish =>
    if a.alpha.getD 1 = 1 then some fun x => x * Burn.sigmoid x
    else some fun x => x * Burn.sigmoid (x * a.alpha.getD 1)
  | .thresholdedRelu => some fun x => Burn.thresholdedRelu x (a.alpha.getD 1)

/-- The forward code of an activation: a function on tensors of floating-point numbers. -/
noncomputable def genAct (erf : ℝ → ℝ) (seluAlpha seluGamma : ℝ) (a : ActAttrs) (op : ActOp) (ty : ArgType) (v : GVal ℝ) :
    Option (GVal ℝ) :=
  (actCall erf seluAlpha seluGamma a op).bind fun f =>
    match ty, v with
    | .tensor _, .dev u | .scalarTensor _, .dev u => if ty.kind = .float then some (.dev (u.map f)) else none
    | _, _ => none

/-- `num_parameters` (`prelu.rs` 6-18): the number of elements of the slope when its type has a known shape, otherwise 1. -/
def preluParams (ty : ArgType) : Nat :=
  match ty with
  | .tensor t => ((t.staticShape.bind fun s => s.mapM id).map prodShape).getD 1
  | _ => 1

/-- PRelu (`prelu.rs` 29-65): a constant slope is stored with the shape `[num_parameters]`, and storing panics when that is not its
number of elements. For any other slope (`none`) there is no value to store, and writing the file panics (`node_traits.rs` 219-225,
`graph.rs` 54-57). The code of `forward` takes only the input. -/
noncomputable def genPRelu (slopeTy : ArgType) (slope : Option (Tensor ℝ)) (x : Tensor ℝ) : Option (Tensor ℝ) :=
  slope.bind fun s => (Burn.reshape s [preluParams slopeTy]).bind fun alpha => Burn.prelu x alpha

/-- IsInf (`is_inf.rs` 12-46, onnx-ir `is_inf.rs` 78-93 and 73): by the type of the output. `bit` is the sign bit of NaN and
zero. -/
def genIsInf (bit : Bool) (detectNeg detectPos : Option Int) (ty : ArgType) (v : GVal FloatVal) : Option (GVal Bool) :=
  let n := detectNeg.getD 1 != 0
  let p := detectPos.getD 1 != 0
  match broadcastOutputType [ty] (some .bool), v with
  | some (.scalarNative _), .native x =>
    some (.native (match n, p with
      | true, true => x.infinite
      | false, true => x.infinite && x.signPositive bit
      | true, false => x.infinite && x.signNegative bit
      | false, false => false))
  | some (.tensor _), .dev u =>
    some (.dev (match n, p with
      | true, true => u.map (·.infinite)
      | false, true => u.map fun x => x.infinite && x.pos
      | true, false => u.map fun x => x.infinite && x.neg
      | false, false => u.map fun _ => false))
  | _, _ => none

/-- IsNaN (`is_nan.rs` 12-22). -/
def genIsNan (ty : ArgType) (v : GVal FloatVal) : Option (GVal Bool) :=
  match ty, v with
  | .tensor _, .dev u | .scalarTensor _, .dev u => some (.dev (u.map (·.isNan)))
  | .scalarNative _, .native x => some (.native x.isNan)
  | _, _ => none

end Gen

end OnnxIR
