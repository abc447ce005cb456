import Verif.Spec.Generated
import Verif.Spec.Views
import Mathlib.Analysis.SpecialFunctions.Arcosh
import Mathlib.Analysis.SpecialFunctions.Artanh
import Mathlib.Analysis.SpecialFunctions.Arsinh
import Mathlib.Analysis.SpecialFunctions.Trigonometric.Arctan

/-!
# Element-wise operators with one input

ONNX's formulas from the operator documentation, and the methods and functions of Burn and Rust that the generated code
calls (trusted). Elements are real numbers, so rounding, infinities and NaN are left out, except for IsNaN and IsInf,
which are about them.
-/

namespace OnnxIR

/-- Kinds of elements. -/
inductive ElemKind
  | float
  | int
  | bool
deriving DecidableEq

/-- Rounding halves to the even neighbour. -/
noncomputable def roundEven (x : ℝ) : ℝ :=
  if Int.fract x < 1 / 2 then (⌊x⌋ : ℝ)
  else if 1 / 2 < Int.fract x then (⌊x⌋ + 1 : ℝ)
  else if ⌊x⌋ % 2 = 0 then (⌊x⌋ : ℝ) else (⌊x⌋ + 1 : ℝ)

/-- Rounding halves away from zero. -/
noncomputable def roundAway (x : ℝ) : ℝ := if 0 ≤ x then (⌊x + 1 / 2⌋ : ℝ) else (⌈x - 1 / 2⌉ : ℝ)

/-- The sign as a number. -/
noncomputable def signOf (x : ℝ) : ℝ := if x < 0 then -1 else if 0 < x then 1 else 0

/-! ### ONNX -/

/-- Functions of one number. -/
inductive UnaryOp
  | abs | acos | acosh | asin | asinh | atan | atanh | ceil | cos | cosh | erf | exp | floor | log | neg | reciprocal
  | round | sign | sin | sinh | sqrt | tan | tanh
deriving DecidableEq

/-- The kinds of elements that ONNX allows. -/
def UnaryOp.kinds : UnaryOp → List ElemKind
  | .abs | .neg | .sign => [.float, .int]
  | _ => [.float]

/-- What ONNX computes. -/
noncomputable def Onnx.unary (erf : ℝ → ℝ) : UnaryOp → ℝ → ℝ
  | .abs => fun x => |x|
  | .acos => Real.arccos
  | .acosh => Real.arcosh
  | .asin => Real.arcsin
  | .asinh => Real.arsinh
  | .atan => Real.arctan
  | .atanh => Real.artanh
  | .ceil => fun x => (⌈x⌉ : ℝ)
  | .cos => Real.cos
  | .cosh => Real.cosh
  | .erf => erf
  | .exp => Real.exp
  | .floor => fun x => (⌊x⌋ : ℝ)
  | .log => Real.log
  | .neg => fun x => -x
  | .reciprocal => fun x => 1 / x
  | .round => roundEven
  | .sign => signOf
  | .sin => Real.sin
  | .sinh => Real.sinh
  | .sqrt => Real.sqrt
  | .tan => Real.tan
  | .tanh => Real.tanh

/-- Activation functions. -/
inductive ActOp
  | relu | leakyRelu | elu | celu | selu | gelu | hardSigmoid | hardSwish | mish | sigmoid | softplus | softsign | swish
  | thresholdedRelu
deriving DecidableEq

/-- Attributes of activation functions: `alpha`, `beta`, `gamma`, and whether `approximate` is `tanh`. -/
structure ActAttrs where
  alpha : Option ℝ
  beta : Option ℝ
  gamma : Option ℝ
  approximate : Bool

/-- What ONNX computes, with its defaults. -/
noncomputable def Onnx.act (erf : ℝ → ℝ) (a : ActAttrs) : ActOp → ℝ → ℝ
  | .relu, x => max 0 x
  | .leakyRelu, x => if x < 0 then a.alpha.getD 0.01 * x else x
  | .elu, x => if x < 0 then a.alpha.getD 1 * (Real.exp x - 1) else x
  | .celu, x => max 0 x + min 0 (a.alpha.getD 1 * (Real.exp (x / a.alpha.getD 1) - 1))
  | .selu, x =>
    if x ≤ 0 then a.gamma.getD 1.0507010221481323 * (a.alpha.getD 1.6732631921768188 * Real.exp x - a.alpha.getD 1.6732631921768188)
    else a.gamma.getD 1.0507010221481323 * x
  | .gelu, x =>
    if a.approximate then 0.5 * x * (1 + Real.tanh (Real.sqrt (2 / Real.pi) * (x + 0.044715 * x ^ 3)))
    else 0.5 * x * (1 + erf (x / Real.sqrt 2))
  | .hardSigmoid, x => max 0 (min 1 (a.alpha.getD 0.2 * x + a.beta.getD 0.5))
  | .hardSwish, x => x * max 0 (min 1 (1 / 6 * x + 0.5))
  | .mish, x => x * Real.tanh (Real.log (1 + Real.exp x))
  | .sigmoid, x => 1 / (1 + Real.exp (-x))
  | .softplus, x => Real.log (Real.exp x + 1)
  | .softsign, x => x / (1 + |x|)
  | .swish, x => x / (1 + Real.exp (-(a.alpha.getD 1 * x)))
  | .thresholdedRelu, x => if a.alpha.getD 1 < x then x else 0

/-- The attributes that ONNX defines for the function. -/
def ActOp.takesAlpha : ActOp → Bool
  | .leakyRelu | .elu | .celu | .selu | .hardSigmoid | .swish | .thresholdedRelu => true
  | _ => false

/-- See `takesAlpha`. -/
def ActOp.takesBeta : ActOp → Bool
  | .hardSigmoid => true
  | _ => false

/-- See `takesAlpha`. -/
def ActOp.takesGamma : ActOp → Bool
  | .selu => true
  | _ => false

/-- The kinds of elements that ONNX allows (Relu since version 14 also integers). -/
def ActOp.kinds : ActOp → List ElemKind
  | .relu => [.float, .int]
  | _ => [.float]

/-- The node carries no attribute that the operator does not have. -/
def ActAttrs.Ok (a : ActAttrs) (op : ActOp) : Prop :=
  (op.takesAlpha = false → a.alpha = none) ∧ (op.takesBeta = false → a.beta = none) ∧
    (op.takesGamma = false → a.gamma = none) ∧ (op ≠ .gelu → a.approximate = false)

/-- PRelu: the slope is broadcast to the input. -/
noncomputable def Onnx.prelu (x slope : ℝ) : ℝ := if x < 0 then slope * x else x

/-! ### Burn and Rust (trusted) -/

namespace Burn

/-- Methods of `Tensor` by name: the kinds of elements they exist for and what they compute. `round` rounds halves to even. -/
noncomputable def method (erf : ℝ → ℝ) : String → Option (List ElemKind × (ℝ → ℝ))
  | "abs" => some ([.float, .int], fun x => |x|)
  | "acos" => some ([.float], Real.arccos)
  | "acosh" => some ([.float], Real.arcosh)
  | "asin" => some ([.float], Real.arcsin)
  | "asinh" => some ([.float], Real.arsinh)
  | "atan" => some ([.float], Real.arctan)
  | "atanh" => some ([.float], Real.artanh)
  | "ceil" => some ([.float], fun x => (⌈x⌉ : ℝ))
  | "cos" => some ([.float], Real.cos)
  | "cosh" => some ([.float], Real.cosh)
  | "erf" => some ([.float], erf)
  | "exp" => some ([.float], Real.exp)
  | "floor" => some ([.float], fun x => (⌊x⌋ : ℝ))
  | "log" => some ([.float], Real.log)
  | "neg" => some ([.float, .int], fun x => -x)
  | "recip" => some ([.float], fun x => x⁻¹)
  | "round" => some ([.float], roundEven)
  | "sign" => some ([.float, .int], signOf)
  | "sin" => some ([.float], Real.sin)
  | "sinh" => some ([.float], Real.sinh)
  | "sqrt" => some ([.float], Real.sqrt)
  | "tan" => some ([.float], Real.tan)
  | "tanh" => some ([.float], Real.tanh)
  | _ => none

/-- `activation::softplus`. -/
noncomputable def softplus (x beta : ℝ) : ℝ := Real.log (1 + Real.exp (beta * x)) / beta

/-- `activation::sigmoid`. -/
noncomputable def sigmoid (x : ℝ) : ℝ := 1 / (1 + Real.exp (-x))

/-- `activation::hard_sigmoid`. -/
noncomputable def hardSigmoid (x alpha beta : ℝ) : ℝ := max 0 (min 1 (alpha * x + beta))

/-- `activation::leaky_relu`. -/
noncomputable def leakyRelu (x slope : ℝ) : ℝ := max 0 x + slope * min 0 x

/-- `activation::elu`. -/
noncomputable def elu (x alpha : ℝ) : ℝ := if 0 < x then x else alpha * (Real.exp x - 1)

/-- `activation::celu`. -/
noncomputable def celu (x alpha : ℝ) : ℝ := max 0 x + min 0 (alpha * (Real.exp (x / alpha) - 1))

/-- `activation::selu` with the constants of the module. -/
noncomputable def selu (alpha gamma x : ℝ) : ℝ := if 0 < x then gamma * x else gamma * alpha * (Real.exp x - 1)

/-- `activation::gelu`. -/
noncomputable def gelu (erf : ℝ → ℝ) (x : ℝ) : ℝ := x * (1 + erf (x / Real.sqrt 2)) / 2

/-- `activation::thresholded_relu`. -/
noncomputable def thresholdedRelu (x alpha : ℝ) : ℝ := if alpha < x then x else 0

/-- `activation::prelu` (called by `nn::PRelu`): one slope for all elements, or one for each entry of dimension 1. -/
noncomputable def prelu (t alpha : Tensor ℝ) : Option (Tensor ℝ) :=
  match alpha.shape with
  | [1] => some (t.map fun x => leakyRelu x (alpha.get [0]))
  | [n] =>
    if 2 ≤ t.shape.length ∧ t.shape.getD 1 0 = n then
      some (Tensor.ofFn t.shape fun i => leakyRelu (t.get i) (alpha.get [i.getD 1 0]))
    else none
  | _ => none

end Burn

/-- Methods of Rust's numbers `f32`, `f64`, `i32` and `i64` by name. `log` takes a base, and there is no `erf` and no `sign`;
`round` rounds halves away from zero. -/
noncomputable def rustMethod : String → Option (List ElemKind × (ℝ → ℝ))
  | "abs" => some ([.float, .int], fun x => |x|)
  | "acos" => some ([.float], Real.arccos)
  | "acosh" => some ([.float], Real.arcosh)
  | "asin" => some ([.float], Real.arcsin)
  | "asinh" => some ([.float], Real.arsinh)
  | "atan" => some ([.float], Real.arctan)
  | "atanh" => some ([.float], Real.artanh)
  | "ceil" => some ([.float], fun x => (⌈x⌉ : ℝ))
  | "cos" => some ([.float], Real.cos)
  | "cosh" => some ([.float], Real.cosh)
  | "exp" => some ([.float], Real.exp)
  | "floor" => some ([.float], fun x => (⌊x⌋ : ℝ))
  | "recip" => some ([.float], fun x => x⁻¹)
  | "round" => some ([.float], roundAway)
  | "sin" => some ([.float], Real.sin)
  | "sinh" => some ([.float], Real.sinh)
  | "sqrt" => some ([.float], Real.sqrt)
  | "tan" => some ([.float], Real.tan)
  | "tanh" => some ([.float], Real.tanh)
  | _ => none

/-! ### Special values -/

/-- Floating-point values by class. -/
inductive FloatVal
  | nan
  | negInf
  | posInf
  | finite (x : Rat)
deriving DecidableEq

instance : Inhabited FloatVal := ⟨.nan⟩

/-- ONNX's IsInf and IsNaN. -/
def Onnx.isInf (neg pos : Bool) : FloatVal → Bool
  | .negInf => neg
  | .posInf => pos
  | _ => false

/-- See `isInf`. -/
def Onnx.isNan : FloatVal → Bool
  | .nan => true
  | _ => false

namespace FloatVal

/-- `is_inf` of Burn, `is_infinite` of Rust. -/
def infinite : FloatVal → Bool
  | .negInf | .posInf => true
  | _ => false

/-- `greater_elem(0.0)`. -/
def pos : FloatVal → Bool
  | .posInf => true
  | .finite x => 0 < x
  | _ => false

/-- `lower_elem(0.0)`. -/
def neg : FloatVal → Bool
  | .negInf => true
  | .finite x => x < 0
  | _ => false

/-- `is_sign_positive` (the sign bit is clear; that of NaN and of zero is left open as `bit`). -/
def signPositive (bit : Bool) : FloatVal → Bool
  | .posInf => true
  | .negInf => false
  | .nan => !bit
  | .finite x => if x = 0 then !bit else 0 < x

/-- `is_sign_negative`. -/
def signNegative (bit : Bool) (x : FloatVal) : Bool := !x.signPositive bit

/-- `is_nan`. -/
def isNan : FloatVal → Bool
  | .nan => true
  | _ => false

end FloatVal

end OnnxIR
