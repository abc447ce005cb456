import Verif.Model.CumSum
import Verif.Spec.Range

/-!
# Code generated for Range and Mod

`crates/burn-onnx/src/burn/node/range.rs`, `crates/burn-onnx/src/burn/node/modulo.rs`, and the
configurations read by `crates/onnx-ir/src/node/{range,modulo}.rs`.
-/

namespace OnnxIR.Burn

/-- The values of Rust's `(s..e).step_by(step)`; `fuel` bounds their number. -/
def stepFrom (s e : Int) (step : Nat) : Nat → List Int
  | 0 => []
  | fuel + 1 => if s < e then s :: stepFrom (s + step) e step fuel else []

/-- `Tensor::arange_step(s..e, step)` (trusted base): the values of `(s..e).step_by(step)`, which
panics for a zero step. -/
def arangeStep (s e : Int) (step : Nat) : Option (List Int) :=
  if step = 0 then none else some (stepFrom s e step (e - s).toNat)

end OnnxIR.Burn

namespace OnnxIR.Gen

/-- A scalar operand of Range: a constant of integer or floating-point type, or an integer known only
at run time. Floating-point constants are represented by their (rational) value. -/
inductive RangeOperand
  | constInt (v : Int)
  | constFloat (v : Rat)
  | runtimeInt (v : Int)

/-- The value ONNX sees. -/
def RangeOperand.value : RangeOperand → Rat
  | .constInt v | .runtimeInt v => v
  | .constFloat v => v

/-- crates/onnx-ir/src/node/range.rs:166-188 and crates/onnx-ir/src/ir/tensor_data_ext.rs:73-88
(`scalar_i64`): the `i64` that appears in the generated code. Rust's `f as i64` truncates towards zero.
Simplified: saturation of huge floats is not modelled. -/
def RangeOperand.asI64 : RangeOperand → Int
  | .constInt v | .runtimeInt v => v
  | .constFloat v => v.num.tdiv v.den

/-- crates/burn-onnx/src/burn/node/range.rs:14-52: `Tensor::arange_step(start..limit, delta as usize)`. -/
def range (start limit delta : RangeOperand) : Option (List Int) :=
  Burn.arangeStep start.asI64 limit.asI64 (i64AsUsize delta.asI64)

/-- crates/onnx-ir/src/node/modulo.rs:126-137: `fmod` is set by any non-zero attribute. -/
def modFlag (attr : Option Int) : Bool := attr.any (· != 0)

/-- How an operand of Mod is held in the generated code. -/
inductive Held
  | onDevice
  | native
  deriving DecidableEq

/-- crates/burn-onnx/src/burn/node/modulo.rs:14-131: the integer operation applied to a pair of elements.
Tensor operands use Burn's `fmod`/`fmod_scalar` (C remainder) or `remainder`/`remainder_scalar` (sign of
the divisor); two native scalars use Rust's `%` (C remainder) whatever the attribute. `none`: division
by zero. -/
def modElem (fmod : Bool) (lhs rhs : Held) (a b : Int) : Option Int :=
  if b = 0 then none
  else match lhs, rhs with
    | .native, .native => some (a.tmod b)
    | _, _ => some (if fmod then a.tmod b else a.fmod b)

end OnnxIR.Gen
