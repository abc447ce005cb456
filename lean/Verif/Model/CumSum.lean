import Verif.Spec.BurnAxis

/-!
# Code generated for CumSum

`crates/onnx-ir/src/node/cumsum.rs` (configuration) and `crates/burn-onnx/src/burn/node/cumsum.rs`
(generated code).
-/

namespace OnnxIR.Gen

variable {α : Type} [Inhabited α]

/-- Rust's `v as usize` for an `i64` on a 64-bit target: negative values wrap around.
(Used in crates/burn-onnx/src/burn/node/cumsum.rs:128-132.) -/
def i64AsUsize (v : Int) : Nat := (v % (2 ^ 64 : Int)).toNat

/-- crates/onnx-ir/src/node/cumsum.rs:83-134: a constant axis is made non-negative by adding the rank
once and must then be a valid axis; `none` is a reported error. Simplified: the check that the axis
tensor has one element is the argument's type here. -/
def cumSumStaticAxis (rank : Nat) (axis : Int) : Option Nat :=
  let a := if axis < 0 then i64AsUsize ((rank : Int) + axis) else i64AsUsize axis
  if a ≥ rank then none else some a

/-- crates/onnx-ir/src/node/cumsum.rs:137-148: `exclusive` and `reverse` are set by any non-zero
attribute and false when absent. -/
def cumSumFlag (attr : Option Int) : Bool := attr.any (· != 0)

/-- crates/burn-onnx/src/burn/node/cumsum.rs:53-114 (`generate_static_cumsum`) and 134-189, which
generates the same expressions for an axis known at run time. The value of the generated expression;
`none` when it panics. -/
def cumSum [Add α] [Zero α] (x : Tensor α) (axis : Nat) (exclusive reverse : Bool) :
    Option (Tensor α) :=
  match exclusive, reverse with
  | false, false => Burn.cumsum x axis
  | false, true => do
    let a ← Burn.flip x axis
    let b ← Burn.cumsum a axis
    Burn.flip b axis
  | true, false => do
    let c ← Burn.cumsum x axis
    let dim := c.shape.getD axis 0
    if dim ≤ 1 then some (Burn.zerosLike c)
    else do
      let sliced ← Burn.narrow c axis 0 (dim - 1)
      let zeros ← Burn.narrow (Burn.zerosLike sliced) axis 0 1
      Burn.cat2 zeros sliced axis
  | true, true => do
    let flipped ← Burn.flip x axis
    let c ← Burn.cumsum flipped axis
    let back ← Burn.flip c axis
    let dim := back.shape.getD axis 0
    if dim ≤ 1 then some (Burn.zerosLike back)
    else do
      let sliced ← Burn.narrow back axis 1 (dim - 1)
      let zeros ← Burn.narrow (Burn.zerosLike sliced) axis 0 1
      Burn.cat2 sliced zeros axis

/-- crates/burn-onnx/src/burn/node/cumsum.rs:117-190 (`generate_runtime_cumsum`): the axis is a run-time
`i64`, converted with `as usize` and used as it is. -/
def cumSumRuntime [Add α] [Zero α] (x : Tensor α) (axis : Int) (exclusive reverse : Bool) :
    Option (Tensor α) :=
  cumSum x (i64AsUsize axis) exclusive reverse

/-- The configuration and the generated code together, for an axis given as a constant. -/
def cumSumStatic [Add α] [Zero α] (x : Tensor α) (axis : Int) (exclusive reverse : Option Int) :
    Option (Tensor α) := do
  let a ← cumSumStaticAxis x.shape.length axis
  cumSum x a (cumSumFlag exclusive) (cumSumFlag reverse)

end OnnxIR.Gen
