import Verif.Model.TypeInference

/-!
# What operators ask of their inputs

The `input_preferences` functions (crates/onnx-ir/src/processor.rs:219-226; eleven processors override
the default, which asks for nothing). Only constants answer (node/constant.rs:85-118).
-/

namespace OnnxIR

variable {V : Type}

/-- crates/onnx-ir/src/ir/argument.rs:284-286 `is_shape`. -/
def ArgType.isShape : ArgType → Bool
  | .shape _ => true
  | _ => false

/-- crates/onnx-ir/src/ir/argument.rs:269-271 `is_scalar_native`. -/
def ArgType.isNative : ArgType → Bool
  | .scalarNative _ => true
  | _ => false

namespace Infer

/-- A preference, if the condition holds. -/
def want (c : Bool) (x : String) (p : Pref) : List (String × Pref) := if c then [(x, p)] else []

/-- What an operand is asked to be beside a `Shape` (node/arithmetic.rs:110-126, node/modulo.rs:79-96,
node/gather.rs:83-88). -/
def besideShape (a : Arg V) : String × Pref := (a.name, if a.ty.isScalar then .scalarNative else .shape)

/-- node/arithmetic.rs:91-144 and node/modulo.rs:66-108. -/
def arithmeticWants (a b : Arg V) : List (String × Pref) :=
  (if a.ty.isShape then [besideShape b] else []) ++ (if b.ty.isShape then [besideShape a] else []) ++
  want a.ty.isNative b.name .scalarNative ++ want b.ty.isNative a.name .scalarNative

/-- node/comparison.rs:114-146. -/
def comparisonWants (a b : Arg V) : List (String × Pref) :=
  want (a.ty.isOnDevice && b.ty.isScalar) b.name .scalarNative ++
  want (b.ty.isOnDevice && a.ty.isScalar) a.name .scalarNative ++
  want (a.ty.isNative && b.ty.isScalar) b.name .scalarNative ++
  want (b.ty.isNative && a.ty.isScalar) a.name .scalarNative

/-- node/slice.rs:120-137. -/
def sliceWants (inputs : List (Arg V)) : List (String × Pref) :=
  (inputs.drop 1).flatMap fun a => (a.name, .shape) :: want a.ty.isScalar a.name .scalarNative

/-- node/concat.rs:67. -/
def isRankOne : ArgType → Bool
  | .tensor t => t.rank == 1
  | _ => false

/-- node/concat.rs:52-78. -/
def concatWants (inputs : List (Arg V)) : List (String × Pref) :=
  inputs.flatMap fun a =>
    want (inputs.any (·.ty.isShape) && isRankOne a.ty) a.name .shape ++
    want a.ty.isScalar a.name .scalarNative

/-- The `input_preferences` of the registered processors (registry.rs:117-132, 447-466, 421, 437, 497,
561, 590, 630-632): the preferences by input name, in the order they are added. -/
def wantsOf (n : Node V) : List (String × Pref) :=
  match n.ty, n.inputs with
  | .add, [a, b] | .sub, [a, b] | .mul, [a, b] | .div, [a, b] => arithmeticWants a b
  | .gather, a :: b :: _ => if a.ty.isShape then [besideShape b] else []
  | .slice, inputs => sliceWants inputs
  | .concat, inputs => concatWants inputs
  -- node/reshape.rs:284-299
  | .reshape, _ :: b :: _ => [(b.name, .shape)]
  | .other op, inputs =>
    if op = "Mod" then (match inputs with
      | [a, b] => arithmeticWants a b
      | _ => [])
    else if op = "Equal" ∨ op = "Greater" ∨ op = "Less" ∨ op = "GreaterOrEqual" ∨ op = "LessOrEqual" then
      (match inputs with
      | [a, b] => comparisonWants a b
      | _ => [])
    -- node/where_op.rs:76-91
    else if op = "Where" then (inputs.drop 1).flatMap fun a => want a.ty.isScalar a.name .scalarNative
    -- node/range.rs:82-95
    else if op = "Range" then inputs.map fun a => (a.name, .scalarNative)
    -- node/loop_node.rs:79-95
    else if op = "Loop" then (inputs.take 2).map fun a => (a.name, .scalarNative)
    -- node/if_node.rs:57-71
    else if op = "If" then (inputs.take 1).map fun a => (a.name, .scalarNative)
    else []
  | _, _ => []

end Infer

end OnnxIR
