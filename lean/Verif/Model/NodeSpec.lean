import Verif.Model.TypeInference
import Verif.Model.CumSum

/-!
# Operator specifications

crates/onnx-ir/src/processor.rs:11-64 (what a processor declares) and 349-494 (checking a node against
it), crates/onnx-ir/src/phases/type_inference.rs:116-119 (where it is checked),
crates/onnx-ir/src/pipeline.rs:370-378 (the opset of a model).
-/

namespace OnnxIR

variable {V : Type}

/-- crates/onnx-ir/src/processor.rs:18-27 `InputSpec` and 32-39 `OutputSpec` (which has no `AtLeast`): how
many inputs or outputs an operator may have. -/
inductive CountSpec
  | exact (n : Nat)
  | atLeast (n : Nat)
  | range (min max : Nat)
  | opsetDependent (specs : List (Nat × CountSpec))

/-- crates/onnx-ir/src/processor.rs:43-52 `NodeSpec`. -/
structure NodeSpec where
  minOpset : Nat
  maxOpset : Option Nat
  inputs : CountSpec
  outputs : CountSpec

/-- crates/onnx-ir/src/processor.rs:54-63 `NodeSpec::default`. -/
def NodeSpec.default : NodeSpec := ⟨1, none, .atLeast 0, .range 0 2147483647⟩

mutual

/-- crates/onnx-ir/src/processor.rs:385-430 `validate_input_spec` and 433-472 `validate_output_spec`, for a
given count. -/
def CountSpec.ok (opset count : Nat) : CountSpec → Bool
  | .exact n => count == n
  | .atLeast n => !(count < n)
  | .range min max => !(count < min || count > max)
  | .opsetDependent specs =>
    match CountSpec.applicable opset count specs with
    | some (_, r) => r
    | none => true

/-- processor.rs:417-426: the entry with the highest version not above the opset (`max_by_key` returns the
last of several equal ones), with the verdict of its specification. Simplified: Rust evaluates the
specification after selecting the entry. -/
def CountSpec.applicable (opset count : Nat) : List (Nat × CountSpec) → Option (Nat × Bool)
  | [] => none
  | (v, s) :: rest =>
    match CountSpec.applicable opset count rest with
    | none => if v ≤ opset then some (v, s.ok opset count) else none
    | some (w, r) => if v ≤ opset ∧ w < v then some (v, s.ok opset count) else some (w, r)

end

/-- crates/onnx-ir/src/processor.rs:480-494 `get_onnx_input_count`. -/
def onnxInputCount (n : Node V) : Nat :=
  match mapGet n.attrs "__onnx_input_count" with
  | some (.i64 k) => Gen.i64AsUsize k
  | _ => n.inputs.length

/-- crates/onnx-ir/src/processor.rs:354-382 `validate_node_spec`. -/
def validateNodeSpec (spec : NodeSpec) (opset : Nat) (n : Node V) : Bool :=
  if opset < spec.minOpset then false
  else if spec.maxOpset.any (opset > ·) then false
  else spec.inputs.ok opset (onnxInputCount n) && spec.outputs.ok opset n.outputs.length

/-- crates/onnx-ir/src/phases/node_conversion.rs:88-138: the values of the enclosing graph that a
control-flow node's subgraphs use (already resolved, `refs`) become additional inputs, and the number of
inputs of the file is recorded. The attribute is replaced, whatever the file says. -/
def addScopeRefs (n : Node V) (refs : List (Arg V)) : Node V :=
  { n with
    inputs := n.inputs ++ refs
    attrs := ("__onnx_input_count", .i64 ((n.inputs ++ refs).length - refs.length : Nat)) :: n.attrs }

/-- crates/onnx-ir/src/pipeline.rs:370-378 `extract_opset_version`: the first import of the default domain,
converted with `as usize`; `none` is an error. -/
def extractOpset (imports : List (String × Int)) : Option Nat :=
  (imports.find? fun p => p.1 == "").map fun p => Gen.i64AsUsize p.2

/-- The rules of inference with the specifications a registry declares
(type_inference.rs:116-119). -/
def Rules.withSpecs (R : Rules V) (specs : NodeType → NodeSpec) (opset : Nat) : Rules V :=
  { R with valid := fun n => validateNodeSpec (specs n.ty) opset n }

/-- The same rules without any check. -/
def Rules.unchecked (R : Rules V) : Rules V := { R with valid := fun _ => true }

end OnnxIR
