import Verif.Model.Pipeline

/-!
# Embedding constants in the nodes that read them

`lift_constants` of every processor (crates/onnx-ir/src/processor.rs:214-230 and crates/onnx-ir/src/node/*.rs) and the two
places that call it. `Verif.Model.Pipeline` has the positions as a parameter; this is what they are.
-/

namespace OnnxIR

variable {V : Type}

/-- How a call of `lift_constants` ends: the `Err` of `to_static`, or a panic. -/
inductive Ended
  | ok | err | panic
deriving DecidableEq, Repr

/-- crates/onnx-ir/src/ir/argument.rs:430-459 `to_static`: `none` is the error, which leaves the argument as it was. `tbl`
is `get_constant_data_id` followed by the tensor stored under that id. Simplification: every argument has a value store
(node_conversion.rs:166 attaches one to every argument). -/
def Arg.toStatic (tbl : String → Option V) (a : Arg V) : Option (Arg V) :=
  match a.src with
  | .constant => (tbl a.name).map fun v => { a with name := "", src := .static v }
  | _ => none

/-- `is_constant` (ir/argument.rs:410-412). -/
def Arg.isConst (a : Arg V) : Bool :=
  match a.src with
  | .constant => true
  | _ => false

/-- The statements of the `lift_constants` of the processors. -/
inductive LiftStep
  /-- `if node.inputs.len() > i && node.inputs[i].is_constant() { node.inputs[i].to_static()?; }` (a test
  `!is_optional()` before `is_constant()` changes nothing) -/
  | one (i : Nat)
  /-- `if node.inputs[i].is_constant() { node.inputs[i].to_static()?; }` -/
  | unchecked (i : Nat)
  /-- `if node.inputs.len() > i { node.inputs[i].to_static()?; }` -/
  | always (i : Nat)
  /-- batch_norm.rs:85-91: all of them if all are constants -/
  | together (is : List Nat)
deriving DecidableEq, Repr

/-- `node.inputs[i].to_static()?`. -/
def embed (tbl : String → Option V) (i : Nat) (as : List (Arg V)) : List (Arg V) × Ended :=
  match as[i]? with
  | none => (as, .panic)
  | some a =>
    match a.toStatic tbl with
    | none => (as, .err)
    | some b => (as.set i b, .ok)

/-- Several `to_static()?` one after the other. -/
def embedAll (tbl : String → Option V) : List Nat → List (Arg V) → List (Arg V) × Ended
  | [], as => (as, .ok)
  | i :: is, as =>
    match embed tbl i as with
    | (bs, .ok) => embedAll tbl is bs
    | r => r

/-- One statement. -/
def LiftStep.run (tbl : String → Option V) (as : List (Arg V)) : LiftStep → List (Arg V) × Ended
  | .one i =>
    match as[i]? with
    | some a => if a.isConst then embed tbl i as else (as, .ok)
    | none => (as, .ok)
  | .unchecked i =>
    match as[i]? with
    | some a => if a.isConst then embed tbl i as else (as, .ok)
    | none => (as, .panic)
  | .always i => if i < as.length then embed tbl i as else (as, .ok)
  | .together is => if is.all (fun i => (as[i]?).any Arg.isConst) then embedAll tbl is as else (as, .ok)

/-- The body of a `lift_constants`: the first failure ends it. -/
def runSteps (tbl : String → Option V) : List LiftStep → List (Arg V) → List (Arg V) × Ended
  | [], as => (as, .ok)
  | s :: ss, as =>
    match s.run tbl as with
    | (bs, .ok) => runSteps tbl ss bs
    | r => r

/-- The processors, one line per file of crates/onnx-ir/src/node: batch_norm.rs:81-94, clip.rs:69-81, col2im.rs:72-82,
constant_of_shape.rs:68-76, conv1d.rs:63-73, conv2d.rs:62-72, conv3d.rs:62-72, conv_transpose1d.rs:65-75,
conv_transpose2d.rs:66-76, conv_transpose3d.rs:61-71, cumsum.rs:63-70, deform_conv.rs:61-72, dropout.rs:79-92,
expand.rs:52-60, group_norm.rs:54-64, gru.rs:176-189, instance_norm.rs:61-71, layer_norm.rs:76-86, linear.rs:70-80,
lstm.rs:177-194, one_hot.rs:101-111, pad.rs:144-156, prelu.rs:56-62, range.rs:97-113, reduce.rs:140-147,
reshape.rs:274-282, resize.rs:240-257, rnn.rs:135-148, slice.rs:139-161, split.rs:76-83, squeeze.rs:68-79, tile.rs:77-84,
topk.rs:77-84, trilu.rs:61-68, unsqueeze.rs:70-79; the others have the default of processor.rs:228-230. -/
def liftSteps (opset : Nat) : NodeType → List LiftStep
  | .other "BatchNormalization" => [.together [1, 2, 3, 4]]
  | .other "Clip" => [.one 1, .one 2]
  | .other "Col2Im" => [.unchecked 1, .unchecked 2]
  | .other "ConstantOfShape" => [.one 0]
  | .other "Conv1d" => [.one 1, .one 2]
  | .other "Conv2d" => [.one 1, .one 2]
  | .other "Conv3d" => [.one 1, .one 2]
  | .other "ConvTranspose1d" => [.one 1, .one 2]
  | .other "ConvTranspose2d" => [.one 1, .one 2]
  | .other "ConvTranspose3d" => [.one 1, .one 2]
  | .other "CumSum" => [.one 1]
  | .other "DeformConv" => [.one 1, .one 3]
  | .other "Dropout" => [.one 1, .one 2]
  | .other "Expand" => [.one 1]
  | .other "GroupNormalization" => [.one 1, .one 2]
  | .other "GRU" => [.one 1, .one 2, .one 3]
  | .other "InstanceNormalization" => [.one 1, .one 2]
  | .other "LayerNormalization" => [.one 1, .one 2]
  | .linear => [.one 1, .one 2]
  | .other "LSTM" => [.one 1, .one 2, .one 3, .one 7]
  | .other "OneHot" => [.one 1, .one 2]
  | .other "Pad" => [.one 1, .one 2]
  | .other "PRelu" => [.always 1]
  | .other "Range" => [.one 0, .one 1, .one 2]
  | .other "ReduceMax" => [.one 1]
  | .other "ReduceMin" => [.one 1]
  | .other "ReduceMean" => [.one 1]
  | .other "ReduceProd" => [.one 1]
  | .other "ReduceSum" => [.one 1]
  | .other "ReduceSumSquare" => [.one 1]
  | .other "ReduceL1" => [.one 1]
  | .other "ReduceL2" => [.one 1]
  | .other "ReduceLogSum" => [.one 1]
  | .other "ReduceLogSumExp" => [.one 1]
  | .reshape => [.one 1]
  | .other "Resize" => [.one 1, .one 2, .one 3]
  | .other "RNN" => [.one 1, .one 2, .one 3]
  | .slice => [.one 1, .one 2, .one 3, .one 4]
  | .other "Split" => [.one 1]
  | .squeeze => if 13 ≤ opset then [.one 1] else []
  | .other "Tile" => [.one 1]
  | .other "TopK" => [.one 1]
  | .other "Trilu" => [.one 1]
  | .unsqueeze => if 13 ≤ opset then [.one 1] else []
  | _ => []

/-- `processor.lift_constants(&mut node, opset)`. -/
def liftConstants (tbl : String → Option V) (opset : Nat) (n : Node V) : Node V × Ended :=
  let r := runSteps tbl (liftSteps opset n.ty) n.inputs
  ({ n with inputs := r.1 }, r.2)

/-- crates/onnx-ir/src/phases/node_conversion.rs:193-204, in the conversion of a node: an error is a panic, here `none`. -/
def liftFirst (tbl : String → Option V) (opset : Nat) (n : Node V) : Option (Node V) :=
  match liftConstants tbl opset n with
  | (m, .ok) => some m
  | _ => none

/-- crates/onnx-ir/src/phases/post_processing.rs:259-273, after no-ops are gone: with opset 16 (proto_conversion.rs:24), and an
error is logged. -/
def liftAgain (tbl : String → Option V) (n : Node V) : Option (Node V) :=
  match liftConstants tbl 16 n with
  | (_, .panic) => none
  | (m, _) => some m

end OnnxIR
