import Verif.Model.Types

/-!
# Type inference for broadcasting operators

crates/onnx-ir/src/processor.rs:547-684. An input is represented by its `ArgType`, the only part of
an `Argument` these functions read.
-/

namespace OnnxIR

/-- crates/onnx-ir/src/processor.rs:553-563 `compute_broadcast_rank`. -/
def computeBroadcastRank (inputs : List ArgType) : Nat :=
  inputs.foldl (fun acc ty => match ty with
    | .tensor t => max acc t.rank
    | .scalarTensor _ => max acc 1
    | .scalarNative _ => acc
    | .shape _ => max acc 1) 0

/-- crates/onnx-ir/src/processor.rs:597-610: the new value of one result dimension; `none` is the
early return on incompatible dimensions. -/
def broadcastDim : Option Nat → Option Nat → Option (Option Nat)
  | _, none => some none
  | none, _ => some none
  | some cur, some d =>
    if cur = 1 then some (some d)
    else if d ≠ 1 ∧ d ≠ cur then none
    else some (some cur)

/-- The inner loop of processor.rs:595-611 over the dimensions at `offset` and beyond. -/
def broadcastDims : PShape → PShape → Option PShape
  | c :: cs, d :: ds =>
    match broadcastDim c d, broadcastDims cs ds with
    | some r, some rs => some (r :: rs)
    | _, _ => none
  | cs, [] => some cs
  | [], _ :: _ => none

/-- crates/onnx-ir/src/processor.rs:594-611: merge one shape into the result, aligned at the end. -/
def broadcastInto (result shape : PShape) : Option PShape :=
  let offset := result.length - shape.length
  (broadcastDims (result.drop offset) shape).map (result.take offset ++ ·)

/-- crates/onnx-ir/src/processor.rs:593-614: the loop over the shapes. -/
def broadcastAllInto (result : PShape) : List PShape → Option PShape
  | [] => some result
  | s :: ss => (broadcastInto result s).bind (broadcastAllInto · ss)

/-- `windows(2).all(|w| w[0] == w[1])` (processor.rs:586). -/
def adjacentEqual : List PShape → Bool
  | a :: b :: rest => a == b && adjacentEqual (b :: rest)
  | _ => true

/-- Length of the longest shape (processor.rs:590). -/
def maxLength (shapes : List PShape) : Nat := shapes.foldl (fun acc s => max acc s.length) 0

/-- crates/onnx-ir/src/processor.rs:566-615 `compute_broadcast_static_shape`. -/
def computeBroadcastStaticShape (inputs : List ArgType) : Option PShape :=
  match inputs.filterMap ArgType.staticShape with
  | [] => none
  | [s] => if computeBroadcastRank inputs = s.length then some s else none
  | s :: s' :: ss =>
    if adjacentEqual (s :: s' :: ss) then some s
    else broadcastAllInto (List.replicate (maxLength (s :: s' :: ss)) (some 1)) (s :: s' :: ss)

/-- `matches!(ty, ArgType::Tensor(_))`. -/
def ArgType.isTensor : ArgType → Bool
  | .tensor _ => true
  | _ => false

/-- The rank inside `ArgType::Shape` (processor.rs:645-648). -/
def ArgType.shapeLen? : ArgType → Option Nat
  | .shape k => some k
  | _ => none

/-- Element type of an on-device argument (processor.rs:659-663). -/
def ArgType.deviceDtype? : ArgType → Option DType
  | .tensor t => some t.dtype
  | .scalarTensor d => some d
  | _ => none

/-- crates/onnx-ir/src/processor.rs:656-665: the output element type; `none` is a panic. -/
def broadcastDtype (inputs : List ArgType) (outDtype : Option DType) : Option DType :=
  match outDtype with
  | some d => some d
  | none =>
    match inputs.findSome? ArgType.deviceDtype? with
    | some d => some d
    | none => inputs.head?.bind ArgType.elemType

/-- crates/onnx-ir/src/processor.rs:628-679 `broadcast_output_type`. -/
def broadcastOutputType (inputs : List ArgType) (outDtype : Option DType) : Option ArgType :=
  let hasReal := inputs.any ArgType.isTensor
  if !hasReal && (inputs.findSome? ArgType.shapeLen?).isSome then
    (inputs.findSome? ArgType.shapeLen?).map .shape
  else
    let maxRank := computeBroadcastRank inputs
    (broadcastDtype inputs outDtype).map fun dtype =>
      if maxRank = 0 then .scalarNative dtype
      else if !hasReal && maxRank = 1 then .scalarTensor dtype
      else .tensor ⟨dtype, maxRank, computeBroadcastStaticShape inputs⟩

/-- crates/onnx-ir/src/ir/argument.rs:212-231: merge of the dimensions. -/
def mergeDims : PShape → PShape → PShape
  | none :: xs, y :: ys => y :: mergeDims xs ys
  | some d :: xs, _ :: ys => some d :: mergeDims xs ys
  | xs, [] => xs
  | [], _ => []

/-- crates/onnx-ir/src/ir/argument.rs:204-231 `TensorType::merge_static_shape`; the new value of
`self` (the returned flag says whether it changed). -/
def TensorType.mergeStaticShape (self other : TensorType) : TensorType :=
  if self.rank ≠ other.rank then self
  else
    match self.staticShape, other.staticShape with
    | none, some o => if o.length = self.rank then { self with staticShape := some o } else self
    | some s, some o =>
      if s.length = o.length then { self with staticShape := some (mergeDims s o) } else self
    | _, _ => self

/-- The flag returned by `TensorType::merge_static_shape` (argument.rs:204-231). -/
def TensorType.mergeChanges (self other : TensorType) : Bool :=
  if self.rank ≠ other.rank then false
  else
    match self.staticShape, other.staticShape with
    | none, some o => o.length == self.rank
    | some s, some o =>
      s.length == o.length && (s.zip o).any fun p => p.1.isNone && p.2.isSome
    | _, _ => false

/-- crates/onnx-ir/src/ir/argument.rs:248-256 `ArgType::merge_static_shape`. -/
def ArgType.mergeStaticShape : ArgType → ArgType → ArgType
  | .tensor s, .tensor o => .tensor (s.mergeStaticShape o)
  | s, _ => s

end OnnxIR
