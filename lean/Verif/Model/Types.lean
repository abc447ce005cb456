/-!
# Argument types, value sources and nodes of the intermediate representation
-/

namespace OnnxIR

/-- Element types used by the importer (crates/onnx-ir/src/proto_conversion.rs:105-128
`element_type_from_proto`; the Rust type is `burn_tensor::DType`, of which these are the
members the importer produces). -/
inductive DType
  | f64 | f32 | f16 | bf16 | i64 | i32 | i16 | i8 | u64 | u32 | u16 | u8 | bool
deriving DecidableEq, Repr, Inhabited

/-- A partially known shape: `none` marks a symbolic dimension
(crates/onnx-ir/src/ir/argument.rs:15 `Shape`). -/
abbrev PShape := List (Option Nat)

/-- crates/onnx-ir/src/ir/argument.rs:148-158 `TensorType`. -/
structure TensorType where
  dtype : DType
  rank : Nat
  staticShape : Option PShape
deriving DecidableEq, Repr, Inhabited

/-- crates/onnx-ir/src/ir/argument.rs:135-144 `ArgType`. -/
inductive ArgType
  | scalarTensor (d : DType)
  | scalarNative (d : DType)
  | shape (rank : Nat)
  | tensor (t : TensorType)
deriving DecidableEq, Repr

/-- crates/onnx-ir/src/ir/argument.rs:234-238 and 160-168: the default type is a rank-0 `F32`
tensor without static shape. -/
def ArgType.default : ArgType := .tensor ⟨.f32, 0, none⟩

instance : Inhabited ArgType := ⟨ArgType.default⟩

/-- crates/onnx-ir/src/ir/argument.rs:259-261 `is_scalar`. -/
def ArgType.isScalar : ArgType → Bool
  | .scalarTensor _ => true
  | .scalarNative _ => true
  | _ => false

/-- crates/onnx-ir/src/ir/argument.rs:274-276 `is_on_device`. -/
def ArgType.isOnDevice : ArgType → Bool
  | .scalarTensor _ => true
  | .tensor _ => true
  | _ => false

/-- crates/onnx-ir/src/ir/argument.rs:289-296 `rank`. -/
def ArgType.rank : ArgType → Nat
  | .scalarTensor _ => 1
  | .scalarNative _ => 0
  | .shape _ => 1
  | .tensor t => t.rank

/-- crates/onnx-ir/src/ir/argument.rs:310-315 `static_shape`. -/
def ArgType.staticShape : ArgType → Option PShape
  | .tensor t => t.staticShape
  | _ => none

/-- crates/onnx-ir/src/ir/argument.rs:190-194 `static_shape_known`: the shape if every dimension
is known (Rust collects an iterator of options into an option). -/
def allKnown : PShape → Option (List Nat)
  | [] => some []
  | none :: _ => none
  | some d :: ds => (allKnown ds).map (d :: ·)

/-- crates/onnx-ir/src/ir/argument.rs:318-323 `static_shape_known` on `ArgType`. -/
def ArgType.staticShapeKnown (t : ArgType) : Option (List Nat) :=
  t.staticShape.bind allKnown

/-- crates/onnx-ir/src/ir/argument.rs:301-307 `elem_type`; `none` is the panic on `Shape`. -/
def ArgType.elemType : ArgType → Option DType
  | .scalarTensor d => some d
  | .scalarNative d => some d
  | .shape _ => none
  | .tensor t => some t.dtype

/-- crates/onnx-ir/src/ir/argument.rs:22-31 `ValueSource`.
Simplification: `Static(data_id)` together with the argument's `value_store`
(argument.rs:44-48) denotes one tensor; the model carries that tensor. -/
inductive Src (V : Type)
  | static (v : V)
  | constant
  | dynamic
  | optional
deriving DecidableEq, Repr

/-- crates/onnx-ir/src/ir/argument.rs:35-49 `Argument`. The `value_store` field is modelled by
the value inside `Src.static` and by the constant map passed to `argValue`. -/
structure Arg (V : Type) where
  name : String
  ty : ArgType
  src : Src V
deriving DecidableEq, Repr

/-- Operators the graph passes inspect by name
(crates/onnx-ir/src/ir/node.rs:161-360 `NodeType`); every other operator is `other`. -/
inductive NodeType
  | add | sub | mul | div | pow
  | relu | ceil | floor | round | sign | abs | neg | sqrt | cast
  | constant | identity
  | shape | gather | slice | concat | unsqueeze | squeeze | reshape | transpose
  | matMul | gemm | linear | softmax | attention
  | other (name : String)
deriving DecidableEq, Repr

/-- Attribute values (crates/onnx-ir/src/ir/attribute.rs `AttributeValue`). Floats are bit
patterns. Subgraphs are opaque: a node that owns subgraphs receives every enclosing value it
uses as an explicit input, so its meaning is a function of the attribute and the inputs. -/
inductive AttrVal (V : Type)
  | i64 (v : Int)
  | i64s (v : List Int)
  | f32 (bits : Nat)
  | f32s (bits : List Nat)
  | str (s : String)
  | strs (s : List String)
  | tensor (v : V)
  | graph (id : Nat)
  | graphs (ids : List Nat)
  | deferredGraph (id : Nat)
  | deferredGraphs (ids : List Nat)
deriving DecidableEq, Repr

/-- crates/onnx-ir/src/ir/node.rs `RawNode`. The attribute `HashMap` is a list sorted by key,
the order in which crates/onnx-ir/src/simplify/redundant_nodes.rs:89-90 reads it. -/
structure Node (V : Type) where
  ty : NodeType
  name : String
  inputs : List (Arg V)
  outputs : List (Arg V)
  attrs : List (String × AttrVal V)
deriving DecidableEq, Repr

/-- Names of the outputs of a node. -/
def Node.outNames {V} (n : Node V) : List String := n.outputs.map Arg.name

/-- Names of the inputs of a node. -/
def Node.inNames {V} (n : Node V) : List String := n.inputs.map Arg.name

/-- A Rust `HashMap` used as an insert-only map: insertion shadows, so it is a list of bindings
with the newest first. -/
def mapGet {β : Type} (m : List (String × β)) (k : String) : Option β :=
  match m with
  | [] => none
  | (k', v) :: rest => if k' = k then some v else mapGet rest k

end OnnxIR
