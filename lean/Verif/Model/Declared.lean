import Verif.Model.Sanitize
import Verif.Model.TensorDecode

/-!
# Declared types and attributes

crates/onnx-ir/src/proto_conversion.rs:507-581 and 817-921, crates/onnx-ir/src/graph_state.rs:188-268 and 427-437: how the type a
file declares for a value becomes an annotation, and how the attributes of a node are read.
-/

namespace OnnxIR.Decode

/-! ### Declared types -/

/-- `TensorShapeProto.Dimension`: a number, a name, or neither. -/
inductive Dim
  | value (v : Int)
  | param (s : String)
  | unset
deriving DecidableEq, Repr

/-- `TypeProto`: a tensor type (element type as a number, shape if there is one), or a sequence, map, optional or sparse tensor. -/
inductive TypeP
  | tensor (elem : Int) (shape : Option (List Dim))
  | other
deriving DecidableEq, Repr

/-- `ValueInfoProto`. -/
structure ValueInfo where
  name : String
  type : Option TypeP
deriving DecidableEq, Repr

/-- proto_conversion.rs:900-903: `as usize` of a number, nothing of the rest. -/
def Dim.size : Dim → Option Nat
  | .value v => some (v % 2 ^ 64).toNat
  | _ => none

/-- crates/onnx-ir/src/proto_conversion.rs:870-920 `TryFrom<ValueInfoProto> for Argument`, the type; `none` is the error. A missing
shape reads as the empty one (`MessageField` gives the default message, 893). -/
def declaredType (v : ValueInfo) : Option ArgType :=
  match v.type with
  | none => none
  | some .other => none
  | some (.tensor e shape) =>
    (elementType e).map fun t =>
      let dims := shape.getD []
      if dims = [] then .scalarNative t else .tensor ⟨t, dims.length, some (dims.map Dim.size)⟩

/-- crates/onnx-ir/src/graph_state.rs:194-207: the type of a graph output; a type that cannot be read is replaced by the default
(`Argument::from_name`). -/
def outputType (v : ValueInfo) : ArgType := (declaredType v).getD .default

/-- crates/onnx-ir/src/graph_state.rs:229-268: the type of a graph input; `outer` has the types of the enclosing graph (empty for
the main graph). -/
def inputType (outer : String → Option ArgType) (v : ValueInfo) : ArgType :=
  match declaredType v with
  | some t => t
  | none =>
    match outer (sanitizeName v.name) with
    | some t => t
    | none => (outer v.name).getD .default

/-- crates/onnx-ir/src/graph_state.rs:188-192: a later entry replaces an earlier one; entries that cannot be read are left out. -/
def valueInfoType : List ValueInfo → String → Option ArgType
  | [], _ => none
  | v :: vs, x =>
    match valueInfoType vs x with
    | some t => some t
    | none => if v.name = x then declaredType v else none

/-- crates/onnx-ir/src/proto_conversion.rs:588-603 with graph_state.rs:427-437: the type a node's output starts with. The names of
graph outputs are the sanitised ones. -/
def nodeOutputType (outs infos : List ValueInfo) (x : String) : ArgType :=
  match outs.find? fun o => sanitizeName o.name = x with
  | some o => outputType o
  | none => (valueInfoType infos x).getD .default

/-! ### Attributes -/

/-- `AttributeProto`. `type` is the number in the file, floats are bit patterns, strings are given as the text their bytes encode
(`none`: the bytes are not UTF-8), subgraphs by a number. -/
structure AttrProto where
  name : String
  type : Int
  f : Nat := 0
  i : Int := 0
  s : Option String := some ""
  t : Option Proto := none
  g : Option Nat := none
  floats : List Nat := []
  ints : List Int := []
  strings : List (Option String) := []
  tensors : List Proto := []
  graphs : List Nat := []

/-- crates/onnx-ir/src/ir/attribute.rs:104-129 `AttributeValue`, with subgraphs not yet built. -/
inductive AttrData
  | float (bits : Nat)
  | int (v : Int)
  | string (s : String)
  | tensor (d : Data)
  | floats (bits : List Nat)
  | ints (vs : List Int)
  | strings (ss : List String)
  | tensors (ds : List Data)
  | graph (g : Nat)
  | graphs (gs : List Nat)
deriving DecidableEq, Repr

/-- proto_conversion.rs:507-521: `TensorData::try_from`, which has no base path for external data; `none` is an error or a panic. -/
def attrTensor (p : Proto) : Option Data :=
  match tensorData p none with
  | .ok d => some d
  | _ => none

/-- crates/onnx-ir/src/proto_conversion.rs:523-565 `TryFrom<AttributeProto> for AttributeValue`; `none` is an error (which 578 unwraps)
or a panic. -/
def attrValue (a : AttrProto) : Option AttrData :=
  match a.type with
  | 1 => some (.float a.f)
  | 2 => some (.int a.i)
  | 3 => a.s.map .string
  | 4 => (a.t.bind attrTensor).map .tensor
  | 6 => some (.floats a.floats)
  | 7 => some (.ints a.ints)
  | 8 => (a.strings.mapM id).map .strings
  | 9 => (a.tensors.mapM attrTensor).map .tensors
  | _ => none

/-- crates/onnx-ir/src/proto_conversion.rs:567-581 `convert_vec_attrs_proto`; the newest entry of the map first. `none` is a panic. -/
def plainAttrs : List (String × AttrData) → List AttrProto → Option (List (String × AttrData))
  | m, [] => some m
  | m, a :: as =>
    if a.type = 5 ∨ a.type = 10 then plainAttrs m as
    else
      match attrValue a with
      | none => none
      | some v => plainAttrs ((a.name, v) :: m) as

/-- crates/onnx-ir/src/proto_conversion.rs:817-868 `convert_graph_attributes`, the newest entry first. -/
def graphAttrs : List (String × AttrData) → List AttrProto → List (String × AttrData)
  | m, [] => m
  | m, a :: as =>
    if a.type = 5 then
      match a.g with
      | some g => graphAttrs ((a.name, .graph g) :: m) as
      | none => graphAttrs m as
    else if a.type = 10 then graphAttrs ((a.name, .graphs a.graphs) :: m) as
    else graphAttrs m as

/-- crates/onnx-ir/src/phases/node_conversion.rs:66-163: the attributes of a node; subgraphs are read for the operators that own
some (`control`). The two entries the importer adds for captured values are left out. -/
def nodeAttrs (control : Bool) (as : List AttrProto) : Option (List (String × AttrData)) :=
  (plainAttrs [] as).map fun m => if control then graphAttrs [] as ++ m else m

/-- crates/onnx-ir/src/ir/attribute.rs:150-156 `into_i64`; `none` is the panic for another kind of value. -/
def AttrData.intoInt : AttrData → Option Int
  | .int v => some v
  | _ => none

/-- attribute.rs:142-148 `into_i32`: `as i32` keeps the low 32 bits. -/
def AttrData.intoI32 : AttrData → Option Int
  | .int v => some ((v + 2 ^ 31) % 2 ^ 32 - 2 ^ 31)
  | _ => none

/-- attribute.rs:134-140 `into_f32`. -/
def AttrData.intoFloat : AttrData → Option Nat
  | .float b => some b
  | _ => none

/-- attribute.rs:158-164 `into_string`. -/
def AttrData.intoString : AttrData → Option String
  | .string s => some s
  | _ => none

/-- attribute.rs:183-190 `into_i64s`. -/
def AttrData.intoInts : AttrData → Option (List Int)
  | .ints vs => some vs
  | _ => none

end OnnxIR.Decode
