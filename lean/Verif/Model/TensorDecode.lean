import Verif.Spec.TensorBytes

/-!
# Decoding of tensors

crates/onnx-ir/src/proto_conversion.rs:105-128 and 340-501, crates/onnx-ir/src/tensor_store.rs:104-199 and
the fallback of proto_conversion.rs:131-268. Finding the external file is the subject of
`Model/ExternalPath`; here a file is its content.

The host is little-endian (`bytemuck::cast_slice` gives the bytes in host order). A `usize` has 64 bits.
-/

namespace OnnxIR.Decode

open Onnx (byteWidth)

/-- `TensorProto`, the fields read. `dataType` is the number in the file. Floats are bit patterns.
`external`: `data_location` is EXTERNAL. -/
structure Proto where
  dims : List Int
  dataType : Int
  raw : List UInt8 := []
  floatData : List Int := []
  doubleData : List Int := []
  int32Data : List Int := []
  int64Data : List Int := []
  uint64Data : List Int := []
  stringData : List String := []
  external : Bool := false

/-- crates/onnx-ir/src/proto_conversion.rs:105-128 `element_type_from_proto`; the numbers are those of
onnx.proto's `DataType`. Strings (8), complex (14, 15), undefined (0) and the 8-bit and 4-bit floats are
rejected. -/
def elementType : Int → Option DType
  | 1 => some .f32 | 11 => some .f64 | 10 => some .f16 | 16 => some .bf16
  | 7 => some .i64 | 6 => some .i32 | 5 => some .i16 | 3 => some .i8
  | 13 => some .u64 | 12 => some .u32 | 4 => some .u16 | 2 => some .u8
  | 9 => some .bool
  | _ => none

/-- crates/onnx-ir/src/proto_conversion.rs:626-628 `convert_shape`: `as usize`. -/
def convertShape (dims : List Int) : List Nat := dims.map fun d => (d % 2 ^ 64).toNat

/-- The bytes of a `w`-byte number in memory, lowest first; a Rust `as` cast to a `w`-byte integer keeps the
number modulo `256 ^ w`. -/
def memBytes : Nat → Int → List UInt8
  | 0, _ => []
  | w + 1, n => UInt8.ofNat (n % 256).toNat :: memBytes w (n / 256)

/-- crates/onnx-ir/src/proto_conversion.rs:499-501 `vec_to_bytes`, after a cast to `w`-byte numbers. -/
def vecToBytes (w : Nat) (xs : List Int) : List UInt8 := xs.flatMap (memBytes w)

/-- crates/onnx-ir/src/proto_conversion.rs:377-430: the bytes made from the typed fields. -/
def typedBytes (t : DType) (p : Proto) : List UInt8 :=
  match t with
  | .f32 => vecToBytes 4 p.floatData
  | .f64 => vecToBytes 8 p.doubleData
  | .i64 => vecToBytes 8 p.int64Data
  | .i32 => vecToBytes 4 p.int32Data
  | .i16 => vecToBytes 2 p.int32Data
  | .i8 => vecToBytes 1 p.int32Data
  | .u64 => vecToBytes 8 p.uint64Data
  | .u32 => vecToBytes 4 p.uint64Data
  | .u16 => vecToBytes 2 p.int32Data
  | .u8 => vecToBytes 1 p.int32Data
  | .bool => p.int32Data.map fun x => if x ≠ 0 then 1 else 0
  | .f16 => vecToBytes 2 p.int32Data
  | .bf16 => vecToBytes 2 p.int32Data

/-- `burn_tensor::TensorData` and `TensorDataRef` with embedded bytes (tensor_store.rs:48-65, 104-114):
`to_tensor_data` copies the bytes. -/
structure Data where
  shape : List Nat
  dtype : DType
  bytes : List UInt8
deriving DecidableEq, Repr

/-- An `external_data` entry that has been resolved: the file's content, offset and length. -/
structure ExtRef where
  content : List UInt8
  offset : Nat
  length : Option Nat

/-- crates/onnx-ir/src/tensor_store.rs:119-198 `load_external_data`: the bytes of the range, through the
memory map or by reading; `none` is the panic of `read_exact` at the end of the file. A range of length 0 may
lie beyond the end (`read_exact` of nothing succeeds). The sum of offset and length does not overflow. -/
def loadExternal (content : List UInt8) (offset length : Nat) : Option (List UInt8) :=
  if offset + length ≤ content.length then some ((content.drop offset).take length)
  else if length = 0 then some []
  else none

/-- crates/onnx-ir/src/proto_conversion.rs:471-480: the length when the file gives none. -/
def defaultLength (shape : List Nat) (t : DType) : Nat :=
  (if shape = [] then 1 else shape.foldl (· * ·) 1) * byteWidth t

/-- What the conversion leads to. -/
inductive Outcome
  | ok (d : Data)
  | err
  | panic
deriving DecidableEq, Repr

/-- crates/onnx-ir/src/proto_conversion.rs:340-434 `tensor_data_ref_from_proto`, followed by
`to_tensor_data`. `ext` is the external reference, `none` if it cannot be resolved (no base path, bad entry,
path refused; 445-468). -/
def tensorData (p : Proto) (ext : Option ExtRef) : Outcome :=
  match elementType p.dataType with
  | none => .err
  | some t =>
    let shape := convertShape p.dims
    if p.external then
      match ext with
      | none => .err
      | some e =>
        match loadExternal e.content e.offset (e.length.getD (defaultLength shape t)) with
        | none => .panic
        | some bytes => .ok ⟨shape, t, bytes⟩
    else if p.raw ≠ [] then .ok ⟨shape, t, p.raw⟩
    else .ok ⟨shape, t, typedBytes t p⟩

/-- crates/onnx-ir/src/proto_conversion.rs:170-186: the payload length of the fallback. -/
def payloadLen (p : Proto) (elems : Nat) : Nat :=
  let typed := max p.int32Data.length (max p.int64Data.length (max p.floatData.length
    (max p.doubleData.length p.stringData.length)))
  if typed > 0 then typed
  else if p.raw ≠ [] ∧ elems = 1 then 1 else 0

/-- crates/onnx-ir/src/graph_state.rs:560-575: the lazy conversion and, when it reports an error,
proto_conversion.rs:131-268 `argument_from_initializer` (whose first step, without a base path, fails
again: the same type is refused, and external data always is). 201-206 panics for the same reason. -/
def initializer (p : Proto) (ext : Option ExtRef) : Outcome :=
  match tensorData p ext with
  | .err =>
    if p.dims.any (· < 0) then .panic
    else
      let elems := if p.dims = [] then 1 else (convertShape p.dims).foldl (· * ·) 1
      if (p.dims = [] ∨ p.dims = [1]) ∧ payloadLen p elems = 1 then .panic
      else if elems = 0 ∧ payloadLen p elems = 0 ∧ p.dims ≠ [] then
        match elementType p.dataType with
        | none => .panic
        | some t => .ok ⟨convertShape p.dims, t, []⟩
      else .panic
  | r => r

/-- proto_conversion.rs:290-310 and 141-163: the type of an initializer's argument. -/
def initializerType (d : Data) : ArgType :=
  if d.shape = [] then .scalarNative d.dtype
  else .tensor ⟨d.dtype, d.shape.length, some (d.shape.map some)⟩

/-- Value of the low `8 * w` bits read as a signed number. -/
def signed (w n : Nat) : Int := if n < 2 ^ (8 * w - 1) then n else (n : Int) - 2 ^ (8 * w)

/-- One element read from memory by `TensorData::as_slice`/`iter` (trusted: burn-tensor casts the bytes on the
little-endian host). A boolean byte other than 0 and 1 has no meaning (`none`). -/
def readElem (t : DType) (bs : List UInt8) : Option Int :=
  let n := Onnx.leValue bs
  match t with
  | .i64 => some (signed 8 n)
  | .i32 => some (signed 4 n)
  | .i16 => some (signed 2 n)
  | .i8 => some (signed 1 n)
  | .bool => if n ≤ 1 then some n else none
  | _ => some n

/-- The elements of a tensor, read one after the other; `none` when the bytes are not a whole number of
elements (the cast fails). `fuel` bounds the number of elements. -/
def readAll (t : DType) : Nat → List UInt8 → Option (List Int)
  | _, [] => some []
  | 0, _ :: _ => none
  | fuel + 1, b :: bs =>
    if (b :: bs).length < byteWidth t then none
    else
      match readElem t ((b :: bs).take (byteWidth t)), readAll t fuel ((b :: bs).drop (byteWidth t)) with
      | some v, some vs => some (v :: vs)
      | _, _ => none

/-- The elements of a tensor as the rest of the importer sees them. -/
def Data.values (d : Data) : Option (List Int) := readAll d.dtype d.bytes.length d.bytes

end OnnxIR.Decode
