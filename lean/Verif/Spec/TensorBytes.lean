import Verif.Model.Types

/-!
# ONNX tensors: raw bytes and typed fields

The ONNX format (onnx.proto, message TensorProto): `raw_data` holds the elements one after the other, each
in fixed width, little-endian; the typed fields hold the same elements as protobuf numbers. Integer elements
are integers, elements of floating-point type are taken as their bit patterns, booleans as 0 and 1.
-/

namespace OnnxIR.Onnx

/-- Bytes of one element. -/
def byteWidth : DType → Nat
  | .f64 | .i64 | .u64 => 8
  | .f32 | .i32 | .u32 => 4
  | .f16 | .bf16 | .i16 | .u16 => 2
  | .i8 | .u8 | .bool => 1

/-- The numbers of onnx.proto's enum `TensorProto.DataType`. -/
def dataTypeNumber : DType → Int
  | .f32 => 1 | .u8 => 2 | .i8 => 3 | .u16 => 4 | .i16 => 5 | .i32 => 6 | .i64 => 7 | .bool => 9 | .f16 => 10
  | .f64 => 11 | .u32 => 12 | .u64 => 13 | .bf16 => 16

/-- The elements an ONNX tensor of a type may hold. -/
def InRange : DType → Int → Prop
  | .i64, v => -2 ^ 63 ≤ v ∧ v < 2 ^ 63
  | .i32, v => -2 ^ 31 ≤ v ∧ v < 2 ^ 31
  | .i16, v => -2 ^ 15 ≤ v ∧ v < 2 ^ 15
  | .i8, v => -2 ^ 7 ≤ v ∧ v < 2 ^ 7
  | .u64, v | .f64, v => 0 ≤ v ∧ v < 2 ^ 64
  | .u32, v | .f32, v => 0 ≤ v ∧ v < 2 ^ 32
  | .u16, v | .f16, v | .bf16, v => 0 ≤ v ∧ v < 2 ^ 16
  | .u8, v => 0 ≤ v ∧ v < 2 ^ 8
  | .bool, v => v = 0 ∨ v = 1

instance (t : DType) (v : Int) : Decidable (InRange t v) := by
  cases t <;> simp only [InRange] <;> infer_instance

/-- The number written by bytes, least significant first. -/
def leValue : List UInt8 → Nat
  | [] => 0
  | b :: bs => b.toNat + 256 * leValue bs

/-- The bytes are the little-endian two's complement of the element. -/
def Encodes (t : DType) (v : Int) (bs : List UInt8) : Prop :=
  InRange t v ∧ bs.length = byteWidth t ∧ ∃ q : Int, v = leValue bs + q * 256 ^ byteWidth t

/-- The raw bytes of a tensor's elements. -/
inductive RawOf (t : DType) : List Int → List UInt8 → Prop
  | nil : RawOf t [] []
  | cons {v : Int} {bs : List UInt8} {vs : List Int} {rest : List UInt8} :
      Encodes t v bs → RawOf t vs rest → RawOf t (v :: vs) (bs ++ rest)

/-- Number of elements of a shape. -/
def elemCount : List Nat → Nat
  | [] => 1
  | d :: ds => d * elemCount ds

end OnnxIR.Onnx
