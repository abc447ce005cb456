import Verif.Spec.Generated
import Verif.Spec.Unary

/-!
# Typed elements: conversions between element types, constants and filled tensors

Elements are integers, floating-point values by class (with exact rational values, without the sign of zero) or booleans. How a number is
rounded to a floating-point type is a parameter.
-/

namespace OnnxIR

/-- A number or truth value. -/
inductive Num
  | int (n : Int)
  | float (x : FloatVal)
  | bool (b : Bool)
deriving DecidableEq

instance : Inhabited Num := ⟨.int 0⟩

/-- Rounding to the floating-point types, exact for 0 and 1. -/
structure Rounding where
  rnd : DType → FloatVal → FloatVal
  zero : ∀ d, rnd d (.finite 0) = .finite 0
  one : ∀ d, rnd d (.finite 1) = .finite 1

/-- The smallest and the largest value of an integer type. -/
def DType.bounds : DType → Option (Int × Int)
  | .i64 => some (-2 ^ 63, 2 ^ 63 - 1)
  | .i32 => some (-2 ^ 31, 2 ^ 31 - 1)
  | .i16 => some (-2 ^ 15, 2 ^ 15 - 1)
  | .i8 => some (-2 ^ 7, 2 ^ 7 - 1)
  | .u64 => some (0, 2 ^ 64 - 1)
  | .u32 => some (0, 2 ^ 32 - 1)
  | .u16 => some (0, 2 ^ 16 - 1)
  | .u8 => some (0, 2 ^ 8 - 1)
  | _ => none

/-- `n` is a value of the integer type `d`. -/
def DType.Holds (d : DType) (n : Int) : Prop := ∃ b ∈ d.bounds, b.1 ≤ n ∧ n ≤ b.2

instance (d : DType) (n : Int) : Decidable (d.Holds n) :=
  match h : d.bounds with
  | some b => if hb : b.1 ≤ n ∧ n ≤ b.2 then isTrue ⟨b, h ▸ rfl, hb⟩ else isFalse fun ⟨c, hc, h'⟩ => hb (by rw [h] at hc; cases hc; exact h')
  | none => isFalse fun ⟨c, hc, _⟩ => by rw [h] at hc; cases hc

/-- `x` is a value of element type `d`. -/
def Num.Is (R : Rounding) (d : DType) : Num → Prop
  | .int n => d.Holds n
  | .float x => (d = .f64 ∨ d = .f32 ∨ d = .f16 ∨ d = .bf16) ∧ R.rnd d x = x
  | .bool _ => d = .bool

/-- A number without its fraction. -/
def truncate (x : Rat) : Int := if 0 ≤ x then x.floor else x.ceil

/-- 0 or 1. -/
def ofBool (b : Bool) : Int := if b then 1 else 0

/-- Applying a partial function to every element. -/
def Tensor.mapOpt {α β : Type} (f : α → Option β) (t : Tensor α) : Option (Tensor β) :=
  if h : ((t.data.mapM f).getD []).length = prodShape t.shape then
    (t.data.mapM f).map fun _ => ⟨t.shape, (t.data.mapM f).getD [], h⟩
  else none

namespace Onnx

/-- Cast of one element: to a floating-point type rounded; to an integer type without the fraction, undefined for values out of
range, and from integers modulo the size of the type; to truth values by comparison with zero. -/
def castElem (R : Rounding) (dst : DType) (x : Num) : Option Num :=
  match dst, x with
  | .bool, .int n => some (.bool (n != 0))
  | .bool, .float x => some (.bool (x != .finite 0))
  | .bool, .bool b => some (.bool b)
  | dst, x =>
    match dst.bounds, x with
    | some (lo, hi), .int n => some (.int (lo + (n - lo) % (hi - lo + 1)))
    | some (lo, hi), .float (.finite x) => if lo ≤ truncate x ∧ truncate x ≤ hi then some (.int (truncate x)) else none
    | some _, .float _ => none
    | some _, .bool b => some (.int (ofBool b))
    | none, .int n => some (.float (R.rnd dst (.finite n)))
    | none, .float x => some (.float (R.rnd dst x))
    | none, .bool b => some (.float (.finite (ofBool b)))

/-- EyeLike: ones on diagonal `k` of a matrix, zeros elsewhere. -/
def eyeLike (one zero : Num) (k : Int) (rows cols : Nat) : Tensor Num :=
  Tensor.ofFn [rows, cols] fun i => if (i.getD 1 0 : Int) = i.getD 0 0 + k then one else zero

/-- ConstantOfShape: everywhere the value, by default 0 of type `f32`. -/
def constantOfShapeT (value : Option Num) (dims : List Nat) : Tensor Num :=
  Tensor.ofFn dims fun _ => value.getD (.float (.finite 0))

/-- One as an element of type `d`. -/
def one : DType → Num
  | .f64 | .f32 | .f16 | .bf16 => .float (.finite 1)
  | .bool => .bool true
  | _ => .int 1

/-- Zero as an element of type `d`. -/
def zero : DType → Num
  | .f64 | .f32 | .f16 | .bf16 => .float (.finite 0)
  | .bool => .bool false
  | _ => .int 0

end Onnx

namespace Burn

/-- `Tensor::cast` to a type of the same kind; what becomes of integers out of range is left open. -/
def castElem (R : Rounding) (dst : DType) : Num → Option Num
  | .int n => if dst.Holds n then some (.int n) else none
  | .float x => some (.float (R.rnd dst x))
  | .bool _ => none

/-- `Tensor::float`: to the floating-point type `dflt` of the backend. -/
def toFloat (R : Rounding) (dflt : DType) : Num → Option Num
  | .int n => some (.float (R.rnd dflt (.finite n)))
  | .bool b => some (.float (.finite (ofBool b)))
  | .float _ => none

/-- `Tensor::int`: to the integer type `dflt` of the backend. -/
def toInt (dflt : DType) : Num → Option Num
  | .float (.finite x) => if dflt.Holds (truncate x) then some (.int (truncate x)) else none
  | .float _ => none
  | .bool b => some (.int (ofBool b))
  | .int _ => none

/-- `Tensor::bool`. -/
def toBool : Num → Option Num
  | .int n => some (.bool (n != 0))
  | .float x => some (.bool (x != .finite 0))
  | .bool _ => none

/-- `Tensor::diag_mask` of a matrix: false on diagonal `offset`, true elsewhere. -/
def diagMask (offset : Int) (rows cols : Nat) : Tensor Num :=
  Tensor.ofFn [rows, cols] fun i => .bool ((i.getD 0 0 : Int) - (i.getD 1 0 - offset) != 0)

/-- `bool_not`. -/
def boolNot : Num → Option Num
  | .bool b => some (.bool (!b))
  | _ => none

/-- `Tensor::from_data` of one element. -/
def single {α : Type} (x : α) : Tensor α := ⟨[1], [x], rfl⟩

/-- `Tensor::expand` with an array of sizes; not described for sizes below 1. -/
def expandTo {α : Type} [Inhabited α] (t : Tensor α) (dims : List Int) : Option (Tensor α) :=
  if ∀ d ∈ dims, 1 ≤ d then expand t (dims.map Int.toNat) else none

end Burn

/-- Rust's `as` between number types: rounded to floats, without fraction and saturating to integers (NaN becomes 0); from `bool` to
integers only, to `bool` never. `half`'s types have no `as`. -/
def rustAs (R : Rounding) (src dst : DType) (x : Num) : Option Num :=
  if src = .f16 ∨ src = .bf16 ∨ dst = .f16 ∨ dst = .bf16 ∨ dst = .bool then none
  else
    match dst.bounds, x with
    | some (lo, hi), .int n => some (.int (lo + (n - lo) % (hi - lo + 1)))
    | some (lo, hi), .float (.finite x) => some (.int (max lo (min hi (truncate x))))
    | some _, .float .nan => some (.int 0)
    | some (lo, _), .float .negInf => some (.int lo)
    | some (_, hi), .float .posInf => some (.int hi)
    | some _, .bool b => some (.int (ofBool b))
    | none, .int n => some (.float (R.rnd dst (.finite n)))
    | none, .float x => some (.float (R.rnd dst x))
    | none, .bool _ => none

end OnnxIR
