import Verif.Spec.Generated
import Verif.Model.Broadcast

/-!
# Code generated for binary element-wise operators

crates/burn-onnx/src/burn/node: add, sub, mul, div, equal, greater, greater_equal, lower, lower_equal, bool_and,
bool_or, bool_xor, bitwiseand, bitwiseor, bitwisexor, bitshift, min, max. All have the same shape: a `match` on the kinds
of the two arguments. `BinCode` holds what an operator writes in each arm, `genBinary` is the `match`. `none` is a panic
of the generator, or code that does not compile or panics.
-/

namespace OnnxIR.Gen

variable {α β : Type}

/-- The arms of one operator; `none` is an arm that is missing (the generator panics). -/
structure BinCode (α β : Type) where
  /-- the method called on two tensors -/
  method : α → α → β
  /-- do tensors of different ranks get dimensions of size one in front? -/
  aligned : Bool := true
  /-- tensor with native number: element, number -/
  devNative : Option (α → α → β) := none
  /-- native number with tensor: number, element -/
  nativeDev : Option (α → α → β) := none
  /-- two native numbers -/
  natives : Option (α → α → β) := none
  /-- two arrays: left item, right item -/
  shapes : Option (Int → Int → Int) := none
  /-- array with scalar: item, scalar -/
  shapeScalar : Option (Int → Int → Int) := none
  /-- scalar with array: scalar, item -/
  scalarShape : Option (Int → Int → Int) := none
  /-- is an array made into a tensor when the other side is one? -/
  shapeDev : Bool := false

/-- The tensor arm (add.rs:23-38 and the same lines of the others). The ranks are those of the types. -/
def genAligned [Inhabited α] (c : BinCode α β) (lr rr : Nat) (u v : Tensor α) : Option (Tensor β) :=
  if lr = rr ∨ c.aligned = false then Burn.zip c.method u v
  else if rr < lr then (Burn.unsqueezeFront v (lr - rr)).bind fun v => Burn.zip c.method u v
  else (Burn.unsqueezeFront u (rr - lr)).bind fun u => Burn.zip c.method u v

/-- `for (result_item, rhs_item) in result.iter_mut().zip(rhs.iter()) { *result_item = … }` (add.rs:46-54): items
beyond the shorter array stay as they are. -/
def zipInto (g : Int → Int → Int) : List Int → List Int → List Int
  | a :: as, b :: bs => g a b :: zipInto g as bs
  | as, [] => as
  | [], _ => []

/-- A scalar argument as an `i64` (add.rs:56-60): `on_device_to_native`, or `as i64`. -/
def scalarI64 (toInt : α → Int) : GVal α → Option Int
  | .dev u => (Burn.intoScalar u).map toInt
  | .native x => some (toInt x)
  | .shape _ => none

/-- The array-with-scalar arms (add.rs:55-88). `none` as the operator's code: no such arm, and the next arms are tried. -/
def genShapeScalar (toInt : α → Int) (g : Int → Int → Int) (l : List Int) (s : GVal α) : Option (GVal β) :=
  (scalarI64 toInt s).map fun k => .shape (l.map fun a => g a k)

/-- The `match` on the types of the arguments (add.rs:22-108, the others alike). An array and a tensor of the same
element type meet as tensors of rank 1 (add.rs:89-107); `ofInt`, `toInt`: an `i64` as an element and back. -/
def genBinary [Inhabited α] (ofInt : Int → α) (toInt : α → Int) (c : BinCode α β) (lt rt : ArgType)
    (x y : GVal α) : Option (GVal β) :=
  match x, y with
  | .dev u, .dev v => (genAligned c lt.rank rt.rank u v).map .dev
  | .dev u, .native b => c.devNative.map fun g => .dev (u.map fun a => g a b)
  | .native a, .dev v => c.nativeDev.map fun g => .dev (v.map fun b => g a b)
  | .native a, .native b => c.natives.map fun g => .native (g a b)
  | .shape l, .shape r => c.shapes.map fun g => .shape (zipInto g l r)
  | .shape l, .native b => c.shapeScalar.bind fun g => genShapeScalar toInt g l (.native b)
  | .native a, .shape r => c.scalarShape.bind fun g => genShapeScalar toInt (fun b a => g a b) r (.native a)
  | .shape l, .dev v =>
    match rt.isScalar, c.shapeScalar with
    | true, some g => genShapeScalar toInt g l (.dev v)
    | _, _ => if c.shapeDev then (Burn.zip c.method (Burn.ofShape ofInt l) v).map .dev else none
  | .dev u, .shape r =>
    match lt.isScalar, c.scalarShape with
    | true, some g => genShapeScalar toInt (fun b a => g a b) r (.dev u)
    | _, _ => if c.shapeDev then (Burn.zip c.method u (Burn.ofShape ofInt r)).map .dev else none

/-! ### The operators -/

/-- `i64::saturating_*` of an exact result. -/
def sat (x : Int) : Int := max (-2 ^ 63) (min (2 ^ 63 - 1) x)

/-- add.rs:12-117. -/
def addCode (add : α → α → α) : BinCode α α where
  method := add
  devNative := some add
  nativeDev := some add
  natives := some add
  shapes := some fun a b => sat (a + b)
  shapeScalar := some fun a s => sat (a + s)
  scalarShape := some fun s a => sat (a + s)
  shapeDev := true

/-- sub.rs:12-117. -/
def subCode (sub : α → α → α) : BinCode α α where
  method := sub
  devNative := some sub
  nativeDev := some sub
  natives := some sub
  shapes := some fun a b => sat (a - b)
  shapeScalar := some fun a s => sat (a - s)
  scalarShape := some fun s a => sat (s - a)
  shapeDev := true

/-- mul.rs:12-118. -/
def mulCode (mul : α → α → α) : BinCode α α where
  method := mul
  devNative := some mul
  nativeDev := some mul
  natives := some mul
  shapes := some fun a b => sat (a * b)
  shapeScalar := some fun a s => sat (a * s)
  scalarShape := some fun s a => sat (a * s)
  shapeDev := true

/-- Division of `i64`, guarded against zero (div.rs:66-105). Simplification: `i64::MIN / -1` panics in Rust and is
2^63 here. -/
def guardedDiv (a b dflt : Int) : Int := if b ≠ 0 then a.tdiv b else dflt

/-- div.rs:12-137. A native number divided by a tensor is the tensor's reciprocal times the number (50-51). -/
def divCode (div mul : α → α → α) (recip : α → α) : BinCode α α where
  method := div
  devNative := some div
  nativeDev := some fun a b => mul (recip b) a
  natives := some div
  shapes := some fun a b => guardedDiv a b a
  shapeScalar := some fun a s => guardedDiv a s a
  scalarShape := some fun s a => guardedDiv s a s
  shapeDev := true

/-- A comparison of items as an `i64`. -/
def flag (p : Prop) [Decidable p] : Int := if p then 1 else 0

/-- equal.rs:12-91. -/
def equalCode (eq : α → α → Bool) : BinCode α Bool where
  method := eq
  devNative := some eq
  nativeDev := some fun a b => eq b a
  natives := some eq
  shapes := some fun a b => flag (a = b)
  shapeDev := true

/-- greater.rs:12-84: with a native number on the left the tensor is compared the other way round. `lt a b` is
`a < b`. -/
def greaterCode (lt : α → α → Bool) : BinCode α Bool where
  method := fun a b => lt b a
  devNative := some fun a b => lt b a
  nativeDev := some fun a b => lt b a
  natives := some fun a b => lt b a
  shapes := some fun a b => flag (a > b)
  shapeDev := true

/-- greater_equal.rs:12-84. `le a b` is `a <= b`. -/
def greaterEqualCode (le : α → α → Bool) : BinCode α Bool where
  method := fun a b => le b a
  devNative := some fun a b => le b a
  nativeDev := some fun a b => le b a
  natives := some fun a b => le b a
  shapes := some fun a b => flag (a ≥ b)
  shapeDev := true

/-- lower.rs:12-84. -/
def lessCode (lt : α → α → Bool) : BinCode α Bool where
  method := lt
  devNative := some lt
  nativeDev := some lt
  natives := some lt
  shapes := some fun a b => flag (a < b)
  shapeDev := true

/-- lower_equal.rs:12-84. -/
def lessEqualCode (le : α → α → Bool) : BinCode α Bool where
  method := le
  devNative := some le
  nativeDev := some le
  natives := some le
  shapes := some fun a b => flag (a ≤ b)
  shapeDev := true

/-- bool_and.rs:12-72: a native operand chooses between the tensor and a tensor of zeros. -/
def andCode : BinCode Bool Bool where
  method := (· && ·)
  devNative := some fun a b => if b then a else false
  nativeDev := some fun a b => if a then b else false
  natives := some (· && ·)
  shapes := some fun a b => flag (a ≠ 0 ∧ b ≠ 0)

/-- bool_or.rs:12-69. -/
def orCode : BinCode Bool Bool where
  method := (· || ·)
  devNative := some fun a b => if b then true else a
  nativeDev := some fun a b => if a then true else b
  natives := some (· || ·)
  shapes := some fun a b => flag (a ≠ 0 ∨ b ≠ 0)

/-- bool_xor.rs:12-64: `not_equal`, and `bool_not` chosen by a native operand. -/
def xorCode : BinCode Bool Bool where
  method := fun a b => a != b
  devNative := some fun a b => if b then !a else a
  nativeDev := some fun a b => if a then !b else b
  natives := some Bool.xor
  shapes := some fun a b => flag ((a ≠ 0 ∧ b = 0) ∨ (a = 0 ∧ b ≠ 0))

/-- bitwiseand.rs, bitwiseor.rs, bitwisexor.rs:12-54: with a native number on the left the operands are exchanged. -/
def bitwiseCode (op : α → α → α) : BinCode α α where
  method := op
  devNative := some op
  nativeDev := some fun a b => op b a
  natives := some op

/-- bitshift.rs:12-69, for one direction: no alignment of ranks; a native number on the left becomes a tensor of the
other's shape (`full_like`). -/
def bitshiftCode (shift : α → α → α) : BinCode α α where
  method := shift
  aligned := false
  devNative := some shift
  nativeDev := some shift
  natives := some shift

/-- min.rs:12-44 and max.rs:12-44 (`min_pair`, `max_pair`): tensors only. -/
def pairCode (op : α → α → α) : BinCode α α where
  method := op

end OnnxIR.Gen
