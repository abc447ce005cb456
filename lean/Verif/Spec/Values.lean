import Verif.Model.Types
import Verif.Spec.Tensor

/-!
# Numeric tensors with an element type

Values of constants: integer tensors and floating-point tensors. The `f32` and `f64` numbers are
arbitrary types `A` and `B`. Tensors of the narrow float types are kept as bit patterns (`int`).
-/

namespace OnnxIR

/-- A numeric tensor and its element type. -/
inductive CVal (A B : Type)
  | int (d : DType) (t : Tensor Int)
  | f32 (t : Tensor A)
  | f64 (t : Tensor B)

namespace CVal

variable {A B : Type}

instance [DecidableEq A] [DecidableEq B] : DecidableEq (CVal A B) := fun a b =>
  match a, b with
  | .int d s, .int e t =>
    if h : d = e ∧ s = t then isTrue (by rw [h.1, h.2]) else isFalse fun hh => h (by cases hh; simp)
  | .f32 s, .f32 t => if h : s = t then isTrue (by rw [h]) else isFalse fun hh => h (by cases hh; simp)
  | .f64 s, .f64 t => if h : s = t then isTrue (by rw [h]) else isFalse fun hh => h (by cases hh; simp)
  | .int _ _, .f32 _ => isFalse (by simp)
  | .int _ _, .f64 _ => isFalse (by simp)
  | .f32 _, .int _ _ => isFalse (by simp)
  | .f32 _, .f64 _ => isFalse (by simp)
  | .f64 _, .int _ _ => isFalse (by simp)
  | .f64 _, .f32 _ => isFalse (by simp)

/-- Dimensions. -/
def shape : CVal A B → List Nat
  | .int _ t => t.shape
  | .f32 t => t.shape
  | .f64 t => t.shape

/-- Element type. -/
def dtype : CVal A B → DType
  | .int d _ => d
  | .f32 _ => .f32
  | .f64 _ => .f64

/-- The element type of an integer (or bit-pattern) tensor is not one of the two float types. -/
def Ok : CVal A B → Prop
  | .int d _ => d ≠ .f32 ∧ d ≠ .f64
  | _ => True

end CVal

/-- The same elements in another shape with as many elements. -/
def Tensor.withShape {α : Type} (t : Tensor α) (s : List Nat) (h : prodShape t.shape = prodShape s) :
    Tensor α := ⟨s, t.data, by rw [t.size, h]⟩

/-- `CVal` version of `Tensor.withShape`. -/
def CVal.withShape {A B : Type} : (v : CVal A B) → (s : List Nat) →
    prodShape v.shape = prodShape s → CVal A B
  | .int d t, s, h => .int d (t.withShape s h)
  | .f32 t, s, h => .f32 (t.withShape s h)
  | .f64 t, s, h => .f64 (t.withShape s h)

/-! ### Integer arithmetic -/

/-- Two's-complement reduction to the width of an integer element type. -/
def wrapInt : DType → Int → Int
  | .i64, z => Int.bmod z (2 ^ 64)
  | .i32, z => Int.bmod z (2 ^ 32)
  | .i16, z => Int.bmod z (2 ^ 16)
  | .i8, z => Int.bmod z (2 ^ 8)
  | .u64, z => z % 2 ^ 64
  | .u32, z => z % 2 ^ 32
  | .u16, z => z % 2 ^ 16
  | .u8, z => z % 2 ^ 8
  | _, z => z

/-- The four arithmetic operators. -/
inductive ArithOp
  | add | sub | mul | div
deriving DecidableEq, Repr

/-- Exact integer result; division truncates towards zero (ONNX `Div` on integers). -/
def ArithOp.onInt : ArithOp → Int → Int → Int
  | .add, a, b => a + b
  | .sub, a, b => a - b
  | .mul, a, b => a * b
  | .div, a, b => a.tdiv b

/-- Floating-point operations in both widths, and conversions. -/
structure FloatSpec (A B : Type) where
  op64 : ArithOp → B → B → B
  op32 : ArithOp → A → A → A
  neg64 : B → B
  neg32 : A → A
  sqrt64 : B → B
  sqrt32 : A → A
  /-- nearest `f32` -/
  round : B → A
  /-- the same number -/
  widen : A → B
  /-- nearest `f64` of an integer -/
  int64 : Int → B
  /-- nearest `f32` of an integer -/
  int32 : Int → A
  /-- integer part, if the number is finite -/
  trunc : B → Option Int

/-! ### The operators -/

section

variable {A B : Type} [Inhabited A] [Inhabited B]

/-- ONNX `Add`, `Sub`, `Mul`, `Div` with broadcasting, on two tensors of the same element type.
Undefined for an integer division by zero. -/
def onnxArith (fs : FloatSpec A B) (op : ArithOp) : CVal A B → CVal A B → Option (CVal A B)
  | .int d x, .int e y =>
    if d ≠ e ∨ (op = .div ∧ 0 ∈ y.data) then none
    else (x.zipBcast (fun a b => wrapInt d (op.onInt a b)) y).map (.int d)
  | .f32 x, .f32 y => (x.zipBcast (fs.op32 op) y).map .f32
  | .f64 x, .f64 y => (x.zipBcast (fs.op64 op) y).map .f64
  | _, _ => none

/-- ONNX `Neg`. -/
def onnxNeg (fs : FloatSpec A B) : CVal A B → CVal A B
  | .int d x => .int d (x.map fun a => wrapInt d (-a))
  | .f32 x => .f32 (x.map fs.neg32)
  | .f64 x => .f64 (x.map fs.neg64)

/-- ONNX `Sqrt`, on floating-point tensors. -/
def onnxSqrt (fs : FloatSpec A B) : CVal A B → Option (CVal A B)
  | .int _ _ => none
  | .f32 x => some (.f32 (x.map fs.sqrt32))
  | .f64 x => some (.f64 (x.map fs.sqrt64))

/-- Integers of an element type. -/
def DType.fits : DType → Int → Prop
  | .i64, z => -(2 ^ 63) ≤ z ∧ z < 2 ^ 63
  | .i32, z => -(2 ^ 31) ≤ z ∧ z < 2 ^ 31
  | _, _ => False

/-- `y` is what ONNX `Cast` to the element type `d` makes of `x` (integers, `f32` and `f64`).
Nothing is said about a float that is not in the range of the integer type: ONNX leaves that
undefined. -/
def IsCast (fs : FloatSpec A B) (d : DType) (x y : CVal A B) : Prop :=
  y.Ok ∧ y.dtype = d ∧ y.shape = x.shape ∧ (x.dtype = d → y = x) ∧
  match x, y with
  | .int _ _, .int _ _ => True
  | .int _ s, .f32 t => t = s.map fs.int32
  | .int _ s, .f64 t => t = s.map fs.int64
  | .f32 s, .f32 t => t = s
  | .f64 s, .f64 t => t = s
  | .f32 s, .f64 t => t = s.map fs.widen
  | .f64 s, .f32 t => t = s.map fs.round
  | .f32 s, .int _ t => ∀ ks : List Int, s.data.map (fun a => fs.trunc (fs.widen a)) = ks.map some →
      (∀ k ∈ ks, d.fits k) → t.data = ks
  | .f64 s, .int _ t => ∀ ks : List Int, s.data.map fs.trunc = ks.map some →
      (∀ k ∈ ks, d.fits k) → t.data = ks

/-- Concatenation along the first dimension of tensors with elements in row-major order. -/
def concat0 {α : Type} (ts : List (List Nat × List α)) : Option (List Nat × List α) :=
  match ts with
  | [] => none
  | (s, _) :: _ =>
    if s ≠ [] ∧ ∀ t ∈ ts, t.1 ≠ [] ∧ t.1.tail = s.tail then
      some ((ts.map fun t => t.1.headD 0).sum :: s.tail, (ts.map Prod.snd).flatten)
    else none

/-- The elements of an `i64` or `i32` tensor are numbers of that type. -/
def CVal.ElemsFit : CVal A B → Prop
  | .int .i64 t => ∀ k ∈ t.data, DType.i64.fits k
  | .int .i32 t => ∀ k ∈ t.data, DType.i32.fits k
  | _ => True

/-- `y` is the concatenation of `xs` along the first dimension. -/
def IsConcat0 (xs : List (CVal A B)) (y : CVal A B) : Prop :=
  match y with
  | .int d t => ∃ ss : List (Tensor Int), xs = ss.map (.int d) ∧
      concat0 (ss.map fun s => (s.shape, s.data)) = some (t.shape, t.data)
  | .f32 t => ∃ ss : List (Tensor A), xs = ss.map .f32 ∧
      concat0 (ss.map fun s => (s.shape, s.data)) = some (t.shape, t.data)
  | .f64 t => ∃ ss : List (Tensor B), xs = ss.map .f64 ∧
      concat0 (ss.map fun s => (s.shape, s.data)) = some (t.shape, t.data)

end

end OnnxIR
