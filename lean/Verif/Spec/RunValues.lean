import Verif.Spec.Forward
import Verif.Model.Unary
import Verif.Spec.Typing

/-!
# The values of a run, in ONNX and in Rust

Floating-point elements are real numbers, integers are unbounded. (Rounding and overflow of tensor arithmetic are not
represented; arrays of `i64` are where the code of an operator treats them specially.)
-/

namespace OnnxIR

/-- A tensor of ONNX. -/
inductive OVal
  | float (t : Tensor ℝ)
  | int (t : Tensor Int)
  | bool (t : Tensor Bool)

/-- A value in generated code: a tensor, a native scalar or an array. -/
inductive RustVal
  | float (v : GVal ℝ)
  | int (v : GVal Int)
  | bool (v : GVal Bool)

/-- The shape of a tensor. -/
def OVal.shape : OVal → List Nat
  | .float t => t.shape
  | .int t => t.shape
  | .bool t => t.shape

/-- The kind of the elements. -/
def OVal.kind : OVal → ElemKind
  | .float _ => .float
  | .int _ => .int
  | .bool _ => .bool

/-- The three kinds of elements: their kind, an `i64` as an element, an element as an `i64`. -/
class Elem (α : Type) extends Inhabited α where
  kind : ElemKind
  ofInt : Int → α
  toInt : α → Int
  wrap : Tensor α → OVal
  rust : GVal α → RustVal
  /-- an integer is read back -/
  back : kind = .int → ∀ x, ofInt (toInt x) = x

noncomputable instance : Elem ℝ where
  default := 0
  kind := .float
  ofInt := Int.cast
  toInt := Int.floor
  wrap := .float
  rust := .float
  back := by intro h; cases h

instance : Elem Int where
  kind := .int
  ofInt := id
  toInt := id
  wrap := .int
  rust := .int
  back _ _ := rfl

instance : Elem Bool where
  kind := .bool
  ofInt := (· != 0)
  toInt := fun b => if b then 1 else 0
  wrap := .bool
  rust := .bool
  back := by intro h; cases h

/-- An argument of type `ty` holds the ONNX tensor as this Rust value: elements of the same kind, represented as the type says. -/
def Holds (ty : ArgType) : RustVal → OVal → Prop
  | .float v, .float T => ty.kind = .float ∧ Reps Int.cast ty v T
  | .int v, .int T => ty.kind = .int ∧ Reps id ty v T
  | .bool v, .bool T => ty.kind = .bool ∧ Reps (· != 0) ty v T
  | _, _ => False

/-- Is the Rust type of the value `Copy`? -/
def GVal.isCopy {α : Type} : GVal α → Bool
  | .dev _ => false
  | .native _ => true
  | .shape _ => true

/-- `Tensor::from_data_dtype([x])`: a native number as a tensor of one element. -/
def GVal.toDevice {α : Type} : GVal α → Option (GVal α)
  | .native x => some (.dev ⟨[1], [x], rfl⟩)
  | _ => none

/-- `into_scalar().elem()`. -/
def GVal.toNative {α : Type} : GVal α → Option (GVal α)
  | .dev u => (Burn.intoScalar u).map .native
  | _ => none

/-- Apply a function for all kinds of elements. -/
noncomputable def RustVal.lift (f : {α : Type} → [Elem α] → GVal α → Option (GVal α)) : RustVal → Option RustVal
  | .float v => (f v).map .float
  | .int v => (f v).map .int
  | .bool v => (f v).map .bool

/-- The rank that a Rust type stands for. Sizes of dimensions are no part of Rust types. -/
def ArgType.HasRank : ArgType → List Nat → Prop
  | .scalarNative _, s => s = []
  | .scalarTensor _, s => s = []
  | .shape k, s => s = [k]
  | .tensor t, s => s.length = t.rank

theorem ArgType.Admits.hasRank {t : ArgType} {s : List Nat} (h : t.Admits s) : t.HasRank s := by
  cases t with
  | tensor t => exact h.1
  | _ => exact h

/-- How the generated code holds tensors. -/
noncomputable def burn : Target OVal RustVal where
  copy
    | .float v => v.isCopy
    | .int v => v.isCopy
    | .bool v => v.isCopy
  holds := Holds
  fits ty v := ty.kind = v.kind ∧ ty.HasRank v.shape
  toDevice _ := RustVal.lift GVal.toDevice
  toNative _ := RustVal.lift GVal.toNative

end OnnxIR
