import Verif.Spec.Burn
import Verif.Model.Types

/-!
# Values in generated code, and the ONNX tensors they stand for

Part of the statements about generated code. Burn has no tensors of rank 0: an ONNX scalar is either a native
number or a tensor of shape `[1]`; an ONNX vector of dimensions may be a native array of `i64`.
-/

namespace OnnxIR

/-- A Rust value in the generated `forward`. -/
inductive GVal (α : Type)
  /-- `Tensor<B, D, _>`. -/
  | dev (t : Tensor α)
  /-- `f32`, `i64`, `bool`, … -/
  | native (x : α)
  /-- `[i64; N]`. -/
  | shape (l : List Int)

variable {α : Type}

/-- `v` is how generated code holds the ONNX tensor `T` when the argument has type `ty`. `ofInt` is an `i64` as an
element. -/
def Reps (ofInt : Int → α) (ty : ArgType) (v : GVal α) (T : Tensor α) : Prop :=
  match ty, v with
  | .tensor t, .dev u => u = T ∧ T.shape.length = t.rank ∧ 1 ≤ t.rank
  | .scalarTensor _, .dev u => u.shape = [1] ∧ T.shape = [] ∧ u.data = T.data
  | .scalarNative _, .native x => T.shape = [] ∧ T.data = [x]
  | .shape n, .shape l => l.length = n ∧ T.shape = [n] ∧ T.data = l.map ofInt
  | _, _ => False

namespace Burn

/-- `Tensor::unsqueeze_dims(&[0, 1, …, n - 1])`: `n` dimensions of size one in front. -/
def unsqueezeFront (t : Tensor α) (n : Nat) : Option (Tensor α) :=
  reshape t (List.replicate n 1 ++ t.shape)

/-- An element-wise method on two tensors: only compiles for the same rank `D`, broadcasts along dimensions of size
one. -/
def zip {β : Type} [Inhabited α] (f : α → α → β) (x y : Tensor α) : Option (Tensor β) :=
  if x.shape.length = y.shape.length then Tensor.zipBcast f x y else none

/-- The first element of a tensor (`into_scalar`, which panics unless there is exactly one). -/
def intoScalar (t : Tensor α) : Option α :=
  match t.data with
  | [x] => some x
  | _ => none

/-- `Tensor::from_data_dtype` of a native array. -/
def ofShape (ofInt : Int → α) (l : List Int) : Tensor α :=
  ⟨[l.length], l.map ofInt, by simp [prodShape]⟩

end Burn

end OnnxIR
