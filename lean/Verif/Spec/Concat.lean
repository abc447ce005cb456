import Verif.Spec.OpShapes2
import Verif.Spec.Generated
import Verif.Spec.BurnAxis

/-!
# Concat: ONNX's definition and Burn's method
-/

namespace OnnxIR

variable {α : Type}

/-- A scalar as a vector of one element; other tensors as they are. ONNX does not allow scalars in Concat, the importer
takes them for vectors. -/
def Tensor.vec (X : Tensor α) : Tensor α :=
  if h : X.shape = [] then ⟨[1], X.data, by rw [X.size, h]; rfl⟩ else X

/-- `Reps` for every argument. -/
inductive RepsAll (ofInt : Int → α) : List ArgType → List (GVal α) → List (Tensor α) → Prop
  | nil : RepsAll ofInt [] [] []
  | cons {ty tys v vs T Ts} : Reps ofInt ty v T → RepsAll ofInt tys vs Ts → RepsAll ofInt (ty :: tys) (v :: vs) (T :: Ts)

namespace Onnx

/-- `Z` is the concatenation of `Xs` along position `k`: input number `m` is found in `Z` behind those before it. -/
structure ConcatT [Inhabited α] (k : Nat) (Xs : List (Tensor α)) (Z : Tensor α) : Prop where
  shape : Concat k (Xs.map (·.shape)) Z.shape
  elems : ∀ (m : Nat) X i, Xs[m]? = some X → InRange X.shape i →
    Z.get (i.set k (i.getD k 0 + ((Xs.take m).map (·.shape.getD k 0)).sum)) = X.get i

end Onnx

namespace Burn

/-- `Tensor::cat(vec![…], axis)`; panics on an empty list, on a missing axis and when the other dimensions differ. Written
with `cat2`, the case of two tensors. -/
def cat [Inhabited α] (ts : List (Tensor α)) (axis : Nat) : Option (Tensor α) :=
  match ts with
  | [] => none
  | [t] => if axis < t.shape.length then some t else none
  | t :: ts => (cat ts axis).bind (cat2 t · axis)

end Burn

/-- Two matrices side by side. -/
def concatA : Tensor Int := ⟨[2, 1], [1, 2], rfl⟩
/-- See `concatA`. -/
def concatB : Tensor Int := ⟨[2, 2], [3, 4, 5, 6], rfl⟩

example : (Burn.cat [concatA, concatB] 1).map (fun t => (t.shape, t.data)) = some ([2, 3], [1, 3, 4, 2, 5, 6]) := by
  decide +kernel

end OnnxIR
