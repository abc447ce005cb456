import Verif.Spec.Broadcast
import Verif.Spec.Reduce

/-!
# Where: ONNX's definition and Burn's masks
-/

namespace OnnxIR

variable {α : Type} [Inhabited α]

namespace Onnx

/-- ONNX's Where: the three tensors are broadcast, the condition chooses at every index. -/
def whereT (c : Tensor Bool) (x y : Tensor α) : Option (Tensor α) :=
  (bcastAll [c.shape, x.shape, y.shape]).map fun s =>
    Tensor.ofFn s fun i => if c.get (proj c.shape i) then x.get (proj x.shape i) else y.get (proj y.shape i)

/-- ONNX's Sum and Mean before the division: the tensors are broadcast, the elements at every index combined from the left. -/
def sumT (add : α → α → α) : List (Tensor α) → Option (Tensor α)
  | [] => none
  | x :: xs => xs.foldlM (fun a b => Tensor.zipBcast add a b) x

/-- ONNX's Clip of one element, with bounds in order: at least `lo`, at most `hi`. -/
def clipElem (le : α → α → Bool) (lo hi : Option α) (x : α) : α :=
  let y := match lo with | some l => if le l x then x else l | none => x
  match hi with | some h => if le y h then y else h | none => y

end Onnx

namespace Burn

/-- `y.mask_where(mask, x)` on tensors of one rank, all three broadcast. -/
def maskWhere (y : Tensor α) (m : Tensor Bool) (x : Tensor α) : Option (Tensor α) :=
  if m.shape.length = y.shape.length ∧ x.shape.length = y.shape.length then
    (bcastAll [m.shape, x.shape, y.shape]).map fun s =>
      Tensor.ofFn s fun i => if m.get (proj m.shape i) then x.get (proj x.shape i) else y.get (proj y.shape i)
  else none

/-- `y.mask_fill(mask, v)`: only the mask is broadcast, to the shape of `y`. -/
def maskFill (y : Tensor α) (m : Tensor Bool) (v : α) : Option (Tensor α) :=
  if m.shape.length = y.shape.length ∧ bcast m.shape y.shape = some y.shape then
    some (Tensor.ofFn y.shape fun i => if m.get (proj m.shape i) then v else y.get i)
  else none

end Burn

/-- A mask of shape `[2, 1]` chooses between a row and a number. -/
example : (Onnx.whereT ⟨[2, 1], [true, false], rfl⟩ (⟨[3], [1, 2, 3], rfl⟩ : Tensor Int) ⟨[], [9], rfl⟩).map (fun t => (t.shape, t.data)) =
    some ([2, 3], [1, 2, 3, 9, 9, 9]) := by decide +kernel

end OnnxIR
