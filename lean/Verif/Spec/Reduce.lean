import Verif.Spec.OpShapes2
import Verif.Spec.Generated

/-!
# Reductions: ONNX's definition and Burn's methods
-/

namespace OnnxIR

/-- A multi-index with zeros at the positions `is`. -/
def zeroAt (is j : List Nat) : List Nat := j.mapIdx fun k v => if k ∈ is then 0 else v

/-- Elements of a mapped tensor. -/
theorem Tensor.get_map {α β : Type} [Inhabited α] [Inhabited β] {t : Tensor α} {f : α → β} {i : List Nat}
    (hi : InRange t.shape i) : (t.map f).get i = f (t.get i) := by
  have hl := flatIdx_lt hi
  rw [← t.size] at hl
  simp [Tensor.get, Tensor.map, hl]

namespace Onnx

variable {α : Type} [Inhabited α]

/-- ONNX's Reduce over the axes `as` (all if none are given): the element at an output index is `red` of all input
elements whose index agrees with it outside the axes. `red` is the sum, product, maximum, … of a list. -/
def reduceT (red : List α → α) (as : List Int) (keepdims : Bool) (x : Tensor α) : Option (Tensor α) :=
  (if as = [] then some (List.range x.shape.length) else axes x.shape.length as).map fun is =>
    if keepdims then
      Tensor.ofFn (x.shape.mapIdx fun i d => if i ∈ is then 1 else d) fun i =>
        red (((indices x.shape).filter fun j => zeroAt is j = i).map x.get)
    else
      Tensor.ofFn (dropAt is x.shape) fun i =>
        red (((indices x.shape).filter fun j => dropAt is j = i).map x.get)

end Onnx

namespace Burn

variable {α : Type}

/-- `Tensor::sum_dim`, `max_dim`, …: the axis stays with size one. -/
def reduceDim [Inhabited α] (red : List α → α) (t : Tensor α) (d : Nat) : Option (Tensor α) :=
  if d < t.shape.length then
    some (Tensor.ofFn (t.shape.set d 1) fun i =>
      red ((List.range (t.shape.getD d 0)).map fun k => t.get (i.set d k)))
  else none

/-- `Tensor::sum`, `max`, …: a tensor of shape `[1]`. -/
def reduceAll (red : List α → α) (t : Tensor α) : Tensor α := ⟨[1], [red t.data], rfl⟩

/-- `Tensor::squeeze_dims::<D2>(&dims)` with at least one dimension: all must have size one; panics when all
dimensions would go ("Attempted to squeeze too many dimensions!") and when `D2` dimensions do not remain. -/
def squeezeDims (t : Tensor α) (dims : List Nat) (rank : Nat) : Option (Tensor α) :=
  if dims.length < t.shape.length ∧ (∀ d ∈ dims, t.shape[d]? = some 1) ∧
      (Onnx.dropAt dims t.shape).length = rank then
    reshape t (Onnx.dropAt dims t.shape)
  else none

/-- `Tensor::expand` to a shape of at least the same rank: dimensions of size one are repeated, new ones come in
front. -/
def expand [Inhabited α] (t : Tensor α) (s : List Nat) : Option (Tensor α) :=
  if bcast t.shape s = some s then some (Tensor.ofFn s fun i => t.get (proj t.shape i)) else none

end Burn

end OnnxIR
