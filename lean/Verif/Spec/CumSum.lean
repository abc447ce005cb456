import Verif.Spec.BurnAxis

/-!
# ONNX CumSum

From the ONNX operator reference: the cumulative sum along `axis` (negative axes count from the back).
By default the element at position `k` is the sum of the inputs at positions up to and including `k`;
with `reverse` the summation runs from the other end; with `exclusive` the element itself is left out.
-/

namespace OnnxIR.Onnx

variable {α : Type} [Inhabited α]

/-- The positions along the axis that the output at position `k` adds up. -/
def cumSumPositions (n k : Nat) (exclusive reverse : Bool) : List Nat :=
  (List.range n).filter fun j =>
    (if reverse then decide (k ≤ j) else decide (j ≤ k)) && !(exclusive && j == k)

/-- CumSum along an existing axis. -/
def cumSumAt [Add α] [Zero α] (x : Tensor α) (axis : Nat) (exclusive reverse : Bool) : Tensor α :=
  Tensor.ofFn x.shape fun i =>
    ((cumSumPositions (x.shape.getD axis 0) (i.getD axis 0) exclusive reverse).map fun j =>
      x.get (i.set axis j)).sum

/-- `y` is the CumSum of `x`. The axis is in `[-r, r-1]`, and attributes are 0 or 1 (default 0). -/
def IsCumSum [Add α] [Zero α] (x : Tensor α) (axis : Int) (exclusive reverse : Bool) (y : Tensor α) :
    Prop :=
  ∃ a : Nat, a < x.shape.length ∧ (axis = a ∨ axis = (a : Int) - x.shape.length) ∧
    y = cumSumAt x a exclusive reverse

end OnnxIR.Onnx
