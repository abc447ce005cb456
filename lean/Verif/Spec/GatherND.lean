import Verif.Spec.Tensor

/-!
# ONNX GatherND

Element by element. Independent of the code.
-/

namespace OnnxIR.Onnx

/-- An index into a dimension of size `d`; negative ones count from the back. `none` out of bounds. -/
def index (d : Nat) (i : Int) : Option Nat :=
  if 0 ≤ i ∧ i < d then some i.toNat
  else if -(d : Int) ≤ i ∧ i < 0 then some (i + d).toNat
  else none

/-- `y` is GatherND of `data` at `idx` with `b` batch dimensions: the two tensors share the batch
dimensions `bs`; the index tuples have one entry for each of the dimensions `ks` of the data; `ss` are
the remaining dimensions of the data. -/
def GatherND {α : Type} [Inhabited α] (b : Nat) (data : Tensor α) (idx : Tensor Int)
    (y : Tensor α) : Prop :=
  ∃ bs ls ks ss : List Nat, bs.length = b ∧ data.shape = bs ++ ks ++ ss ∧
    idx.shape = bs ++ ls ++ [ks.length] ∧ y.shape = bs ++ ls ++ ss ∧
    ∀ ib il is, InRange bs ib → InRange ls il → InRange ss is →
      ∃ ik, ik.length = ks.length ∧
        (∀ j, j < ks.length → index (ks.getD j 0) (idx.get (ib ++ il ++ [j])) = some (ik.getD j 0)) ∧
        y.get (ib ++ il ++ is) = data.get (ib ++ ik ++ is)

end OnnxIR.Onnx
