import Verif.Spec.Tensor

/-!
# ONNX MatMul, element by element

NumPy's `matmul`: the last two dimensions are matrices and the others are broadcast; a vector on the
left is a row, a vector on the right a column, and the dimension added for it is removed again.
Independent of the code. `dot` is the sum of products, whatever the arithmetic.
-/

namespace OnnxIR.Onnx

/-- `k` elements. -/
def line {α : Type} (k : Nat) (f : Nat → α) : List α := (List.range k).map f

/-- `z = x · y`. -/
def MatMul {α : Type} [Inhabited α] (dot : List α → List α → α) (x y z : Tensor α) : Prop :=
  (∃ ba bb s m k n, x.shape = ba ++ [m, k] ∧ y.shape = bb ++ [k, n] ∧ bcast ba bb = some s ∧
    z.shape = s ++ [m, n] ∧ ∀ ib i j, InRange s ib → i < m → j < n →
      z.get (ib ++ [i, j]) = dot (line k fun l => x.get (proj ba ib ++ [i, l]))
        (line k fun l => y.get (proj bb ib ++ [l, j]))) ∨
  (∃ bb k n, x.shape = [k] ∧ y.shape = bb ++ [k, n] ∧ z.shape = bb ++ [n] ∧
    ∀ ib j, InRange bb ib → j < n →
      z.get (ib ++ [j]) = dot (line k fun l => x.get [l]) (line k fun l => y.get (ib ++ [l, j]))) ∨
  (∃ ba m k, x.shape = ba ++ [m, k] ∧ y.shape = [k] ∧ z.shape = ba ++ [m] ∧
    ∀ ib i, InRange ba ib → i < m →
      z.get (ib ++ [i]) = dot (line k fun l => x.get (ib ++ [i, l])) (line k fun l => y.get [l])) ∨
  (∃ k, x.shape = [k] ∧ y.shape = [k] ∧ z.shape = [] ∧
    z.get [] = dot (line k fun l => x.get [l]) (line k fun l => y.get [l]))

end OnnxIR.Onnx

namespace OnnxIR

/-- ONNX's MatMulInteger subtracts a zero point before it multiplies: one for the whole tensor, or one for each entry of dimension `axis`
counted from the back (2: rows of the first operand, 1: columns of the second). -/
def Onnx.centred (axis : Nat) (z : Option (Tensor Int)) (x : Tensor Int) : Tensor Int :=
  Tensor.ofFn x.shape fun i => x.get i - match z with
    | none => 0
    | some z => if z.shape = [] then z.get [] else z.get [i.getD (x.shape.length - axis) 0]

end OnnxIR
