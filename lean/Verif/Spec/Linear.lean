import Verif.Spec.Burn

/-!
# ONNX Gemm and Burn's Linear layer

`dot` is the sum of products, whatever the arithmetic.
-/

namespace OnnxIR

namespace Onnx

variable {α : Type} [Inhabited α]

/-- Element of a matrix or of its transpose. -/
def elem (t : Bool) (a : Tensor α) (i j : Nat) : α := if t then a.get [j, i] else a.get [i, j]

/-- Gemm: `Y = alpha * A' * B' + beta * C`, where `A'` is `M × K`, `B'` is `K × N` and `C`, if given, is broadcast to
`M × N`. -/
def gemmVal (dot : List α → List α → α) (mul add : α → α → α) (alpha beta : α) (ta tb : Bool) (a b : Tensor α)
    (c : Option (Tensor α)) : Option (Tensor α) :=
  match a.shape, b.shape with
  | [a0, a1], [b0, b1] =>
    let m := if ta then a1 else a0
    let k := if ta then a0 else a1
    let k' := if tb then b1 else b0
    let n := if tb then b0 else b1
    let prod := fun i j => mul alpha (dot ((List.range k).map fun l => elem ta a i l)
      ((List.range k).map fun l => elem tb b l j))
    if k = k' then
      match c with
      | none => some (Tensor.ofFn [m, n] fun i => prod (i.getD 0 0) (i.getD 1 0))
      | some c =>
        if bcast c.shape [m, n] = some [m, n] then
          some (Tensor.ofFn [m, n] fun i => add (prod (i.getD 0 0) (i.getD 1 0)) (mul beta (c.get (proj c.shape i))))
        else none
    else none
  | _, _ => none

end Onnx

namespace Burn

variable {α : Type} [Inhabited α]

/-- A value plus entry `j` of a bias, if there is one. -/
def addBias (add : α → α → α) (b : Option (Tensor α)) (j : Nat) (p : α) : α :=
  match b with
  | none => p
  | some c => add p (c.get [j])

/-- `nn::Linear::forward` with a weight of shape `[d_input, d_output]` and an optional bias of shape `[d_output]`:
`y = x w + b` along the last dimension of `x`, whatever its rank (at least 1). A parameter loaded with another shape is
an error. -/
def linear (dot : List α → List α → α) (add : α → α → α) (x w : Tensor α) (b : Option (Tensor α)) :
    Option (Tensor α) :=
  match x.shape.reverse, w.shape with
  | k :: bs, [k', n] =>
    if k = k' ∧ ∀ c ∈ b, c.shape = [n] then
      some (Tensor.ofFn (bs.reverse ++ [n]) fun i =>
        addBias add b (i.getD bs.length 0)
          (dot (row k fun l => x.get (i.take bs.length ++ [l])) (row k fun l => w.get [l, i.getD bs.length 0])))
    else none
  | _, _ => none

/-- `Tensor::transpose` on matrices. -/
def transpose2 (t : Tensor α) : Option (Tensor α) :=
  match t.shape with
  | [m, n] => some (Tensor.ofFn [n, m] fun i => t.get [i.getD 1 0, i.getD 0 0])
  | _ => none

/-- Arithmetic with a number. -/
def mulScalar (mul : α → α → α) (t : Tensor α) (s : α) : Tensor α := t.map fun v => mul v s

/-- Arithmetic on two tensors of the same rank, broadcast along dimensions of size one. -/
def binary (f : α → α → α) (x y : Tensor α) : Option (Tensor α) :=
  if x.shape.length = y.shape.length then Tensor.zipBcast f x y else none

end Burn

end OnnxIR
