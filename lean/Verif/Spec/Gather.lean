import Verif.Spec.GatherND
import Verif.Spec.Generated
import Verif.Spec.BurnAxis

/-!
# Gather and GatherElements: ONNX's definitions and Burn's methods
-/

namespace OnnxIR

variable {α : Type} [Inhabited α]

namespace Onnx

/-- `Z` is Gather of `X` along position `a` with the indices `I`: that dimension is replaced by the dimensions of the indices,
and the index found there (negative from the back) picks the place in `X`. -/
structure GatherT (a : Nat) (X : Tensor α) (I : Tensor Int) (Z : Tensor α) : Prop where
  axis : a < X.shape.length
  valid : ∀ x ∈ I.data, (index (X.shape.getD a 0) x).isSome
  shape : Z.shape = X.shape.take a ++ I.shape ++ X.shape.drop (a + 1)
  elems : ∀ ia ii ib, InRange (X.shape.take a) ia → InRange I.shape ii → InRange (X.shape.drop (a + 1)) ib →
    ∃ j, index (X.shape.getD a 0) (I.get ii) = some j ∧ Z.get (ia ++ ii ++ ib) = X.get (ia ++ j :: ib)

/-- `Z` is GatherElements of `X` along position `a`: `Z` has the shape of the indices, and the element at `i` is the one of
`X` at `i` with the coordinate along the axis replaced by the index found at `i`. -/
structure GatherElementsT (a : Nat) (X : Tensor α) (I : Tensor Int) (Z : Tensor α) : Prop where
  axis : a < X.shape.length
  shape : Z.shape = I.shape
  rank : I.shape.length = X.shape.length
  elems : ∀ i, InRange I.shape i → ∃ j, index (X.shape.getD a 0) (I.get i) = some j ∧ InRange X.shape (i.set a j) ∧
    Z.get i = X.get (i.set a j)

end Onnx

namespace Burn

/-- `Tensor::select(dim, indices)`, indices of rank 1. Burn documents indices from 0 on; what a backend makes of negative ones
is left open: `pick d i` is the place meant by index `i` in a dimension of size `d`, `none` a panic. -/
def select (pick : Nat → Int → Option Nat) (t : Tensor α) (a : Nat) (js : Tensor Int) : Option (Tensor α) :=
  if a < t.shape.length ∧ js.shape.length = 1 ∧ ∀ x ∈ js.data, (pick (t.shape.getD a 0) x).isSome then
    some (Tensor.ofFn (t.shape.set a js.data.length) fun i =>
      t.get (i.set a ((pick (t.shape.getD a 0) (js.data.getD (i.getD a 0) 0)).getD 0)))
  else none

/-- `Tensor::take::<DI, DO>(dim, indices)`: selects with the indices in a row and restores their dimensions. -/
def take (pick : Nat → Int → Option Nat) (t : Tensor α) (a : Nat) (js : Tensor Int) (rank : Nat) : Option (Tensor α) :=
  if rank + 1 = js.shape.length + t.shape.length then
    (reshape js [prodShape js.shape]).bind fun flat => (select pick t a flat).bind fun u =>
      reshape u (t.shape.take a ++ js.shape ++ t.shape.drop (a + 1))
  else none

/-- `Tensor::slice(s![.., k, ..])` with one number at position `a`, negative from the back: that dimension gets size one. -/
def sliceAt (t : Tensor α) (a : Nat) (k : Int) : Option (Tensor α) :=
  if a < t.shape.length ∧ -(t.shape.getD a 0 : Int) ≤ k ∧ k < t.shape.getD a 0 then
    some (Tensor.ofFn (t.shape.set a 1) fun i =>
      t.get (i.set a (if 0 ≤ k then k.toNat else (k + t.shape.getD a 0).toNat)))
  else none

/-- `Tensor::gather(dim, indices)`: indices as for `select`. Burn documents indices whose dimensions are those of the tensor
except along `dim`; anything else counts as a panic here. -/
def gather (pick : Nat → Int → Option Nat) (t : Tensor α) (a : Nat) (js : Tensor Int) : Option (Tensor α) :=
  if a < t.shape.length ∧ js.shape.set a 0 = t.shape.set a 0 ∧ ∀ i ∈ indices js.shape,
      ∃ j ∈ pick (t.shape.getD a 0) (js.get i), i.set a j ∈ indices t.shape then
    some (Tensor.ofFn js.shape fun i => t.get (i.set a ((pick (t.shape.getD a 0) (js.get i)).getD 0)))
  else none

end Burn

end OnnxIR
