import Verif.Spec.BurnAxis

/-!
# The pieces of a tensor
-/

namespace OnnxIR

variable {α : Type} [Inhabited α]

namespace Onnx

/-- ONNX's Split along axis `a` into pieces of the given sizes: piece number `k` starts where those before it end. -/
structure SplitT (a : Nat) (sizes : List Nat) (X : Tensor α) (Zs : List (Tensor α)) : Prop where
  axis : a < X.shape.length
  count : Zs.length = sizes.length
  total : sizes.sum = X.shape.getD a 0
  piece : ∀ (k d : Nat) (Z : Tensor α), sizes[k]? = some d → Zs[k]? = some Z → Z.shape = X.shape.set a d ∧
    ∀ i, InRange Z.shape i → Z.get i = X.get (i.set a (i.getD a 0 + (sizes.take k).sum))

/-- The sizes of a Split without explicit ones into `n` pieces: the least size `c` with which `n` pieces suffice, except for the last
piece, which has what remains. -/
def EvenSizes (dim n : Nat) (sizes : List Nat) : Prop :=
  ∃ c last, sizes = List.replicate (n - 1) c ++ [last] ∧ 0 < n ∧ sizes.sum = dim ∧ last ≤ c ∧ ∀ c', dim ≤ n * c' → c ≤ c'

end Onnx

namespace Burn

/-- Consecutive pieces from `start` on. -/
def pieces (t : Tensor α) (a : Nat) : List Nat → Nat → Option (List (Tensor α))
  | [], _ => some []
  | d :: ds, start => (narrow t a start d).bind fun z => (pieces t a ds (start + d)).map (z :: ·)

/-- `Tensor::split_with_sizes(sizes, dim)`: panics when the sizes do not add up to the dimension. What becomes of an empty piece is not
documented; it is taken as a panic here. -/
def splitWithSizes (t : Tensor α) (sizes : List Nat) (a : Nat) : Option (List (Tensor α)) :=
  if a < t.shape.length ∧ sizes.sum = t.shape.getD a 0 then pieces t a sizes 0 else none

end Burn

end OnnxIR
