import Verif.Spec.Reduce
import Verif.Spec.Reshape

/-!
# Operators that only rearrange or repeat elements

Burn's methods for changing the shape of a tensor, as documented by Burn (trusted), with signed arguments. `none`
is a panic, or a call outside what Burn documents.
-/

namespace OnnxIR

/-- An ONNX operator that keeps all elements in row-major order and only gives the tensor another shape. -/
def Viewed {α : Type} (X Z : Tensor α) (out : List Nat) : Prop := Z.shape = out ∧ Z.data = X.data

namespace Burn

variable {α : Type}

/-- A signed dimension of a tensor of rank `r`, counted from the back when negative; `none` out of range. -/
def dimOf (r : Nat) (a : Int) : Option Nat :=
  if 0 ≤ a then (if a < r then some a.toNat else none)
  else if 0 ≤ a + r then some (a + r).toNat else none

/-- `Tensor::squeeze_dims::<D2>(&axes)`: without axes all dimensions of size one go. -/
def squeezeAxes (t : Tensor α) (as : List Int) (rank : Nat) : Option (Tensor α) :=
  match as with
  | [] =>
    if (t.shape.filter (· ≠ 1)).length = rank ∧ 1 ≤ rank then reshape t (t.shape.filter (· ≠ 1)) else none
  | _ => (as.mapM (dimOf t.shape.length)).bind fun is => squeezeDims t is rank

/-- `Tensor::squeeze::<D2>()`: drops all dimensions of size one; panics when `D2` dimensions do not remain. -/
def squeezeOnes (t : Tensor α) (rank : Nat) : Option (Tensor α) :=
  if (t.shape.filter (· ≠ 1)).length = rank then reshape t (t.shape.filter (· ≠ 1)) else none

/-- Dimensions of size one at the positions `is` of a result of `n` dimensions from position `k` on, the given
dimensions at the others. -/
def insertOnes (is : List Nat) : Nat → Nat → List Nat → Option (List Nat)
  | _, 0, [] => some []
  | _, 0, _ :: _ => none
  | k, n + 1, s =>
    if k ∈ is then (insertOnes is (k + 1) n s).map (1 :: ·)
    else match s with
      | [] => none
      | d :: ds => (insertOnes is (k + 1) n ds).map (d :: ·)

/-- `Tensor::unsqueeze_dims::<D2>(&axes)` on distinct positions of the result with at most one counted from the
back. (Burn gives several negative positions a meaning of its own, one after the other; such calls, and calls
where the ranks do not add up, are outside this definition.) -/
def unsqueezeDims (t : Tensor α) (as : List Int) (rank : Nat) : Option (Tensor α) :=
  if rank = t.shape.length + as.length ∧ (as.filter (· < 0)).length ≤ 1 then
    (as.mapM (dimOf rank)).bind fun is => (insertOnes is 0 rank t.shape).bind (reshape t)
  else none

/-- The dimensions that `Tensor::reshape` reads off signed arguments: 0 copies the input's dimension at that
position, −1 (`none` here) is left to be computed. The outer `none` is a panic. -/
def reshapeEntries (s : List Nat) : Nat → List Int → Option (List (Option Nat))
  | _, [] => some []
  | k, v :: vs =>
    if v = -1 then (reshapeEntries s (k + 1) vs).map (none :: ·)
    else if v < 0 then none
    else if v = 0 then s[k]?.bind fun d => (reshapeEntries s (k + 1) vs).map (some d :: ·)
    else (reshapeEntries s (k + 1) vs).map (some v.toNat :: ·)

/-- Product of the dimensions that are known. -/
def knownPart : List (Option Nat) → Nat
  | [] => 1
  | some d :: ds => d * knownPart ds
  | none :: ds => knownPart ds

/-- `Tensor::reshape` with an array of signed numbers: at most one −1, which stands for the number of elements
divided by the other dimensions (dividing by zero panics). -/
def reshapeSigned (t : Tensor α) (args : List Int) : Option (Tensor α) :=
  (reshapeEntries t.shape 0 args).bind fun es =>
    if 1 < args.count (-1) then none
    else if -1 ∈ args then
      if knownPart es = 0 then none
      else reshape t (es.map fun e => e.getD (prodShape t.shape / knownPart es))
    else reshape t (es.map fun e => e.getD 0)

/-- `Tensor::<B, D, _>::from_data` of an array with one element: panics unless `D` is 1. -/
def fromOne (x : α) (rank : Nat) : Option (Tensor α) := if rank = 1 then some ⟨[1], [x], rfl⟩ else none

end Burn

example : Burn.reshapeEntries [6, 3, 4] 0 [2, 0, -1] = some [some 2, some 3, none] ∧
    Burn.insertOnes [0, 4] 0 5 [3, 4, 5] = some [1, 3, 4, 5, 1] ∧ Burn.dimOf 3 (-1) = some 2 := by decide

end OnnxIR
