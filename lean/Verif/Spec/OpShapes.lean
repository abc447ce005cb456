import Verif.Spec.Broadcast

/-!
# ONNX output shapes

What the ONNX operator definitions say about output shapes, written from the operator documentation
and independently of the inference code. `none` means the inputs are not legal.
-/

namespace OnnxIR.Onnx

/-- A legal axis of a rank-`r` tensor, counted from the back when negative. -/
def axis (r : Nat) (a : Int) : Option Nat :=
  if -(r : Int) ≤ a ∧ a < r then some (if a < 0 then a + r else a).toNat else none

/-- All axes legal and distinct. -/
def axes (r : Nat) (as : List Int) : Option (List Nat) :=
  match as with
  | [] => some []
  | a :: rest =>
    match axis r a, axes r rest with
    | some i, some is => if i ∈ is then none else some (i :: is)
    | _, _ => none

/-- The list without the elements at the given positions (`k` is the position of the head). -/
def dropAtFrom {α : Type} (k : Nat) (idxs : List Nat) : List α → List α
  | [] => []
  | x :: xs => if k ∈ idxs then dropAtFrom (k + 1) idxs xs else x :: dropAtFrom (k + 1) idxs xs

/-- The list without the elements at the given positions. -/
def dropAt {α : Type} (idxs : List Nat) (l : List α) : List α := dropAtFrom 0 idxs l

/-- Squeeze with axes: each must have size 1. -/
def squeeze (as : List Int) (s : List Nat) : Option (List Nat) :=
  match axes s.length as with
  | some is => if is.all fun i => s[i]? == some 1 then some (dropAt is s) else none
  | none => none

/-- Squeeze without axes: all dimensions of size 1 are removed. -/
def squeezeAll (s : List Nat) : List Nat := s.filter (· ≠ 1)

/-- `out` is the result of Unsqueeze: ones at the given positions of the output, the input
dimensions, in order, at the others. -/
def Unsqueeze (as : List Int) (s out : List Nat) : Prop :=
  out.length = s.length + as.length ∧
  ∃ is, axes out.length as = some is ∧ (∀ i ∈ is, out[i]? = some 1) ∧ dropAt is out = s

/-- Transpose: output dimension `i` is input dimension `perm[i]`. -/
def transpose (perm : List Nat) (s : List Nat) : Option (List Nat) :=
  if perm.length = s.length ∧ perm.Nodup then perm.mapM (s[·]?) else none

/-- Flatten to two dimensions at an axis in `[-r, r]`. -/
def flatten (a : Int) (s : List Nat) : Option (List Nat) :=
  if -(s.length : Int) ≤ a ∧ a ≤ s.length then
    let k := (if a < 0 then a + s.length else a).toNat
    some [prodShape (s.take k), prodShape (s.drop k)]
  else none

/-- NumPy `matmul`. -/
def matmul (a b : List Nat) : Option (List Nat) :=
  match a.reverse, b.reverse with
  | [k], [k'] => if k = k' then some [] else none
  | [k], n :: k' :: bb => if k = k' then some (bb.reverse ++ [n]) else none
  | k :: m :: ba, [k'] => if k = k' then some (ba.reverse ++ [m]) else none
  | k :: m :: ba, n :: k' :: bb =>
    if k = k' then (bcast ba.reverse bb.reverse).map (· ++ [m, n]) else none
  | _, _ => none

/-- Gemm: `A` (or its transpose) is `M × K`, `B` (or its transpose) `K × N`. -/
def gemm (ta tb : Bool) (a b : List Nat) : Option (List Nat) :=
  match a, b with
  | [a0, a1], [b0, b1] =>
    let (m, k) := if ta then (a1, a0) else (a0, a1)
    let (k', n) := if tb then (b1, b0) else (b0, b1)
    if k = k' then some [m, n] else none
  | _, _ => none

/-- As in the documentation. -/
example : squeeze [0, -1] [1, 3, 1] = some [3] ∧ squeezeAll [1, 3, 1, 5] = [3, 5] ∧
    flatten 2 [2, 3, 4, 5] = some [6, 20] ∧ flatten (-1) [2, 3, 4, 5] = some [24, 5] ∧
    flatten 0 [2, 3] = some [1, 6] ∧ transpose [2, 0, 1] [5, 6, 7] = some [7, 5, 6] ∧
    matmul [9, 5, 7, 4] [9, 5, 4, 3] = some [9, 5, 7, 3] ∧ matmul [4] [9, 5, 4, 3] = some [9, 5, 3] ∧
    matmul [2, 3] [3] = some [2] ∧ matmul [3] [3] = some [] ∧ matmul [1, 2, 3] [7, 3, 4] = some [7, 2, 4] := by
  decide +kernel

example : Unsqueeze [0, 4] [3, 4, 5] [1, 3, 4, 5, 1] := by
  refine ⟨by decide, [0, 4], by decide, by decide, by decide⟩

end OnnxIR.Onnx
