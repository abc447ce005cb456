import Verif.Spec.OpShapes2
import Verif.Spec.ShapeOps

/-!
# ONNX output shapes: ArgMax, TopK, OneHot, Slice, Pad, Tile, pooling, BatchNormalization, …

From the operators' documentation. Independent of the code.
-/

namespace OnnxIR.Onnx

/-- ArgMax and ArgMin reduce one axis. -/
def argmax (a : Int) (keepdims : Bool) (s : List Nat) : Option (List Nat) :=
  (axis s.length a).map fun k => if keepdims then s.set k 1 else s.eraseIdx k

/-- TopK keeps `k` elements along the axis. -/
def topk (a : Int) (k : Nat) (s : List Nat) : Option (List Nat) :=
  (axis s.length a).bind fun i => if k ≤ s.getD i 0 then some (s.set i k) else none

/-- OneHot inserts a dimension of size `depth`; the axis counts positions in the result. -/
def oneHot (a : Int) (depth : Nat) (s : List Nat) : Option (List Nat) :=
  (axis (s.length + 1) a).map fun i => s.insertIdx i depth

/-- Number of elements that a slice of a dimension of size `n` reads. -/
def sliceLen (n : Nat) (start stop step : Int) : Nat :=
  (onnxSlice1 (List.replicate n 0) start stop step).length

/-- Slice: the dimension of each listed axis becomes the length of its slice. -/
def slice (s : List Nat) : List (Int × Int × Int × Int) → Option (List Nat)
  | [] => some s
  | (a, start, stop, step) :: rest =>
    match axis s.length a, slice s rest with
    | some i, some out => some (out.set i (sliceLen (s.getD i 0) start stop step))
    | _, _ => none

/-- Pad: every dimension grows by its two pads. -/
def pad (s begins ends : List Nat) : Option (List Nat) :=
  if begins.length = s.length ∧ ends.length = s.length then
    some ((s.zip (begins.zip ends)).map fun p => p.1 + p.2.1 + p.2.2) else none

/-- Tile: every dimension is multiplied. -/
def tile (s repeats : List Nat) : Option (List Nat) :=
  if repeats.length = s.length then some (s.zipWith (· * ·) repeats) else none

/-- GlobalAveragePool: batch and channels stay, every spatial dimension becomes 1. -/
def globalPool : List Nat → Option (List Nat)
  | n :: c :: sp => some (n :: c :: List.replicate sp.length 1)
  | _ => none

/-- BatchNormalization keeps the shape; scale has one element per channel. -/
def batchNorm (s scale : List Nat) : Option (List Nat) :=
  if s.length ≥ 2 ∧ scale = [s.getD 1 0] then some s else none

/-- NonZero: one row per dimension, one column per element found. -/
def nonZero (found : Nat) (s : List Nat) : List Nat := [s.length, found]

/-- ConstantOfShape: the output's shape is the input's value. -/
def constantOfShape (value : List Int) : Option (List Nat) :=
  if ∀ d ∈ value, 0 ≤ d then some (value.map Int.toNat) else none

end OnnxIR.Onnx
