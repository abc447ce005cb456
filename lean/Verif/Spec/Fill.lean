import Verif.Spec.BurnAxis
import Verif.Spec.GatherND
import Verif.Spec.Transpose

/-!
# Pad, Tile, Trilu, OneHot and NonZero: ONNX's definitions and Burn's methods
-/

namespace OnnxIR

variable {α : Type} [Inhabited α]

/-- The modes of Pad that the importer knows. -/
inductive FillMode
  | constant | reflect | edge
deriving DecidableEq

namespace Onnx

/-- Where Pad reads for position `p` of a dimension of size `d`, `p` counted from the first element of the input; `none` for the
constant. -/
def padPlace (mode : FillMode) (d : Nat) (p : Int) : Option Nat :=
  if 0 ≤ p ∧ p < d then some p.toNat
  else match mode with
    | .constant => none
    | .edge => some (if p < 0 then 0 else d - 1)
    | .reflect => some (if p < 0 then (-p).toNat else (2 * (d - 1 : Int) - p).toNat)

/-- All places at once: `none` as soon as one of them is outside. -/
def padIndex (mode : FillMode) (begins : List Int) (s i : List Nat) : Option (List Nat) :=
  (List.range s.length).mapM fun k => padPlace mode (s.getD k 0) (i.getD k 0 - begins.getD k 0)

/-- `Z` is Pad of `X` with `pads` (the numbers of elements put before every dimension, then those put behind it) and `value`. -/
structure PadT (mode : FillMode) (pads : List Int) (value : α) (X Z : Tensor α) : Prop where
  len : pads.length = 2 * X.shape.length
  nonneg : ∀ p ∈ pads, 0 ≤ p
  /-- Nothing can be repeated or reflected in a dimension that is too small. -/
  room : ∀ k, k < X.shape.length → (pads.getD k 0 = 0 ∧ pads.getD (X.shape.length + k) 0 = 0) ∨
    (mode = .edge → 0 < X.shape.getD k 0) ∧
    (mode = .reflect → pads.getD k 0 < X.shape.getD k 0 ∧ pads.getD (X.shape.length + k) 0 < X.shape.getD k 0)
  rank : Z.shape.length = X.shape.length
  shape : ∀ k, k < X.shape.length → (Z.shape.getD k 0 : Int) =
    pads.getD k 0 + X.shape.getD k 0 + pads.getD (X.shape.length + k) 0
  elems : ∀ i, InRange Z.shape i → Z.get i = match padIndex mode (pads.take X.shape.length) X.shape i with
    | some j => X.get j
    | none => value

/-- `Z` is Tile of `X`: every dimension is repeated as often as `reps` says. -/
structure TileT (reps : List Int) (X Z : Tensor α) : Prop where
  len : reps.length = X.shape.length
  nonneg : ∀ p ∈ reps, 0 ≤ p
  rank : Z.shape.length = X.shape.length
  shape : ∀ k, k < X.shape.length → (Z.shape.getD k 0 : Int) = X.shape.getD k 0 * reps.getD k 0
  elems : ∀ i, InRange Z.shape i → Z.get i = X.get (List.zipWith (· % ·) i X.shape)

/-- Trilu: of the matrices in the last two dimensions the part on and above (below) diagonal `k`, zeros elsewhere. -/
def triluT (zero : α) (upper : Bool) (k : Int) (X : Tensor α) : Tensor α :=
  Tensor.ofFn X.shape fun i =>
    let off : Int := i.getD (X.shape.length - 1) 0 - i.getD (X.shape.length - 2) 0
    if (if upper then k ≤ off else off ≤ k) then X.get i else zero

/-- OneHot: a new dimension of size `depth` at position `a`, with `on` at the index and `off` elsewhere; indices outside give no
`on`. -/
def oneHotT (depth a : Nat) (on off : α) (I : Tensor Int) : Tensor α :=
  Tensor.ofFn (I.shape.take a ++ depth :: I.shape.drop a) fun i =>
    if index depth (I.get (i.eraseIdx a)) = some (i.getD a 0) then on else off

/-- NonZero: one row for each dimension, one column for each element that is not zero, in row-major order. -/
def nonzeroT (isZero : α → Bool) (X : Tensor α) : Tensor Int :=
  let js := (indices X.shape).filter fun j => !isZero (X.get j)
  Tensor.ofFn [X.shape.length, js.length] fun i => ((js.getD (i.getD 1 0) []).getD (i.getD 0 0) 0 : Nat)

end Onnx

namespace Burn

/-- The element that `pad` reads in a dimension of size `d` with `b` elements put before it; in mode `Constant` only asked for
inside. -/
def padRead (mode : FillMode) (b d i : Nat) : Nat :=
  if i < b then (if mode = .edge then 0 else b - i)
  else if i < b + d then i - b
  else if mode = .edge then d - 1 else (d - 1) - (i - b - (d - 1))

/-- `Tensor::pad([(before, after); D], mode)`. Panics if there is not a pair for each dimension, and in the modes `Reflect`
(padding not below the size) and `Edge` (nothing to repeat). -/
def pad (t : Tensor α) (ps : List (Nat × Nat)) (mode : FillMode) (value : α) : Option (Tensor α) :=
  let b := fun k => (ps.getD k (0, 0)).1
  let e := fun k => (ps.getD k (0, 0)).2
  let d := fun k => t.shape.getD k 0
  let ks := List.range t.shape.length
  if ps.length = t.shape.length ∧ ∀ k ∈ ks, b k = 0 ∧ e k = 0 ∨
      (mode = .edge → 0 < d k) ∧ (mode = .reflect → b k < d k ∧ e k < d k) then
    some (Tensor.ofFn (ks.map fun k => b k + d k + e k) fun i =>
      if mode = .constant ∧ ∃ k ∈ ks, i.getD k 0 < b k ∨ b k + d k ≤ i.getD k 0 then value
      else t.get (ks.map fun k => padRead mode (b k) (d k) (i.getD k 0)))
  else none

/-- `Tensor::repeat_dim(dim, times)`. -/
def repeatDim (t : Tensor α) (d n : Nat) : Option (Tensor α) :=
  if d < t.shape.length then
    some (Tensor.ofFn (t.shape.set d (t.shape.getD d 0 * n)) fun i => t.get (i.set d (i.getD d 0 % t.shape.getD d 0)))
  else none

/-- `Tensor::repeat(sizes)`: `repeat_dim` for one dimension after the other. -/
def repeats (t : Tensor α) (ns : List Nat) : Option (Tensor α) :=
  ns.zipIdx.foldlM (fun t p => repeatDim t p.2 p.1) t

/-- `Tensor::triu(diagonal)` and `tril(diagonal)`. -/
def tri (zero : α) (upper : Bool) (t : Tensor α) (k : Int) : Option (Tensor α) :=
  if 2 ≤ t.shape.length then some (Onnx.triluT zero upper k t) else none

/-- `Tensor::one_hot_fill(num_classes, on, off, axis)`: the axis may count from the back; panics on indices outside. -/
def oneHotFill (I : Tensor Int) (depth : Nat) (on off : α) (axis : Int) : Option (Tensor α) :=
  let a := if axis < 0 then axis + I.shape.length + 1 else axis
  if 0 ≤ a ∧ a ≤ I.shape.length ∧ ∀ x ∈ I.data, -(depth : Int) ≤ x ∧ x < depth then
    some (Tensor.ofFn (I.shape.take a.toNat ++ depth :: I.shape.drop a.toNat) fun i =>
      let x := I.get (i.eraseIdx a.toNat)
      if (if x < 0 then x + depth else x) = (i.getD a.toNat 0 : Nat) then on else off)
  else none

/-- `Tensor<Bool>::argwhere()`: one row for each element that is true. -/
def argwhere (t : Tensor Bool) : Tensor Int :=
  let js := (indices t.shape).filter t.get
  Tensor.ofFn [js.length, t.shape.length] fun i => ((js.getD (i.getD 0 0) []).getD (i.getD 1 0) 0 : Nat)

end Burn

end OnnxIR
