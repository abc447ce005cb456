import Verif.Spec.Tensor
import Mathlib.Algebra.BigOperators.Group.List.Basic

/-!
# The ONNX Col2Im operator

The columns of the input are blocks of an image, one for every position of a window that slides over the padded image; the output is the image
in which every element is the sum of what the blocks have in its place.
-/

namespace OnnxIR

/-- What is known about one spatial axis. -/
structure ColAxis where
  img : Nat
  block : Nat
  dil : Nat := 1
  before : Nat := 0
  after : Nat := 0
  stride : Nat := 1

namespace Onnx

/-- There are `n` windows along the axis: those that end inside the padded image. -/
def Windows (a : ColAxis) (n : Nat) : Prop := 0 < n ∧ ∀ w, w < n ↔ w * a.stride + a.dil * (a.block - 1) < a.img + a.before + a.after

/-- Element `k` of window `w` belongs to place `p` of the image. -/
def LandsOn : List ColAxis → List Nat → List Nat → List Nat → Bool
  | a :: as, k :: ks, w :: ws, p :: ps => w * a.stride + k * a.dil == p + a.before && LandsOn as ks ws ps
  | [], [], [], [] => true
  | _, _, _, _ => false

/-- `Y` is Col2Im of `X`; `counts` are the numbers of windows. -/
structure Col2ImT {α : Type} [Inhabited α] [AddCommMonoid α] (axes : List ColAxis) (counts : List Nat) (X Y : Tensor α) : Prop where
  windows : List.Forall₂ Windows axes counts
  shape : ∃ n c, X.shape = [n, c * prodShape (axes.map (·.block)), prodShape counts] ∧ Y.shape = n :: c :: axes.map (·.img)
  elems : ∀ n c p, InRange Y.shape (n :: c :: p) → Y.get (n :: c :: p) =
    ((indices (axes.map (·.block))).map fun k => ((indices counts).map fun w =>
      if LandsOn axes k w p then X.get [n, c * prodShape (axes.map (·.block)) + flatIdx (axes.map (·.block)) k, flatIdx counts w] else 0).sum).sum

end Onnx

end OnnxIR
