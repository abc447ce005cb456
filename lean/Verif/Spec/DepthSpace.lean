import Verif.Spec.Tensor

/-!
# ONNX DepthToSpace and SpaceToDepth

Element by element, from the operators' documentation. Independent of the code.
-/

namespace OnnxIR.Onnx

/-- The order of the blocks within the depth dimension. -/
inductive DepthMode
  | dcr
  | crd

/-- Which channel of the input holds pixel `(p, q)` of a block, for output channel `c` of `c'`. -/
def DepthMode.channel (m : DepthMode) (bs c' c p q : Nat) : Nat :=
  match m with
  | .dcr => (p * bs + q) * c' + c
  | .crd => c * (bs * bs) + p * bs + q

/-- `y` is DepthToSpace of `x` with block size `bs`. -/
def DepthToSpace {α : Type} [Inhabited α] (m : DepthMode) (bs : Nat) (x y : Tensor α) : Prop :=
  ∃ b c' h w, x.shape = [b, c' * (bs * bs), h, w] ∧ y.shape = [b, c', h * bs, w * bs] ∧
    ∀ n c i p j q, n < b → c < c' → i < h → p < bs → j < w → q < bs →
      y.get [n, c, i * bs + p, j * bs + q] = x.get [n, m.channel bs c' c p q, i, j]

/-- `y` is SpaceToDepth of `x` with block size `bs`. -/
def SpaceToDepth {α : Type} [Inhabited α] (bs : Nat) (x y : Tensor α) : Prop :=
  ∃ b c' h w, x.shape = [b, c', h * bs, w * bs] ∧ y.shape = [b, c' * (bs * bs), h, w] ∧
    ∀ n c i p j q, n < b → c < c' → i < h → p < bs → j < w → q < bs →
      y.get [n, (p * bs + q) * c' + c, i, j] = x.get [n, c, i * bs + p, j * bs + q]

end OnnxIR.Onnx
