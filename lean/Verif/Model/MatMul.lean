import Verif.Spec.Burn

/-!
# Code generated for MatMul
-/

namespace OnnxIR.Gen

variable {α : Type} [Inhabited α]

/-- crates/burn-onnx/src/burn/node/matmul.rs:46-91. The ranks of the types are taken to be those of
the values (C14); element type checks are left out. -/
def matmul (dot : List α → List α → α) (x y : Tensor α) : Option (Tensor α) :=
  let lr := x.shape.length
  let rr := y.shape.length
  if lr > rr then
    if rr = 1 then
      (Burn.unsqueezeBackFront y (lr - rr - 1)).bind fun y' =>
        (Burn.matmul dot x y').bind fun z => Burn.squeezeDim z (lr - 1)
    else (Burn.unsqueeze y lr).bind fun y' => Burn.matmul dot x y'
  else if lr < rr then
    if lr = 1 then
      (Burn.unsqueeze x rr).bind fun x' =>
        (Burn.matmul dot x' y).bind fun z => Burn.squeezeDim z (rr - 2)
    else (Burn.unsqueeze x rr).bind fun x' => Burn.matmul dot x' y
  else Burn.matmul dot x y

end OnnxIR.Gen
