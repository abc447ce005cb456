import Verif.Model.MatMul
import Verif.Spec.Generated

/-!
# MatMulInteger: ONNX's zero points and the generated code

Elements are integers; the sum of products is a parameter, so that the overflow of 32-bit integers is left open.
-/

namespace OnnxIR

namespace Gen

/-- One operand (crates/burn-onnx/src/burn/node/matmul_integer.rs:32-56): cast (exact for bytes), minus the zero point with dimensions in
front. A zero point that is not on the device has no `cast`. -/
def centred (z : Option (GVal Int)) (x : Tensor Int) : Option (Tensor Int) :=
  match z with
  | none => some x
  | some (.dev u) => (if 1 < x.shape.length then Burn.unsqueeze u x.shape.length else some u).bind fun u => Burn.zip (· - ·) x u
  | some _ => none

/-- matmul_integer.rs:12-108: the product is that of `matmul.rs`. -/
def matmulInteger (dot : List Int → List Int → Int) (za zb : Option (GVal Int)) (x y : Tensor Int) : Option (Tensor Int) :=
  (centred za x).bind fun x => (centred zb y).bind fun y => matmul dot x y

end Gen

end OnnxIR
