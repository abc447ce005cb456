import Verif.Model.OpRules

/-!
# Code generated for Shape
-/

namespace OnnxIR

/-- The generated code for a tensor input: `&dims[start..end]` copied into an array of `end - start`
(crates/burn-onnx/src/burn/node/shape.rs:26-43); the slice panics unless `start ≤ end ≤ rank`. -/
def genShape (start stop : Option Int) (dims : List Nat) : Option (List Int) :=
  let b := Infer.shapeBounds dims.length start stop
  if 0 ≤ b.1 ∧ b.1 ≤ b.2 ∧ b.2 ≤ dims.length then
    some (((dims.take b.2.toNat).drop b.1.toNat).map Int.ofNat)
  else none

/-- The generated code for a `Shape(k)` input: the array `[k]` (shape.rs:44-50). -/
def genShapeOfShape (k : Nat) : List Int := [k]

end OnnxIR
