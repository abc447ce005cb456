import Verif.Model.Split
import Verif.Spec.Pieces

/-!
# The code generated for Split
-/

namespace OnnxIR.Gen

variable {α : Type} [Inhabited α]

/-- crates/burn-onnx/src/burn/node/split.rs:12-57: `split_with_sizes`, then the vector of pieces is turned into an array with one
element for each output, which panics when their numbers differ. -/
def genSplit (c : Infer.SplitConfig) (outputs : Nat) (u : Tensor α) : Option (List (Tensor α)) :=
  (Infer.generatedSizes c (u.shape.getD c.axis 0)).bind fun sizes =>
    (Burn.splitWithSizes u sizes c.axis).bind fun zs => if zs.length = outputs then some zs else none

end OnnxIR.Gen
