import Verif.Spec.Linear

/-!
# Code generated for Linear and Gemm
-/

namespace OnnxIR.Gen

variable {α : Type} [Inhabited α]

/-- crates/burn-onnx/src/burn/node/linear.rs:12-85: a field with the weight (input 1) and the bias (input 2) as its
parameters, stored as in the file; with `transpose_weight` the layout is `Col`, in which the layer multiplies by the
transpose of what is stored. Only input 0 is passed at run time. -/
def linear (dot : List α → List α → α) (add : α → α → α) (transposeWeight : Bool) (x w : Tensor α)
    (b : Option (Tensor α)) : Option (Tensor α) :=
  if transposeWeight then (Burn.transpose2 w).bind fun w => Burn.linear dot add x w b
  else Burn.linear dot add x w b

/-- crates/burn-onnx/src/burn/node/gemm.rs:12-72, with `C` a tensor (`unsqueeze` goes to the rank of the product). -/
def gemm [DecidableEq α] (one : α) (dot : List α → List α → α) (mul add : α → α → α) (alpha beta : α) (ta tb : Bool)
    (a b : Tensor α) (c : Option (Tensor α)) : Option (Tensor α) :=
  (if ta then Burn.transpose2 a else some a).bind fun a =>
  (if tb then Burn.transpose2 b else some b).bind fun b =>
  (Burn.matmul dot a b).bind fun p =>
  let p := if alpha = one then p else Burn.mulScalar mul p alpha
  match c with
  | none => some p
  | some c =>
    (Burn.unsqueeze c p.shape.length).bind fun c =>
      let c := if beta = one then c else Burn.mulScalar mul c beta
      Burn.binary add p c

end OnnxIR.Gen
