import Verif.Spec.AxisOps
import Verif.Model.OpRules3

/-!
# Code generated for ArgMax, ArgMin, TopK, Softmax, LogSoftmax and Hardmax

`none` is a panic.
-/

namespace OnnxIR.Gen

variable {α : Type} [Inhabited α]

/-- `if axis < 0 { axis += rank }; axis as usize` (argmax.rs:149-153, topk.rs:185-195, softmax.rs:97-103, hardmax.rs:84-90); a
number still negative becomes an axis that no tensor has. -/
def axisUsize (r : Nat) (axis : Int) : Option Nat :=
  let a := if axis < 0 then axis + r else axis
  if 0 ≤ a then some a.toNat else none

/-- crates/burn-onnx/src/burn/node/argmax.rs:12-52 and argmin.rs:12-52, the same code; `axis` defaults to 0
(crates/onnx-ir/src/node/argmax.rs:112). -/
def genArgMax (arg : List α → Nat) (axis : Option Int) (keep : Bool) (outTy : ArgType) (x : Tensor α) : Option (GVal Int) :=
  (axisUsize x.shape.length (axis.getD 0)).bind fun a =>
    (Burn.argmax arg x a).bind fun u =>
      match outTy with
      | .tensor t =>
        if keep then some (.dev u)
        else (Burn.squeezeDim u a).bind fun v => if v.shape.length = t.rank then some (.dev v) else none
      | .scalarTensor _ => (Burn.reshape u [1]).map .dev
      | .scalarNative _ => (Burn.intoScalar u).map .native
      | .shape _ => none

/-- `k` of TopK: a constant or known at run time only (crates/onnx-ir/src/node/topk.rs:31-37). -/
inductive TopKIn
  | static (k : Nat)
  | runtime

/-- crates/burn-onnx/src/burn/node/top_k.rs:14-34; `axis` defaults to -1 (topk.rs:179-182). Smallest or unsorted elements are
refused at import (topk.rs:97-111). -/
def genTopK (order : List α → List Nat) (axis : Option Int) (k : TopKIn) (largest sorted : Int) (x : Tensor α) :
    Option (Tensor α × Tensor Int) :=
  if largest ≠ 1 ∨ sorted ≠ 1 then none
  else match k with
    | .runtime => none
    | .static k => (axisUsize x.shape.length (axis.getD (-1))).bind fun a => Burn.topk order x k a

/-- The axis of Softmax, LogSoftmax and Hardmax (softmax.rs:88-103, log_softmax.rs, hardmax.rs:77-90). -/
def alongAxisOf (opset r : Nat) (axis : Option Int) : Option Nat :=
  axisUsize r (axis.getD (if opset < 13 then 1 else -1))

/-- crates/burn-onnx/src/burn/node/softmax.rs:12-20 and log_softmax.rs:12-20. -/
def genAlong (f : List α → List α) (opset : Nat) (axis : Option Int) (x : Tensor α) : Option (Tensor α) :=
  (alongAxisOf opset x.shape.length axis).bind fun a => Burn.along f x a

/-- crates/burn-onnx/src/burn/node/hardmax.rs:12-29. -/
def genHardmax [Add α] [Zero α] (one : α) (arg : List α → Nat) (opset : Nat) (axis : Option Int) (x : Tensor α) :
    Option (Tensor α) :=
  (alongAxisOf opset x.shape.length axis).bind fun a =>
    (Burn.argmax arg x a).bind fun I =>
      Burn.scatterAdd (Burn.zerosLike x) a I (Tensor.ofFn I.shape fun _ => one)

end OnnxIR.Gen
