import Verif.Spec.Reduce
import Verif.Model.OpRules2

/-!
# Code generated for Reduce*

crates/burn-onnx/src/burn/node/reduce.rs:17-366. `none` is a panic of the generated code.
-/

namespace OnnxIR.Gen

variable {α : Type} [Inhabited α]

/-- reduce.rs:50-52: one axis after the other. -/
def reduceFold (red : List α → α) (dims : List Nat) (t : Tensor α) : Option (Tensor α) :=
  dims.foldlM (Burn.reduceDim red) t

/-- `reduce_by_dims` (reduce.rs:42-71). -/
def reduceByDims (red : List α → α) (dims : List Nat) (keep : Bool) (outRank : Nat) (t : Tensor α) :
    Option (Tensor α) :=
  (reduceFold red dims t).bind fun u =>
    if keep then some u
    else if outRank = 0 then some u
    else Burn.squeezeDims u dims outRank

/-- `forward_reduce` (reduce.rs:73-98) for the five basic reductions, which all have a method for all dimensions. -/
def forwardReduce (red : List α → α) (dims : List Nat) (keep : Bool) (outRank : Nat) (t : Tensor α) :
    Option (Tensor α) :=
  if dims = [] then
    if keep then Burn.expand (Burn.reduceAll red t) (List.replicate outRank 1) else some (Burn.reduceAll red t)
  else reduceByDims red dims keep outRank t

/-- reduce.rs:126-131. -/
def reduceOutRank : ArgType → Option Nat
  | .tensor t => some t.rank
  | .scalarTensor _ => some 1
  | .scalarNative _ => some 0
  | .shape _ => none

/-- reduce.rs:346-356: how the result is handed over. -/
def reduceHand (ty : ArgType) (u : Tensor α) : Option (GVal α) :=
  match ty with
  | .scalarTensor _ => (Burn.reshape u [1]).map .dev
  | .scalarNative _ => (Burn.intoScalar u).map .native
  | .tensor _ => some (.dev u)
  | .shape _ => none

/-- The generated code of Reduce{Sum,Prod,Min,Max,Mean} (`pre` and `post` the identity), ReduceL1 (`pre` the absolute
value), ReduceSumSquare (`pre` the square), ReduceL2 (square, then root) and ReduceLogSum (`post` the logarithm)
(reduce.rs:190-273, 336-358), on tensors of numbers. Casts to `f32` and back are dropped. -/
def genReduce (red : List α → α) (pre post : α → α) (dims : List Nat) (keep : Bool) (outTy : ArgType)
    (x : Tensor α) : Option (GVal α) :=
  (reduceOutRank outTy).bind fun r =>
    (forwardReduce red dims keep r (x.map pre)).bind fun u => reduceHand outTy (u.map post)

/-- ReduceMin and ReduceMax of booleans (reduce.rs:139-188): `all`, `any` and their `_dim` forms. A scalar on the device
is reshaped without being squeezed first. -/
def genReduceBool (red : List Bool → Bool) (dims : List Nat) (keep : Bool) (outTy : ArgType)
    (x : Tensor Bool) : Option (GVal Bool) :=
  (reduceOutRank outTy).bind fun r =>
    (if dims = [] then some (Burn.reduceAll red x) else reduceFold red dims x).bind fun u =>
      (if keep then if dims = [] then Burn.expand u (List.replicate r 1) else some u
        else match outTy with
          | .scalarTensor _ => Burn.reshape u [1]
          | _ => if r = 0 then some u else Burn.squeezeDims u dims r).bind fun v =>
        match outTy with
        | .scalarNative _ => (Burn.intoScalar v).map .native
        | _ => some (.dev v)

/-- ReduceLogSumExp (reduce.rs:274-335): the maximum is taken out first. `max` and `sum` of lists, `sub` and `add` of
numbers. Casts are dropped. -/
def genLogSumExp (max sum : List α → α) (add sub : α → α → α) (exp log : α → α) (dims : List Nat) (keep : Bool)
    (outTy : ArgType) (x : Tensor α) : Option (GVal α) :=
  (reduceOutRank outTy).bind fun r =>
    (forwardReduce max dims keep r x).bind fun m =>
      (Burn.expand m x.shape).bind fun me =>
        (Burn.zip sub x me).bind fun d =>
          (forwardReduce sum dims keep r (d.map exp)).bind fun s =>
            (Burn.zip add m (s.map log)).bind fun u => reduceHand outTy u

end OnnxIR.Gen
