import Verif.Spec.Select
import Verif.Model.OpRules3
import Verif.Model.Elementwise

/-!
# Code generated for Where, Clip, Sum, Mean and Pow

crates/burn-onnx/src/burn/node: where_op, clip, sum, mean, pow. `none` is a panic of the generator, or code that does not
compile or panics.
-/

namespace OnnxIR.Gen

variable {α : Type} [Inhabited α]

/-- `where_input_as_tensor` (where_op.rs:159-250). `arrays`: does an array fit, that is, is the wanted tensor one of integers?
The code writes `Tensor<B, 1, Int>` for every array (228-238). -/
def whereAsTensor (ofInt : Int → α) (arrays : Bool) (r : Nat) (ty : ArgType) (v : GVal α) : Option (Tensor α) :=
  match v with
  | .dev u =>
    if ty.isScalar then if 1 < r then Burn.unsqueezeFront u (r - 1) else some u
    else if ty.rank < r then Burn.unsqueezeFront u (r - ty.rank) else some u
  | .native x => Burn.reshape ⟨[1], [x], rfl⟩ (List.replicate r 1)
  | .shape l =>
    if arrays then if 1 < r then Burn.unsqueezeFront (Burn.ofShape ofInt l) (r - 1) else some (Burn.ofShape ofInt l)
    else none

/-- A scalar as a native value (where_op.rs:33-42, 72-81, 130-139): `on_device_to_native`, or the name itself; an array is not
one. -/
def whereNative (v : GVal α) : Option α :=
  match v with
  | .dev u => Burn.intoScalar u
  | .native x => some x
  | .shape _ => none

/-- The loop of where_op.rs:112-122: `result` starts as `y`; an item past its end panics. -/
def whereInto : List Int → List Int → List Int → Option (List Int)
  | c :: cs, x :: xs, y :: ys => (whereInto cs xs ys).map ((if c ≠ 0 then x else y) :: ·)
  | c :: cs, _ :: xs, [] => if c ≠ 0 then none else whereInto cs xs []
  | _, _, ys => some ys

/-- Is a tensor of this element type a `Tensor<B, D, Int>`? -/
def intKind (d : DType) : Bool :=
  match d with
  | .i8 | .i16 | .i32 | .i64 | .u8 | .u16 | .u32 | .u64 => true
  | _ => false

/-- where_op.rs:12-155. -/
def genWhere (ofInt : Int → α) (ot ct xt yt : ArgType) (c : GVal Bool) (x y : GVal α) : Option (GVal α) :=
  match ot with
  | .tensor o =>
    let ints := intKind o.dtype
    (whereAsTensor (· != 0) false o.rank ct c).bind fun m =>
    (whereAsTensor ofInt ints o.rank yt y).bind fun v =>
      if xt.isScalar then
        (whereNative x).bind fun k =>
          if yt.isScalar then ((Burn.expand v m.shape).bind (Burn.maskFill · m k)).map .dev
          else (Burn.maskFill v m k).map .dev
      else (whereAsTensor ofInt ints o.rank xt x).bind fun u => (Burn.maskWhere v m u).map .dev
  | .shape _ =>
    match c, x, y with
    | .shape lc, .shape lx, .shape ly => (whereInto lc lx ly).map .shape
    | c, .shape lx, .shape ly =>
      if ct.isScalar then (whereNative c).bind fun b => if lx.length = ly.length then some (.shape (if b then lx else ly)) else none
      else none
    | _, _, _ => none
  | _ =>
    (whereNative c).bind fun b =>
      match x, y with
      | .native x, .native y => some (.native (if b then x else y))
      | .dev u, .dev v => some (.dev (if b then u else v))
      | _, _ => none

/-- sum.rs:12-20: `a + b + …`, on tensors of one rank or on native numbers; without the alignment of ranks that the binary
operators have; arrays cannot be added. -/
def genPlus (add : α → α → α) (a b : GVal α) : Option (GVal α) :=
  match a, b with
  | .dev u, .dev v => (Burn.zip add u v).map .dev
  | .dev u, .native k => some (.dev (u.map (add · k)))
  | .native k, .dev v => some (.dev (v.map (add k ·)))
  | .native j, .native k => some (.native (add j k))
  | _, _ => none

/-- sum.rs:12-20: the chain `a + b + …`. -/
def genSum (add : α → α → α) : List (GVal α) → Option (GVal α)
  | [] => none
  | x :: xs => xs.foldlM (genPlus add) x

/-- pow.rs:21-154: the method is `powi` for an integer exponent and `powf` for a float one (`pow` for both); with a native base
and an integer exponent on the device the base must be a float (118-142). Two native integers (`pow(rhs as u32)`, 91) are left
out. -/
def powCode (pow : α → α → α) (intExp floatBase : Bool) : BinCode α α where
  method := pow
  devNative := some pow
  nativeDev := if intExp && !floatBase then none else some pow
  natives := if intExp && !floatBase then none else some pow

/-- mean.rs:12-21: the sum divided by the number of inputs, `u32`; only tensors can be divided by one. -/
def genMean (add : α → α → α) (divCount : α → Nat → α) (vs : List (GVal α)) : Option (GVal α) :=
  (genSum add vs).bind fun
    | .dev u => some (.dev (u.map (divCount · vs.length)))
    | _ => none

/-- A bound of Clip (crates/onnx-ir/src/node/clip.rs:30-44). -/
inductive ClipBound (α : Type)
  | fixed (x : α)
  | runtime

/-- clip.rs:12-49: `clamp`, `clamp_min`, `clamp_max` on a tensor; a native number has no such methods taking `f64` bounds, an
array none at all. -/
def genClip (le : α → α → Bool) (lo hi : Option (ClipBound α)) (v : GVal α) : Option (GVal α) :=
  match v, lo, hi with
  | .dev u, some (.fixed l), some (.fixed h) =>
    some (.dev (u.map fun x => if le l x then (if le x h then x else h) else l))
  | .dev u, some (.fixed l), none => some (.dev (u.map fun x => if le l x then x else l))
  | .dev u, none, some (.fixed h) => some (.dev (u.map fun x => if le x h then x else h))
  | _, _, _ => none

end OnnxIR.Gen
