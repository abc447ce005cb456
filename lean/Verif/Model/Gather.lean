import Verif.Spec.Gather
import Verif.Model.OpRules3

/-!
# Code generated for Gather and GatherElements

crates/burn-onnx/src/burn/node/gather.rs:14-335, gather_elements.rs:12-21. `none` is a panic of the generator, or code that does
not compile or panics.
-/

namespace OnnxIR.Gen

variable {α : Type} [Inhabited α]

/-- `if idx < 0 { (shape.len() as i64 + idx) as usize } else { idx as usize }` and the lookup (gather.rs:56-64, 120-125). -/
def shapeAt (l : List Int) (i : Int) : Option Int :=
  let k := if i < 0 then (l.length : Int) + i else i
  if k < 0 then none else l[k.toNat]?

/-- A scalar index as a number (`scalar_index_to_ident`, gather.rs:30-42, 218-224). -/
def indexScalar : GVal Int → Option Int
  | .native k => some k
  | .dev u => Burn.intoScalar u
  | .shape _ => none

/-- `forward_shape_gather` (gather.rs:44-171). The index of a scalar output is added to an `i64` (59), which does not compile for
other types; `n` is the length of the declared result (`try_into().unwrap()`). -/
def gatherShape (ofInt : Int → α) (it ot : ArgType) (l : List Int) (i : GVal Int) : Option (GVal α) :=
  match ot with
  | .scalarTensor _ =>
    if it.isScalar ∧ it.elemType = some .i64 then
      (indexScalar i).bind fun k => (shapeAt l k).map fun x => .dev ⟨[1], [ofInt x], rfl⟩
    else none
  | .scalarNative _ =>
    if it.isScalar ∧ it.elemType = some .i64 then
      (indexScalar i).bind fun k => (shapeAt l k).map fun x => .native (ofInt x)
    else none
  | .shape n =>
    match it, i with
    | .tensor t, .dev u =>
      if t.rank = 1 then (u.data.mapM (shapeAt l)).bind fun xs => if xs.length = n then some (.shape xs) else none
      else none
    | .shape _, .shape js => (js.mapM (shapeAt l)).bind fun xs => if xs.length = n then some (.shape xs) else none
    | _, _ => none
  | .tensor _ => none

/-- A tensor of one or of an array of indices (gather.rs:227, 326). -/
def indexTensor (js : List Int) : Tensor Int := ⟨[js.length], js, by simp [prodShape]⟩

/-- `forward_tensor_gather` (gather.rs:197-335) on a tensor of rank `rank`. -/
def gatherTensor (pick : Nat → Int → Option Nat) (a rank : Nat) (it ot : ArgType) (u : Tensor α) (i : GVal Int) :
    Option (GVal α) :=
  match ot with
  | .scalarTensor _ =>
    if it.isScalar then (indexScalar i).bind fun k => (Burn.select pick u a (indexTensor [k])).map .dev else none
  | .scalarNative _ =>
    if it.isScalar then (indexScalar i).bind fun k => (Burn.select pick u a (indexTensor [k])).bind fun s =>
      (Burn.intoScalar s).map .native
    else none
  | .tensor _ =>
    match it, i with
    | .tensor t, .dev js => (Burn.take pick u a js (max (t.rank + rank - 1) 1)).map .dev
    | .shape _, .shape js => (Burn.select pick u a (indexTensor js)).map .dev
    | .scalarTensor _, i => (indexScalar i).bind fun k => (Burn.sliceAt u a k).bind fun s => (Burn.squeezeDim s a).map .dev
    | .scalarNative _, i => (indexScalar i).bind fun k => (Burn.sliceAt u a k).bind fun s => (Burn.squeezeDim s a).map .dev
    | _, _ => none
  | .shape _ => none

/-- The `match` on the data (gather.rs:14-24); `axis` is the attribute, normalised by crates/onnx-ir/src/node/gather.rs:201-219.
A scalar is returned as it is (175-195). -/
def genGather (pick : Nat → Int → Option Nat) (ofInt : Int → α) (axis : Int) (xt it ot : ArgType) (x : GVal α) (i : GVal Int) :
    Option (GVal α) :=
  match xt, x with
  | .shape _, .shape l => gatherShape ofInt it ot l i
  | .tensor t, .dev u => gatherTensor pick (if axis < 0 then axis + t.rank else axis).toNat t.rank it ot u i
  | _, x => some x

/-- gather_elements.rs:12-21: both inputs tensors; the axis is normalised by crates/onnx-ir/src/node/gather_elements.rs:97-128. -/
def genGatherElements (pick : Nat → Int → Option Nat) (axis : Int) (u : Tensor α) (js : Tensor Int) : Option (Tensor α) :=
  Burn.gather pick u (if axis < 0 then axis + u.shape.length else axis).toNat js

end OnnxIR.Gen
