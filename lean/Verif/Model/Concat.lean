import Verif.Spec.Concat
import Verif.Model.OpRules2

/-!
# Code generated for Concat

crates/burn-onnx/src/burn/node/concat.rs and the axis of crates/onnx-ir/src/node/concat.rs. `none` is a panic of the
generator, or code that does not compile or panics.
-/

namespace OnnxIR.Gen

variable {α : Type}

/-- The rank the axis counts from (crates/onnx-ir/src/node/concat.rs:307-311). -/
def concatRank : ArgType → Nat
  | .tensor t => t.rank
  | .shape _ => 1
  | .scalarTensor _ => 0
  | .scalarNative _ => 0

/-- `extract_config` (crates/onnx-ir/src/node/concat.rs:291-329): the axis, counted from the end if negative; no check of
the range, and a negative result wraps around. -/
def concatAxis (axis : Int) (first : ArgType) : Nat :=
  let a := if axis < 0 then axis + concatRank first else axis
  if a < 0 then (a + 2 ^ 64).toNat else a.toNat

/-- An input as an item of `TensorData::from([…])` (concat.rs:33-41): a tensor or an array is not an element. -/
def scalarItem : GVal α → Option α
  | .native x => some x
  | _ => none

/-- An input of `Tensor::cat` (concat.rs:48-73, 85): a native scalar becomes a vector of one element, a scalar on the device
does not compile (`TensorData::from([tensor])`), an array is not a tensor. -/
def catInput (ty : ArgType) (v : GVal α) : Option (Tensor α) :=
  if ty.isScalar then (scalarItem v).map fun x => ⟨[1], [x], rfl⟩
  else match v with
    | .dev u => some u
    | _ => none

/-- A part of an array (concat.rs:104-113): `&[x][..]` for a scalar, `&x[..]` otherwise; a tensor cannot be sliced like this,
and a scalar has to be an `i64` (`toInt` is its value). -/
def shapePart (toInt : α → Int) (ty : ArgType) (v : GVal α) : Option (List Int) :=
  match v with
  | .native x => if ty.elemType = some .i64 then some [toInt x] else none
  | .shape l => some l
  | .dev _ => none

/-- Rust's `[a, b, …]` of expressions that all have to exist. -/
def collect {β : Type} : List (Option β) → Option (List β)
  | [] => some []
  | x :: xs => match x, collect xs with
    | some a, some as => some (a :: as)
    | _, _ => none

/-- concat.rs:12-121; `tys` are the types of the inputs, `vs` their values. In the tensor arm with arrays of scalars only the
axis is ignored (24-42). `try_into().unwrap()` (116) panics when the length is not that of the output type. -/
def genConcat [Inhabited α] (toInt : α → Int) (axis : Nat) (ot : ArgType) (tys : List ArgType) (vs : List (GVal α)) :
    Option (GVal α) :=
  match ot with
  | .tensor _ =>
    if tys.any (·.isScalar) && tys.all (·.isScalar) then
      (collect (vs.map scalarItem)).map fun xs => .dev ⟨[xs.length], xs, by simp [prodShape]⟩
    else
      (collect (List.zipWith catInput tys vs)).bind fun ts => (Burn.cat ts axis).map .dev
  | .shape n =>
    if axis ≠ 0 then none
    else (collect (List.zipWith (shapePart toInt) tys vs)).bind fun ls =>
      if ls.flatten.length = n then some (.shape ls.flatten) else none
  | _ => none

end OnnxIR.Gen
