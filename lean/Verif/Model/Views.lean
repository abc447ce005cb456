import Verif.Spec.Views
import Verif.Spec.Generated
import Verif.Model.Reshape

/-!
# Code generated for Squeeze, Unsqueeze, Reshape, Transpose, Flatten and Expand

crates/burn-onnx/src/burn/node/{squeeze,unsqueeze,reshape,transpose,flatten,expand}.rs. `none` is a panic of the
generator, or code that panics. `ofInt`, `toInt`: an `i64` as an element and back; casts between number types on the way
into a tensor (`as f64`, `as i64`) are taken to keep the value.
-/

namespace OnnxIR.Gen

variable {α : Type}

/-- The axes in the configuration of Squeeze. -/
inductive AxesCfg
  | absent
  | static (as : List Int)
  | runtime

/-- squeeze.rs:12-94. -/
def genSqueeze (ofInt : Int → α) (cfg : AxesCfg) (ty out : ArgType) (v : GVal α) : Option (GVal α) :=
  match ty, out, v with
  | .tensor _, .tensor o, .dev u =>
    match cfg with
    | .static as => (Burn.squeezeAxes u as o.rank).map .dev
    | .runtime => none
    | .absent => (Burn.squeezeOnes u o.rank).map .dev
  | .shape _, .scalarNative _, .shape l => (l[0]?).map fun a => .native (ofInt a)
  | .shape _, .shape _, .shape l => some (.shape l)
  | .scalarNative _, .scalarNative _, .native x => some (.native x)
  | .scalarTensor _, .scalarTensor _, .dev u => some (.dev u)
  | .scalarTensor _, .scalarNative _, .dev u => (Burn.intoScalar u).map .native
  | .tensor _, .scalarTensor _, .dev u => (Burn.reshape u [1]).map .dev
  | .tensor _, .scalarNative _, .dev u => (Burn.intoScalar u).map .native
  | _, _, _ => none

/-- unsqueeze.rs:12-124. The axes are those of the configuration, or read from the tensor of axes (20-37). A native
number becomes a tensor by `from_data` at the rank of the output (62-104); for booleans the code compares a `bool` with 0
and does not compile. -/
def genUnsqueeze (toInt : α → Int) (as : List Int) (ty out : ArgType) (v : GVal α) : Option (GVal α) :=
  match ty, out, v with
  | .tensor _, .tensor o, .dev u => (Burn.unsqueezeDims u as o.rank).map .dev
  | .scalarTensor _, .tensor o, .dev u => (Burn.unsqueezeDims u as o.rank).map .dev
  | .scalarNative _, .tensor o, .native x =>
    if o.dtype = .bool then none else (Burn.fromOne x o.rank).bind fun t => (Burn.unsqueeze t o.rank).map .dev
  | .scalarNative _, .shape _, .native x => some (.shape [toInt x])
  | .scalarTensor _, .shape _, .dev u => (Burn.intoScalar u).map fun x => .shape [toInt x]
  | _, _, _ => none

/-- transpose.rs:12-20. -/
def genTranspose [Inhabited α] (perm : List Nat) (v : GVal α) : Option (GVal α) :=
  match v with
  | .dev u => some (.dev (Burn.permute u perm))
  | _ => none

/-- `as i32` of a `usize`: keeps the low 32 bits. -/
def asI32 (n : Nat) : Int :=
  if n % 2 ^ 32 < 2 ^ 31 then (n % 2 ^ 32 : Nat) else (n % 2 ^ 32 : Nat) - 2 ^ 32

/-- flatten.rs:12-29; `axis` is the normalised axis (onnx-ir flatten.rs:125-164). (That `reshape::<2>` names one of two
generic arguments is not modelled.) -/
def genFlatten (axis : Nat) (v : GVal α) : Option (GVal α) :=
  match v with
  | .dev u =>
    if axis = 0 then (Burn.reshapeSigned u [1, -1]).map .dev
    else if u.shape.length < axis then none
    else (Burn.reshapeSigned u [asI32 (prodShape (u.shape.take axis)), -1]).map .dev
  | _ => none

/-- expand.rs:70-77: from position `i` of the input on, a 1 in the target gives way to the input's dimension. -/
def expandLoop (offset : Nat) (dims : List Nat) : Nat → List Int → List Int
  | i, shape =>
    match dims with
    | [] => shape
    | d :: ds =>
      expandLoop offset ds (i + 1)
        (if shape.getD (offset + i) 0 = 1 ∧ 1 < d then shape.set (offset + i) d else shape)

/-- expand.rs:12-81. `target` is the constant target or the content of the shape argument. `shape` has the output's
rank as its length (68); a rank below the input's does not compile (73). `TensorData::from([tensor])` for a scalar on the
device does not compile (55). Negative entries panic. -/
def genExpand [Inhabited α] (target : List Int) (ty out : ArgType) (v : GVal α) : Option (GVal α) :=
  match ty, v with
  | .scalarNative _, .native x =>
    if target.any (· < 0) then none
    else (Burn.expand ⟨[1], [x], rfl⟩ (target.map Int.toNat)).map .dev
  | .tensor t, .dev u =>
    if target.length ≠ out.rank ∨ out.rank < t.rank then none
    else
      let shape := expandLoop (out.rank - t.rank) u.shape 0 target
      if shape.any (· < 0) then none else (Burn.expand u (shape.map Int.toNat)).map .dev
  | _, _ => none

/-- The element types that reshape.rs:38-45 can extract. -/
def reshapeScalarOk : DType → Bool
  | .f32 | .f64 | .i32 | .i64 | .bool => true
  | _ => false

/-- reshape.rs:100-106: as many entries as fit, zeros behind. -/
def copyInto (n : Nat) (l : List Int) : List Int := l.take n ++ List.replicate (n - l.length) 0

/-- reshape.rs:14-212: a target known when the code is generated. -/
def genReshape (ofInt : Int → α) (target : List Int) (ty out : ArgType) (v : GVal α) : Option (GVal α) :=
  match ty, out, v with
  | .tensor _, .scalarTensor _, .dev u => (Burn.reshape u [1]).map .dev
  | .tensor _, .scalarNative d, .dev u => if reshapeScalarOk d then (Burn.intoScalar u).map .native else none
  | .tensor _, .tensor _, .dev u => (Burn.reshapeSigned u target).map .dev
  | .shape n, .scalarTensor _, .shape l =>
    if n = 1 then (l[0]?).map fun a => .dev ⟨[1], [ofInt a], rfl⟩ else none
  | .shape n, .scalarNative _, .shape l => if n = 1 then (l[0]?).map fun a => .native (ofInt a) else none
  | .shape n, .shape m, .shape l => some (.shape (if n = m then l else copyInto m l))
  | .shape _, .tensor _, .shape l => (Burn.reshapeSigned (Burn.ofShape ofInt l) target).map .dev
  | .scalarNative _, .tensor o, .native x =>
    (Burn.fromOne x o.rank).bind fun t => (Burn.reshapeSigned t target).map .dev
  | .scalarNative _, .scalarNative _, .native x => some (.native x)
  | .scalarTensor _, .tensor _, .dev u => (Burn.reshapeSigned u target).map .dev
  | .scalarTensor _, .scalarTensor _, .dev u => some (.dev u)
  | .scalarTensor _, .scalarNative _, .dev u => (Burn.intoScalar u).map .native
  | _, _, _ => none

/-- `as usize` of an `i64` (64 bits). -/
def asUsize64 (v : Int) : Nat := (v % 2 ^ 64).toNat

/-- reshape.rs:213-251: a target known when the code runs. An array is handed on as signed numbers; the entries of a
tensor are cast to `usize` first and so mean just what they say. The input must be on the device. -/
def genReshapeRuntime (target : List Int) (shapeTy out : ArgType) (v : GVal α) : Option (GVal α) :=
  match shapeTy, v with
  | .shape _, .dev u => (Burn.reshapeSigned u target).map .dev
  | .tensor _, .dev u =>
    match out with
    | .tensor o =>
      if target.length < o.rank then none
      else (Burn.reshape u ((target.take o.rank).map asUsize64)).map .dev
    | _ => none
  | _, _ => none

end OnnxIR.Gen
