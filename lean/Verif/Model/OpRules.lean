import Verif.Model.Broadcast

/-!
# Output types of individual operators

Each definition models an `infer_types` of crates/onnx-ir/src/node. Inputs are given by their types
and, where a rule reads them, the constant contents of inputs and the attributes. `none` is an error
or a panic. Rust casts of a negative `i64` to `usize` give numbers far beyond any rank; they are kept
as negative integers here, which no position equals.
-/

namespace OnnxIR.Infer

/-- crates/onnx-ir/src/processor.rs:548-550 `same_as_input`. -/
def sameAsInput (inputs : List ArgType) : Option ArgType := inputs.head?

/-- A negative axis counted from the back, as every processor does it. -/
def normAxis (rank : Nat) (a : Int) : Int := if a < 0 then a + rank else a

/-- The type of a tensor argument, an error otherwise. -/
def tensorOf : ArgType → Option TensorType
  | .tensor t => some t
  | _ => none

/-- crates/onnx-ir/src/node/constant.rs:47-121: from the shape and element type of the data and the
preferences of the consumers. -/
def constant (dtype : DType) (dims : List Nat) (wantsShape wantsNative : Bool) : ArgType :=
  match dims with
  | [] => if wantsNative then .scalarNative dtype else .scalarTensor dtype
  | [d] => if wantsShape then .shape d else .tensor ⟨dtype, 1, some [some d]⟩
  | _ => .tensor ⟨dtype, dims.length, some (dims.map some)⟩

/-- crates/onnx-ir/src/node/matmul.rs:73-124; attributes are rejected before that. -/
def matmul (a b : ArgType) : Option ArgType :=
  match a, b with
  | .tensor a, .tensor b =>
    if a.dtype ≠ b.dtype then none
    else if a.rank < 1 ∨ b.rank < 1 then none
    else
      let r := max a.rank b.rank
      let out := if (2 ≤ a.rank ∧ b.rank = 1) ∨ (a.rank = 1 ∧ 2 ≤ b.rank) then r - 1 else r
      some (.tensor ⟨a.dtype, out, none⟩)
  | _, _ => none

/-- crates/onnx-ir/src/node/matmulinteger.rs:69-91. -/
def matmulInteger (a b : ArgType) : Option ArgType :=
  match a, b with
  | .tensor a, .tensor b =>
    let r := max a.rank b.rank
    let out := if (2 ≤ a.rank ∧ b.rank = 1) ∨ (a.rank = 1 ∧ 2 ≤ b.rank) then r - 1 else r
    some (.tensor ⟨.i32, out, none⟩)
  | _, _ => none

/-- crates/onnx-ir/src/node/gemm.rs:75-126. -/
def gemm (a b : ArgType) : Option ArgType :=
  match a, b with
  | .tensor a, .tensor b => some (.tensor ⟨a.dtype, max a.rank b.rank, none⟩)
  | _, _ => none

/-- Replace the last element (linear.rs:140-142). -/
def setLast (x : Option Nat) : PShape → PShape
  | [] => []
  | [_] => [x]
  | y :: ys => y :: setLast x ys

/-- crates/onnx-ir/src/node/linear.rs:82-153. `weightDims` is the shape of the weight's constant
value, if it has one. -/
def linear (transposeWeight : Bool) (weightDims : Option (List Nat)) (x w : ArgType) : Option ArgType :=
  match x with
  | .tensor t =>
    let idx := if transposeWeight then 0 else 1
    let fromValue := weightDims.bind (·[idx]?)
    let out := match fromValue with
      | some d => some d
      | none => match w with
        | .tensor wt => (wt.staticShape.bind (·[idx]?)).join
        | _ => none
    let shape := t.staticShape.getD (List.replicate t.rank none)
    some (.tensor ⟨t.dtype, t.rank, some (setLast out shape)⟩)
  | _ => none

/-- crates/onnx-ir/src/node/shape.rs:94-138: start and end, negative values counted from the back,
then cast to `usize` (kept as integers). -/
def shapeBounds (rank : Nat) (start stop : Option Int) : Int × Int :=
  (normAxis rank (start.getD 0), normAxis rank (stop.getD rank))

/-- crates/onnx-ir/src/node/shape.rs:61-92. `end - start` on `usize` panics on underflow (debug) and
the model takes that as an error, as it does for a start or end that is still negative. -/
def shape (start stop : Option Int) (x : ArgType) : Option ArgType :=
  match x with
  | .tensor t =>
    let (s, e) := shapeBounds t.rank start stop
    if s < 0 ∨ e < 0 ∨ e < s then none else some (.shape (e - s).toNat)
  | .shape _ => some (.shape 1)
  | _ => none

/-- crates/onnx-ir/src/node/size.rs:40-49. -/
def size : ArgType := .scalarNative .i64

/-- crates/onnx-ir/src/node/transpose.rs:57-112 with `extract_config` 131-155; `shape[i as usize]`
panics out of range. -/
def transpose (perm : Option (List Int)) (x : ArgType) : Option ArgType :=
  match x with
  | .tensor t =>
    let p := perm.getD ((List.range t.rank).reverse.map Int.ofNat)
    if p.length ≠ t.rank then none
    else
      match t.staticShape with
      | none => some (.tensor ⟨t.dtype, t.rank, none⟩)
      | some sh =>
        (p.mapM fun i => if i < 0 then none else sh[i.toNat]?).map fun q =>
          .tensor ⟨t.dtype, t.rank, some q⟩
  | _ => none

/-- Product of known dimensions, `none` if one is unknown (flatten.rs:86-91). -/
def knownProd : PShape → Option Nat
  | [] => some 1
  | d :: ds => match d, knownProd ds with
    | some d, some p => some (d * p)
    | _, _ => none

/-- crates/onnx-ir/src/node/flatten.rs:53-105 with `extract_config` 125-164; slicing panics when the
axis is out of range (only if there is a static shape). -/
def flatten (axis : Option Int) (x : ArgType) : Option ArgType :=
  match x with
  | .tensor t =>
    if t.rank < 2 then none
    else
      let k := normAxis t.rank (axis.getD 1)
      match t.staticShape with
      | none => some (.tensor ⟨t.dtype, 2, some [none, none]⟩)
      | some sh =>
        if k < 0 ∨ (sh.length : Int) < k then none
        else some (.tensor ⟨t.dtype, 2, some [knownProd (sh.take k.toNat), knownProd (sh.drop k.toNat)]⟩)
  | _ => none

/-- Negative axes counted from the back (squeeze.rs:158-167, unsqueeze.rs:297-306). -/
def normAxes (rank : Nat) (axes : List Int) : List Int := axes.map (normAxis rank)

/-- The dimensions at positions not in the list (squeeze.rs:168-175). -/
def keepDims (k : Nat) (remove : List Int) : PShape → PShape
  | [] => []
  | d :: ds => if (k : Int) ∈ remove then keepDims (k + 1) remove ds else d :: keepDims (k + 1) remove ds

/-- crates/onnx-ir/src/node/squeeze.rs:81-215. `axes` is `none` when there are no axes and when they
are only known at run time (squeeze.rs:94-98 treats both alike). -/
def squeeze (axes : Option (List Int)) (x : ArgType) : Option ArgType :=
  match x with
  | .tensor t =>
    match axes with
    | none =>
      match t.staticShape with
      | none => none
      | some sh =>
        let kept := sh.filter (· ≠ some 1)
        some (if kept.length = 0 then .scalarTensor t.dtype else .tensor ⟨t.dtype, kept.length, some kept⟩)
    | some as =>
      if t.rank < as.length then none
      else
        let r := t.rank - as.length
        let sh := t.staticShape.getD (List.replicate t.rank none)
        some (if r = 0 then .scalarTensor t.dtype
          else .tensor ⟨t.dtype, r, some (keepDims 0 (normAxes t.rank as) sh)⟩)
  | .shape k =>
    match axes with
    | some as =>
      if as ≠ [] ∧ as ≠ [0] then none
      else some (if k = 1 then .scalarNative .i64 else .shape k)
    | none => some (if k = 1 then .scalarNative .i64 else .shape k)
  | .scalarTensor d => some (.scalarNative d)
  | .scalarNative d => some (.scalarNative d)

/-- unsqueeze.rs:310-318: fill the output dimensions from position `k` on; taking a dimension when
none is left panics. -/
def unsqueezeDims (k : Nat) (normalized : List Int) : Nat → PShape → Option PShape
  | 0, _ => some []
  | n + 1, dims =>
    if (k : Int) ∈ normalized then (unsqueezeDims (k + 1) normalized n dims).map (some 1 :: ·)
    else match dims with
      | [] => none
      | d :: ds => (unsqueezeDims (k + 1) normalized n ds).map (d :: ·)

/-- crates/onnx-ir/src/node/unsqueeze.rs:276-282: the element type; `prev` is the output's type
before. -/
def unsqueezeElem (x prev : ArgType) : Option DType :=
  match prev with
  | .tensor _ => x.elemType
  | .scalarTensor d => some d
  | .scalarNative d => some d
  | .shape _ => some .i64

/-- Whether an element type is a signed integer (`DType::is_int`). -/
def isInt : DType → Bool
  | .i64 | .i32 | .i16 | .i8 => true
  | _ => false

/-- crates/onnx-ir/src/node/unsqueeze.rs:236-266: the output rank, from the axes or, when they are
only known at run time (`axes = none`), from the static length of the axes input. -/
def unsqueezeRank (r : Nat) (axes : Option (List Int)) (axesTy : Option ArgType) : Option Nat :=
  match axes with
  | some as => some (r + as.length)
  | none =>
    match axesTy with
    | some (.tensor t) => ((t.staticShape.bind List.head?).join).map (r + ·)
    | _ => none

/-- crates/onnx-ir/src/node/unsqueeze.rs:284-330: the tensor output of rank `o`. -/
def unsqueezeTensor (o : Nat) (axes : Option (List Int)) (dims : PShape) (dt : DType) : Option ArgType :=
  match axes with
  | some as => (unsqueezeDims 0 (normAxes o as) o dims).map fun q => .tensor ⟨dt, o, some q⟩
  | none => some (.tensor ⟨dt, o, some (List.replicate o none)⟩)

/-- crates/onnx-ir/src/node/unsqueeze.rs:268-275: a scalar that gains one dimension becomes a `Shape`
if it is an integer. -/
def unsqueezeScalar (o : Nat) (axes : Option (List Int)) (d : DType) (dt : Option DType) : Option ArgType :=
  if o = 1 then some (if isInt d then .shape 1 else .tensor ⟨d, 1, some [some 1]⟩)
  else dt.bind (unsqueezeTensor o axes [])

/-- crates/onnx-ir/src/node/unsqueeze.rs:212-333 `infer_with_axes`. -/
def unsqueeze (axes : Option (List Int)) (axesTy : Option ArgType) (prev x : ArgType) : Option ArgType :=
  match x with
  | .tensor t =>
    (unsqueezeRank t.rank axes axesTy).bind fun o => (unsqueezeElem x prev).bind
      (unsqueezeTensor o axes (t.staticShape.getD (List.replicate t.rank none)))
  | .scalarTensor d => (unsqueezeRank 0 axes axesTy).bind fun o => unsqueezeScalar o axes d (unsqueezeElem x prev)
  | .scalarNative d => (unsqueezeRank 0 axes axesTy).bind fun o => unsqueezeScalar o axes d (unsqueezeElem x prev)
  | .shape _ => none

end OnnxIR.Infer
