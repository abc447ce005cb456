import Verif.Model.OpRules2
import Verif.Model.Broadcast

/-!
# Output types: ArgMax, TopK, OneHot, Slice, pooling, Cast, Where, …
-/

namespace OnnxIR.Infer

/-- crates/onnx-ir/src/node/argmax.rs:54-99 and argmin.rs, the same code; the axis is not read. -/
def argmax (keepdims : Bool) : ArgType → Option ArgType
  | .tensor t =>
    if keepdims then some (.tensor ⟨.i64, t.rank, none⟩)
    else if t.rank = 1 then some (.scalarTensor .i64)
    else some (.tensor ⟨.i64, t.rank - 1, none⟩)
  | _ => none

/-- crates/onnx-ir/src/node/topk.rs:86-142: types of the values and of the indices. -/
def topk : ArgType → Option (ArgType × ArgType)
  | .tensor t => some (.tensor ⟨t.dtype, t.rank, none⟩, .tensor ⟨.i64, t.rank, none⟩)
  | _ => none

/-- crates/onnx-ir/src/node/one_hot.rs:65-85; `d` is the element type the output had. -/
def oneHot (d : DType) : ArgType → Option ArgType
  | .tensor t => some (.tensor ⟨d, t.rank + 1, none⟩)
  | _ => none

/-- The start of a slice of a `Shape` value (slice.rs:78-83). -/
def sliceStart (n : Nat) (start : Int) : Int :=
  if start < 0 then max (n + start) 0 else min start n

/-- The end of a slice of a `Shape` value (slice.rs:85-91). -/
def sliceEnd (n : Nat) (stop : Int) : Int :=
  if stop ≥ n then n else if stop < 0 then max (n + stop) 0 else stop

/-- crates/onnx-ir/src/node/slice.rs:71-104 `calculate_shape_slice_output_len`. -/
def shapeSliceLen (start stop step : Int) (n : Nat) : Nat :=
  let range := (max (sliceEnd n stop - sliceStart n start) 0).toNat
  (range + step.natAbs - 1) / step.natAbs

/-- crates/onnx-ir/src/node/slice.rs:163-223, static starts, ends and steps. -/
def slice (starts ends steps : List Int) : ArgType → Option ArgType
  | .tensor t => if 0 ∈ steps then none else some (.tensor t)
  | .shape n =>
    if 0 ∈ steps then none
    else match starts, ends with
      | [a], [b] => some (.shape (shapeSliceLen a b (steps.headD 1) n))
      | _, _ => none
  | _ => none

/-- crates/onnx-ir/src/node/pad.rs:158-186, tile.rs:86-105, resize.rs:259-419, max_pool1d.rs and
max_pool2d.rs, global_avg_pool.rs:38-59, conv_transpose1d.rs, conv_transpose2d.rs and
conv_transpose3d.rs, scatter_elements.rs:68-79, scatter_nd.rs:67-78: the type of the first input. -/
def copyFirst (t : ArgType) : Option ArgType := some t

/-- crates/onnx-ir/src/node/avg_pool1d.rs, avg_pool2d.rs:114-129, grid_sample.rs:174-178: rank of
the first input, no static shape. -/
def rankOnly : ArgType → Option ArgType
  | .tensor t => some (.tensor ⟨t.dtype, t.rank, none⟩)
  | _ => none

/-- The number of channels known from the scale (batch_norm.rs:131-140): `value` is the shape of its
constant value. -/
def bnChannels (scale : ArgType) (value : Option (List Nat)) : Option Nat :=
  (value.bind List.head?).or
    (match scale with
      | .tensor t => t.staticShape.bind fun s => s.head?.bind id
      | _ => none)

/-- The static shape with the channels filled in (batch_norm.rs:124-144). -/
def bnShape (rank : Nat) (s : Option PShape) (channels : Option Nat) : PShape :=
  match s.getD (List.replicate rank none) with
  | n :: none :: rest => n :: channels :: rest
  | other => other

/-- crates/onnx-ir/src/node/batch_norm.rs:96-153. -/
def batchNorm (scale : ArgType) (value : Option (List Nat)) : ArgType → Option ArgType
  | .tensor t => some (.tensor ⟨t.dtype, t.rank, some (bnShape t.rank t.staticShape (bnChannels scale value))⟩)
  | _ => none

/-- Whether an element type is a float or a bool (cast.rs:111). -/
def isFloatOrBool : DType → Bool
  | .f64 | .f32 | .f16 | .bf16 | .bool => true
  | _ => false

/-- crates/onnx-ir/src/node/cast.rs:66-126: the output type. -/
def cast (to : DType) : ArgType → Option ArgType
  | .tensor t =>
    if t.rank = 0 then some (.scalarNative to) else some (.tensor ⟨to, t.rank, t.staticShape⟩)
  | .scalarTensor _ => some (.scalarTensor to)
  | .scalarNative _ => some (.scalarNative to)
  | .shape k =>
    if isFloatOrBool to then some (.tensor ⟨to, 1, some [some k]⟩) else some (.shape k)

/-- crates/onnx-ir/src/node/bernoulli.rs:44-88, random_like.rs:81-123, eye_like.rs:50-89 and
dropout.rs:106-115 (the mask): shape of the input tensor, another element type. -/
def likeInput (d : DType) : ArgType → Option ArgType
  | .tensor t => some (.tensor ⟨d, t.rank, t.staticShape⟩)
  | _ => none

/-- crates/onnx-ir/src/node/gather_elements.rs:74-95, both inputs tensors. -/
def gatherElements : ArgType → ArgType → Option ArgType
  | .tensor d, .tensor i => some (.tensor ⟨d.dtype, i.rank, i.staticShape⟩)
  | _, _ => none

/-- crates/onnx-ir/src/node/nonzero.rs:50-79. -/
def nonZero : ArgType → Option ArgType
  | .tensor t => some (.tensor ⟨.i64, 2, some [some t.rank, none]⟩)
  | _ => none

/-- crates/onnx-ir/src/node/random.rs:91-161, range.rs:115-162: rank known, no static shape. -/
def ofRank (d : DType) (rank : Nat) : ArgType := .tensor ⟨d, rank, none⟩

/-- The rank of a ConstantOfShape result (constant_of_shape.rs:127-169): `value` is the constant value
of the input. -/
def cosRank (value : Option (List Int)) : ArgType → Option Nat
  | .shape k => some k
  | .tensor t =>
    if t.rank ≠ 1 ∨ t.dtype ≠ .i64 then none
    else match value with
      | some v => some v.length
      | none => t.staticShape.bind fun s => s.head?.bind id
  | _ => none

/-- crates/onnx-ir/src/node/constant_of_shape.rs:78-221. -/
def constantOfShape (d : DType) (value : Option (List Int)) (x : ArgType) : Option ArgType :=
  match cosRank value x with
  | none => none
  | some rank =>
    if rank = 1 ∧ d = .i64 then
      match value with
      | some (v :: _) => some (.shape (asUsize v))
      | some [] => some (.scalarNative d)
      | none => some (.tensor ⟨d, rank, none⟩)
    else if rank = 0 then some (.scalarNative d)
    else some (.tensor ⟨d, rank, none⟩)

/-- Element type as Where reads it (where_op.rs:27-33): a `Shape` value counts as i64. -/
def whereElem : ArgType → DType
  | .scalarTensor d => d
  | .scalarNative d => d
  | .tensor t => t.dtype
  | .shape _ => .i64

/-- The element type of a Where result (where_op.rs:116-127). -/
def whereDtype (x y : ArgType) : Option DType :=
  if whereElem x = whereElem y then some (whereElem x)
  else if isShape x then some (whereElem y)
  else if isShape y then some (whereElem x)
  else none

/-- `get_shape_size` (where_op.rs:42-47). -/
def whereSize : ArgType → Nat
  | .shape k => k
  | _ => 1

/-- crates/onnx-ir/src/node/where_op.rs:93-150. -/
def where_ (c x y : ArgType) : Option ArgType :=
  if !isShape c && whereElem c != .bool then none
  else match whereDtype x y with
    | none => none
    | some d =>
      let rank := computeBroadcastRank [c, x, y]
      if rank = 0 then some (.scalarNative d)
      else if isShape x && isShape y && rank == 1 && d == .i64 then
        some (.shape (max (whereSize x) (whereSize y)))
      else some (.tensor ⟨d, rank, computeBroadcastStaticShape [c, x, y]⟩)

end OnnxIR.Infer
