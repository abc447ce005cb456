import Verif.Spec.Burn
import Verif.Model.OpRules2

/-!
# GatherND
-/

namespace OnnxIR

/-- crates/onnx-ir/src/node/gathernd.rs:51-150. -/
def Infer.gatherND (batchDims : Int) (data idx : ArgType) : Option ArgType :=
  match data, idx with
  | .tensor d, .tensor i =>
    let b := Infer.asUsize batchDims
    if b ≥ min i.rank d.rank then none
    else match i.staticShape.bind fun s => s.getLast?.bind id with
      | none => none
      | some k =>
        if k > d.rank - b then none
        else
          let rank := i.rank + d.rank - k - 1 - b
          if rank = 0 then some (.scalarTensor d.dtype) else some (.tensor ⟨d.dtype, rank, none⟩)
  | _, _ => none

namespace Gen

/-- The strides loop, from the last dimension (crates/burn-onnx/src/burn/node/gathernd.rs:90-94). -/
def strides : List Nat → List Nat
  | [] => []
  | [_] => [1]
  | _ :: e :: ds => (strides (e :: ds)).headD 1 * e :: strides (e :: ds)

/-- `if idx < 0 { idx += dim }; idx as usize` (gathernd.rs:116-118). -/
def wrapIdx (dim : Nat) (i : Int) : Nat := Infer.asUsize (if i < 0 then i + dim else i)

/-- The offset of a lookup (gathernd.rs:113-119): `vals` are the index values in row-major order. -/
def lookupOffset (dims : List Nat) (vals : List Int) (b k start lookup : Nat) : Nat :=
  (List.range k).foldl (fun o j =>
    o + wrapIdx (dims.getD (b + j) 0) (vals.getD (lookup * k + j) 0) * (strides dims).getD (b + j) 0)
    start

/-- The loop over batches, lookups and elements of a slice (gathernd.rs:96-125). The cast of a
position to `i32` is left out: it is exact for tensors of fewer than 2^31 elements. -/
def flatIndices (dims idims : List Nat) (vals : List Int) (b : Nat) : List Nat :=
  let q := idims.length
  let k := idims.getD (q - 1) 0
  let batchCount := prodShape (dims.take b)
  let lookups := prodShape ((idims.take (q - 1)).drop b)
  let slice := prodShape (dims.drop (b + k))
  let batchStride := prodShape (dims.drop b)
  (List.range batchCount).flatMap fun bi =>
    (List.range lookups).flatMap fun li =>
      (List.range slice).map fun s =>
        lookupOffset dims vals b k (bi * batchStride) (bi * lookups + li) + s

/-- `data_flat.select(0, …)`: panics when an index is out of bounds. -/
def select {α : Type} (xs : List α) (is : List Nat) : Option (List α) := is.mapM (xs[·]?)

/-- The shape of the result (gathernd.rs:133-147). -/
def gatherNDShape (dims idims : List Nat) (b : Nat) : List Nat :=
  let q := idims.length
  let k := idims.getD (q - 1) 0
  dims.take b ++ (idims.take (q - 1)).drop b ++ dims.drop (b + k)

/-- The code generated for GatherND with a tensor result (gathernd.rs:71-152). -/
def gatherND {α : Type} (b : Nat) (data : Tensor α) (idx : Tensor Int) : Option (Tensor α) :=
  match select data.data (flatIndices data.shape idx.shape idx.data b) with
  | none => none
  | some xs =>
    if h : xs.length = prodShape (gatherNDShape data.shape idx.shape b) then
      some ⟨gatherNDShape data.shape idx.shape b, xs, h⟩
    else none

/-- The code generated for GatherND with a scalar result (gathernd.rs:21-70). -/
def gatherNDScalar {α : Type} (b : Nat) (data : Tensor α) (idx : Tensor Int) : Option α :=
  data.data[lookupOffset data.shape idx.data b (data.shape.length - b) 0 0]?

end Gen

end OnnxIR
