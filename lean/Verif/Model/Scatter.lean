import Verif.Spec.Scatter
import Verif.Spec.Gather
import Verif.Model.GatherND
import Verif.Model.AxisOps

/-!
# Code generated for ScatterElements and ScatterND

`none` is an error or panic at import, or code that panics. Constant-size arrays and the texts of the attribute `reduction` are
left out (any other text is an error).
-/

namespace OnnxIR.Gen

variable {α : Type} [Inhabited α]

/-- What the code makes of existing elements and updates, pair by pair: `add`, `mul`, and for `Max` and `Min` a mask of the pairs
with `update >= existing` (`update <= existing`) and `mask_where` (crates/burn-onnx/src/burn/node/scatter_elements.rs:54-87,
scatter_nd.rs:35-74). -/
def scatterBody (A : ScatterArith α) (ge le : α → α → Bool) : ScatterRed → α → α → α
  | .none, _, u => u
  | .add, x, u => A.add x u
  | .mul, x, u => A.mul x u
  | .max, x, u => if ge u x then u else x
  | .min, x, u => if le u x then u else x

/-- One round of the loops: the slice of `n` updates that starts at `us`, the `n` elements from `off` on, and `slice_assign`. Without
reduction the existing elements are not read; their range is the one assigned (scatter_elements.rs:128-129, scatter_nd.rs:101-102). -/
def scatterRound (f : α → α → α) (n : Nat) (flat : List α) (us off : Nat) (out : List α) : Option (List α) :=
  (Burn.narrow1 flat us n).bind fun vs => (Burn.narrow1 out off n).bind fun xs =>
    Burn.sliceAssign out off n (List.zipWith f xs vs)

/-- The offset of an update in the loop of ScatterElements (scatter_elements.rs:112-127): the coordinates are taken off the position
with the strides of the updates. A stride of 0 is not met: then there are no updates. -/
def elementOffset (dims udims : List Nat) (vals : List Int) (dim fi : Nat) : Option Nat :=
  ((List.range dims.length).foldlM (fun (st : Nat × Nat) d =>
    let coord := st.1 / (strides udims).getD d 0
    let rest := st.1 % (strides udims).getD d 0
    if d = dim then
      let idx := vals.getD fi 0
      let idx := if idx < 0 then idx + dims.getD d 0 else idx
      if 0 ≤ idx ∧ idx < dims.getD d 0 then some (rest, st.2 + idx.toNat * (strides dims).getD d 0) else none
    else some (rest, st.2 + coord * (strides dims).getD d 0)) (fi, 0)).map (·.2)

/-- The loop of ScatterElements, then `reshape` to the dimensions of the data (scatter_elements.rs:89-133). -/
def scatterLoop (f : α → α → α) (dim : Nat) (X : Tensor α) (I : Tensor Int) (U : Tensor α) : Option (Tensor α) :=
  ((List.range (prodShape U.shape)).foldlM (fun out fi =>
    (elementOffset X.shape U.shape I.data dim fi).bind fun off => scatterRound f 1 U.data fi off out) X.data).bind fun out =>
      if h : out.length = prodShape X.shape then some ⟨X.shape, out, h⟩ else none

/-- Configuration (crates/onnx-ir/src/node/scatter_elements.rs:81-142) and code of ScatterElements
(crates/burn-onnx/src/burn/node/scatter_elements.rs:14-136). -/
def genScatterElements (A : ScatterArith α) (ge le : α → α → Bool) (pick : Nat → Int → Option Nat) (isBool : Bool)
    (red : ScatterRed) (axis : Option Int) (X : Tensor α) (I : Tensor Int) (U : Tensor α) : Option (Tensor α) :=
  (axisUsize X.shape.length (axis.getD 0)).bind fun dim =>
    if isBool = true ∧ red ≠ .none then none
    else match red with
      | .add => Burn.scatter A pick X dim I U
      | .none =>
        if isBool then scatterLoop (scatterBody A ge le .none) dim X I U
        else (Burn.gather pick X dim I).bind fun g => (Burn.zip A.sub U g).bind fun diff => Burn.scatter A pick X dim I diff
      | red => scatterLoop (scatterBody A ge le red) dim X I U

/-- Code of ScatterND (crates/burn-onnx/src/burn/node/scatter_nd.rs:14-107); the offsets are computed as for GatherND, from the
first dimension on. -/
def genScatterND (A : ScatterArith α) (ge le : α → α → Bool) (isBool : Bool) (red : ScatterRed) (X : Tensor α) (I : Tensor Int)
    (U : Tensor α) : Option (Tensor α) :=
  if isBool = true ∧ red ≠ .none then none
  else
    let q := I.shape.length
    let k := I.shape.getD (q - 1) 0
    let n := prodShape (I.shape.take (q - 1))
    let size := if k < X.shape.length then prodShape (X.shape.drop k) else 1
    if U.data.length ≠ n * size then none
    else ((List.range n).foldlM (fun out i =>
      scatterRound (scatterBody A ge le red) size U.data (i * size) (lookupOffset X.shape I.data 0 k 0 i) out) X.data).bind fun out =>
        if h : out.length = prodShape X.shape then some ⟨X.shape, out, h⟩ else none

end OnnxIR.Gen
