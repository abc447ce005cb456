import Verif.Spec.Fill
import Verif.Spec.Generated
import Verif.Model.Types

/-!
# Code generated for Pad, Tile, Trilu, OneHot and NonZero

`none` is an error or panic at import, or code that does not compile or panics.
-/

namespace OnnxIR.Gen

variable {α : Type} [Inhabited α]

/-- A list of integers: constant, or known at run time only. -/
inductive ListIn
  | static (vs : List Int)
  | runtime

/-- crates/onnx-ir/src/node/pad.rs:266-304: `parse_i64s_as_usize`, `validate_pads_len` and `onnx_pads_to_pairs`. -/
def padPairs (rank : Nat) (flat : List Int) : Option (List (Nat × Nat)) :=
  if ∃ p ∈ flat, p < 0 then none
  else if flat.length ≠ rank * 2 then none
  else
    let n := flat.length / 2
    some ((List.range n).map fun i => ((flat.getD i 0).toNat, (flat.getD (n + i) 0).toNat))

/-- The constant of Pad: written into the code as an `f32` literal (`"{}_f32"`, which is not a literal for infinities and NaN),
or an input with its type and value (pad.rs:41-47). -/
inductive PadValue (α : Type)
  | static (finite : Bool) (x : α)
  | runtime (ty : ArgType) (v : GVal α)

/-- crates/burn-onnx/src/burn/node/pad.rs:32-64. -/
def padValue : PadValue α → Option α
  | .static finite x => if finite then some x else none
  | .runtime (.scalarNative _) (.native x) => some x
  | .runtime (.scalarTensor _) (.dev u) => Burn.intoScalar u
  | .runtime _ _ => none

/-- Configuration and code of Pad (crates/onnx-ir/src/node/pad.rs:188-359, crates/burn-onnx/src/burn/node/pad.rs:14-76);
`inputs` is their number: with four (the axes) the node is refused. The constant is only looked at in mode `constant`. -/
def genPad (inputs : Nat) (mode : FillMode) (pads : ListIn) (value : PadValue α) (x : Tensor α) : Option (Tensor α) :=
  if 4 ≤ inputs then none
  else match pads with
    | .runtime => none
    | .static flat => (padPairs x.shape.length flat).bind fun ps =>
      match mode with
      | .constant => (padValue value).bind fun v => Burn.pad x ps .constant v
      | m => Burn.pad x ps m default

/-- crates/onnx-ir/src/node/tile.rs:109-126 (`x as usize`, negative numbers left out) and
crates/burn-onnx/src/burn/node/tile.rs:12-28. -/
def genTile (reps : ListIn) (x : Tensor α) : Option (Tensor α) :=
  match reps with
  | .runtime => none
  | .static rs => if ∃ r ∈ rs, r < 0 then none else Burn.repeats x (rs.map Int.toNat)

/-- The second input of Trilu: left out, a constant, or known at run time only. -/
inductive DiagIn
  | absent
  | static (k : Int)
  | runtime

/-- crates/onnx-ir/src/node/trilu.rs:70-133: the rank is checked; a diagonal known at run time only is logged and replaced by 0. -/
def triluDiag : DiagIn → Int
  | .absent => 0
  | .static k => k
  | .runtime => 0

/-- crates/burn-onnx/src/burn/node/trilu.rs:13-27. -/
def genTrilu (zero : α) (upper : Bool) (k : DiagIn) (x : Tensor α) : Option (Tensor α) :=
  if x.shape.length < 2 then none else Burn.tri zero upper x (triluDiag k)

/-- `depth` and `values` (off, on) of OneHot (crates/onnx-ir/src/node/one_hot.rs:30-45); a constant depth that is not `i64` panics
(`as_slice::<i64>().unwrap()`, one_hot.rs:157). -/
inductive DepthIn
  | static (ty : DType) (d : Nat)
  | runtime

/-- See `DepthIn`. -/
inductive OnOffIn (α : Type)
  | static (off on : α)
  | runtime

/-- crates/burn-onnx/src/burn/node/one_hot.rs:15-89. The tensor made by `one_hot_fill` has the kind of the indices, so that with
integer indices the two values go through an integer (`viaInt`) before they become floats; `cast` to the output type is dropped. -/
def genOneHot (viaInt : α → α) (intIndices : Bool) (depth : DepthIn) (values : OnOffIn α) (axis : Option Int) (I : Tensor Int) :
    Option (Tensor α) :=
  match depth, values with
  | .static ty d, .static off on =>
    if ty ≠ .i64 then none
    else
      let f := if intIndices then viaInt else id
      Burn.oneHotFill I d (f on) (f off) (axis.getD (-1))
  | _, _ => none

/-- crates/burn-onnx/src/burn/node/nonzero.rs:13-45: `not_equal_elem(0)`, `argwhere` and `transpose`. -/
def genNonZero (isZero : α → Bool) (x : Tensor α) : Tensor Int :=
  Burn.permute (Burn.argwhere (x.map fun v => !isZero v)) [1, 0]

end OnnxIR.Gen
