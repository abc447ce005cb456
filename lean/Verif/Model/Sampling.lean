import Verif.Model.WindowGen
import Verif.Spec.Sampling

/-!
# DeformConv and GridSample: configuration and generated code
-/

namespace OnnxIR

open Infer

variable {α : Type} [Inhabited α]

namespace Gen

/-- DeformConv: the field, its parameters and the call (crates/burn-onnx/src/burn/node/deform_conv.rs:13-97), with the configuration of
`Infer.deformConfig` and `group`, `offset_group` (deform_conv.rs:277-292 of onnx-ir). The weight is a constant, whose type has its shape. An input with the
empty name counts as absent, for the bias and for the mask. -/
def genDeformConv [Field α] [LinearOrder α] [FloorRing α] (a : WindowAttrs) (group offsetGroup : Option Int) (wt : ArgType)
    (x w offset : Tensor α) (b : ConvBias α) (mask : Option (Tensor α)) : Option (Tensor α) := do
  let c ← deformConfig a (some w.shape) wt
  let padding ← tokens2d c.padding
  let groups := asUsize (group.getD 1)
  let bias := match b with
    | .const t => some t
    | _ => none
  Burn.deformConvModule (w.shape.getD 1 0 * groups) (w.shape.getD 0 0) c.kernel c.stride c.dilation (padding.amounts 2) groups
    (asUsize (offsetGroup.getD 1)) x offset mask w bias

end Gen

namespace Infer

/-- The attributes of GridSample. -/
structure GridAttrs where
  mode : Option String := none
  paddingMode : Option String := none
  alignCorners : Option Int := none

/-- crates/onnx-ir/src/node/grid_sample.rs:33-44 `GridSampleMode::from_str`. -/
def gridMode (s : String) : Option Burn.InterpolateMode2 :=
  let t := s.toLower
  if t = "bilinear" ∨ t = "linear" then some .bilinear
  else if t = "nearest" then some .nearest
  else if t = "bicubic" ∨ t = "cubic" then some .bicubic
  else none

/-- grid_sample.rs:58-69 `GridSamplePaddingMode::from_str`. -/
def gridPadding (s : String) : Option Burn.GridPadding :=
  let t := s.toLower
  if t = "zeros" then some .zeros
  else if t = "border" then some .border
  else if t = "reflection" then some .reflection
  else none

/-- grid_sample.rs:183-221 `extract_config`, with the modes burn-onnx maps them to (grid_sample.rs:18-42 of burn-onnx). -/
def gridConfig (a : GridAttrs) : Option (Burn.InterpolateMode2 × Burn.GridPadding × Bool) := do
  let mode ← (a.mode.map gridMode).getD (some .bilinear)
  let padding ← (a.paddingMode.map gridPadding).getD (some .zeros)
  some (mode, padding, decide (a.alignCorners.getD 0 ≠ 0))

/-- grid_sample.rs:114-181 `infer_types`. -/
def gridSample (opset : Nat) (a : GridAttrs) (x g : ArgType) : Option ArgType :=
  match x, g with
  | .tensor t, .tensor u =>
    if opset < 20 ∧ t.rank ≠ 4 then none
    else if u.rank ≠ t.rank then none
    else (gridConfig a).bind fun c =>
      if c.1 = .bicubic ∧ t.rank ≠ 4 then none else some (.tensor ⟨t.dtype, t.rank, none⟩)
  | _, _ => none

end Infer

namespace Gen

/-- crates/burn-onnx/src/burn/node/grid_sample.rs:13-54, after type inference has accepted the node. -/
def genGridSample (f : Onnx.SampleMode → Onnx.SamplePadding → Bool → Tensor α → Tensor α → Tensor α) (opset : Nat) (a : GridAttrs) (xt gt : ArgType)
    (x grid : Tensor α) : Option (Tensor α) := do
  let _ ← gridSample opset a xt gt
  let c ← gridConfig a
  Burn.gridSample2d f c.1 c.2.1 c.2.2 (match xt with | .tensor t => t.rank | _ => 0) x grid

end Gen

end OnnxIR
