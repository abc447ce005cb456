import Verif.Model.Conv
import Verif.Spec.WindowOps

/-!
# Convolution and pooling: the generated code

`self.<name>.forward(input)` on a module made from the configuration (crates/burn-onnx/src/burn/node/conv1d.rs, conv2d.rs, conv3d.rs,
conv_transpose_1d.rs, conv_transpose_2d.rs, conv_transpose_3d.rs, max_pool1d.rs, max_pool2d.rs, avg_pool1d.rs, avg_pool2d.rs, global_avg_pool.rs).
Padding, strides and the like are those of `Model/Conv.lean`; here are the channels, groups and parameters, and the values.
-/

namespace OnnxIR

open Infer

/-- The third input of a convolution: not there, there with the empty name that stands for no value, or a constant. -/
inductive ConvBias (α : Type)
  | absent
  | omitted
  | const (t : Tensor α)

namespace Gen

variable {α : Type} [Inhabited α]

/-- `bias` is `inputs.len() == 3`, and then the third input is stored (conv2d.rs:25, 69-77; conv1d.rs:27; conv3d.rs:26; the transposed ones:
conv_transpose_2d.rs:28, 80-89); storing an input without a value panics (node_traits.rs `create_lazy_snapshot`). -/
def biasField : ConvBias α → Option (Option (Tensor α))
  | .absent => some none
  | .omitted => none
  | .const t => some (some t)

/-- Conv with `n` spatial axes: the field (conv1d.rs:14-56, conv2d.rs:13-54, conv3d.rs:14-55), its parameters (conv2d.rs:56-80) and the call
(conv2d.rs:82-90). The type of a constant weight has its shape. -/
def genConv [AddCommMonoid α] [Mul α] {P : Type} (n : Nat) (paddingConfig : List Int → Option P)
    (padding : WindowConfig P → ArgType → Option Burn.Padding) (a : WindowAttrs) (group : Option Int) (xt : ArgType) (x w : Tensor α)
    (b : ConvBias α) : Option (Tensor α) := do
  let c ← convConfig n paddingConfig a (some w.shape)
  let m ← windowModule padding c xt
  let groups := asUsize (group.getD 1)
  let bias ← biasField b
  Burn.convModule (w.shape.getD 1 0 * groups) (w.shape.getD 0 0) m.kernel m.stride (m.dilation.getD []) (m.padding.amounts n) groups x w bias

/-- MaxPool (max_pool1d.rs:12-55, max_pool2d.rs:12-55); nothing is said about `ceil_mode`. -/
def genMaxPool [LinearOrder α] [OrderBot α] {P : Type} (n : Nat) (paddingConfig : List Int → Option P)
    (padding : WindowConfig P → ArgType → Option Burn.Padding) (a : WindowAttrs) (xt : ArgType) (x : Tensor α) : Option (Tensor α) := do
  let c ← poolConfig n paddingConfig a
  let m ← windowModule padding c xt
  if m.ceilMode then none else
  Burn.maxPoolModule m.kernel m.stride (m.dilation.getD []) (m.padding.amounts n) x

/-- AveragePool (avg_pool1d.rs:12-55, avg_pool2d.rs:12-55); `count_include_pad == 1` (avg_pool2d.rs:162 of onnx-ir); nothing is said about
`ceil_mode`. -/
def genAvgPool [Field α] {P : Type} (n : Nat) (paddingConfig : List Int → Option P)
    (padding : WindowConfig P → ArgType → Option Burn.Padding) (a : WindowAttrs) (countIncludePad : Option Int) (xt : ArgType) (x : Tensor α) :
    Option (Tensor α) := do
  let c ← poolConfig n paddingConfig a
  let m ← avgPoolModule padding c xt
  if m.ceilMode then none else
  Burn.avgPoolModule m.kernel m.stride (m.padding.amounts n) (countIncludePad.getD 0 = 1) x

/-- GlobalAveragePool (global_avg_pool.rs:12-51): an adaptive pooling to one element per channel, for rank 3 and 4 only. -/
def genGlobalAvgPool [Field α] (xt : ArgType) (x : Tensor α) : Option (Tensor α) :=
  match xt with
  | .tensor t =>
    match t.rank with
    | 3 => Burn.adaptiveAvgPool [1] x
    | 4 => Burn.adaptiveAvgPool [1, 1] x
    | _ => none
  | _ => none

/-- The attributes of ConvTranspose; any other attribute, such as `output_shape`, is refused (conv_transpose2d.rs:85-104 of onnx-ir). -/
structure TransposeAttrs where
  kernelShape : Option (List Int) := none
  strides : Option (List Int) := none
  pads : Option (List Int) := none
  dilations : Option (List Int) := none
  autoPad : Option String := none
  outputPadding : Option (List Int) := none
  group : Option Int := none

/-- The amounts as a list, for one to three axes. -/
def transposePads (n : Nat) (pads : List Int) : Option (List Nat) :=
  match n with
  | 1 => (transposePads1d pads).map ([·])
  | 2 => (transposePads2d pads).map fun p => [p.1, p.2]
  | 3 => (transposePads3d pads).map fun p => [p.1, p.2.1, p.2.2]
  | _ => none

/-- ConvTranspose with `n` axes: attributes (conv_transpose1d.rs:111-173, conv_transpose2d.rs:85-181, conv_transpose3d.rs of onnx-ir), field and
parameters (conv_transpose_2d.rs:14-46, 62-92). -/
def genConvTranspose [AddCommMonoid α] [Mul α] (n : Nat) (a : TransposeAttrs) (x w : Tensor α) (b : ConvBias α) : Option (Tensor α) := do
  if a.autoPad.getD "NOTSET" ≠ "NOTSET" then none
  let pads ← transposePads n (a.pads.getD (List.replicate (2 * n) 0))
  let kernel ← kernelOf n { kernelShape := a.kernelShape } w.shape
  let stride ← firstN n (a.strides.getD (List.replicate n 1))
  let dilation ← firstN n (a.dilations.getD (List.replicate n 1))
  let outPad ← firstN n (a.outputPadding.getD (List.replicate n 0))
  let groups := asUsize (a.group.getD 1)
  let bias ← biasField b
  Burn.convTransposeModule (w.shape.getD 0 0) (w.shape.getD 1 0 * groups) kernel (Burn.tslides pads stride dilation outPad) groups x w bias

end Gen

end OnnxIR
