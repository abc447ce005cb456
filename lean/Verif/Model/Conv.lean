import Verif.Model.Padding
import Verif.Model.OpRules

/-!
# Convolutions and pooling: configuration, output type, generated module

Models the `extract_config` and `infer_types` of crates/onnx-ir/src/node/{conv1d,conv2d,conv3d,
deform_conv,max_pool1d,max_pool2d,avg_pool1d,avg_pool2d,conv_transpose1d,conv_transpose2d,
conv_transpose3d}.rs and the module fields of crates/burn-onnx/src/burn/node. Only values that
determine sizes are kept: groups, bias, element type checks and `count_include_pad` are left out.
-/

namespace OnnxIR

/-- `x as usize` for `x : i64`. -/
def asUsize (x : Int) : Nat := (x % 2 ^ 64).toNat

/-- The attributes read by `extract_config`; `none` is an absent attribute. -/
structure WindowAttrs where
  kernelShape : Option (List Int) := none
  strides : Option (List Int) := none
  pads : Option (List Int) := none
  dilations : Option (List Int) := none
  autoPad : Option String := none
  ceilMode : Option Int := none
deriving DecidableEq, Repr

/-- The configuration of an operator with padding type `P`; sizes per spatial axis. -/
structure WindowConfig (P : Type) where
  kernel : List Nat
  stride : List Nat
  dilation : List Nat
  padding : P
  autoPad : AutoPad
  ceilMode : Bool := false
deriving DecidableEq, Repr

namespace Infer

/-- The first `n` elements of an attribute cast to `usize` (`[v[0] as usize, ...]`); too short a list
panics. -/
def firstN : Nat → List Int → Option (List Nat)
  | 0, _ => some []
  | _ + 1, [] => none
  | n + 1, x :: xs => (firstN n xs).map (asUsize x :: ·)

/-- The parsed `auto_pad` attribute, `NotSet` by default. -/
def autoPadOf (a : WindowAttrs) : Option AutoPad :=
  match a.autoPad with
  | none => some .notSet
  | some s => AutoPad.parse s

/-- The window size of a convolution with `n` axes: the attribute `kernel_shape`, or the trailing
dimensions of the weight when the attribute is missing or empty (conv1d.rs:258-268,
conv2d.rs:281-291, conv3d.rs:228-243). -/
def kernelOf (n : Nat) (a : WindowAttrs) (weight : List Nat) : Option (List Nat) :=
  if a.kernelShape.getD [] = [] then
    if weight.length ≠ n + 2 then none else some (weight.drop 2)
  else firstN n (a.kernelShape.getD [])

/-- The `extract_config` of convolutions with `n` axes, given `padding_config_{n}d`
(conv1d.rs:228-280, conv2d.rs:251-303, conv3d.rs:189-263). `weight` is the shape of the constant
weight; without it the code returns an error. Simplification: `none` stands for both `Err` and a
panic; the callers below treat it as `Err`, so the model also has an answer where the code panics. -/
def convConfig {P : Type} (n : Nat) (paddingConfig : List Int → Option P) (a : WindowAttrs)
    (weight : Option (List Nat)) : Option (WindowConfig P) := do
  let w ← weight
  let auto ← autoPadOf a
  let padding ← paddingConfig (a.pads.getD (List.replicate (2 * n) 0))
  let kernel ← kernelOf n a w
  let stride ← firstN n (a.strides.getD (List.replicate n 1))
  let dilation ← firstN n (a.dilations.getD (List.replicate n 1))
  some { kernel, stride, dilation, padding, autoPad := auto }

/-- The window size of DeformConv (deform_conv.rs:295-320): the weight shape is only needed without
`kernel_shape`, and may come from the static type. -/
def deformKernel (a : WindowAttrs) (weight : Option (List Nat)) (weightTy : ArgType) :
    Option (List Nat) :=
  if a.kernelShape.getD [] = [] then
    (weight.or weightTy.staticShapeKnown).bind fun w =>
      if w.length ≠ 4 then none else some (w.drop 2)
  else firstN 2 (a.kernelShape.getD [])

/-- The `extract_config` of DeformConv (deform_conv.rs:272-330). There is no `auto_pad`. -/
def deformConfig (a : WindowAttrs) (weight : Option (List Nat)) (weightTy : ArgType) :
    Option (WindowConfig PaddingConfig2d) := do
  let padding ← paddingConfig2d (a.pads.getD [0, 0, 0, 0])
  let kernel ← deformKernel a weight weightTy
  let stride ← firstN 2 (a.strides.getD [1, 1])
  let dilation ← firstN 2 (a.dilations.getD [1, 1])
  some { kernel, stride, dilation, padding, autoPad := .notSet }

/-- `compute_spatial` (conv1d.rs:198-216, conv2d.rs:196-215, conv3d.rs:126-145,
deform_conv.rs:218-237). Simplification: `isize` arithmetic does not overflow. -/
def computeSpatial (shape : Option PShape) (i kernel stride dilation before after : Nat) :
    Option Nat :=
  match shape.bind (fun s => s[i]?) with
  | some (some x) =>
    let numerator : Int := (x : Int) + ((before + after : Nat) : Int)
      - (dilation : Int) * ((kernel : Int) - 1) - 1
    if numerator < 0 ∨ stride = 0 then none else some (numerator.toNat / stride + 1)
  | _ => none

/-- Batch size (conv2d.rs:182-185). -/
def batchOf (t : TensorType) : Option Nat := t.staticShape.bind fun s => s.head?.join

/-- Output channels: the first dimension of the constant weight, or of its static shape
(conv2d.rs:186-194). -/
def outChannels (weight : Option (List Nat)) (wt : TensorType) : Option Nat :=
  (weight.bind List.head?).or (batchOf wt)

/-- crates/onnx-ir/src/node/conv1d.rs:75-226. -/
def conv1d (a : WindowAttrs) (x w : ArgType) (weight : Option (List Nat)) : Option ArgType :=
  match x, w with
  | .tensor t, .tensor wt =>
    if t.rank ≠ 3 then none
    else if wt.rank ≠ 3 then none
    else if t.dtype ≠ wt.dtype then none
    else
      let l := match convConfig 1 paddingConfig1d a weight with
        | some c =>
          let p := c.padding.asTuple
          computeSpatial t.staticShape 2 (c.kernel.getD 0 0) (c.stride.getD 0 0) (c.dilation.getD 0 0)
            p.1 p.2
        | none => none
      some (.tensor ⟨t.dtype, t.rank, some [batchOf t, outChannels weight wt, l]⟩)
  | _, _ => none

/-- crates/onnx-ir/src/node/conv2d.rs:107-249. -/
def conv2d (a : WindowAttrs) (x w : ArgType) (weight : Option (List Nat)) : Option ArgType :=
  match x, w with
  | .tensor t, .tensor wt =>
    if t.rank ≠ 4 then none
    else if wt.rank ≠ 4 then none
    else if t.dtype ≠ wt.dtype then none
    else
      let hw := match convConfig 2 paddingConfig2d a weight with
        | some c =>
          let (top, left, bottom, right) := c.padding.asTuple
          (computeSpatial t.staticShape 2 (c.kernel.getD 0 0) (c.stride.getD 0 0)
              (c.dilation.getD 0 0) top bottom,
            computeSpatial t.staticShape 3 (c.kernel.getD 1 0) (c.stride.getD 1 0)
              (c.dilation.getD 1 0) left right)
        | none => (none, none)
      some (.tensor ⟨t.dtype, t.rank, some [batchOf t, outChannels weight wt, hw.1, hw.2]⟩)
  | _, _ => none

/-- crates/onnx-ir/src/node/conv3d.rs:74-187; neither the rank of the weight nor its element type is
checked. -/
def conv3d (a : WindowAttrs) (x w : ArgType) (weight : Option (List Nat)) : Option ArgType :=
  match x, w with
  | .tensor t, .tensor wt =>
    if t.rank ≠ 5 then none
    else
      let dhw := match convConfig 3 paddingConfig3d a weight with
        | some c =>
          let (front, top, left, back, bottom, right) := c.padding.asTuple
          (computeSpatial t.staticShape 2 (c.kernel.getD 0 0) (c.stride.getD 0 0)
              (c.dilation.getD 0 0) front back,
            computeSpatial t.staticShape 3 (c.kernel.getD 1 0) (c.stride.getD 1 0)
              (c.dilation.getD 1 0) top bottom,
            computeSpatial t.staticShape 4 (c.kernel.getD 2 0) (c.stride.getD 2 0)
              (c.dilation.getD 2 0) left right)
        | none => (none, none, none)
      some (.tensor ⟨t.dtype, t.rank,
        some [batchOf t, outChannels weight wt, dhw.1, dhw.2.1, dhw.2.2]⟩)
  | _, _ => none

/-- crates/onnx-ir/src/node/deform_conv.rs:79-270, for the input and the weight; the checks of offset,
bias and mask can only add errors. -/
def deformConv (a : WindowAttrs) (x w : ArgType) (weight : Option (List Nat)) : Option ArgType :=
  match x, w with
  | .tensor t, .tensor wt =>
    if t.rank ≠ 4 then none
    else if wt.rank ≠ 4 then none
    else if t.dtype ≠ wt.dtype then none
    else
      let hw := match deformConfig a weight w with
        | some c =>
          let (top, left, bottom, right) := c.padding.asTuple
          (computeSpatial t.staticShape 2 (c.kernel.getD 0 0) (c.stride.getD 0 0)
              (c.dilation.getD 0 0) top bottom,
            computeSpatial t.staticShape 3 (c.kernel.getD 1 0) (c.stride.getD 1 0)
              (c.dilation.getD 1 0) left right)
        | none => (none, none)
      some (.tensor ⟨t.dtype, 4, some [batchOf t, outChannels weight wt, hw.1, hw.2]⟩)
  | _, _ => none

/-- crates/onnx-ir/src/node/max_pool1d.rs:152, max_pool2d.rs:148 (`same_as_input`). -/
def maxPool (x : ArgType) : Option ArgType := sameAsInput [x]

/-- crates/onnx-ir/src/node/avg_pool1d.rs:116-131, avg_pool2d.rs:114-129. -/
def avgPool (x : ArgType) : Option ArgType :=
  (tensorOf x).map fun t => .tensor ⟨t.dtype, t.rank, none⟩

/-- crates/onnx-ir/src/node/conv_transpose1d.rs:106, conv_transpose2d.rs:107,
conv_transpose3d.rs:80 (`same_as_input`). -/
def convTranspose (x w : ArgType) : Option ArgType := sameAsInput [x, w]

/-- The padding part of `extract_config` of ConvTranspose1d: one amount for both sides
(conv_transpose1d.rs:134-138, 168). -/
def transposePads1d (pads : List Int) : Option Nat :=
  match pads with
  | [l, r] => if l ≠ r then none else some (asUsize l)
  | _ => none

/-- The padding part of `extract_config` of ConvTranspose2d (conv_transpose2d.rs:138-147, 175). -/
def transposePads2d (pads : List Int) : Option (Nat × Nat) := do
  let left ← pads[0]?
  let top ← pads[1]?
  let right ← pads[2]?
  let bottom ← pads[3]?
  if left < 0 ∨ top < 0 ∨ right < 0 ∨ bottom < 0 then none
  else if left ≠ right ∨ top ≠ bottom then none
  else some (asUsize left, asUsize top)

/-- The padding part of `extract_config` of ConvTranspose3d (conv_transpose3d.rs:121-132, 168). -/
def transposePads3d (pads : List Int) : Option (Nat × Nat × Nat) := do
  let left ← pads[0]?
  let top ← pads[1]?
  let front ← pads[2]?
  let right ← pads[3]?
  let bottom ← pads[4]?
  let back ← pads[5]?
  if left < 0 ∨ top < 0 ∨ front < 0 ∨ right < 0 ∨ bottom < 0 ∨ back < 0 then none
  else if left ≠ right ∨ top ≠ bottom ∨ front ≠ back then none
  else some (asUsize left, asUsize top, asUsize front)

/-- The `extract_config` of pooling with `n` axes (max_pool1d.rs:157-190, max_pool2d.rs:153-186,
avg_pool1d.rs:136-171, avg_pool2d.rs:134-169). -/
def poolConfig {P : Type} (n : Nat) (paddingConfig : List Int → Option P) (a : WindowAttrs) :
    Option (WindowConfig P) := do
  let auto ← autoPadOf a
  let padding ← paddingConfig (a.pads.getD (List.replicate (2 * n) 0))
  let kernel ← firstN n (a.kernelShape.getD [])
  let stride ← firstN n (a.strides.getD (List.replicate n 1))
  let dilation ← firstN n (a.dilations.getD (List.replicate n 1))
  some { kernel, stride, dilation, padding, autoPad := auto, ceilMode := a.ceilMode.getD 0 = 1 }

end Infer

namespace Gen

/-- What a generated window module is configured with. `dilation` is `none` when the module's
configuration has no such setting. -/
structure WindowModule where
  kernel : List Nat
  stride : List Nat
  dilation : Option (List Nat)
  padding : Burn.Padding
  ceilMode : Bool := false
deriving DecidableEq, Repr

/-- `static_shape_known()` without batch and channels (`&s[2..]`). -/
def inputSpatial (x : ArgType) : Option (List Nat) := x.staticShapeKnown.map (·.drop 2)

/-- The padding of a generated one-axis module (conv1d.rs:29-39, max_pool1d.rs:19-29,
avg_pool1d.rs:19-29 in crates/burn-onnx/src/burn/node). -/
def padding1 (c : WindowConfig PaddingConfig1d) (x : ArgType) : Option Burn.Padding := do
  tokens1d (← resolveAutoPad1d c.autoPad c.padding (inputSpatial x) (c.kernel.getD 0 0)
    (c.stride.getD 0 0) (c.dilation.getD 0 0))

/-- The padding of a generated two-axis module (conv2d.rs:27-37, max_pool2d.rs:19-29,
avg_pool2d.rs:19-29 in crates/burn-onnx/src/burn/node). -/
def padding2 (c : WindowConfig PaddingConfig2d) (x : ArgType) : Option Burn.Padding := do
  tokens2d (← resolveAutoPad2d c.autoPad c.padding (inputSpatial x)
    (c.kernel.getD 0 0, c.kernel.getD 1 0) (c.stride.getD 0 0, c.stride.getD 1 0)
    (c.dilation.getD 0 0, c.dilation.getD 1 0))

/-- The padding of a generated three-axis module (crates/burn-onnx/src/burn/node/conv3d.rs:28-38). -/
def padding3 (c : WindowConfig PaddingConfig3d) (x : ArgType) : Option Burn.Padding := do
  tokens3d (← resolveAutoPad3d c.autoPad c.padding (inputSpatial x)
    (c.kernel.getD 0 0, c.kernel.getD 1 0, c.kernel.getD 2 0)
    (c.stride.getD 0 0, c.stride.getD 1 0, c.stride.getD 2 0)
    (c.dilation.getD 0 0, c.dilation.getD 1 0, c.dilation.getD 2 0))

/-- Conv and MaxPool modules carry kernel, stride, padding and dilation
(crates/burn-onnx/src/burn/node/conv1d.rs:46-53, conv2d.rs:44-52, conv3d.rs:45-53,
max_pool1d.rs:36-42, max_pool2d.rs:36-42). -/
def windowModule {P : Type} (padding : WindowConfig P → ArgType → Option Burn.Padding)
    (c : WindowConfig P) (x : ArgType) : Option WindowModule :=
  (padding c x).map fun p => ⟨c.kernel, c.stride, some c.dilation, p, c.ceilMode⟩

/-- AvgPool modules: the dilation is not passed on (crates/burn-onnx/src/burn/node/avg_pool1d.rs:36-43,
avg_pool2d.rs:36-43). -/
def avgPoolModule {P : Type} (padding : WindowConfig P → ArgType → Option Burn.Padding)
    (c : WindowConfig P) (x : ArgType) : Option WindowModule :=
  (padding c x).map fun p => ⟨c.kernel, c.stride, none, p, c.ceilMode⟩

end Gen

end OnnxIR
