import Verif.Spec.Window

/-!
# Padding configurations and automatic padding

crates/onnx-ir/src/node/padding.rs and crates/burn-onnx/src/burn/codegen.rs:110-283.
`none` is an error or a panic; an index out of range panics. Simplification: `usize` arithmetic does
not overflow (a subtraction below zero panics, as in a debug build).
-/

namespace OnnxIR

/-- crates/onnx-ir/src/node/padding.rs:16-27 `AutoPad`. -/
inductive AutoPad
  | notSet | sameUpper | sameLower | valid
deriving DecidableEq, Repr

/-- crates/onnx-ir/src/node/padding.rs:31-42 `AutoPad::parse`. -/
def AutoPad.parse (s : String) : Option AutoPad :=
  if s = "NOTSET" then some .notSet
  else if s = "SAME_UPPER" then some .sameUpper
  else if s = "SAME_LOWER" then some .sameLower
  else if s = "VALID" then some .valid
  else none

/-- crates/onnx-ir/src/node/padding.rs:58-66 `PaddingConfig1d`. -/
inductive PaddingConfig1d
  | valid
  | explicit (left right : Nat)
deriving DecidableEq, Repr

/-- crates/onnx-ir/src/node/padding.rs:79-84 `is_asymmetric`. -/
def PaddingConfig1d.isAsymmetric : PaddingConfig1d → Bool
  | .explicit left right => left != right
  | _ => false

/-- crates/onnx-ir/src/node/padding.rs:87-92 `as_tuple`. -/
def PaddingConfig1d.asTuple : PaddingConfig1d → Nat × Nat
  | .valid => (0, 0)
  | .explicit left right => (left, right)

/-- crates/onnx-ir/src/node/padding.rs:113-123 `padding_config_1d`. -/
def paddingConfig1d (pads : List Int) : Option PaddingConfig1d := do
  let left ← pads[0]?
  let right ← pads[1]?
  if left < 0 ∨ right < 0 then none
  else if left = 0 ∧ right = 0 then some .valid
  else some (.explicit left.toNat right.toNat)

/-- crates/onnx-ir/src/node/padding.rs:127-135 `PaddingConfig2d`. -/
inductive PaddingConfig2d
  | valid
  | explicit (top left bottom right : Nat)
deriving DecidableEq, Repr

/-- crates/onnx-ir/src/node/padding.rs:150-155 `is_asymmetric`. -/
def PaddingConfig2d.isAsymmetric : PaddingConfig2d → Bool
  | .explicit top left bottom right => top != bottom || left != right
  | _ => false

/-- crates/onnx-ir/src/node/padding.rs:158-163 `as_tuple`. -/
def PaddingConfig2d.asTuple : PaddingConfig2d → Nat × Nat × Nat × Nat
  | .valid => (0, 0, 0, 0)
  | .explicit top left bottom right => (top, left, bottom, right)

/-- crates/onnx-ir/src/node/padding.rs:184-194 `padding_config_2d`. -/
def paddingConfig2d (pads : List Int) : Option PaddingConfig2d := do
  let top ← pads[0]?
  let left ← pads[1]?
  let bottom ← pads[2]?
  let right ← pads[3]?
  if left < 0 ∨ right < 0 ∨ top < 0 ∨ bottom < 0 then none
  else if left = 0 ∧ right = 0 ∧ top = 0 ∧ bottom = 0 then some .valid
  else some (.explicit top.toNat left.toNat bottom.toNat right.toNat)

/-- crates/onnx-ir/src/node/padding.rs:198-206 `PaddingConfig3d`. -/
inductive PaddingConfig3d
  | valid
  | explicit (front top left back bottom right : Nat)
deriving DecidableEq, Repr

/-- crates/onnx-ir/src/node/padding.rs:224-231 `is_asymmetric`. -/
def PaddingConfig3d.isAsymmetric : PaddingConfig3d → Bool
  | .explicit front top left back bottom right => front != back || top != bottom || left != right
  | _ => false

/-- crates/onnx-ir/src/node/padding.rs:234-241 `as_tuple`. -/
def PaddingConfig3d.asTuple : PaddingConfig3d → Nat × Nat × Nat × Nat × Nat × Nat
  | .valid => (0, 0, 0, 0, 0, 0)
  | .explicit front top left back bottom right => (front, top, left, back, bottom, right)

/-- crates/onnx-ir/src/node/padding.rs:262-281 `padding_config_3d`. -/
def paddingConfig3d (pads : List Int) : Option PaddingConfig3d := do
  let front ← pads[0]?
  let top ← pads[1]?
  let left ← pads[2]?
  let back ← pads[3]?
  let bottom ← pads[4]?
  let right ← pads[5]?
  if left < 0 ∨ right < 0 ∨ top < 0 ∨ bottom < 0 ∨ front < 0 ∨ back < 0 then none
  else if left = 0 ∧ right = 0 ∧ top = 0 ∧ bottom = 0 ∧ front = 0 ∧ back = 0 then some .valid
  else some (.explicit front.toNat top.toNat left.toNat back.toNat bottom.toNat right.toNat)

namespace Gen

/-- crates/burn-onnx/src/burn/codegen.rs:174-198 `compute_auto_pad_1dim`; `none` for the panics: stride
zero, `kernel - 1` or `output_size - 1` below zero, called with `NotSet`. -/
def computeAutoPad1dim (m : AutoPad) (input kernel stride dilation : Nat) : Option (Nat × Nat) :=
  match m with
  | .valid => some (0, 0)
  | .notSet => none
  | .sameUpper | .sameLower =>
    if kernel = 0 ∨ stride = 0 then none
    else
      let effective := (kernel - 1) * dilation + 1
      let output := (input + stride - 1) / stride
      if output = 0 then none
      else
        let total := ((output - 1) * stride + effective) - input
        let small := total / 2
        let big := total - small
        if m = .sameUpper then some (small, big) else some (big, small)

/-- crates/burn-onnx/src/burn/codegen.rs:203-221 `resolve_auto_pad_1d`. -/
def resolveAutoPad1d (m : AutoPad) (padding : PaddingConfig1d) (spatial : Option (List Nat))
    (kernel stride dilation : Nat) : Option PaddingConfig1d :=
  match m with
  | .notSet => some padding
  | .valid => some .valid
  | .sameUpper | .sameLower => do
    let shape ← spatial
    let p ← computeAutoPad1dim m (← shape[0]?) kernel stride dilation
    some (.explicit p.1 p.2)

/-- crates/burn-onnx/src/burn/codegen.rs:224-245 `resolve_auto_pad_2d`. -/
def resolveAutoPad2d (m : AutoPad) (padding : PaddingConfig2d) (spatial : Option (List Nat))
    (kernel stride dilation : Nat × Nat) : Option PaddingConfig2d :=
  match m with
  | .notSet => some padding
  | .valid => some .valid
  | .sameUpper | .sameLower => do
    let shape ← spatial
    let p ← computeAutoPad1dim m (← shape[0]?) kernel.1 stride.1 dilation.1
    let q ← computeAutoPad1dim m (← shape[1]?) kernel.2 stride.2 dilation.2
    some (.explicit p.1 q.1 p.2 q.2)

/-- crates/burn-onnx/src/burn/codegen.rs:248-273 `resolve_auto_pad_3d`. -/
def resolveAutoPad3d (m : AutoPad) (padding : PaddingConfig3d) (spatial : Option (List Nat))
    (kernel stride dilation : Nat × Nat × Nat) : Option PaddingConfig3d :=
  match m with
  | .notSet => some padding
  | .valid => some .valid
  | .sameUpper | .sameLower => do
    let shape ← spatial
    let p ← computeAutoPad1dim m (← shape[0]?) kernel.1 stride.1 dilation.1
    let q ← computeAutoPad1dim m (← shape[1]?) kernel.2.1 stride.2.1 dilation.2.1
    let r ← computeAutoPad1dim m (← shape[2]?) kernel.2.2 stride.2.2 dilation.2.2
    some (.explicit p.1 q.1 r.1 p.2 q.2 r.2)

/-- crates/burn-onnx/src/burn/codegen.rs:114-125 `ToTokens for PaddingConfig1d`. -/
def tokens1d : PaddingConfig1d → Option Burn.Padding
  | .valid => some .valid
  | .explicit left right => some (.explicit1 left right)

/-- crates/burn-onnx/src/burn/codegen.rs:129-142 `ToTokens for PaddingConfig2d`. -/
def tokens2d : PaddingConfig2d → Option Burn.Padding
  | .valid => some .valid
  | .explicit top left bottom right => some (.explicit2 top left bottom right)

/-- crates/burn-onnx/src/burn/codegen.rs:147-165 `ToTokens for PaddingConfig3d`, which panics on
asymmetric padding. -/
def tokens3d : PaddingConfig3d → Option Burn.Padding
  | .valid => some .valid
  | .explicit front top left back bottom right =>
    if (PaddingConfig3d.explicit front top left back bottom right).isAsymmetric then none
    else some (.explicit3 front top left)

end Gen

end OnnxIR
