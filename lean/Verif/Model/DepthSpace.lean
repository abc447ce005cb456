import Verif.Spec.Burn
import Verif.Spec.DepthSpace
import Verif.Model.OpRules

/-!
# DepthToSpace and SpaceToDepth
-/

namespace OnnxIR

open Onnx

/-- crates/onnx-ir/src/node/depth_to_space.rs:75-154. Attribute and opset checks that only reject
are left out. -/
def Infer.depthToSpace (bs : Nat) : ArgType → Option ArgType
  | .tensor t =>
    if bs = 0 ∨ t.rank ≠ 4 then none
    else match t.staticShape with
      | none => some (.tensor ⟨t.dtype, t.rank, none⟩)
      | some [b, c, h, w] =>
        some (.tensor ⟨t.dtype, t.rank,
          some [b, c.map (· / (bs * bs)), h.map (· * bs), w.map (· * bs)]⟩)
      | some _ => none
  | _ => none

/-- crates/onnx-ir/src/node/space_to_depth.rs:56-133. -/
def Infer.spaceToDepth (bs : Nat) : ArgType → Option ArgType
  | .tensor t =>
    if bs = 0 ∨ t.rank ≠ 4 then none
    else match t.staticShape with
      | none => some (.tensor ⟨t.dtype, t.rank, none⟩)
      | some [b, c, h, w] =>
        some (.tensor ⟨t.dtype, t.rank,
          some [b, c.map (· * bs * bs), h.map (· / bs), w.map (· / bs)]⟩)
      | some _ => none
  | _ => none

namespace Gen

variable {α : Type} [Inhabited α]

/-- The code generated for DepthToSpace
(crates/burn-onnx/src/burn/node/depth_to_space.rs:13-43). -/
def depthToSpace (m : DepthMode) (bs : Nat) (x : Tensor α) : Option (Tensor α) :=
  match x.shape with
  | [b, c, h, w] =>
    match m with
    | .dcr => (Burn.reshape x [b, bs, bs, c / (bs * bs), h, w]).bind fun y =>
        Burn.reshape (Burn.permute y [0, 3, 4, 1, 5, 2]) [b, c / (bs * bs), h * bs, w * bs]
    | .crd => (Burn.reshape x [b, c / (bs * bs), bs, bs, h, w]).bind fun y =>
        Burn.reshape (Burn.permute y [0, 1, 4, 2, 5, 3]) [b, c / (bs * bs), h * bs, w * bs]
  | _ => none

/-- The code generated for SpaceToDepth
(crates/burn-onnx/src/burn/node/space_to_depth.rs:12-26). -/
def spaceToDepth (bs : Nat) (x : Tensor α) : Option (Tensor α) :=
  match x.shape with
  | [b, c, h, w] =>
    (Burn.reshape x [b, c, h / bs, bs, w / bs, bs]).bind fun y =>
      Burn.reshape (Burn.permute y [0, 3, 5, 1, 2, 4]) [b, c * bs * bs, h / bs, w / bs]
  | _ => none

end Gen

end OnnxIR
