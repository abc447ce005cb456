import Verif.Spec.AttentionOp
import Verif.Spec.Burn

/-!
# Attention: type inference checks and generated code

crates/burn-onnx/src/burn/node/attention.rs and crates/onnx-ir/src/node/attention.rs. Elements are real numbers, scores may be minus infinity.
-/

namespace OnnxIR

/-- `AttentionConfig` (onnx-ir attention.rs:17-26). -/
structure AttnAttrs where
  causal : Bool := false
  kvHeads : Option Nat := none
  qHeads : Option Nat := none
  mode : Nat := 0
  scale : Option ℝ := none
  softcap : ℝ := 0
  precision : Option Nat := none

/-- The inputs of a node and the number of its outputs. -/
structure AttnArgs where
  q : Tensor ℝ
  k : Tensor ℝ
  v : Tensor ℝ
  mask : Option AttnMask := none
  past : Option (Tensor ℝ × Tensor ℝ) := none
  outs : Nat := 1

/-- The outputs: Y, the new cache, and the scores. -/
structure AttnOuts where
  y : Tensor ℝ
  present : Option (Tensor ℝ × Tensor ℝ) := none
  qk : Option (Tensor Score) := none

/-- The checks of `infer_types` (onnx-ir attention.rs:82-142) on ranks and counts; past_key and past_value are given together here. -/
def attnAccepts (a : AttnAttrs) (x : AttnArgs) : Bool :=
  let r := x.q.shape.length
  x.k.shape.length = r && x.v.shape.length = r && (r = 3 || r = 4) && x.outs ≠ 0 && x.outs ≠ 2 && (x.past.isSome = decide (3 ≤ x.outs)) && a.mode ≤ 3 &&
    (r = 4 || (a.kvHeads.isSome && a.qHeads.isSome))

namespace Gen

variable {α : Type} [Inhabited α]

/-- `reshape(dims).permute([0, 2, 1, 3])`. -/
def toHeads (x : Tensor α) (dims : List Nat) : Option (Tensor α) := (Burn.reshape x dims).map fun u => Burn.permute u [0, 2, 1, 3]

/-- attention.rs:76-99 and 253-276: inputs of rank 3 split into heads; dividing by no heads panics. -/
def attnHeads (a : AttnAttrs) (x : AttnArgs) : Option (Tensor ℝ × Tensor ℝ × Tensor ℝ) :=
  match x.q.shape with
  | [b, sq, hidden] =>
    match a.qHeads, a.kvHeads with
    | some hq, some hk =>
      if hq = 0 ∨ hk = 0 then none else
      let d := hidden / hq
      let sk := x.k.shape.getD 1 0
      let dv := x.v.shape.getD 2 0 / hk
      (toHeads x.q [b, sq, hq, d]).bind fun q => (toHeads x.k [b, sk, hk, d]).bind fun k => (toHeads x.v [b, sk, hk, dv]).map fun v => (q, k, v)
    | _, _ => none
  | _ => some (x.q, x.k, x.v)

/-- attention.rs:101-103, 283-285. -/
def attnJoin (x : AttnArgs) (y : Tensor ℝ) : Option (Tensor ℝ) :=
  match x.q.shape with
  | [b, sq, _] => Burn.reshapeRest (Burn.permute y [0, 2, 1, 3]) b sq
  | _ => some y

/-- attention.rs:107-119, 294-308: the cache in front of the keys and values. -/
def attnCache (past : Option (Tensor ℝ × Tensor ℝ)) (k v : Tensor ℝ) : Option (Tensor ℝ × Tensor ℝ) :=
  match past with
  | none => some (k, v)
  | some (pk, pv) => (Burn.cat [pk, k] 2).bind fun k => (Burn.cat [pv, v] 2).map fun v => (k, v)

/-- attention.rs:154-160: masks and biases as tensors of rank 4. -/
def attnRank4 (t : Tensor α) : Option (Tensor α) :=
  match t.shape with
  | [_, _] => Burn.unsqueeze t 4
  | [a, b, c] => Burn.reshape t [a, 1, b, c]
  | [_, _, _, _] => some t
  | _ => none

/-- attention.rs:141-186: mask and bias for Burn's function. -/
noncomputable def attnMaskBias (a : AttnAttrs) (x : AttnArgs) : Option (Option (Tensor Bool) × Option (Tensor Score)) :=
  if a.causal then some (none, none) else
  match x.mask with
  | none => some (none, none)
  | some (.bool t) => (attnRank4 (t.map (!·))).map fun m => (some m, none)
  | some (.float t) => (attnRank4 t).map fun m => (none, some m)
  | some (.int t) => (attnRank4 (t.map fun n => (((n : ℤ) : ℝ) : Score))).map fun m => (none, some m)

/-- `forward_burn_attention` (attention.rs:43-208). -/
noncomputable def attnBurn (f : Burn.Attn) (a : AttnAttrs) (x : AttnArgs) : Option AttnOuts :=
  (attnHeads a x).bind fun (q, k, v) => (attnCache x.past k v).bind fun (k, v) => (attnMaskBias a x).bind fun (m, b) =>
    (f q k v m b a.scale (if a.softcap ≠ 0 then some a.softcap else none) a.causal).bind fun y => (attnJoin x y).map fun y =>
      { y := y, present := x.past.map fun _ => (k, v) }

/-- Sums of products. -/
noncomputable def dotR (a b : List ℝ) : ℝ := (List.zipWith (· * ·) a b).sum

/-- attention.rs:323-361: the mask added to the scores; with `is_causal` the triangle takes its place. A Boolean mask must be a matrix for the
code to compile; `mask_fill` is taken for masks of the same shape only. -/
noncomputable def attnAddMask (a : AttnAttrs) (mask : Option AttnMask) (qk : Tensor ℝ) : Option (Tensor Score) :=
  let s : Tensor Score := qk.map fun x : ℝ => (x : Score)
  let addTo (m : Tensor Score) : Option (Tensor Score) := (Burn.expand m qk.shape).bind fun m => Burn.zip (· + ·) s m
  let rows := qk.shape.getD 2 0
  let cols := qk.shape.getD 3 0
  if a.causal then addTo (Tensor.ofFn [rows, cols] fun i => if i.getD 1 0 ≤ i.getD 0 0 then 0 else ⊥)
  else match mask with
    | none => some s
    | some (.int t) => addTo (t.map fun n => (((n : ℤ) : ℝ) : Score))
    | some (.float t) => addTo t
    | some (.bool t) => if t.shape = [rows, cols] then addTo (t.map fun c => if c then 0 else ⊥) else none

/-- The scale of both factors (attention.rs:245-250, 277-281, 287-291). -/
noncomputable def attnRootScale (a : AttnAttrs) (d : Nat) : ℝ :=
  match a.scale with
  | some s => √s
  | none => √(1 / √d)

/-- The scores to return (attention.rs:366-390, 400-402): after capping they exist only if there is a cap. -/
noncomputable def attnQkOut (a : AttnAttrs) (qk : Tensor ℝ) (masked capped : Tensor Score) (w : Tensor ℝ) : Option (Tensor Score) :=
  match a.mode with
  | 0 => some (qk.map fun x : ℝ => (x : Score))
  | 1 => some masked
  | 2 => if a.softcap ≠ 0 then some capped else none
  | _ => some (w.map fun x : ℝ => (x : Score))

/-- `forward_custom` (attention.rs:212-438). -/
noncomputable def attnCustom (a : AttnAttrs) (x : AttnArgs) : Option AttnOuts :=
  (attnHeads a x).bind fun (q, k, v) => (attnCache x.past k v).bind fun (k, v) =>
    let r := attnRootScale a (q.shape.getD 3 0)
    (Burn.matmul dotR (q.map (· * r)) (Burn.permute (k.map (· * r)) [0, 1, 3, 2])).bind fun qk =>
      (attnAddMask a x.mask qk).bind fun masked =>
        let capped := if a.softcap ≠ 0 then masked.map (Score.cap a.softcap) else masked
        let w := Burn.softmax3 capped
        (Burn.matmul dotR w v).bind fun y => (attnJoin x y).bind fun y => (attnQkOut a qk masked capped w).map fun o =>
          { y := y, present := x.past.map fun _ => (k, v), qk := some o }

/-- attention.rs:22-32 after the checks of type inference. -/
noncomputable def genAttention (f : Burn.Attn) (a : AttnAttrs) (x : AttnArgs) : Option AttnOuts :=
  if attnAccepts a x = false then none
  else if a.precision.isSome then none
  else if x.outs ≤ 3 then attnBurn f a x else attnCustom a x

end Gen

end OnnxIR
