import Verif.Spec.Views
import Verif.Spec.Reduce
import Mathlib.Analysis.SpecialFunctions.Pow.NNReal

/-!
# Normalisation: ONNX's formulas and Burn's modules

Elements are real numbers: rounding, and with it the precision in which the operators compute, is not described.
-/

namespace OnnxIR

/-- Mean of a list of numbers. -/
noncomputable def avg (l : List ℝ) : ℝ := l.sum / l.length

/-- Variance of a list of numbers (divided by their number). -/
noncomputable def variance (l : List ℝ) : ℝ := avg (l.map fun v => (v - avg l) ^ 2)

/-- A number normalised with the mean and variance of a list. -/
noncomputable def normalized (eps : ℝ) (l : List ℝ) (v : ℝ) : ℝ := (v - avg l) / Real.sqrt (variance l + eps)

namespace Onnx

/-- BatchNormalization at inference: with the given mean and variance of every channel (dimension 1). -/
noncomputable def batchNormT (eps : ℝ) (x scale b mean var : Tensor ℝ) : Tensor ℝ :=
  Tensor.ofFn x.shape fun i =>
    let c := [i.getD 1 0]
    scale.get c * ((x.get i - mean.get c) / Real.sqrt (var.get c + eps)) + b.get c

/-- BatchNormalization with `training_mode = 1`: the first output uses the mean and variance of all elements of the channel. -/
noncomputable def batchNormTrainingT (eps : ℝ) (x scale b : Tensor ℝ) : Tensor ℝ :=
  Tensor.ofFn x.shape fun i =>
    let c := [i.getD 1 0]
    scale.get c * normalized eps (((indices x.shape).filter fun j => j.getD 1 0 = i.getD 1 0).map x.get) (x.get i) + b.get c

/-- InstanceNormalization: every channel of every batch entry by itself. -/
noncomputable def instanceNormT (eps : ℝ) (x scale b : Tensor ℝ) : Tensor ℝ :=
  Tensor.ofFn x.shape fun i =>
    let c := [i.getD 1 0]
    let values := (indices (x.shape.drop 2)).map fun j => x.get (i.getD 0 0 :: i.getD 1 0 :: j)
    scale.get c * normalized eps values (x.get i) + b.get c

/-- The values of group `g` of batch entry `n`, a group being `size` consecutive channels. -/
def groupValues (x : Tensor ℝ) (size n g : Nat) : List ℝ :=
  (List.range size).flatMap fun k => (indices (x.shape.drop 2)).map fun j => x.get (n :: (g * size + k) :: j)

/-- GroupNormalization. Up to operator set 20 there is a scale and a bias for each group (`perGroup`), from 21 on for each channel. -/
noncomputable def groupNormT (eps : ℝ) (groups : Nat) (perGroup : Bool) (x scale b : Tensor ℝ) : Tensor ℝ :=
  let size := x.shape.getD 1 0 / groups
  Tensor.ofFn x.shape fun i =>
    let g := i.getD 1 0 / size
    let c := [if perGroup then g else i.getD 1 0]
    scale.get c * normalized eps (groupValues x size (i.getD 0 0) g) (x.get i) + b.get c

/-- LayerNormalization over the dimensions from `axis` on; scale and bias are broadcast to them. -/
noncomputable def layerNormT (eps : ℝ) (axis : Nat) (x scale : Tensor ℝ) (b : Option (Tensor ℝ)) : Tensor ℝ :=
  Tensor.ofFn x.shape fun i =>
    let values := (indices (x.shape.drop axis)).map fun j => x.get (i.take axis ++ j)
    scale.get (proj scale.shape i) * normalized eps values (x.get i) + match b with
      | some b => b.get (proj b.shape i)
      | none => 0

/-- The dimension an `axis` attribute names. -/
def axisOf (rank : Nat) (a : Int) : Nat := if a < 0 then (a + rank).toNat else a.toNat

end Onnx

namespace Burn

/-- The shape `[1, C, 1, …, 1]` of `rank` dimensions that the modules give to a parameter for each channel. -/
def channelShape (rank c : Nat) : List Nat := (List.replicate rank 1).set 1 c

/-- `BatchNorm::forward` on a backend without automatic differentiation; panics for rank 1. -/
noncomputable def batchNorm (eps : ℝ) (gamma beta mean var x : Tensor ℝ) : Option (Tensor ℝ) := do
  if x.shape.length < 2 then none else
  let s := channelShape x.shape.length (x.shape.getD 1 0)
  let m ← reshape mean s
  let v ← reshape var s
  let d ← zip (· - ·) x m
  let q ← zip (· / ·) d (v.map fun w => Real.sqrt (w + eps))
  let p ← zip (· * ·) q (← reshape gamma s)
  zip (· + ·) p (← reshape beta s)

/-- `group_norm`, called by `GroupNorm::forward` and `InstanceNorm::forward`: the input as a tensor of three dimensions, the last one
holding a group. Panics unless there are three dimensions or more and the channels are `channels`; inputs of two or fewer elements,
for which it panics as well, are outside this definition. -/
noncomputable def groupNorm (groups channels : Nat) (eps : ℝ) (gamma beta x : Tensor ℝ) : Option (Tensor ℝ) := do
  if x.shape.length < 2 ∨ prodShape x.shape ≤ 2 ∨ x.shape.getD 1 0 ≠ channels then none else
  let hidden := prodShape (x.shape.drop 2) * channels / groups
  let t ← reshape x [x.shape.getD 0 0, groups, hidden]
  let mean := (← reduceDim List.sum t 2).map (· / (hidden : ℝ))
  let d ← zip (· - ·) t mean
  let var := (← reduceDim List.sum (d.map (· ^ 2)) 2).map (· / (hidden : ℝ))
  let q ← zip (· / ·) d (var.map fun w => Real.sqrt (w + eps))
  let y ← reshape q x.shape
  let s := channelShape x.shape.length channels
  let p ← zip (· * ·) y (← reshape gamma s)
  zip (· + ·) p (← reshape beta s)

/-- `LayerNorm::forward`: mean and variance along the last dimension. -/
noncomputable def layerNorm (eps : ℝ) (gamma : Tensor ℝ) (beta : Option (Tensor ℝ)) (x : Tensor ℝ) : Option (Tensor ℝ) := do
  if x.shape = [] then none else
  let last := x.shape.length - 1
  let mean ← reduceDim avg x last
  let var ← reduceDim variance x last
  let d ← zip (· - ·) x mean
  let q ← zip (· / ·) d (var.map fun w => Real.sqrt (w + eps))
  let p ← zip (· * ·) q (← unsqueeze gamma x.shape.length)
  match beta with
  | some b => zip (· + ·) p (← unsqueeze b x.shape.length)
  | none => some p

end Burn

end OnnxIR
