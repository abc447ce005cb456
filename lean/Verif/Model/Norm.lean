import Verif.Spec.Norm

/-!
# Generated code of the normalisation operators

Sources: `crates/burn-onnx/src/burn/node/{batch_norm,instance_norm,group_norm,layer_norm}.rs` and
`crates/onnx-ir/src/node/{batch_norm,instance_norm,group_norm,layer_norm}.rs`. `none` stands for an error or panic of the import,
for code that does not compile and for a panic of the generated code. Elements are real numbers: the casts to `f32` and back that
`stash_type` asks for (`group_norm.rs` 65-71, `layer_norm.rs` 71-77) are the identity here.
-/

namespace OnnxIR

/-- A parameter of a module as the node gives it: not listed among the inputs, a constant of the model, or anything else (computed by
the model, or listed with an empty name). -/
inductive ParamIn
  | absent
  | constant (t : Tensor ℝ)
  | other

namespace Gen

/-- `num_features` (`batch_norm.rs` 18-22, `instance_norm.rs` 15-19, `group_norm.rs` 16-20, `layer_norm.rs` 16-20): the first dimension
of the scale; panics for a scalar. A scale that is not a constant panics here or while the file is written. -/
def numFeatures : ParamIn → Option Nat
  | .constant t => t.shape.head?
  | _ => none

/-- Storing a parameter (`create_lazy_snapshot`, `node_traits.rs` 195-246, written by `graph.rs` 54-57) and loading it into a module with
`n` of them: a scalar is stored with shape `[1]`, anything without a value panics, and loading another shape fails. -/
def loadParam (n : Nat) : ParamIn → Option (Tensor ℝ)
  | .constant t => (Burn.reshape t (if t.shape = [] then [1] else t.shape)).bind fun u => if u.shape = [n] then some u else none
  | _ => none

/-- The value of epsilon for BatchNormalization (onnx-ir `batch_norm.rs` 156-167): 0 when the attribute is missing. -/
noncomputable def batchNormEps (eps : Option ℝ) : ℝ := eps.getD 0

/-- The positions of new dimensions (`batch_norm.rs` 72-79). -/
def batchNormDims (rank : Nat) : List Int := 0 :: (List.range' 2 (rank - 2)).map Int.ofNat

/-- BatchNormalization with parameters computed by the model (`batch_norm.rs` 55-90). -/
noncomputable def batchNormRuntime (eps : ℝ) (rank : Nat) (scale b mean var x : Tensor ℝ) : Option (Tensor ℝ) :=
  (Burn.unsqueezeDims scale (batchNormDims rank) rank).bind fun s =>
  (Burn.unsqueezeDims b (batchNormDims rank) rank).bind fun b =>
  (Burn.unsqueezeDims mean (batchNormDims rank) rank).bind fun m =>
  (Burn.unsqueezeDims var (batchNormDims rank) rank).bind fun v =>
  (Burn.zip (· - ·) x m).bind fun d =>
  (Burn.zip (· / ·) d (v.map fun w => Real.sqrt (w + eps))).bind fun q =>
  (Burn.zip (· * ·) q s).bind fun p => Burn.zip (· + ·) p b

/-- BatchNormalization (`batch_norm.rs` 14-152, onnx-ir `batch_norm.rs` 155-183): a module when all four parameters are constants.
Attributes `training_mode` and `spatial` are not read. -/
noncomputable def genBatchNorm (eps : Option ℝ) (allConstant : Bool) (scale b mean var x : Tensor ℝ) : Option (Tensor ℝ) :=
  if allConstant then
    (numFeatures (.constant scale)).bind fun n =>
    (loadParam n (.constant scale)).bind fun gamma =>
    (loadParam n (.constant b)).bind fun beta =>
    (loadParam n (.constant mean)).bind fun m =>
    (loadParam n (.constant var)).bind fun v => Burn.batchNorm (batchNormEps eps) gamma beta m v x
  else batchNormRuntime (batchNormEps eps) x.shape.length scale b mean var x

/-- InstanceNormalization (`instance_norm.rs` 13-67, onnx-ir `instance_norm.rs` 102-114): Burn's module is a group norm with a group for
each channel. -/
noncomputable def genInstanceNorm (eps : Option ℝ) (scale b : ParamIn) (x : Tensor ℝ) : Option (Tensor ℝ) :=
  (numFeatures scale).bind fun n =>
  (loadParam n scale).bind fun gamma =>
  (loadParam n b).bind fun beta => Burn.groupNorm n n (eps.getD 0.00001) gamma beta x

/-- GroupNormalization (`group_norm.rs` 13-77, onnx-ir `group_norm.rs` 66-135): `num_groups` is required, and must divide the number of
features when that is known. -/
noncomputable def genGroupNorm (eps : Option ℝ) (groups : Option Nat) (scale b : ParamIn) (x : Tensor ℝ) : Option (Tensor ℝ) :=
  groups.bind fun g =>
  (numFeatures scale).bind fun n =>
  if 0 < g ∧ 0 < n ∧ n % g ≠ 0 then none
  else
    (loadParam n scale).bind fun gamma =>
    (loadParam n b).bind fun beta => Burn.groupNorm g n (eps.getD 0.00001) gamma beta x

/-- LayerNormalization (`layer_norm.rs` 14-83, onnx-ir `layer_norm.rs` 88-155): the scale must have a value; `axis` is compared with the
rank of the scale; the module has a bias when a third input is listed. -/
noncomputable def genLayerNorm (eps : Option ℝ) (axis : Option Int) (scale b : ParamIn) (x : Tensor ℝ) : Option (Tensor ℝ) :=
  match scale with
  | .constant w =>
    if axis.getD (-1) ≠ -1 ∧ axis.getD (-1) ≠ (w.shape.length : Int) - 1 then none
    else
      (numFeatures scale).bind fun n =>
      (loadParam n scale).bind fun gamma =>
      match b with
      | .absent => Burn.layerNorm (eps.getD 0.00001) gamma none x
      | b => (loadParam n b).bind fun beta => Burn.layerNorm (eps.getD 0.00001) gamma (some beta) x
  | _ => none

end Gen

end OnnxIR
