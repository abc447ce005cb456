import Verif.Spec.Random

/-!
# RandomNormal, RandomUniform, RandomNormalLike, RandomUniformLike and Bernoulli

crates/onnx-ir/src/node/random.rs, random_like.rs and bernoulli.rs; crates/burn-onnx/src/burn/node/random_normal.rs, random_uniform.rs,
random_normal_like.rs, random_uniform_like.rs and bernoulli.rs. The attribute `seed` is not read. Attributes `dtype` that name no element type panic.
-/

namespace OnnxIR

/-- The attributes that say what to draw: `low`, `high`, `mean`, `scale` (random.rs:172-198, random_like.rs:126-152). -/
inductive DistAttrs
  | uniform (low high : Option ℝ)
  | normal (mean scale : Option ℝ)

namespace Infer

/-- The distribution. -/
def distConfig : DistAttrs → Dist
  | .uniform low high => .uniform (low.getD 0) (high.getD 1)
  | .normal mean scale => .normal (mean.getD 0) (scale.getD 1)

/-- `infer_types` of RandomNormal and RandomUniform (random.rs:91-161); none: refused. -/
def randomType (dtype : Option DType) (shape : List Nat) : Option ArgType :=
  match dtype.getD .f32 with
  | .f32 => some (.tensor ⟨.f32, shape.length, none⟩)
  | .f64 => some (.tensor ⟨.f64, shape.length, none⟩)
  | _ => none

/-- `infer_types` of RandomNormalLike and RandomUniformLike (random_like.rs:81-123). -/
def randomLikeType (dtype : Option DType) (x : ArgType) : Option ArgType :=
  match dtype.getD .f32, x with
  | .f32, .tensor t => some (.tensor { t with dtype := .f32 })
  | .f16, .tensor t => some (.tensor { t with dtype := .f16 })
  | .f64, .tensor t => some (.tensor { t with dtype := .f64 })
  | _, _ => none

/-- The element type that `infer_types` of Bernoulli gives the output (bernoulli.rs:66-79). -/
def bernoulliElem (dtype : Option DType) (x : DType) : DType :=
  match dtype with
  | some .f32 => .f32
  | some .i32 => .i32
  | some .i64 => .i64
  | some .f64 => .f64
  | some .bool => .bool
  | _ => x

end Infer

namespace Gen

/-- `Tensor::random(Shape::new([…]), dist, &*self.device)` (random_normal.rs:13-28, random_uniform.rs:13-28); `D` is the element type that tensors of
floats have by default. -/
def genRandom (D : DType) (g : Burn.Generator) (dtype : Option DType) (shape : List Nat) (d : DistAttrs) : Option TypedTensor :=
  (Infer.randomType dtype shape).map fun _ => ⟨D, g (Infer.distConfig d) shape⟩

/-- `input.random_like(dist)` (random_normal_like.rs:12-24, random_uniform_like.rs:12-24): the element type of the input. -/
def genRandomLike (g : Burn.Generator) (dtype : Option DType) (d : DistAttrs) (x : TypedTensor) : Option TypedTensor :=
  (Infer.randomLikeType dtype (.tensor ⟨x.dtype, x.data.shape.length, none⟩)).map fun _ => ⟨x.dtype, g (Infer.distConfig d) x.data.shape⟩

/-- `input.random_like(Distribution::Default).lower(input)`, as numbers where needed (bernoulli.rs:13-45). Nothing is said about draws of integers. -/
noncomputable def genBernoulli (g : Burn.Generator) (dtype : Option DType) (x : TypedTensor) : Option TypedTensor :=
  if x.dtype.kind ≠ .float then none else
  let u := g .default x.data.shape
  some ⟨Infer.bernoulliElem dtype x.dtype, Tensor.ofFn x.data.shape fun i => if u.get i < x.data.get i then 1 else 0⟩

end Gen

end OnnxIR
