import Verif.Spec.Tensor
import Verif.Model.Unary
import Mathlib.Data.Real.Basic

/-!
# Random operators

A value drawn at random is whatever a generator gives; what is said here holds for every outcome. Elements of all types are real numbers, Booleans
are 0 and 1.
-/

namespace OnnxIR

/-- A tensor at run time, with the type of its elements. -/
structure TypedTensor where
  dtype : DType
  data : Tensor ℝ

/-- `Distribution`: `Default` is uniform between 0 and 1 for tensors of floats. -/
inductive Dist
  | default
  | uniform (low high : ℝ)
  | normal (mean std : ℝ)

namespace Burn

/-- A generator: the elements it gives for a distribution and a shape (its state is fixed). -/
abbrev Generator := Dist → List Nat → Tensor ℝ

/-- What generators keep to. Nothing can be said about single elements of a normal distribution. -/
structure Draws (g : Generator) : Prop where
  shape : ∀ d s, (g d s).shape = s
  default : ∀ s i, InRange s i → 0 ≤ (g .default s).get i ∧ (g .default s).get i < 1
  uniform : ∀ low high s i, low < high → InRange s i → low ≤ (g (.uniform low high) s).get i ∧ (g (.uniform low high) s).get i < high

end Burn

namespace Onnx

/-- A result of RandomUniform and RandomUniformLike. -/
structure RandomUniformT (dt : DType) (s : List Nat) (low high : ℝ) (y : TypedTensor) : Prop where
  dtype : y.dtype = dt
  shape : y.data.shape = s
  range : ∀ i, InRange s i → low ≤ y.data.get i ∧ y.data.get i < high

/-- A result of Bernoulli for the probabilities `p`: ones and zeros; one where the probability is one, zero where it is zero. -/
structure BernoulliT (dt : DType) (p : Tensor ℝ) (y : TypedTensor) : Prop where
  dtype : y.dtype = dt
  shape : y.data.shape = p.shape
  binary : ∀ i, InRange p.shape i → y.data.get i = 0 ∨ y.data.get i = 1
  certain : ∀ i, InRange p.shape i → p.get i = 1 → y.data.get i = 1
  never : ∀ i, InRange p.shape i → p.get i = 0 → y.data.get i = 0

end Onnx

end OnnxIR
