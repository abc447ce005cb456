import Verif.Model.Random
import Mathlib.MeasureTheory.Measure.Lebesgue.Basic

/-!
# C74: random operators
-/

namespace OnnxIR

open Onnx Gen

/-- A generator as assumed exists. -/
noncomputable def midpoint : Burn.Generator
  | .default, s => Tensor.ofFn s fun _ => 1 / 2
  | .uniform low high, s => Tensor.ofFn s fun _ => (low + high) / 2
  | .normal mean _, s => Tensor.ofFn s fun _ => mean

theorem midpoint_draws : Burn.Draws midpoint where
  shape d s := by cases d <;> rfl
  default s i h := by
    show 0 ≤ (Tensor.ofFn s _).get i ∧ (Tensor.ofFn s _).get i < 1
    rw [Tensor.get_ofFn h]
    constructor <;> norm_num
  uniform low high s i hl h := by
    show low ≤ (Tensor.ofFn s _).get i ∧ (Tensor.ofFn s _).get i < high
    rw [Tensor.get_ofFn h]
    constructor <;> linarith

/-- C74: RandomUniform gives elements between its bounds (0 and 1 unless given), in its shape. The element type is right if it is the one that
tensors have by default. -/
theorem C74_uniform_partial {D : DType} {g : Burn.Generator} (hg : Burn.Draws g) {dtype : Option DType} {shape : List Nat} {low high : Option ℝ}
    (hD : dtype.getD .f32 = D) (hd : D = .f32 ∨ D = .f64) (hl : low.getD 0 < high.getD 1) :
    ∃ y, genRandom D g dtype shape (.uniform low high) = some y ∧ RandomUniformT (dtype.getD .f32) shape (low.getD 0) (high.getD 1) y := by
  have ht : ∃ t, Infer.randomType dtype shape = some t := by
    unfold Infer.randomType
    rw [hD]
    rcases hd with rfl | rfl <;> exact ⟨_, rfl⟩
  obtain ⟨t, ht⟩ := ht
  refine ⟨_, by rw [genRandom, ht]; rfl, hD.symm, hg.shape _ _, fun i hi => hg.uniform _ _ _ _ hl hi⟩

/-- C74: RandomNormal draws from the distribution with the mean and deviation given, 0 and 1 otherwise. -/
theorem C74_normal_partial {D : DType} {g : Burn.Generator} (hg : Burn.Draws g) {dtype : Option DType} {shape : List Nat} {mean scale : Option ℝ}
    (hD : dtype.getD .f32 = D) (hd : D = .f32 ∨ D = .f64) :
    ∃ y, genRandom D g dtype shape (.normal mean scale) = some y ∧ y.dtype = dtype.getD .f32 ∧ y.data.shape = shape ∧
      y.data = g (.normal (mean.getD 0) (scale.getD 1)) shape := by
  have ht : ∃ t, Infer.randomType dtype shape = some t := by
    unfold Infer.randomType
    rw [hD]
    rcases hd with rfl | rfl <;> exact ⟨_, rfl⟩
  obtain ⟨t, ht⟩ := ht
  exact ⟨_, by rw [genRandom, ht]; rfl, hD.symm, hg.shape _ _, rfl⟩

/-- C74: RandomUniformLike, when the element type asked for is that of the input. -/
theorem C74_uniform_like_partial {g : Burn.Generator} (hg : Burn.Draws g) {dtype : Option DType} {x : TypedTensor} {low high : Option ℝ}
    (hd : dtype = some x.dtype ∧ (x.dtype = .f32 ∨ x.dtype = .f16 ∨ x.dtype = .f64) ∨ dtype = none) (hl : low.getD 0 < high.getD 1) :
    ∃ y, genRandomLike g dtype (.uniform low high) x = some y ∧
      RandomUniformT (dtype.getD x.dtype) x.data.shape (low.getD 0) (high.getD 1) y := by
  have ht : ∃ t, Infer.randomLikeType dtype (.tensor ⟨x.dtype, x.data.shape.length, none⟩) = some t := by
    unfold Infer.randomLikeType
    rcases hd with ⟨rfl, h⟩ | rfl
    · rw [Option.getD_some]
      rcases h with h | h | h <;> rw [h] <;> exact ⟨_, rfl⟩
    · exact ⟨_, rfl⟩
  obtain ⟨t, ht⟩ := ht
  refine ⟨_, by rw [genRandomLike, ht]; rfl, ?_, hg.shape _ _, fun i hi => hg.uniform _ _ _ _ hl hi⟩
  rcases hd with ⟨rfl, _⟩ | rfl <;> rfl

/-- C74: RandomNormalLike, when the element type asked for is that of the input. -/
theorem C74_normal_like_partial {g : Burn.Generator} (hg : Burn.Draws g) {dtype : Option DType} {x : TypedTensor} {mean scale : Option ℝ}
    (hd : dtype = some x.dtype ∧ (x.dtype = .f32 ∨ x.dtype = .f16 ∨ x.dtype = .f64) ∨ dtype = none) :
    ∃ y, genRandomLike g dtype (.normal mean scale) x = some y ∧ y.dtype = dtype.getD x.dtype ∧ y.data.shape = x.data.shape ∧
      y.data = g (.normal (mean.getD 0) (scale.getD 1)) x.data.shape := by
  have ht : ∃ t, Infer.randomLikeType dtype (.tensor ⟨x.dtype, x.data.shape.length, none⟩) = some t := by
    unfold Infer.randomLikeType
    rcases hd with ⟨rfl, h⟩ | rfl
    · rw [Option.getD_some]
      rcases h with h | h | h <;> rw [h] <;> exact ⟨_, rfl⟩
    · exact ⟨_, rfl⟩
  obtain ⟨t, ht⟩ := ht
  refine ⟨_, by rw [genRandomLike, ht]; rfl, ?_, hg.shape _ _, rfl⟩
  rcases hd with ⟨rfl, _⟩ | rfl <;> rfl

/-- C74: Bernoulli, for the five element types the import knows and without the attribute. -/
theorem C74_bernoulli_partial {g : Burn.Generator} (hg : Burn.Draws g) {dtype : Option DType} {x : TypedTensor} (hk : x.dtype.kind = .float)
    (hd : ∀ d, dtype = some d → d = .f32 ∨ d = .f64 ∨ d = .i32 ∨ d = .i64 ∨ d = .bool ∨ d = x.dtype) :
    ∃ y, genBernoulli g dtype x = some y ∧ BernoulliT (dtype.getD x.dtype) x.data y := by
  unfold genBernoulli
  rw [if_neg (by simp [hk])]
  refine ⟨_, rfl, ?_, rfl, ?_, ?_, ?_⟩
  · show Infer.bernoulliElem dtype x.dtype = _
    cases dtype with
    | none => rfl
    | some d =>
      rcases hd d rfl with rfl | rfl | rfl | rfl | rfl | rfl
      iterate 5 rfl
      unfold Infer.bernoulliElem
      split <;> simp_all
  · intro i hi
    rw [Tensor.get_ofFn hi]
    split
    · exact .inr rfl
    · exact .inl rfl
  · intro i hi h1
    rw [Tensor.get_ofFn hi, if_pos (by rw [h1]; exact (hg.default _ _ hi).2)]
  · intro i hi h0
    rw [Tensor.get_ofFn hi, if_neg (by rw [h0]; exact not_lt.2 (hg.default _ _ hi).1)]

/-- C74: an element of Bernoulli depends on one draw only, and the draws between 0 and 1 that make it 1 have length `p`: drawn evenly, it is 1
with probability `p`. -/
theorem C74_bernoulli_probability {p : ℝ} (h0 : 0 ≤ p) (h1 : p ≤ 1) (dtype : Option DType) (dt : DType) (hk : dt.kind = .float) (s i : List Nat)
    (hi : InRange s i) : MeasureTheory.volume {u : ℝ | 0 ≤ u ∧ u < 1 ∧ ∃ y, genBernoulli (fun _ s => Tensor.ofFn s fun _ => u) dtype ⟨dt, Tensor.ofFn s fun _ => p⟩ = some y ∧
      y.data.get i = 1} = ENNReal.ofReal p := by
  have e : {u : ℝ | 0 ≤ u ∧ u < 1 ∧ ∃ y, genBernoulli (fun _ s => Tensor.ofFn s fun _ => u) dtype ⟨dt, Tensor.ofFn s fun _ => p⟩ = some y ∧
      y.data.get i = 1} = Set.Ico 0 p := by
    ext u
    have hg : genBernoulli (fun _ s => Tensor.ofFn s fun _ => u) dtype ⟨dt, Tensor.ofFn s fun _ => p⟩ =
        some ⟨Infer.bernoulliElem dtype dt, Tensor.ofFn s fun i => if (Tensor.ofFn s fun _ => u).get i < (Tensor.ofFn s fun _ => p).get i then 1 else 0⟩ := by
      unfold genBernoulli
      rw [if_neg (by simp [hk])]
      rfl
    simp only [Set.mem_setOf_eq, Set.mem_Ico, hg, Option.some.injEq, exists_eq_left', Tensor.get_ofFn hi]
    constructor
    · rintro ⟨a, _, b⟩
      refine ⟨a, ?_⟩
      by_contra hn
      simp [hn] at b
    · rintro ⟨a, b⟩
      exact ⟨a, lt_of_lt_of_le b h1, by simp [b]⟩
  rw [e, Real.volume_Ico, sub_zero]

/-- The hypotheses can be met. -/
example : ∃ y, genRandom .f32 midpoint none [2, 3] (.uniform none (some 2)) = some y ∧ RandomUniformT .f32 [2, 3] 0 2 y := by
  have := C74_uniform_partial midpoint_draws (D := .f32) (dtype := none) (shape := [2, 3]) (low := none) (high := some 2) rfl (.inl rfl) (by simp)
  simpa using this

example : ∃ y, genBernoulli midpoint (some .i64) ⟨.f32, ⟨[2], [0, 1], rfl⟩⟩ = some y ∧ BernoulliT .i64 ⟨[2], [0, 1], rfl⟩ y :=
  C74_bernoulli_partial midpoint_draws (dtype := some .i64) (x := ⟨.f32, ⟨[2], [0, 1], rfl⟩⟩) rfl (by simp)

/-! ### Element types that are ignored -/

/-- C74: the element type asked for makes no difference to what is computed: elements are of the default type. -/
theorem C74_dtype_ignored {D : DType} {g : Burn.Generator} {dtype : Option DType} {shape : List Nat} {d : DistAttrs} {y : TypedTensor}
    (h : genRandom D g dtype shape d = some y) : y.dtype = D := by
  obtain ⟨t, _, rfl⟩ := Option.map_eq_some_iff.1 h
  rfl

/-- C74: for `f64` and the usual default the import declares a type the value does not have. -/
theorem C74_double_wrong (g : Burn.Generator) (shape : List Nat) (d : DistAttrs) :
    Infer.randomType (some .f64) shape = some (.tensor ⟨.f64, shape.length, none⟩) ∧
    ∃ y, genRandom .f32 g (some .f64) shape d = some y ∧ y.dtype = .f32 := ⟨rfl, _, rfl, rfl⟩

/-- C74: the same for the operators that take a shape from their input: the elements have the type of the input. -/
theorem C74_like_dtype_ignored {g : Burn.Generator} {dtype : Option DType} {d : DistAttrs} {x y : TypedTensor}
    (h : genRandomLike g dtype d x = some y) : y.dtype = x.dtype := by
  obtain ⟨t, _, rfl⟩ := Option.map_eq_some_iff.1 h
  rfl

/-- C74: without the attribute ONNX takes the element type of the input; the import declares `f32`, which is wrong for every other input. -/
theorem C74_like_declared_wrong (g : Burn.Generator) (d : DistAttrs) (x : TypedTensor) (hx : x.dtype ≠ .f32) :
    ∃ t y, Infer.randomLikeType none (.tensor ⟨x.dtype, x.data.shape.length, none⟩) = some (.tensor t) ∧ genRandomLike g none d x = some y ∧
      t.dtype ≠ y.dtype := ⟨_, _, rfl, rfl, Ne.symm hx⟩

/-- C74: other element types for Bernoulli, such as `f16` and `i8`, are replaced by that of the input without a message. -/
theorem C74_bernoulli_dtype_wrong (g : Burn.Generator) {d : DType} (x : TypedTensor) (hk : x.dtype.kind = .float) (hd : d ≠ x.dtype)
    (h : d ≠ .f32 ∧ d ≠ .f64 ∧ d ≠ .i32 ∧ d ≠ .i64 ∧ d ≠ .bool) : ∃ y, genBernoulli g (some d) x = some y ∧ y.dtype ≠ d := by
  unfold genBernoulli
  rw [if_neg (by simp [hk])]
  refine ⟨_, rfl, ?_⟩
  show Infer.bernoulliElem (some d) x.dtype ≠ d
  obtain ⟨h1, h2, h3, h4, h5⟩ := h
  cases d <;> simp_all [Infer.bernoulliElem, Ne.symm]

/-- C74: half precision is refused for RandomNormal and RandomUniform. -/
theorem C74_half_refused (D : DType) (g : Burn.Generator) {d : DType} (h1 : d ≠ .f32) (h2 : d ≠ .f64) (shape : List Nat) (a : DistAttrs) :
    genRandom D g (some d) shape a = none := by
  unfold genRandom Infer.randomType
  cases d <;> simp_all

end OnnxIR
