import Verif.Spec.Eval
import Verif.Spec.Tensor
import Verif.Props.RenamePasses
import Mathlib.Analysis.SpecialFunctions.Pow.Real
import Mathlib.Data.Real.Sign

/-!
# A concrete operator semantics over real tensors

Shows that the algebraic laws assumed of the operators (`IdempotentLaw`, `IdentityLaw`) are those
of the ONNX operators with exact real arithmetic.
-/

namespace OnnxIR

open Classical

/-- ONNX `Round`: nearest integer, halves to even. -/
noncomputable def roundHalfEven (x : ℝ) : ℝ :=
  if x - ⌊x⌋ < 1 / 2 then ⌊x⌋
  else if 1 / 2 < x - ⌊x⌋ then ⌊x⌋ + 1
  else if Even ⌊x⌋ then ⌊x⌋ else ⌊x⌋ + 1

/-- The real function of a unary ONNX operator. -/
noncomputable def realUnary : NodeType → Option (ℝ → ℝ)
  | .relu => some fun x => max x 0
  | .ceil => some fun x => ⌈x⌉
  | .floor => some fun x => ⌊x⌋
  | .round => some roundHalfEven
  | .sign => some Real.sign
  | .abs => some fun x => |x|
  | _ => none

/-- The real function of a binary ONNX operator. -/
noncomputable def realBinary : NodeType → Option (ℝ → ℝ → ℝ)
  | .add => some (· + ·)
  | .sub => some (· - ·)
  | .mul => some (· * ·)
  | .div => some (· / ·)
  | .pow => some fun x y => x ^ y
  | _ => none

/-- Element-wise operators over real tensors, with broadcasting. -/
noncomputable def realSem : Sem (Tensor ℝ) := fun _ t _ xs =>
  match xs with
  | [some x] => (realUnary t).map fun f => [x.map f]
  | [some x, some y] => (realBinary t).bind fun f => (x.zipBcast f y).map fun z => [z]
  | _ => none

theorem roundHalfEven_int (k : ℤ) : roundHalfEven (k : ℝ) = k := by
  simp [roundHalfEven]

theorem roundHalfEven_isInt (x : ℝ) : ∃ k : ℤ, roundHalfEven x = k := by
  unfold roundHalfEven
  split
  · exact ⟨_, rfl⟩
  · split
    · exact ⟨⌊x⌋ + 1, by push_cast; rfl⟩
    · split
      · exact ⟨_, rfl⟩
      · exact ⟨⌊x⌋ + 1, by push_cast; rfl⟩

theorem realUnary_idem (t : NodeType) (f : ℝ → ℝ) (h : realUnary t = some f) (x : ℝ) :
    f (f x) = f x := by
  unfold realUnary at h
  split at h <;> cases h
  · simp
  · simp
  · simp
  · obtain ⟨k, hk⟩ := roundHalfEven_isInt x
    rw [hk, roundHalfEven_int]
  · rcases Real.sign_apply_eq x with h | h | h <;> rw [h]
    · exact Real.sign_of_neg (by norm_num)
    · exact Real.sign_zero
    · exact Real.sign_of_pos (by norm_num)
  · simp

/-- The idempotent-operator law holds of real tensors. -/
theorem realSem_idempotentLaw : IdempotentLaw realSem := by
  intro t ht nm nm' attrs attrs' xs ys y h1 hy zs h2
  have hbin : realBinary t = none := by
    simp only [List.mem_cons, List.not_mem_nil, or_false] at ht
    rcases ht with rfl | rfl | rfl | rfl | rfl | rfl <;> rfl
  simp only [realSem] at h1 h2
  split at h1
  · next x =>
    cases hf : realUnary t with
    | none => simp [hf] at h1
    | some f =>
      simp only [hf, Option.map_some, Option.some.injEq] at h1 h2
      subst h1
      simp only [List.mem_singleton] at hy
      subst hy
      rw [← h2]
      congr 1
      refine Tensor.ext rfl ?_
      simp only [Tensor.map, List.map_map]
      exact List.map_congr_left fun a _ => realUnary_idem t f hf a
  · simp [hbin] at h1
  · cases h1

/-- Broadcasting `c` against `x` gives the shape of `x`. -/
def Fits {α : Type} (c x : Tensor α) : Prop := bcast x.shape c.shape = some x.shape

theorem Tensor.get_mem {α} [Inhabited α] {t : Tensor α} {i : List Nat} (h : InRange t.shape i) :
    t.get i ∈ t.data := by
  rw [t.data_eq]
  exact List.mem_map_of_mem (mem_indices.2 h)

theorem zipBcast_right {α : Type} [Inhabited α] {f : α → α → α} {x c y : Tensor α}
    (hfit : Fits c x) (hc : ∀ e ∈ c.data, ∀ a, f a e = a) (h : x.zipBcast f c = some y) :
    y = x := by
  unfold Tensor.zipBcast at h
  rw [hfit] at h
  simp only [Option.map_some, Option.some.injEq] at h
  subst h
  refine Tensor.eq_of_get rfl ?_
  intro i hi
  replace hi : InRange x.shape i := hi
  rw [Tensor.get_ofFn hi]
  obtain ⟨_, h2⟩ := proj_inRange hfit hi
  rw [hc _ (Tensor.get_mem h2), proj_self hi]

theorem zipBcast_left {α : Type} [Inhabited α] {f : α → α → α} {x c y : Tensor α}
    (hfit : Fits c x) (hc : ∀ e ∈ c.data, ∀ a, f e a = a) (h : c.zipBcast f x = some y) :
    y = x := by
  have hfit' : bcast c.shape x.shape = some x.shape := by rw [bcast_comm]; exact hfit
  unfold Tensor.zipBcast at h
  rw [hfit'] at h
  simp only [Option.map_some, Option.some.injEq] at h
  subst h
  refine Tensor.eq_of_get rfl ?_
  intro i hi
  replace hi : InRange x.shape i := hi
  rw [Tensor.get_ofFn hi]
  obtain ⟨h1, _⟩ := proj_inRange hfit' hi
  rw [hc _ (Tensor.get_mem h1), proj_self hi]

/-- The identity-element law holds of real tensors. -/
theorem realSem_identityLaw :
    IdentityLaw realSem (fun t : Tensor ℝ => some t.data) 0 1 Fits := by
  constructor
  · intro t z htz nm attrs x c es ys hes _ hall hfit h
    simp only [Option.some.injEq] at hes
    subst hes
    simp only [realSem] at h
    obtain ⟨f, hf, h⟩ := Option.bind_eq_some_iff.1 h
    obtain ⟨y, hy, rfl⟩ := Option.map_eq_some_iff.1 h
    have : y = x := by
      refine zipBcast_right hfit ?_ hy
      intro e he a
      rw [hall e he]
      simp only [List.mem_cons, Prod.mk.injEq, List.not_mem_nil, or_false] at htz
      rcases htz with ⟨rfl, rfl⟩ | ⟨rfl, rfl⟩ | ⟨rfl, rfl⟩ | ⟨rfl, rfl⟩ | ⟨rfl, rfl⟩ <;>
        (simp only [realBinary, Option.some.injEq] at hf; subst hf; simp)
    rw [this]
  · intro t z htz nm attrs x c es ys hes _ hall hfit h
    simp only [Option.some.injEq] at hes
    subst hes
    simp only [realSem] at h
    obtain ⟨f, hf, h⟩ := Option.bind_eq_some_iff.1 h
    obtain ⟨y, hy, rfl⟩ := Option.map_eq_some_iff.1 h
    have : y = x := by
      refine zipBcast_left hfit ?_ hy
      intro e he a
      rw [hall e he]
      simp only [List.mem_cons, Prod.mk.injEq, List.not_mem_nil, or_false] at htz
      rcases htz with ⟨rfl, rfl⟩ | ⟨rfl, rfl⟩ <;>
        (simp only [realBinary, Option.some.injEq] at hf; subst hf; simp)
    rw [this]

end OnnxIR
