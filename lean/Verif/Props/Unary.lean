import Verif.Model.Unary
import Verif.Props.Elementwise
import Verif.Props.Reduce
import Verif.Lemmas.Box
import Mathlib.Tactic.Ring
import Mathlib.Tactic.FieldSimp
import Mathlib.Tactic.Linarith
import Mathlib.Tactic.NormNum

/-!
# C65: element-wise operators with one input
-/

namespace OnnxIR

open Gen

/-- A value that represents a tensor is turned into one that represents the tensor with a function applied. -/
theorem Reps.mapDev {α β : Type} {ofInt : Int → α} {ofInt' : Int → β} {ty : ArgType} {u : Tensor α} {T : Tensor α} (f : α → β)
    (h : Reps ofInt ty (.dev u) T) : Reps ofInt' ty (.dev (u.map f)) (T.map f) := by
  match ty, h with
  | .tensor t, ⟨h1, h2, h3⟩ => exact ⟨by rw [h1], h2, h3⟩
  | .scalarTensor _, ⟨h1, h2, h3⟩ => exact ⟨h1, h2, by simp [Tensor.map, h3]⟩

theorem Reps.mapNative {α β : Type} {ofInt : Int → α} {ofInt' : Int → β} {d d' : DType} {x : α} {T : Tensor α} (f : α → β)
    (h : Reps ofInt (.scalarNative d) (.native x) T) : Reps ofInt' (.scalarNative d') (.native (f x)) (T.map f) :=
  ⟨h.1, by simp [Tensor.map, h.2]⟩

/-! ### Functions of one number -/

/-- The method of a tensor is ONNX's function, for every kind of elements that ONNX allows. -/
theorem burn_method {erf : ℝ → ℝ} {op : UnaryOp} {k : ElemKind} (h : k ∈ op.kinds) :
    ∃ f, pickMethod k (Burn.method erf (methodName op)) = some f ∧ ∀ x, f x = Onnx.unary erf op x := by
  cases op <;> refine ⟨_, if_pos h, fun x => ?_⟩ <;> first | rfl | exact (one_div x).symm

/-- Operators whose method does not exist for numbers, or computes something else. -/
def nativeGaps : List UnaryOp := [.erf, .log, .sign, .round]

theorem rust_method {op : UnaryOp} {k : ElemKind} (h : k ∈ op.kinds) (hg : op ∉ nativeGaps) (hn : op ≠ .neg) :
    ∃ f, pickMethod k (rustMethod (methodName op)) = some f ∧ ∀ (erf : ℝ → ℝ) x, f x = Onnx.unary erf op x := by
  cases op <;> first
    | exact absurd rfl hn
    | exact absurd (by decide) hg
    | exact ⟨_, if_pos h, fun _ _ => rfl⟩
    | exact ⟨_, if_pos h, fun _ x => (one_div x).symm⟩

/-- Functions of one number: the result is ONNX's for tensors and scalars on the device, and for scalars outside it except for Erf,
Log, Sign and Round. -/
theorem C65_unary_partial {erf : ℝ → ℝ} {op : UnaryOp} {ty : ArgType} {v : GVal ℝ} {T : Tensor ℝ} (h : Reps Int.cast ty v T)
    (hk : ty.kind ∈ op.kinds) (hs : ∀ n, ty ≠ .shape n) (hn : ty.isOnDevice = false → op ∉ nativeGaps) :
    ∃ z, genUnary erf op ty v = some z ∧ Reps Int.cast ty z (T.map (Onnx.unary erf op)) := by
  have onDev : ∀ u, v = .dev u → ((pickMethod ty.kind (Burn.method erf (methodName op))).map fun f => GVal.dev (u.map f)) =
      some (.dev (u.map (Onnx.unary erf op))) := by
    intro u _
    obtain ⟨f, hf, hfx⟩ := burn_method (erf := erf) hk
    rw [hf, show f = Onnx.unary erf op from funext hfx]
    rfl
  match ty, v, h with
  | .tensor t, .dev u, h => exact ⟨_, onDev u rfl, h.mapDev _⟩
  | .scalarTensor d, .dev u, h => exact ⟨_, onDev u rfl, h.mapDev _⟩
  | .scalarNative d, .native x, h =>
    refine ⟨.native (Onnx.unary erf op x), ?_, h.mapNative _⟩
    simp only [genUnary]
    by_cases he : op = .neg
    · subst he
      rfl
    · rw [if_neg he]
      obtain ⟨f, hf, hfx⟩ := rust_method hk (hn rfl) he
      rw [hf]
      simp [hfx erf]
  | .shape n, _, _ => exact absurd rfl (hs n)

/-- Erf, Log and Sign of a scalar outside the device do not compile; every operator on the dimensions of a shape fails. -/
theorem C65_unary_fails {erf : ℝ → ℝ} {op : UnaryOp} {v : GVal ℝ} :
    (op ∈ [.erf, .log, .sign] → ∀ d, genUnary erf op (.scalarNative d) v = none) ∧ ∀ n, genUnary erf op (.shape n) v = none := by
  refine ⟨fun h d => ?_, fun n => by cases v <;> rfl⟩
  simp only [List.mem_cons, List.not_mem_nil, or_false] at h
  obtain rfl | rfl | rfl := h <;> cases v <;> rfl

/-- Round of a scalar outside the device rounds halves away from zero: 1/2 becomes 1 where ONNX has 0. -/
theorem C65_round_wrong (erf : ℝ → ℝ) : genUnary erf .round (.scalarNative .f32) (.native (1 / 2)) = some (.native 1) ∧
    Onnx.unary erf .round (1 / 2) = 0 := by
  have hf : ⌊(1 / 2 : ℝ)⌋ = 0 := by norm_num
  constructor
  · have : roundAway (1 / 2) = 1 := by
      unfold roundAway
      norm_num
    show some (GVal.native (roundAway (1 / 2))) = _
    rw [this]
  · show roundEven (1 / 2) = 0
    unfold roundEven
    have : Int.fract (1 / 2 : ℝ) = 1 / 2 := by rw [Int.fract, hf]; norm_num
    rw [this, hf]
    norm_num

/-- ONNX's Round on both sides of a half. -/
example : roundEven (3 / 2) = 2 ∧ roundEven (5 / 2) = 2 := by
  have h1 : ⌊(3 / 2 : ℝ)⌋ = 1 := by norm_num
  have h2 : ⌊(5 / 2 : ℝ)⌋ = 2 := by norm_num
  unfold roundEven
  rw [show Int.fract (3 / 2 : ℝ) = 1 / 2 by rw [Int.fract, h1]; norm_num, show Int.fract (5 / 2 : ℝ) = 1 / 2 by rw [Int.fract, h2]; norm_num, h1, h2]
  norm_num

example : Reps Int.cast (.tensor ⟨.f32, 2, none⟩) (.dev ⟨[1, 2], [1, 2], rfl⟩) (⟨[1, 2], [1, 2], rfl⟩ : Tensor ℝ) ∧
    (ArgType.tensor ⟨.f32, 2, none⟩).kind ∈ UnaryOp.kinds .tanh := ⟨⟨rfl, rfl, by decide⟩, by decide⟩

/-- Not and BitwiseNot of tensors and scalars on the device. -/
theorem C65_not_partial {α : Type} {f : α → α} {ofInt : Int → α} {ty : ArgType} {v : GVal α} {T : Tensor α} (h : Reps ofInt ty v T)
    (hd : ty.isOnDevice = true) : ∃ z, genNot f ty v = some z ∧ Reps ofInt ty z (T.map f) := by
  match ty, v, h, hd with
  | .tensor t, .dev u, h, _ => exact ⟨_, rfl, h.mapDev f⟩
  | .scalarTensor d, .dev u, h, _ => exact ⟨_, rfl, h.mapDev f⟩

/-- Not and BitwiseNot of a scalar outside the device or of a shape do not compile. -/
theorem C65_not_fails {α : Type} {f : α → α} {ty : ArgType} {v : GVal α} (hd : ty.isOnDevice = false) : genNot f ty v = none := by
  cases ty <;> cases v <;> first | rfl | cases hd

/-! ### Activation functions -/

theorem leaky_eq (x s : ℝ) : Burn.leakyRelu x s = if x < 0 then s * x else x := by
  unfold Burn.leakyRelu
  split
  · next h => rw [max_eq_left h.le, min_eq_right h.le, zero_add]
  · next h => rw [max_eq_right (not_lt.1 h), min_eq_left (not_lt.1 h), mul_zero, add_zero]

theorem burn_swish (x a : ℝ) : x * Burn.sigmoid (x * a) = x / (1 + Real.exp (-(a * x))) := by
  unfold Burn.sigmoid
  rw [mul_comm x a]
  ring

/-- The call computes ONNX's function, for every value of the attributes: all functions but Selu, and Gelu unless it is to be
approximated. -/
theorem actCall_eq {erf : ℝ → ℝ} {sa sg : ℝ} {a : ActAttrs} {op : ActOp} (ha : a.Ok op) (hs : op ≠ .selu) (hg : op = .gelu → a.approximate = false) :
    ∃ f, actCall erf sa sg a op = some f ∧ ∀ x, f x = Onnx.act erf a op x := by
  cases op with
  | selu => exact absurd rfl hs
  | relu => exact ⟨_, rfl, fun x => max_comm x 0⟩
  | leakyRelu => exact ⟨_, rfl, fun x => leaky_eq x _⟩
  | elu =>
    refine ⟨_, rfl, fun x => ?_⟩
    simp only [Onnx.act, Burn.elu]
    rcases lt_trichotomy x 0 with h | h | h
    · rw [if_neg (not_lt.2 h.le), if_pos h]
    · subst h; simp
    · rw [if_pos h, if_neg (not_lt.2 h.le)]
  | celu => exact ⟨_, rfl, fun x => rfl⟩
  | gelu =>
    refine ⟨_, rfl, fun x => ?_⟩
    simp only [Onnx.act, Burn.gelu, hg rfl, Bool.false_eq_true, if_false]
    ring
  | hardSigmoid => exact ⟨_, rfl, fun x => rfl⟩
  | hardSwish => exact ⟨_, rfl, fun x => rfl⟩
  | mish =>
    refine ⟨_, rfl, fun x => ?_⟩
    simp [Onnx.act, Burn.softplus]
  | sigmoid => exact ⟨_, rfl, fun x => rfl⟩
  | softplus =>
    refine ⟨_, rfl, fun x => ?_⟩
    simp [Onnx.act, Burn.softplus, add_comm]
  | softsign => exact ⟨_, rfl, fun x => rfl⟩
  | swish =>
    simp only [actCall]
    split
    · next h =>
      refine ⟨_, rfl, fun x => ?_⟩
      simp only [Onnx.act, h]
      rw [← burn_swish, mul_one]
    · exact ⟨_, rfl, fun x => burn_swish x _⟩
  | thresholdedRelu => exact ⟨_, rfl, fun x => rfl⟩

/-- Activations of floating-point tensors and scalars on the device: the result is ONNX's, for every value of the attributes. Selu
is below. -/
theorem C65_act_partial {erf : ℝ → ℝ} {sa sg : ℝ} {a : ActAttrs} {op : ActOp} {ty : ArgType} {v : GVal ℝ} {T : Tensor ℝ} (ha : a.Ok op)
    (hs : op ≠ .selu) (hg : op = .gelu → a.approximate = false) (h : Reps Int.cast ty v T) (hk : ty.kind = .float) (hd : ty.isOnDevice = true) :
    ∃ z, genAct erf sa sg a op ty v = some z ∧ Reps Int.cast ty z (T.map (Onnx.act erf a op)) := by
  obtain ⟨f, hf, hfx⟩ := actCall_eq (erf := erf) (sa := sa) (sg := sg) ha hs hg
  have e : f = Onnx.act erf a op := funext hfx
  unfold genAct
  rw [hf, Option.bind_some]
  match ty, v, h, hd with
  | .tensor t, .dev u, h, _ => exact ⟨_, if_pos hk, by rw [e]; exact h.mapDev _⟩
  | .scalarTensor d, .dev u, h, _ => exact ⟨_, if_pos hk, by rw [e]; exact h.mapDev _⟩

/-- Selu is accepted when alpha and gamma are within 0.000001 of ONNX's defaults, and then computed with Burn's constants; it is ONNX's
when these are the attributes or the defaults. -/
theorem C65_selu_partial {erf : ℝ → ℝ} {sa sg : ℝ} {a : ActAttrs} {ty : ArgType} {v : GVal ℝ} {T : Tensor ℝ} (h : Reps Int.cast ty v T)
    (hk : ty.kind = .float) (hd : ty.isOnDevice = true) (h1 : |a.alpha.getD 1.6732631921768188 - 1.6732631921768188| ≤ 0.000001)
    (h2 : |a.gamma.getD 1.0507010221481323 - 1.0507010221481323| ≤ 0.000001) (ha : a.alpha.getD 1.6732631921768188 = sa)
    (hg : a.gamma.getD 1.0507010221481323 = sg) :
    ∃ z, genAct erf sa sg a .selu ty v = some z ∧ Reps Int.cast ty z (T.map (Onnx.act erf a .selu)) := by
  have e : Burn.selu sa sg = Onnx.act erf a .selu := by
    funext x
    simp only [Burn.selu, Onnx.act, ha, hg]
    by_cases hx : 0 < x
    · rw [if_pos hx, if_neg (not_le.2 hx)]
    · rw [if_neg hx, if_pos (not_lt.1 hx)]
      ring
  have hc : actCall erf sa sg a .selu = some (Burn.selu sa sg) := by
    simp only [actCall]
    rw [if_neg (not_lt.2 h1), if_neg (not_lt.2 h2)]
  unfold genAct
  rw [hc, Option.bind_some]
  match ty, v, h, hd with
  | .tensor t, .dev u, h, _ => exact ⟨_, if_pos hk, by rw [e]; exact h.mapDev _⟩
  | .scalarTensor d, .dev u, h, _ => exact ⟨_, if_pos hk, by rw [e]; exact h.mapDev _⟩

/-- How far Selu is from ONNX's when the constants of Burn differ from the attributes: at most by the differences of the constants,
in proportion to a positive input. -/
theorem C65_selu_error {erf : ℝ → ℝ} {sa sg : ℝ} {a : ActAttrs} {f : ℝ → ℝ} (hf : actCall erf sa sg a .selu = some f) (x : ℝ) :
    |f x - Onnx.act erf a .selu x| ≤ if 0 < x then |sg - a.gamma.getD 1.0507010221481323| * x
      else |sg * sa - a.gamma.getD 1.0507010221481323 * a.alpha.getD 1.6732631921768188| := by
  have e : f = Burn.selu sa sg := by
    simp only [actCall] at hf
    split at hf
    · cases hf
    · split at hf
      · cases hf
      · exact (Option.some.inj hf).symm
  subst e
  simp only [Burn.selu, Onnx.act]
  by_cases hx : 0 < x
  · rw [if_pos hx, if_neg (not_le.2 hx), if_pos hx, ← sub_mul, abs_mul, abs_of_pos hx]
  · have hx' := not_lt.1 hx
    rw [if_neg hx, if_pos hx', if_neg hx]
    have hr : sg * sa * (Real.exp x - 1) - a.gamma.getD 1.0507010221481323 * (a.alpha.getD 1.6732631921768188 * Real.exp x -
        a.alpha.getD 1.6732631921768188) = (sg * sa - a.gamma.getD 1.0507010221481323 * a.alpha.getD 1.6732631921768188) * (Real.exp x - 1) := by
      ring
    rw [hr, abs_mul]
    have h1 : |Real.exp x - 1| ≤ 1 := by
      have := Real.exp_pos x
      have := Real.exp_le_one_iff.2 hx'
      rw [abs_le]
      constructor <;> linarith
    exact mul_le_of_le_one_right (abs_nonneg _) h1

/-- Other values of alpha or gamma are refused. -/
theorem C65_selu_refused {erf : ℝ → ℝ} {sa sg : ℝ} {a : ActAttrs} {ty : ArgType} {v : GVal ℝ}
    (h : 0.000001 < |a.alpha.getD 1.6732631921768188 - 1.6732631921768188| ∨ 0.000001 < |a.gamma.getD 1.0507010221481323 - 1.0507010221481323|) :
    genAct erf sa sg a .selu ty v = none := by
  unfold genAct
  have : actCall erf sa sg a .selu = none := by
    simp only [actCall]
    by_cases h1 : 0.000001 < |a.alpha.getD 1.6732631921768188 - 1.6732631921768188|
    · rw [if_pos h1]
    · rw [if_neg h1, if_pos (h.resolve_left h1)]
  rw [this]
  rfl

/-- Attribute `approximate` of Gelu is ignored: the code is the same with and without it. -/
theorem C65_gelu_approximate_ignored {erf : ℝ → ℝ} {sa sg : ℝ} {a : ActAttrs} {ty : ArgType} {v : GVal ℝ} :
    genAct erf sa sg { a with approximate := true } .gelu ty v = genAct erf sa sg { a with approximate := false } .gelu ty v := rfl

/-- The two functions of ONNX are different ones, whatever the error function is outside 0 and 1/√2: where they agree at 1 they pin
the value of the error function. -/
theorem C65_gelu_approximate_wrong {erf : ℝ → ℝ} {a : ActAttrs}
    (he : erf (1 / Real.sqrt 2) ≠ Real.tanh (Real.sqrt (2 / Real.pi) * (1 + 0.044715 * 1 ^ 3))) :
    ∃ f, actCall erf 0 0 { a with approximate := true } .gelu = some f ∧ f 1 ≠ Onnx.act erf { a with approximate := true } .gelu 1 := by
  refine ⟨_, rfl, fun h => he ?_⟩
  simp only [Onnx.act, Burn.gelu, if_true] at h
  linarith

/-- Activations of scalars outside the device, of shapes and of integers do not compile. Relu of integers is valid in ONNX. -/
theorem C65_act_fails {erf : ℝ → ℝ} {sa sg : ℝ} {a : ActAttrs} {op : ActOp} {ty : ArgType} {v : GVal ℝ}
    (h : ty.isOnDevice = false ∨ ty.kind ≠ .float) : genAct erf sa sg a op ty v = none := by
  unfold genAct
  cases actCall erf sa sg a op with
  | none => rfl
  | some f =>
    rw [Option.bind_some]
    match ty, v with
    | .tensor t, .dev u => exact if_neg (h.resolve_left (by simp [ArgType.isOnDevice]))
    | .scalarTensor d, .dev u => exact if_neg (h.resolve_left (by simp [ArgType.isOnDevice]))
    | .tensor t, .native _ | .tensor t, .shape _ | .scalarTensor d, .native _ | .scalarTensor d, .shape _ => rfl
    | .scalarNative _, .dev _ | .scalarNative _, .native _ | .scalarNative _, .shape _ => rfl
    | .shape _, .dev _ | .shape _, .native _ | .shape _, .shape _ => rfl

example : ElemKind.int ∈ ActOp.kinds .relu ∧ (ActAttrs.mk (some 3) none none false).Ok .leakyRelu :=
  ⟨by decide, by simp [ActOp.takesAlpha], fun _ => rfl, fun _ => rfl, fun _ => rfl⟩

/-! ### IsNaN and IsInf -/

/-- IsNaN. -/
theorem C65_isnan_partial {ty : ArgType} {v : GVal FloatVal} {T : Tensor FloatVal} {ofInt : Int → FloatVal} {ofInt' : Int → Bool}
    (h : Reps ofInt ty v T) (hs : ∀ n, ty ≠ .shape n) :
    ∃ z, genIsNan ty v = some z ∧ Reps ofInt' ty z (T.map Onnx.isNan) := by
  have e : (fun x : FloatVal => x.isNan) = Onnx.isNan := by funext x; cases x <;> rfl
  match ty, v, h with
  | .tensor t, .dev u, h => exact ⟨_, rfl, by rw [← e]; exact h.mapDev _⟩
  | .scalarTensor d, .dev u, h => exact ⟨_, rfl, by rw [← e]; exact h.mapDev _⟩
  | .scalarNative d, .native x, h => exact ⟨_, rfl, by rw [← e]; exact h.mapNative _⟩
  | .shape n, _, _ => exact absurd rfl (hs n)

theorem isInf_code (n p : Bool) (x : FloatVal) (bit : Bool) :
    (match n, p with
      | true, true => x.infinite
      | false, true => x.infinite && x.signPositive bit
      | true, false => x.infinite && x.signNegative bit
      | false, false => false) = Onnx.isInf n p x := by
  cases n <;> cases p <;> cases x <;> rfl

theorem isInf_dev (n p : Bool) (u : Tensor FloatVal) :
    (match n, p with
      | true, true => u.map (·.infinite)
      | false, true => u.map fun x => x.infinite && x.pos
      | true, false => u.map fun x => x.infinite && x.neg
      | false, false => u.map fun _ => false) = u.map (Onnx.isInf n p) := by
  cases n <;> cases p <;> (simp only; congr 1; try (funext x; cases x <;> rfl))

/-- IsInf of tensors and of scalars outside the device: exactly the infinities that the attributes ask for, both by default. -/
theorem C65_isinf_partial {bit : Bool} {dn dp : Option Int} {ty : ArgType} {v : GVal FloatVal} {T : Tensor FloatVal} {ofInt : Int → FloatVal}
    {ofInt' : Int → Bool} (h : Reps ofInt ty v T) (hs : ∀ n, ty ≠ .shape n) (ht : ∀ d, ty ≠ .scalarTensor d) :
    ∃ z, genIsInf bit dn dp ty v = some z ∧ Reps ofInt' ty z (T.map (Onnx.isInf (dn.getD 1 != 0) (dp.getD 1 != 0))) := by
  match ty, v, h with
  | .tensor t, .dev u, h =>
    have hr : t.rank ≠ 0 := by have := h.2.2; omega
    have ht : ∃ t', broadcastOutputType [.tensor t] (some .bool) = some (.tensor t') := by
      simp [broadcastOutputType, ArgType.isTensor, computeBroadcastRank, broadcastDtype, ArgType.rank, hr]
    obtain ⟨t', ht'⟩ := ht
    refine ⟨.dev (u.map (Onnx.isInf (dn.getD 1 != 0) (dp.getD 1 != 0))), ?_, h.mapDev _⟩
    unfold genIsInf
    simp only [ht']
    rw [← isInf_dev]
    rfl
  | .scalarNative d, .native x, h =>
    have ht : broadcastOutputType [.scalarNative d] (some .bool) = some (.scalarNative .bool) := by
      simp [broadcastOutputType, ArgType.isTensor, computeBroadcastRank, broadcastDtype, ArgType.rank, ArgType.shapeLen?]
    refine ⟨.native (Onnx.isInf (dn.getD 1 != 0) (dp.getD 1 != 0) x), ?_, h.mapNative _⟩
    unfold genIsInf
    simp only [ht]
    rw [← isInf_code (bit := bit)]
    rfl
  | .scalarTensor d, _, _ => exact absurd rfl (ht d)
  | .shape n, _, _ => exact absurd rfl (hs n)

/-- IsInf of a scalar on the device, such as the result of a full reduction, panics. -/
theorem C65_isinf_scalar_panics {bit : Bool} {dn dp : Option Int} {d : DType} {v : GVal FloatVal} :
    genIsInf bit dn dp (.scalarTensor d) v = none := by
  have ht : broadcastOutputType [.scalarTensor d] (some .bool) = some (.scalarTensor .bool) := by
    simp [broadcastOutputType, ArgType.isTensor, computeBroadcastRank, broadcastDtype, ArgType.rank, ArgType.shapeLen?]
  unfold genIsInf
  rw [ht]

example : Onnx.isInf true false .negInf = true ∧ Onnx.isInf true false .posInf = false ∧ Onnx.isInf true true .nan = false := by decide

/-! ### PRelu -/

/-- A slope of one element, whatever its shape, or a slope for each entry of dimension 1 whose type has the shape. -/
inductive PReluOk (x slope : List Nat) (ty : ArgType) : Prop
  | one (h : prodShape slope = 1) (ht : ∀ t, ty = .tensor t → t.staticShape = none ∨ t.staticShape = some (slope.map some))
  | channels (n c : Nat) (rest pre : List Nat) (t : TensorType) (hx : x = n :: c :: rest) (hp : pre = [] ∨ pre = [1])
      (hs : slope = pre ++ c :: List.replicate rest.length 1) (ht : ty = .tensor t) (hk : t.staticShape = some (slope.map some))

theorem preluParams_known {t : TensorType} {s : List Nat} (h : t.staticShape = some (s.map some)) : preluParams (.tensor t) = prodShape s := by
  have hm : ∀ l : List Nat, (l.map some).mapM id = some l := by
    intro l
    induction l with
    | nil => rfl
    | cons a l ih => simp [ih]
  simp [preluParams, h, hm]

theorem preluParams_one {ty : ArgType} {s : List Nat} (h : prodShape s = 1)
    (ht : ∀ t, ty = .tensor t → t.staticShape = none ∨ t.staticShape = some (s.map some)) : preluParams ty = 1 := by
  cases ty with
  | tensor t =>
    rcases ht t rfl with h' | h'
    · simp [preluParams, h']
    · rw [preluParams_known h', h]
  | _ => rfl

theorem flatIdx_channel {n c : Nat} {rest pre i : List Nat} (hp : pre = [] ∨ pre = [1]) (hi : InRange (n :: c :: rest) i) :
    flatIdx (pre ++ c :: List.replicate rest.length 1) (proj (pre ++ c :: List.replicate rest.length 1) i) = i.getD 1 0 := by
  match i, hi with
  | a :: b :: is, hi =>
    have hl : is.length = rest.length := hi.2.2.length
    have hb : b < c := hi.2.1
    have hz : ∀ (k : Nat) (q tl : List Nat) (is : List Nat), is.length = k →
        projRev (List.replicate k 1 ++ q) (is ++ tl) = List.replicate k 0 ++ projRev q tl := by
      intro k
      induction k with
      | zero => intro q tl is h; rw [List.length_eq_zero_iff.1 h]; rfl
      | succ k ih =>
        intro q tl is h
        match is, h with
        | x :: is, h => simp only [List.replicate_succ, List.cons_append, projRev, if_true, ih q tl is (by simpa using h)]
    have hc : (if c = 1 then 0 else b) = b := by split <;> omega
    have h0 : ∀ k, flatIdx (List.replicate k 1) (List.replicate k 0) = 0 := by
      intro k
      induction k with
      | zero => rfl
      | succ k ih => simp [List.replicate_succ, flatIdx, ih]
    have hr : ∀ (q tl : List Nat), projRev (List.replicate rest.length 1 ++ q) (is.reverse ++ tl) = List.replicate rest.length 0 ++ projRev q tl :=
      fun q tl => hz _ q tl _ (by simp [hl])
    rcases hp with rfl | rfl
    · have : proj ([] ++ c :: List.replicate rest.length 1) (a :: b :: is) = [b] ++ List.replicate rest.length 0 := by
        simp only [proj, List.nil_append, List.reverse_cons, List.reverse_replicate, List.append_assoc, hr]
        simp [projRev, hc]
      rw [this, show [] ++ c :: List.replicate rest.length 1 = [c] ++ List.replicate rest.length 1 from rfl, flatIdx_append (by simp), h0,
        prodShape_replicate_one]
      simp [flatIdx, prodShape]
    · have : proj ([1] ++ c :: List.replicate rest.length 1) (a :: b :: is) = [0, b] ++ List.replicate rest.length 0 := by
        simp only [proj, List.cons_append, List.nil_append, List.reverse_cons, List.reverse_replicate, List.append_assoc, hr]
        simp [projRev, hc]
      rw [this, show [1] ++ c :: List.replicate rest.length 1 = [1, c] ++ List.replicate rest.length 1 from rfl, flatIdx_append (by simp), h0,
        prodShape_replicate_one]
      simp [flatIdx, prodShape]

/-- PRelu with a constant slope of one element or of one element for each entry of dimension 1: ONNX's value, the slope broadcast to
the input. -/
theorem C65_prelu_partial {ty : ArgType} {slope x : Tensor ℝ} (hv : bcast x.shape slope.shape = some x.shape)
    (h : PReluOk x.shape slope.shape ty) :
    ∃ y, genPRelu ty (some slope) x = some y ∧ Tensor.zipBcast Onnx.prelu x slope = some y := by
  have hz : Tensor.zipBcast Onnx.prelu x slope = some (Tensor.ofFn x.shape fun i => Onnx.prelu (x.get i) (slope.get (proj slope.shape i))) := by
    unfold Tensor.zipBcast
    rw [hv, Option.map_some]
    congr 1
    exact Tensor.ofFn_congr fun i hi => by rw [proj_self hi]
  refine ⟨_, ?_, hz⟩
  simp only [genPRelu, Option.bind_some]
  have one : ∀ (hp : prodShape slope.shape = 1) (ht : preluParams ty = 1),
      ((Burn.reshape slope [preluParams ty]).bind fun alpha => Burn.prelu x alpha) =
        some (Tensor.ofFn x.shape fun i => Onnx.prelu (x.get i) (slope.get (proj slope.shape i))) := by
    intro hp ht
    rw [ht]
    have hr : Burn.reshape slope [1] = some ⟨[1], slope.data, by rw [slope.size, hp]; rfl⟩ := dif_pos (by rw [hp]; rfl)
    rw [hr, Option.bind_some]
    show some (x.map _) = _
    congr 1
    rw [← Tensor.ofFn_get (x.map _)]
    refine Tensor.ofFn_congr (s := x.shape) fun i hi => ?_
    rw [Tensor.get_map hi, leaky_eq]
    have hf : flatIdx slope.shape (proj slope.shape i) = 0 := by
      have := flatIdx_lt (proj_inRange hv hi).2
      omega
    have : slope.get (proj slope.shape i) = slope.data.getD 0 default := by
      unfold Tensor.get
      rw [hf]
    rw [this]
    rfl
  cases h with
  | one hp ht => exact one hp (preluParams_one hp ht)
  | channels n c rest pre t hx hp hs hty hk =>
    have hps : prodShape slope.shape = c := by
      rw [hs]
      rcases hp with rfl | rfl <;> simp [prodShape, prodShape_replicate_one]
    have ht : preluParams ty = c := by rw [hty, preluParams_known hk, hps]
    by_cases hc : c = 1
    · exact one (by rw [hps, hc]) (by rw [ht, hc])
    · have hr : Burn.reshape slope [c] = some ⟨[c], slope.data, by rw [slope.size, hps]; simp [prodShape]⟩ :=
        dif_pos (by rw [hps]; simp [prodShape])
      rw [ht, hr, Option.bind_some]
      unfold Burn.prelu
      split
      · next h => exact absurd (List.cons.inj h).1 hc
      · next m _ h =>
        obtain rfl : c = m := (List.cons.inj h).1
        rw [if_pos ⟨by rw [hx]; simp, by rw [hx]; rfl⟩]
        congr 1
        refine Tensor.ofFn_congr fun i hi => ?_
        rw [leaky_eq]
        have : slope.get (proj slope.shape i) = slope.data.getD (i.getD 1 0) default := by
          unfold Tensor.get
          rw [hs, flatIdx_channel hp (hx ▸ hi)]
        rw [this]
        have : (⟨[c], slope.data, by rw [slope.size, hps]; simp [prodShape]⟩ : Tensor ℝ).get [i.getD 1 0] = slope.data.getD (i.getD 1 0) default := by
          unfold Tensor.get
          simp [flatIdx, prodShape]
        rw [this]
        rfl
      · next h1 h2 => exact absurd rfl (h2 c)

example : PReluOk [2, 3, 4, 4] [3, 1, 1] (.tensor ⟨.f32, 3, some [some 3, some 1, some 1]⟩) ∧ bcast [2, 3, 4, 4] [3, 1, 1] = some [2, 3, 4, 4] :=
  ⟨.channels 2 3 [4, 4] [] _ rfl (.inl rfl) rfl rfl rfl, by decide⟩

/-- A slope along the last dimension of an input of rank 3 or more is applied along dimension 1, or panics. Here the slopes
(0, 1) are read along the middle dimension instead of the last one. -/
theorem C65_prelu_last_wrong : ∃ (ty : ArgType) (slope x y : Tensor ℝ), bcast x.shape slope.shape = some x.shape ∧
    genPRelu ty (some slope) x = some y ∧ Tensor.zipBcast Onnx.prelu x slope ≠ some y := by
  refine ⟨.tensor ⟨.f32, 1, some [some 2]⟩, ⟨[2], [0, 1], rfl⟩, ⟨[1, 2, 2], [-1, -1, -1, -1], rfl⟩,
    Tensor.ofFn [1, 2, 2] fun i => Burn.leakyRelu ((⟨[1, 2, 2], [-1, -1, -1, -1], rfl⟩ : Tensor ℝ).get i)
      ((⟨[2], [0, 1], rfl⟩ : Tensor ℝ).get [i.getD 1 0]), by decide, rfl, fun h => ?_⟩
  have hz : Tensor.zipBcast Onnx.prelu (⟨[1, 2, 2], [-1, -1, -1, -1], rfl⟩ : Tensor ℝ) ⟨[2], [0, 1], rfl⟩ =
      some (Tensor.ofFn [1, 2, 2] fun i => Onnx.prelu ((⟨[1, 2, 2], [-1, -1, -1, -1], rfl⟩ : Tensor ℝ).get (proj [1, 2, 2] i))
        ((⟨[2], [0, 1], rfl⟩ : Tensor ℝ).get (proj [2] i))) := rfl
  rw [hz] at h
  have h1 := congrArg (fun t : Tensor ℝ => t.get [0, 0, 1]) (Option.some.inj h)
  rw [Tensor.get_ofFn (by simp [InRange]), Tensor.get_ofFn (by simp [InRange]), leaky_eq] at h1
  have e1 : (⟨[1, 2, 2], [-1, -1, -1, -1], rfl⟩ : Tensor ℝ).get [0, 0, 1] = -1 := rfl
  have e2 : (⟨[1, 2, 2], [-1, -1, -1, -1], rfl⟩ : Tensor ℝ).get (proj [1, 2, 2] [0, 0, 1]) = -1 := rfl
  have e3 : (⟨[2], [0, 1], rfl⟩ : Tensor ℝ).get (proj [2] [0, 0, 1]) = 1 := rfl
  have e4 : (⟨[2], [0, 1], rfl⟩ : Tensor ℝ).get [[0, 0, 1].getD 1 0] = 0 := rfl
  rw [e1, e2, e3, e4] at h1
  norm_num [Onnx.prelu] at h1

/-- A slope whose elements are given for more than one dimension panics. -/
theorem C65_prelu_full_panics {ty : ArgType} {slope x : Tensor ℝ} (h1 : prodShape slope.shape ≠ 1) (h : x.shape.getD 1 0 ≠ prodShape slope.shape) :
    genPRelu ty (some slope) x = none := by
  simp only [genPRelu, Option.bind_some]
  by_cases hp : prodShape [preluParams ty] = prodShape slope.shape
  · rw [show Burn.reshape slope [preluParams ty] = some ⟨[preluParams ty], slope.data, by rw [slope.size, hp]⟩ from dif_pos hp, Option.bind_some]
    have hp' : preluParams ty = prodShape slope.shape := by simpa [prodShape] using hp
    unfold Burn.prelu
    split
    · next h' => exact absurd ((List.cons.inj h').1 ▸ hp').symm h1
    · next m _ h' =>
      obtain rfl := (List.cons.inj h').1
      exact if_neg fun hh => h (by rw [hh.2, hp'])
    · rfl
  · rw [show Burn.reshape slope [preluParams ty] = none from dif_neg hp]
    rfl

example : bcast [2, 3, 4] [3, 4] = some [2, 3, 4] ∧ prodShape [3, 4] ≠ 1 ∧ [2, 3, 4].getD 1 0 ≠ prodShape [3, 4] := by decide

/-- A slope that is not a constant of the model panics. -/
theorem C65_prelu_runtime_panics {ty : ArgType} {x : Tensor ℝ} : genPRelu ty none x = none := rfl

end OnnxIR
