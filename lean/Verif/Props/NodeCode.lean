import Verif.Props.AxisOps
import Verif.Props.Forward
import Verif.Props.Linear
import Verif.Props.MatMul
import Verif.Props.Registry
import Verif.Props.Supported

/-!
# C80 for the operators whose values are modelled
-/

namespace OnnxIR

open Gen

/-! ### Values -/

theorem holds_float {ty : ArgType} {r : RustVal} {X : Tensor ℝ} (h : Holds ty r (.float X)) :
    ∃ v, r = .float v ∧ ty.kind = .float ∧ Reps Int.cast ty v X := by
  cases r with
  | float v => exact ⟨v, rfl, h⟩
  | int v => exact h.elim
  | bool v => exact h.elim

theorem holds_int {ty : ArgType} {r : RustVal} {X : Tensor Int} (h : Holds ty r (.int X)) :
    ∃ v, r = .int v ∧ ty.kind = .int ∧ Reps id ty v X := by
  cases r with
  | int v => exact ⟨v, rfl, h⟩
  | float v => exact h.elim
  | bool v => exact h.elim

theorem holds_bool {ty : ArgType} {r : RustVal} {X : Tensor Bool} (h : Holds ty r (.bool X)) :
    ∃ v, r = .bool v ∧ ty.kind = .bool ∧ Reps (· != 0) ty v X := by
  cases r with
  | bool v => exact ⟨v, rfl, h⟩
  | float v => exact h.elim
  | int v => exact h.elim

theorem reps_form {α : Type} {ofInt : Int → α} {t u : ArgType} {v : GVal α} {T : Tensor α} (h : t.form = u.form)
    (hr : Reps ofInt t v T) : Reps ofInt u v T := by
  cases t <;> cases u <;> simp only [ArgType.form, ArgType.tensor.injEq, TensorType.mk.injEq, ArgType.shape.injEq,
    reduceCtorEq] at h
  · cases v <;> first | exact hr.elim | exact hr
  · cases v <;> first | exact hr.elim | exact hr
  · subst h; exact hr
  · obtain ⟨-, h2, -⟩ := h
    cases v <;> first | exact hr.elim | (simp only [Reps] at hr ⊢; rw [← h2]; exact hr)

theorem kind_form {t u : ArgType} (h : t.form = u.form) : t.kind = u.kind := by
  cases t <;> cases u <;> simp only [ArgType.form, ArgType.tensor.injEq, TensorType.mk.injEq, ArgType.shape.injEq,
    ArgType.scalarTensor.injEq, ArgType.scalarNative.injEq, reduceCtorEq] at h <;> simp_all [ArgType.kind]

theorem toDevice_ok {α : Type} {ofInt : Int → α} {d : DType} {v : GVal α} {T : Tensor α} (h : Reps ofInt (.scalarNative d) v T) :
    ∃ w, v.toDevice = some w ∧ Reps ofInt (.scalarTensor d) w T := by
  cases v with
  | native x => exact ⟨_, rfl, rfl, h.1, h.2.symm⟩
  | _ => exact h.elim

theorem toNative_ok {α : Type} {ofInt : Int → α} {d : DType} {v : GVal α} {T : Tensor α} (h : Reps ofInt (.scalarTensor d) v T) :
    ∃ w, v.toNative = some w ∧ Reps ofInt (.scalarNative d) w T := by
  cases v with
  | dev u =>
    obtain ⟨h1, h2, h3⟩ := h
    have hs := u.size
    rw [h1] at hs
    obtain ⟨x, hx⟩ := List.length_eq_one_iff.1 (hs.trans rfl)
    exact ⟨.native x, by simp [GVal.toNative, Burn.intoScalar, hx], h2, by rw [← h3, hx]⟩
  | _ => exact h.elim

theorem copy_native {α : Type} {ofInt : Int → α} {ty : ArgType} {v : GVal α} {T : Tensor α} (h : Reps ofInt ty v T)
    (hd : ty.isOnDevice = false) : v.isCopy = true := by
  cases ty <;> cases v <;> first | rfl | exact h.elim | cases hd

/-- The representation of values meets the conditions of C80. -/
theorem burn_ok : burn.Ok where
  native := by
    intro ty r v h hd
    cases v with
    | float T => obtain ⟨v, rfl, -, hr⟩ := holds_float h; exact copy_native hr hd
    | int T => obtain ⟨v, rfl, -, hr⟩ := holds_int h; exact copy_native hr hd
    | bool T => obtain ⟨v, rfl, -, hr⟩ := holds_bool h; exact copy_native hr hd
  form := by
    intro t u r v hf h
    cases v with
    | float T => obtain ⟨v, rfl, hk, hr⟩ := holds_float h; exact ⟨(kind_form hf).symm.trans hk, reps_form hf hr⟩
    | int T => obtain ⟨v, rfl, hk, hr⟩ := holds_int h; exact ⟨(kind_form hf).symm.trans hk, reps_form hf hr⟩
    | bool T => obtain ⟨v, rfl, hk, hr⟩ := holds_bool h; exact ⟨(kind_form hf).symm.trans hk, reps_form hf hr⟩
  toDevice := by
    intro d r v h
    cases v with
    | float T =>
      obtain ⟨v, rfl, hk, hr⟩ := holds_float h
      obtain ⟨w, h1, h2⟩ := toDevice_ok hr
      exact ⟨.float w, by simp [burn, RustVal.lift, h1], hk, h2⟩
    | int T =>
      obtain ⟨v, rfl, hk, hr⟩ := holds_int h
      obtain ⟨w, h1, h2⟩ := toDevice_ok hr
      exact ⟨.int w, by simp [burn, RustVal.lift, h1], hk, h2⟩
    | bool T =>
      obtain ⟨v, rfl, hk, hr⟩ := holds_bool h
      obtain ⟨w, h1, h2⟩ := toDevice_ok hr
      exact ⟨.bool w, by simp [burn, RustVal.lift, h1], hk, h2⟩
  toNative := by
    intro d r v h
    cases v with
    | float T =>
      obtain ⟨v, rfl, hk, hr⟩ := holds_float h
      obtain ⟨w, h1, h2⟩ := toNative_ok hr
      exact ⟨.float w, by simp [burn, RustVal.lift, h1], hk, h2⟩
    | int T =>
      obtain ⟨v, rfl, hk, hr⟩ := holds_int h
      obtain ⟨w, h1, h2⟩ := toNative_ok hr
      exact ⟨.int w, by simp [burn, RustVal.lift, h1], hk, h2⟩
    | bool T =>
      obtain ⟨v, rfl, hk, hr⟩ := holds_bool h
      obtain ⟨w, h1, h2⟩ := toNative_ok hr
      exact ⟨.bool w, by simp [burn, RustVal.lift, h1], hk, h2⟩

/-- A floating-point result that is not a scalar is held as a tensor. -/
theorem fits_tensor {ty : ArgType} {Z : Tensor ℝ} (h : burn.fits ty (.float Z)) (hs : Z.shape ≠ []) :
    Holds ty (.float (.dev Z)) (.float Z) := by
  obtain ⟨hk, ha⟩ := h
  refine ⟨hk, ?_⟩
  cases ty with
  | scalarTensor d => exact absurd ha hs
  | scalarNative d => exact absurd ha hs
  | shape k => cases hk
  | tensor t =>
    have ha : Z.shape.length = t.rank := ha
    refine ⟨rfl, ha, ?_⟩
    rw [← ha]
    exact List.length_pos_iff.2 hs

/-- A floating-point operand that is not a scalar is a tensor. -/
theorem float_dev {ty : ArgType} {r : RustVal} {X : Tensor ℝ} (h : Holds ty r (.float X)) (hs : X.shape ≠ []) :
    r = .float (.dev X) := by
  obtain ⟨v, rfl, hk, hr⟩ := holds_float h
  cases ty with
  | tensor t =>
    cases v with
    | dev u => rw [hr.1]
    | _ => exact hr.elim
  | shape k => cases hk
  | scalarTensor d =>
    cases v with
    | dev u => exact absurd hr.2.1 hs
    | _ => exact hr.elim
  | scalarNative d =>
    cases v with
    | native u => exact absurd hr.1 hs
    | _ => exact hr.elim

/-! ### One node -/

variable {erf : ℝ → ℝ} {pick : Nat → Int → Option Nat} {st : Store OVal} {opset : Nat} {n : Node OVal}
  {xs : List (Option OVal)} {ys : List OVal}

/-- What is known about a node in a run. -/
structure RunOf (st : Store OVal) (n : Node OVal) (xs : List (Option OVal)) (ys : List OVal) : Prop where
  ops : Operands burn n xs
  reads : ∀ (k : Nat) (a : Arg OVal) (v : OVal), n.inputs[k]? = some a → st.read a = some v → xs[k]? = some (some v)
  length : ys.length = n.outputs.length
  fits : ∀ (k : Nat) (o : Arg OVal) (y : OVal), n.outputs[k]? = some o → ys[k]? = some y → burn.fits o.ty y

/-- There is code, it mentions inputs that exist at run time, and its results hold those of the operator. -/
def Works (erf : ℝ → ℝ) (pick : Nat → Int → Option Nat) (st : Store OVal) (opset : Nat) (n : Node OVal)
    (xs : List (Option OVal)) (ys : List OVal) (op : Op) : Prop :=
  ∃ c, nodeCode erf pick st opset n op = some c ∧ (c.uses.map Use.index).Nodup ∧
    (∀ u ∈ c.uses, ∃ a, n.inputs[u.index]? = some a ∧ AtRunTime a) ∧
    ∀ rs : List RustVal, rs.length = c.uses.length →
      (∀ (k : Nat) (u : Use) (r : RustVal), c.uses[k]? = some u → rs[k]? = some r →
        ∃ a v, n.inputs[u.index]? = some a ∧ xs[u.index]? = some (some v) ∧ Holds a.ty r v) →
      ∃ ws, c.effect rs = some ws ∧ ws.length = ys.length ∧
        ∀ (k : Nat) (o : Arg OVal) (w : RustVal) (y : OVal), n.outputs[k]? = some o → ws[k]? = some w → ys[k]? = some y →
          Holds o.ty w y

theorem works_one {op : Op} {f : RustVal → Option RustVal} {a o : Arg OVal} {v y : OVal}
    (hc : nodeCode erf pick st opset n op = some ⟨[.arg 0], eff1 f⟩) (hi : n.inputs[0]? = some a) (hr : AtRunTime a)
    (hx : xs[0]? = some (some v)) (ho : n.outputs = [o]) (hy : ys = [y])
    (hf : ∀ r, Holds a.ty r v → ∃ w, f r = some w ∧ Holds o.ty w y) : Works erf pick st opset n xs ys op := by
  refine ⟨_, hc, by simp, fun u hu => ?_, fun rs hl h => ?_⟩
  · obtain rfl : u = .arg 0 := by simpa using hu
    exact ⟨a, hi, hr⟩
  · obtain ⟨r, rfl⟩ := List.length_eq_one_iff.1 (hl.trans rfl)
    obtain ⟨a', v', h1, h2, h3⟩ := h 0 (.arg 0) r rfl rfl
    obtain rfl : a' = a := by rw [show (Use.arg 0).index = 0 from rfl, hi] at h1; exact (Option.some.inj h1).symm
    obtain rfl : v' = v := by
      rw [show (Use.arg 0).index = 0 from rfl, hx] at h2
      exact (Option.some.inj (Option.some.inj h2)).symm
    obtain ⟨w, hw, hh⟩ := hf r h3
    refine ⟨[w], by simp [eff1, hw], by simp [hy], fun k o' w' y' k1 k2 k3 => ?_⟩
    subst hy
    rw [ho] at k1
    cases k with
    | zero =>
      simp only [List.getElem?_cons_zero, Option.some.injEq] at k1 k2 k3
      subst k1 k2 k3
      exact hh
    | succ k => simp at k1

theorem works_two {op : Op} {f : RustVal → RustVal → Option RustVal} {u1 : Use} {a b o : Arg OVal} {v w y : OVal}
    (hc : nodeCode erf pick st opset n op = some ⟨[.arg 0, u1], eff2 f⟩) (h1 : u1.index = 1) (hi : n.inputs = [a, b])
    (hra : AtRunTime a) (hrb : AtRunTime b) (hx : xs = [some v, some w]) (ho : n.outputs = [o]) (hy : ys = [y])
    (hf : ∀ r s, Holds a.ty r v → Holds b.ty s w → ∃ z, f r s = some z ∧ Holds o.ty z y) :
    Works erf pick st opset n xs ys op := by
  refine ⟨_, hc, by show [0, u1.index].Nodup; rw [h1]; decide, fun u hu => ?_, fun rs hl h => ?_⟩
  · simp only [List.mem_cons, List.not_mem_nil, or_false] at hu
    rcases hu with rfl | rfl
    · exact ⟨a, by simp [hi, Use.index], hra⟩
    · exact ⟨b, by simp [hi, h1], hrb⟩
  · obtain ⟨r, s, rfl⟩ := List.length_eq_two.1 (hl.trans rfl)
    obtain ⟨a', v', k1, k2, k3⟩ := h 0 (.arg 0) r rfl rfl
    obtain ⟨b', w', l1, l2, l3⟩ := h 1 u1 s rfl rfl
    rw [h1] at l1 l2
    simp only [hi, hx, Use.index, List.getElem?_cons_zero, List.getElem?_cons_succ, Option.some.injEq] at k1 k2 l1 l2
    subst k1 k2 l1 l2
    obtain ⟨z, hz, hh⟩ := hf r s k3 l3
    refine ⟨[z], by simp [eff2, hz], by simp [hy], fun k o' w' y' k1 k2 k3 => ?_⟩
    subst hy
    rw [ho] at k1
    cases k with
    | zero =>
      simp only [List.getElem?_cons_zero, Option.some.injEq] at k1 k2 k3
      subst k1 k2 k3
      exact hh
    | succ k => simp at k1

theorem RunOf.input1 (h : RunOf st n xs ys) {x : Option OVal} (hx : xs = [x]) : ∃ a, n.inputs = [a] :=
  List.length_eq_one_iff.1 (by rw [← h.ops.length, hx]; rfl)

theorem RunOf.input2 (h : RunOf st n xs ys) {x y : Option OVal} (hx : xs = [x, y]) : ∃ a b, n.inputs = [a, b] :=
  List.length_eq_two.1 (by rw [← h.ops.length, hx]; rfl)

theorem RunOf.output (h : RunOf st n xs ys) {y : OVal} (hy : ys = [y]) : ∃ o, n.outputs = [o] ∧ burn.fits o.ty y := by
  obtain ⟨o, ho⟩ := List.length_eq_one_iff.1 (h.length.symm.trans (by rw [hy]; rfl))
  exact ⟨o, ho, h.fits 0 o y (by simp [ho]) (by simp [hy])⟩

theorem RunOf.fitsIn (h : RunOf st n xs ys) {k : Nat} {a : Arg OVal} {v : OVal} (ha : n.inputs[k]? = some a) (hr : AtRunTime a)
    (hx : xs[k]? = some (some v)) : burn.fits a.ty v := by
  obtain ⟨w, hw, hf⟩ := h.ops.run k a ha hr
  rw [hx] at hw
  rw [← Option.some.inj (Option.some.inj hw)] at hf
  exact hf

/-! ### Functions of one value -/

theorem same_type {prefs : OutPrefs} {a o : Arg OVal} (hi : n.inputs = [a]) (ho : n.outputs = [o])
    (ht : Infer.apply st opset n prefs .same = some (n.outputs.map Arg.ty)) : o.ty = a.ty := by
  simp only [Infer.apply, hi, ho, List.map_cons, List.map_nil, Infer.sameAsInput] at ht
  simpa using ht.symm

theorem works_unary {op : UnaryOp} (hm : Onnx.Meaning erf opset (.unary op) n.attrs xs ys) (h : RunOf st n xs ys)
    (hs : Supported pick st opset n xs (.unary op)) {prefs : OutPrefs}
    (ht : Infer.apply st opset n prefs .same = some (n.outputs.map Arg.ty)) : Works erf pick st opset n xs ys (.unary op) := by
  obtain ⟨X, hx, hy⟩ := hm
  obtain ⟨a, hi⟩ := h.input1 hx
  obtain ⟨o, ho, -⟩ := h.output hy
  obtain ⟨s1, s2, s3⟩ := hs a (by simp [hi])
  refine works_one (f := onFloat (genUnary erf op a.ty)) (a := a) (o := o) (v := .float X)
    (by simp [nodeCode, Infer.inTy, hi]) (by simp [hi]) s1 (by simp [hx]) ho hy fun r hr => ?_
  obtain ⟨v, rfl, hk, hv⟩ := holds_float hr
  obtain ⟨z, h1, h2⟩ := C65_unary_partial (erf := erf) (op := op) hv (by rw [hk]; cases op <;> simp [UnaryOp.kinds]) s2 s3
  rw [same_type hi ho ht]
  exact ⟨.float z, by simp [onFloat, h1], hk, h2⟩

theorem floatAttr_read {key : String} {v : Option ℝ} (h : Onnx.HasFloat n.attrs key v) : attrFloat n key = some v := by
  obtain ⟨b, h1, rfl⟩ := h
  cases b <;> simp [attrFloat, h1]

theorem intAttr_read {key : String} {v : Option Int} (h : Onnx.HasInt n.attrs key v) :
    Infer.attrInt? n key = some v ∧ ∀ d, Infer.attrInt n key d = some (v.getD d) := by
  simp only [Onnx.HasInt] at h
  cases v <;> simp [Infer.attrInt?, Infer.attrInt, h]

theorem intsAttr_read {key : String} {v : Option (List Int)} (h : Onnx.HasInts n.attrs key v) :
    Infer.attrInts n key = some v := by
  simp only [Onnx.HasInts] at h
  cases v <;> simp [Infer.attrInts, h]

theorem works_act {op : ActOp} (hm : Onnx.Meaning erf opset (.act op) n.attrs xs ys) (h : RunOf st n xs ys)
    (hs : Supported pick st opset n xs (.act op)) {prefs : OutPrefs}
    (ht : Infer.apply st opset n prefs .same = some (n.outputs.map Arg.ty)) : Works erf pick st opset n xs ys (.act op) := by
  obtain ⟨X, at', ⟨ha, hb, hg, hap⟩, hx, hy⟩ := hm
  obtain ⟨a, hi⟩ := h.input1 hx
  obtain ⟨o, ho, -⟩ := h.output hy
  obtain ⟨s1, s2, s3, s4⟩ := hs
  obtain ⟨s1, s5⟩ := s1 a (by simp [hi])
  have hat : actAttrs n = some at' := by
    simp only [actAttrs, floatAttr_read ha, floatAttr_read hb, floatAttr_read hg, Option.some.injEq]
    have hfalse : at'.approximate = false := by
      cases hq : at'.approximate with
      | false => rfl
      | true => exact absurd (hap.1 hq) s3
    obtain ⟨p, q, r, s⟩ := at'
    simp only at hfalse
    subst hfalse
    simp only [ActAttrs.mk.injEq, true_and]
    split
    · rename_i t htt
      simp only [beq_eq_false_iff_ne]
      rintro rfl
      exact s3 htt
    · rfl
  refine works_one (f := onFloat (genAct erf 0 0 at' op a.ty)) (a := a) (o := o) (v := .float X)
    (by simp [nodeCode, Infer.inTy, hi, hat]) (by simp [hi]) s1 (by simp [hx]) ho hy fun r hr => ?_
  obtain ⟨v, rfl, hk, hv⟩ := holds_float hr
  obtain ⟨z, h1, h2⟩ := C65_act_partial (erf := erf) (sa := 0) (sg := 0) (op := op) (s4 at' ⟨ha, hb, hg, hap⟩) s2
    (fun _ => by
      cases hq : at'.approximate with
      | false => rfl
      | true => exact absurd (hap.1 hq) s3) hv hk s5
  rw [same_type hi ho ht]
  exact ⟨.float z, by simp [onFloat, h1], hk, h2⟩

theorem works_not (hm : Onnx.Meaning erf opset .not n.attrs xs ys) (h : RunOf st n xs ys)
    (hs : Supported pick st opset n xs .not) {prefs : OutPrefs}
    (ht : Infer.apply st opset n prefs .same = some (n.outputs.map Arg.ty)) : Works erf pick st opset n xs ys .not := by
  obtain ⟨X, hx, hy⟩ := hm
  obtain ⟨a, hi⟩ := h.input1 hx
  obtain ⟨o, ho, -⟩ := h.output hy
  obtain ⟨s1, s2⟩ := hs a (by simp [hi])
  refine works_one (f := onBool (genNot (!·) a.ty)) (a := a) (o := o) (v := .bool X)
    (by simp [nodeCode, Infer.inTy, hi]) (by simp [hi]) s1 (by simp [hx]) ho hy fun r hr => ?_
  obtain ⟨v, rfl, hk, hv⟩ := holds_bool hr
  obtain ⟨z, h1, h2⟩ := C65_not_partial (f := (!·)) hv s2
  rw [same_type hi ho ht]
  exact ⟨.bool z, by simp [onBool, h1], hk, h2⟩

/-! ### Functions of two values -/

theorem broadcast_type {d : Option DType} {prefs : OutPrefs} {a b o : Arg OVal} (hi : n.inputs = [a, b]) (ho : n.outputs = [o])
    (ht : Infer.apply st opset n prefs (.broadcast d) = some (n.outputs.map Arg.ty)) :
    broadcastOutputType [a.ty, b.ty] d = some o.ty := by
  simp only [Infer.apply, hi, ho, List.map_cons, List.map_nil] at ht
  cases hb : broadcastOutputType [a.ty, b.ty] d with
  | none => simp [hb] at ht
  | some t => simpa [hb] using ht

theorem no_array {ty : ArgType} (h : ty.kind ≠ .int) : ∀ k, ty ≠ .shape k := by
  rintro k rfl
  exact h rfl

theorem reps_array {α : Type} {ofInt : Int → α} {ty : ArgType} {l : List Int} {T : Tensor α} (h : Reps ofInt ty (.shape l) T) :
    ∃ k, ty = .shape k ∧ T.data = l.map ofInt := by
  cases ty with
  | shape k => exact ⟨k, rfl, h.2.2⟩
  | _ => exact h.elim

theorem items_none {α : Type} {ofInt : Int → α} {toInt : α → Int} {ok : Int → Int → Prop} {lt rt : ArgType} {x y : GVal α}
    {X Y : Tensor α} (hx : Reps ofInt lt x X) (hy : Reps ofInt rt y Y) (hl : lt.kind ≠ .int) (hr : rt.kind ≠ .int) :
    ItemsOk toInt ok x y X Y := by
  unfold ItemsOk
  cases x <;> cases y
  all_goals first
    | trivial
    | (obtain ⟨k, hk, -⟩ := reps_array hx; exact absurd hk (no_array hl k))
    | (obtain ⟨k, hk, -⟩ := reps_array hy; exact absurd hk (no_array hr k))

theorem ne_array {α : Type} {ofInt : Int → α} {lt rt : ArgType} {x y : GVal α}
    {X Y : Tensor α} (hx : Reps ofInt lt x X) (hy : Reps ofInt rt y Y) (hl : lt.kind ≠ .int) (hr : rt.kind ≠ .int) {P : Prop} :
    (∃ l, x = .shape l ∨ y = .shape l) → P := by
  rintro ⟨l, rfl | rfl⟩
  · obtain ⟨k, hk, -⟩ := reps_array hx; exact absurd hk (no_array hl k)
  · obtain ⟨k, hk, -⟩ := reps_array hy; exact absurd hk (no_array hr k)

theorem arithReal_computes (op : Arith) :
    ∃ ok, (arithReal op).Computes (Onnx.arithReal op) (Int.cast : Int → ℝ) Int.cast ok := by
  cases op with
  | add => exact ⟨_, addCode_computes (by intro a b; push_cast; rfl)⟩
  | sub => exact ⟨_, subCode_computes (by intro a b; push_cast; rfl)⟩
  | mul => exact ⟨_, mulCode_computes (by intro a b; push_cast; rfl)⟩
  | div =>
    refine ⟨fun _ _ => False, ⟨fun _ _ => rfl, ?_, ?_, ?_, ?_, ?_, ?_⟩⟩
    · simp [arithReal, divCode, Onnx.arithReal]
    · simp only [arithReal, divCode, Onnx.arithReal, Option.mem_some_iff]
      rintro g rfl a b
      show b⁻¹ * a = a / b
      rw [mul_comm, div_eq_mul_inv]
    · simp [arithReal, divCode, Onnx.arithReal]
    · intro _ _ _ _ h; exact h.elim
    · intro _ _ _ _ h; exact h.elim
    · intro _ _ _ _ h; exact h.elim

theorem arithInt_computes (op : Arith) : (arithInt op).Computes (Onnx.arithInt op) id id (ExactOn op) := by
  cases op with
  | add => exact addCode_computes (by intro a b; rfl)
  | sub => exact subCode_computes (by intro a b; rfl)
  | mul => exact mulCode_computes (by intro a b; rfl)
  | div =>
    refine ⟨fun _ _ => rfl, ?_, ?_, ?_, ?_, ?_, ?_⟩
    · simp [arithInt, divCode, Onnx.arithInt]
    · simp [arithInt]
    · simp [arithInt, divCode, Onnx.arithInt]
    all_goals
      simp only [arithInt, divCode, Onnx.arithInt, Option.mem_some_iff]
      rintro g rfl a b hk
      simp only [ExactOn] at hk
      simp [guardedDiv, hk]

theorem arithReal_handles {op : Arith} {lt rt : ArgType} (hl : lt.kind ≠ .int) (hr : rt.kind ≠ .int) :
    (arithReal op).Handles lt rt := by
  have h1 := no_array hl
  have h2 := no_array hr
  cases lt with
  | shape k => exact absurd rfl (h1 k)
  | _ =>
    cases rt with
    | shape k => exact absurd rfl (h2 k)
    | _ => cases op <;> simp [BinCode.Handles, arithReal, addCode, subCode, mulCode, divCode]

theorem arithInt_handles {op : Arith} {lt rt : ArgType} (hp : PairOk true lt rt)
    (hd : op = .div → (∃ d, lt = .scalarNative d) → rt.isOnDevice = false) : (arithInt op).Handles lt rt := by
  cases lt <;> cases rt <;> cases op <;>
    simp_all [BinCode.Handles, arithInt, addCode, subCode, mulCode, divCode, PairOk, ArgType.isOnDevice]

theorem items_int {op : Arith} {lt rt : ArgType} {x y : GVal Int} {X Y : Tensor Int} (hx : Reps id lt x X) (hy : Reps id rt y Y)
    (h : ItemsExact op lt rt X.data Y.data) : ItemsOk id (ExactOn op) x y X Y := by
  unfold ItemsOk
  cases x with
  | shape l =>
    obtain ⟨k, rfl, hl⟩ := reps_array hx
    simp only [List.map_id] at hl
    cases y with
    | shape m =>
      obtain ⟨j, rfl, hm⟩ := reps_array hy
      simp only [List.map_id] at hm
      rw [hl, hm] at h
      exact h
    | _ =>
      rw [hl] at h
      cases rt <;> first | exact hy.elim | exact h
  | _ =>
    cases y with
    | shape m =>
      obtain ⟨j, rfl, hm⟩ := reps_array hy
      simp only [List.map_id] at hm
      rw [hm] at h
      cases lt <;> first | exact hx.elim | exact h
    | _ => trivial

theorem works_arith {op : Arith} (hm : Onnx.Meaning erf opset (.arith op) n.attrs xs ys) (h : RunOf st n xs ys)
    (hs : Supported pick st opset n xs (.arith op)) {prefs : OutPrefs}
    (ht : Infer.apply st opset n prefs (.broadcast none) = some (n.outputs.map Arg.ty)) :
    Works erf pick st opset n xs ys (.arith op) := by
  rcases hm with ⟨X, Y, Z, hx, hz, hy⟩ | ⟨X, Y, Z, hx, hz, hy⟩
  all_goals
    obtain ⟨a, b, hi⟩ := h.input2 hx
    obtain ⟨o, ho, hof⟩ := h.output hy
    obtain ⟨s1, s2, s3, s4, s5⟩ := hs a b hi
    have htt := broadcast_type hi ho ht
    refine works_two (u1 := .arg 1) (f := onSame (bin (arithReal op) a.ty b.ty) (bin (arithInt op) a.ty b.ty) fun _ _ => none)
      (by simp [nodeCode, Infer.inTy, hi]) rfl hi s1 s2 hx ho hy fun r s hr hq => ?_
  · obtain ⟨v, rfl, hk, hv⟩ := holds_float hr
    obtain ⟨w, rfl, hk', hw⟩ := holds_float hq
    obtain ⟨ok, hc⟩ := arithReal_computes op
    have n1 : a.ty.kind ≠ .int := by rw [hk]; exact nofun
    have n2 : b.ty.kind ≠ .int := by rw [hk']; exact nofun
    obtain ⟨z, k1, k2⟩ := C55_binary_partial (toInt := Elem.toInt) hc hv hw (ne_array hv hw n1 n2) (items_none hv hw n1 n2) hz htt
      (arithReal_handles n1 n2)
    exact ⟨.float z, by simp only [onSame, bin]; erw [k1]; rfl, hof.1, k2⟩
  · obtain ⟨v, rfl, hk, hv⟩ := holds_int hr
    obtain ⟨w, rfl, hk', hw⟩ := holds_int hq
    obtain ⟨z, k1, k2⟩ := C55_binary_partial (toInt := id) (arithInt_computes op) hv hw (fun _ _ _ => rfl)
      (items_int hv hw (s5 X Y hx)) hz htt (arithInt_handles s3 fun e => s4 e hk)
    exact ⟨.int z, by simp only [onSame, bin]; erw [k1]; rfl, hof.1, k2⟩

theorem compare_computes {α : Type} [Inhabited α] [LinearOrder α] {ofInt : Int → α} (hle : ∀ a b, ofInt a ≤ ofInt b ↔ a ≤ b) (op : Comparison) :
    (compareCode op).Computes (Onnx.compareFn op) ofInt (fun k => k != 0) fun _ _ => True := by
  have hlt : ∀ a b, ofInt a < ofInt b ↔ a < b := fun a b => by
    rw [← not_le, hle, not_le]
  have heq : ∀ a b, ofInt a = ofInt b ↔ a = b := fun a b => by
    rw [le_antisymm_iff, hle, hle, ← le_antisymm_iff]
  cases op with
  | equal => exact equalCode_computes (fun a b => by simp [eq_comm]) fun a b => by simp [heq]
  | greater => exact greaterCode_computes fun a b => by simp [hlt]
  | greaterOrEqual => exact greaterEqualCode_computes fun a b => by simp [hle]
  | less => exact lessCode_computes fun a b => by simp [hlt]
  | lessOrEqual => exact lessEqualCode_computes fun a b => by simp [hle]

theorem compare_handles {α : Type} [LinearOrder α] {op : Comparison} {lt rt : ArgType} (hp : PairOk false lt rt) :
    (compareCode (α := α) op).Handles lt rt := by
  cases lt <;> cases rt <;> cases op <;>
    simp_all [BinCode.Handles, compareCode, equalCode, greaterCode, greaterEqualCode, lessCode, lessEqualCode, PairOk]

theorem works_compare {op : Comparison} (hm : Onnx.Meaning erf opset (.compare op) n.attrs xs ys) (h : RunOf st n xs ys)
    (hs : Supported pick st opset n xs (.compare op)) {prefs : OutPrefs}
    (ht : Infer.apply st opset n prefs (.broadcast (some .bool)) = some (n.outputs.map Arg.ty)) :
    Works erf pick st opset n xs ys (.compare op) := by
  rcases hm with ⟨X, Y, Z, hx, hz, hy⟩ | ⟨X, Y, Z, hx, hz, hy⟩
  all_goals
    obtain ⟨a, b, hi⟩ := h.input2 hx
    obtain ⟨o, ho, hof⟩ := h.output hy
    obtain ⟨s1, s2, s3⟩ := hs a b hi
    have htt := broadcast_type hi ho ht
    refine works_two (u1 := .arg 1) (f := onSame (bin (compareCode op) a.ty b.ty) (bin (compareCode op) a.ty b.ty) fun _ _ => none)
      (by simp [nodeCode, Infer.inTy, hi]) rfl hi s1 s2 hx ho hy fun r s hr hq => ?_
  · obtain ⟨v, rfl, hk, hv⟩ := holds_float hr
    obtain ⟨w, rfl, hk', hw⟩ := holds_float hq
    have n1 : a.ty.kind ≠ .int := by rw [hk]; exact nofun
    have n2 : b.ty.kind ≠ .int := by rw [hk']; exact nofun
    obtain ⟨z, k1, k2⟩ := C55_binary_partial (toInt := Elem.toInt) (compare_computes (fun a b => Int.cast_le) op) hv hw
      (ne_array hv hw n1 n2) (items_none hv hw n1 n2) hz htt (compare_handles s3)
    exact ⟨.bool z, by simp only [onSame, bin]; erw [k1]; rfl, hof.1, k2⟩
  · obtain ⟨v, rfl, hk, hv⟩ := holds_int hr
    obtain ⟨w, rfl, hk', hw⟩ := holds_int hq
    obtain ⟨z, k1, k2⟩ := C55_binary_partial (toInt := id) (compare_computes (ofInt := id) (fun a b => Iff.rfl) op) hv hw
      (fun _ _ _ => rfl) (by unfold ItemsOk; split <;> simp) hz htt (compare_handles s3)
    exact ⟨.bool z, by simp only [onSame, bin]; erw [k1]; rfl, hof.1, k2⟩

theorem logic_computes (op : Logic) : (logicCode op).Computes (Onnx.logicFn op) (fun k => k != 0) (fun k => k != 0) fun _ _ => True := by
  cases op with
  | and => exact andCode_computes
  | or => exact orCode_computes
  | xor =>
    have h : Onnx.logicFn .xor = fun a b => Bool.xor a b := by funext a b; cases a <;> cases b <;> rfl
    rw [h]
    exact xorCode_computes

theorem works_logic {op : Logic} (hm : Onnx.Meaning erf opset (.logic op) n.attrs xs ys) (h : RunOf st n xs ys)
    (hs : Supported pick st opset n xs (.logic op)) {prefs : OutPrefs}
    (ht : Infer.apply st opset n prefs (.broadcast none) = some (n.outputs.map Arg.ty)) :
    Works erf pick st opset n xs ys (.logic op) := by
  obtain ⟨X, Y, Z, hx, hz, hy⟩ := hm
  obtain ⟨a, b, hi⟩ := h.input2 hx
  obtain ⟨o, ho, hof⟩ := h.output hy
  have htt := broadcast_type hi ho ht
  refine works_two (u1 := .arg 1) (f := onSame (fun _ _ => none) (fun _ _ => none) (bin (logicCode op) a.ty b.ty))
    (by simp [nodeCode, Infer.inTy, hi]) rfl hi (hs a (by simp [hi])) (hs b (by simp [hi])) hx ho hy fun r s hr hq => ?_
  obtain ⟨v, rfl, hk, hv⟩ := holds_bool hr
  obtain ⟨w, rfl, hk', hw⟩ := holds_bool hq
  have n1 : a.ty.kind ≠ .int := by rw [hk]; exact nofun
  have n2 : b.ty.kind ≠ .int := by rw [hk']; exact nofun
  have hh : (logicCode op).Handles a.ty b.ty := by
    have h1 := no_array n1
    have h2 := no_array n2
    revert h1 h2
    generalize a.ty = lt
    generalize b.ty = rt
    intro h1 h2
    cases lt with
    | shape k => exact absurd rfl (h1 k)
    | _ =>
      cases rt with
      | shape k => exact absurd rfl (h2 k)
      | _ => cases op <;> simp [BinCode.Handles, logicCode, andCode, orCode, xorCode]
  obtain ⟨z, k1, k2⟩ := C55_binary_partial (toInt := Elem.toInt) (logic_computes op) hv hw (ne_array hv hw n1 n2)
    (items_none hv hw n1 n2) hz htt hh
  exact ⟨.bool z, by simp only [onSame, bin]; erw [k1]; rfl, hof.1, k2⟩

/-! ### Products -/


/-- A product is determined by its operands. -/
theorem matmul_unique {α : Type} [Inhabited α] {dot : List α → List α → α} {x y z z' : Tensor α} (h : Onnx.MatMul dot x y z)
    (h' : Onnx.MatMul dot x y z') : z = z' := by
  rcases h with ⟨ba, bb, s, m, k, n, hx, hy, hb, hz, hg⟩ | ⟨bb, k, n, hx, hy, hz, hg⟩ | ⟨ba, m, k, hx, hy, hz, hg⟩ | ⟨k, hx, hy, hz, hg⟩
  all_goals
    rcases h' with ⟨ba', bb', s', m', k', n', hx', hy', hb', hz', hg'⟩ | ⟨bb', k', n', hx', hy', hz', hg'⟩ |
      ⟨ba', m', k', hx', hy', hz', hg'⟩ | ⟨k', hx', hy', hz', hg'⟩
  all_goals
    rw [hx] at hx'
    rw [hy] at hy'
    try (have := congrArg List.length hx'; simp at this; done)
    try (have := congrArg List.length hy'; simp at this; done)
  · obtain ⟨rfl, e⟩ := List.append_inj_right' hx' rfl |> fun e => And.intro (List.append_inj_left' hx' rfl) e
    obtain ⟨rfl, e'⟩ := List.append_inj_right' hy' rfl |> fun e => And.intro (List.append_inj_left' hy' rfl) e
    simp only [List.cons.injEq, and_true] at e e'
    obtain ⟨rfl, rfl⟩ := e
    obtain ⟨-, rfl⟩ := e'
    rw [hb] at hb'
    cases hb'
    refine Tensor.eq_of_get (by rw [hz, hz']) fun i hi => ?_
    rw [hz, show s ++ [m, n] = (s ++ [m]) ++ [n] by simp] at hi
    obtain ⟨ib', j, rfl, hib', hj⟩ := inRange_snoc hi
    obtain ⟨ib, i', rfl, hib, hi'⟩ := inRange_snoc hib'
    rw [List.append_assoc]
    simp only [List.cons_append, List.nil_append]
    rw [hg ib i' j hib hi' hj, hg' ib i' j hib hi' hj]
  · obtain ⟨rfl, e'⟩ := List.append_inj_right' hy' rfl |> fun e => And.intro (List.append_inj_left' hy' rfl) e
    simp only [List.cons.injEq, and_true] at hx' e'
    subst hx'
    obtain ⟨-, rfl⟩ := e'
    refine Tensor.eq_of_get (by rw [hz, hz']) fun i hi => ?_
    rw [hz] at hi
    obtain ⟨ib, j, rfl, hib, hj⟩ := inRange_snoc hi
    rw [hg ib j hib hj, hg' ib j hib hj]
  · obtain ⟨rfl, e⟩ := List.append_inj_right' hx' rfl |> fun e => And.intro (List.append_inj_left' hx' rfl) e
    simp only [List.cons.injEq, and_true] at e
    obtain ⟨rfl, rfl⟩ := e
    refine Tensor.eq_of_get (by rw [hz, hz']) fun i hi => ?_
    rw [hz] at hi
    obtain ⟨ib, j, rfl, hib, hj⟩ := inRange_snoc hi
    rw [hg ib j hib hj, hg' ib j hib hj]
  · simp only [List.cons.injEq, and_true] at hx'
    subst hx'
    refine Tensor.eq_of_get (by rw [hz, hz']) fun i hi => ?_
    rw [hz] at hi
    obtain rfl : i = [] := by simpa using hi.length
    rw [hg, hg']

theorem matmul_shapes {α : Type} [Inhabited α] {dot : List α → List α → α} {x y z : Tensor α} (h : Onnx.MatMul dot x y z) :
    (Onnx.matmul x.shape y.shape).isSome ∧ x.shape ≠ [] ∧ y.shape ≠ [] ∧
      (¬ (x.shape.length = 1 ∧ y.shape.length = 1) → z.shape ≠ []) := by
  rcases h with ⟨ba, bb, s, m, k, n, hx, hy, hb, hz, hg⟩ | ⟨bb, k, n, hx, hy, hz, hg⟩ | ⟨ba, m, k, hx, hy, hz, hg⟩ | ⟨k, hx, hy, hz, hg⟩
  · simp [hx, hy, hz, Onnx.matmul, hb]
  · simp [hx, hy, hz, Onnx.matmul]
  · simp [hx, hy, hz, Onnx.matmul]
  · simp [hx, hy, Onnx.matmul]

theorem works_matMul (hm : Onnx.Meaning erf opset .matMul n.attrs xs ys) (h : RunOf st n xs ys)
    (hs : Supported pick st opset n xs .matMul) : Works erf pick st opset n xs ys .matMul := by
  obtain ⟨X, Y, Z, hx, hz, hy⟩ := hm
  obtain ⟨a, b, hi⟩ := h.input2 hx
  obtain ⟨o, ho, hof⟩ := h.output hy
  obtain ⟨s1, s2⟩ := hs
  obtain ⟨m1, m2, m3, m4⟩ := matmul_shapes hz
  refine works_two (u1 := .arg 1) (f := onDev2 (matmul Onnx.dotR)) rfl rfl hi (s1 a (by simp [hi])) (s1 b (by simp [hi])) hx ho hy
    fun r s hr hq => ?_
  rw [float_dev hr m2, float_dev hq m3]
  obtain ⟨z, k1, k2⟩ := C30_matmul_value_partial (dot := Onnx.dotR) m1 (s2 X Y hx)
  rw [matmul_unique k2 hz] at k1
  exact ⟨.float (.dev Z), by simp [onDev2, k1], fits_tensor hof (m4 (s2 X Y hx))⟩

theorem gemmVal_shapes {alpha beta : ℝ} {ta tb : Bool} {A B Y : Tensor ℝ} {C : Option (Tensor ℝ)}
    (h : Onnx.gemmVal Onnx.dotR (· * ·) (· + ·) alpha beta ta tb A B C = some Y) :
    A.shape ≠ [] ∧ B.shape ≠ [] ∧ Y.shape ≠ [] := by
  unfold Onnx.gemmVal at h
  split at h
  · next hA hB =>
    refine ⟨by rw [hA]; simp, by rw [hB]; simp, ?_⟩
    revert h
    simp only
    cases C <;> (repeat' split) <;> intro h <;> cases h <;> simp [Tensor.ofFn]
  · cases h

/-- A tensor of floating-point numbers. -/
theorem float_tensor {t : TensorType} {r : RustVal} {X : Tensor ℝ} (h : Holds (.tensor t) r (.float X)) :
    r = .float (.dev X) := by
  obtain ⟨v, rfl, -, hr⟩ := holds_float h
  cases v with
  | dev u => rw [hr.1]
  | _ => exact hr.elim

/-- Adding a number to the product adds `beta` times the number. -/
theorem gemmVal_scalar {alpha beta x : ℝ} {ta tb : Bool} {A B Y C : Tensor ℝ}
    (h : Onnx.gemmVal Onnx.dotR (· * ·) (· + ·) alpha beta ta tb A B (some C) = some Y) (hs : C.shape = [])
    (hd : C.data = [x]) : ∃ Z, Onnx.gemmVal Onnx.dotR (· * ·) (· + ·) alpha beta ta tb A B none = some Z ∧
      Z.map (fun e => e + beta * x) = Y := by
  revert h
  unfold Onnx.gemmVal
  split
  · cases ta <;> cases tb <;> simp only [Bool.false_eq_true, if_true, if_false] <;> (repeat' split) <;> intro h <;>
      simp only [Option.some.injEq, reduceCtorEq] at h <;> refine ⟨_, rfl, ?_⟩ <;> rw [← h] <;>
      refine Tensor.ext rfl ?_ <;> simp [Tensor.map, Tensor.ofFn, get_scalar hs hd]
  · intro h; cases h

theorem works_gemm (hm : Onnx.Meaning erf opset .gemm n.attrs xs ys) (h : RunOf st n xs ys)
    (hs : Supported pick st opset n xs .gemm) : Works erf pick st opset n xs ys .gemm := by
  obtain ⟨A, B, C, Y, alpha, beta, ta, tb, h1, h2, h3, h4, hx, hz, hy⟩ := hm
  obtain ⟨o, ho, hof⟩ := h.output hy
  obtain ⟨s1, s2⟩ := hs
  obtain ⟨m1, m2, m3⟩ := gemmVal_shapes hz
  have hfit := fits_tensor hof m3
  have hlen := h.ops.length
  have hg := C53_gemm_value (one := (1 : ℝ)) one_mul mul_comm hz
  have hcode : nodeCode erf pick st opset n .gemm = (gemmBias n.inputs[2]?).map fun us => ⟨.arg 0 :: .arg 1 :: us,
      gemmCode (alpha.getD 1) (beta.getD 1) (ta.getD 0 != 0) (tb.getD 0 != 0)⟩ := by
    simp only [nodeCode, floatAttr_read h1, floatAttr_read h2, (intAttr_read h3).2, (intAttr_read h4).2]
  cases C with
  | none =>
    simp only [Option.map_none, Option.toList_none, List.append_nil] at hx
    obtain ⟨a, b, hi⟩ := h.input2 hx
    rw [hi] at hcode
    refine ⟨_, hcode, by simp [Use.index], ?_, ?_⟩
    · intro u hu
      simp only [List.mem_cons, List.not_mem_nil, or_false] at hu
      rcases hu with rfl | rfl
      · exact ⟨a, by simp [hi, Use.index], s1 a (by simp [hi])⟩
      · exact ⟨b, by simp [hi, Use.index], s1 b (by simp [hi])⟩
    · intro rs hl hh
      obtain ⟨r, s, rfl⟩ := List.length_eq_two.1 (hl.trans rfl)
      obtain ⟨a', v', k1, k2, k3⟩ := hh 0 (.arg 0) r rfl rfl
      obtain ⟨b', w', l1, l2, l3⟩ := hh 1 (.arg 1) s rfl rfl
      simp only [hi, hx, Use.index, List.getElem?_cons_zero, List.getElem?_cons_succ, Option.some.injEq] at k1 k2 l1 l2
      subst k1 k2 l1 l2
      rw [float_dev k3 m1, float_dev l3 m2]
      refine ⟨[.float (.dev Y)], by simp [gemmCode, hg], by simp [hy], fun k o' w' y' k1 k2 k3 => ?_⟩
      subst hy
      rw [ho] at k1
      cases k with
      | zero =>
        simp only [List.getElem?_cons_zero, Option.some.injEq] at k1 k2 k3
        subst k1 k2 k3
        exact hfit
      | succ k => simp at k1
  | some C =>
    simp only [Option.map_some, Option.toList_some, List.cons_append, List.nil_append] at hx
    obtain ⟨a, b, c, hi⟩ : ∃ a b c, n.inputs = [a, b, c] := List.length_eq_three.1 (by rw [← hlen, hx]; rfl)
    have hun : ∀ us q, gemmBias (some c) = some us → (us = [.arg 2] ∨ us = [.name 2]) →
        (∀ r, Holds c.ty r (.float C) → ∃ z, gemmCode (alpha.getD 1) (beta.getD 1) (ta.getD 0 != 0) (tb.getD 0 != 0)
          [.float (.dev A), .float (.dev B), r] = some z ∧ z = [.float (.dev Y)]) → q = us →
        Works erf pick st opset n xs ys .gemm := by
      intro us _ hus hu2 hr _
      rw [hi] at hcode
      simp only [List.getElem?_cons_succ, List.getElem?_cons_zero, hus, Option.map_some] at hcode
      have hidx : (us.map Use.index) = [2] := by rcases hu2 with rfl | rfl <;> rfl
      refine ⟨_, hcode, by simp [Use.index, hidx], ?_, ?_⟩
      · intro u hu
        rcases List.mem_cons.1 hu with rfl | hu
        · exact ⟨a, by simp [hi, Use.index], s1 a (by simp [hi])⟩
        · rcases List.mem_cons.1 hu with rfl | hu
          · exact ⟨b, by simp [hi, Use.index], s1 b (by simp [hi])⟩
          · have : u.index = 2 := by
              rcases hu2 with rfl | rfl <;> (obtain rfl := List.mem_singleton.1 hu; rfl)
            exact ⟨c, by simp [hi, this], s1 c (by simp [hi])⟩
      · intro rs hl hh
        have hl3 : rs.length = 3 := by rcases hu2 with rfl | rfl <;> exact hl
        obtain ⟨r, s, q, rfl⟩ := List.length_eq_three.1 hl3
        obtain ⟨a', v', k1, k2, k3⟩ := hh 0 (.arg 0) r rfl rfl
        obtain ⟨b', w', l1, l2, l3⟩ := hh 1 (.arg 1) s rfl rfl
        obtain ⟨c', u', q1, q2, q3⟩ : ∃ c' u', n.inputs[2]? = some c' ∧ xs[2]? = some (some u') ∧ Holds c'.ty q u' := by
          rcases hu2 with rfl | rfl
          · exact hh 2 (.arg 2) q rfl rfl
          · exact hh 2 (.name 2) q rfl rfl
        simp only [hi, hx, Use.index, List.getElem?_cons_zero, List.getElem?_cons_succ, Option.some.injEq] at k1 k2 l1 l2 q1 q2
        subst k1 k2 l1 l2 q1 q2
        rw [float_dev k3 m1, float_dev l3 m2]
        obtain ⟨z, hz1, rfl⟩ := hr q q3
        refine ⟨[.float (.dev Y)], hz1, by simp [hy], fun k o' w' y' k1 k2 k3 => ?_⟩
        subst hy
        rw [ho] at k1
        cases k with
        | zero =>
          simp only [List.getElem?_cons_zero, Option.some.injEq] at k1 k2 k3
          subst k1 k2 k3
          exact hfit
        | succ k => simp at k1
    have s2' := s2 c (by simp [hi])
    cases hct : c.ty with
    | tensor t =>
      refine hun [.arg 2] _ (by simp [gemmBias, hct]) (.inl rfl) (fun r hr => ?_) rfl
      rw [hct] at hr
      exact ⟨_, by rw [float_tensor hr]; simp [gemmCode, hg], rfl⟩
    | scalarNative d =>
      refine hun [.name 2] _ (by simp [gemmBias, hct]) (.inr rfl) (fun r hr => ?_) rfl
      rw [hct] at hr
      obtain ⟨v, rfl, -, hv⟩ := holds_float hr
      cases v with
      | native x =>
        obtain ⟨v1, v2⟩ := hv
        obtain ⟨Z, hZ, rfl⟩ := gemmVal_scalar hz v1 v2
        refine ⟨_, by simp only [gemmCode]; rw [C53_gemm_value (one := (1 : ℝ)) one_mul mul_comm hZ]; rfl, ?_⟩
        have : (fun e => e + if beta.getD 1 = 1 then x else x * beta.getD 1) = fun e => e + beta.getD 1 * x := by
          funext e
          split
          · next h => rw [h, one_mul]
          · rw [mul_comm]
        rw [this]
      | _ => exact hv.elim
    | scalarTensor d => exact absurd hct (s2' d)
    | shape k =>
      obtain ⟨v, hv, hk, -⟩ := h.ops.run 2 c (by simp [hi]) (s1 c (by simp [hi]))
      simp only [hx, List.getElem?_cons_zero, List.getElem?_cons_succ, Option.some.injEq] at hv
      subst hv
      rw [hct] at hk
      cases hk

theorem linear_shapes {t : Bool} {X W Y : Tensor ℝ} {B : Option (Tensor ℝ)} {bs : List Nat}
    (h : linear Onnx.dotR (· + ·) t X W B = some Y) (hX : X.shape = bs) : bs ≠ [] ∧ Y.shape ≠ [] := by
  subst hX
  have hl : ∀ V : Tensor ℝ, Burn.linear Onnx.dotR (· + ·) X V B = some Y → X.shape ≠ [] ∧ Y.shape ≠ [] := by
    intro V h
    unfold Burn.linear at h
    split at h
    · next k bs k' m hx hw =>
      split at h
      · refine ⟨by intro h0; simp [h0] at hx, ?_⟩
        simp only [Option.some.injEq] at h
        subst h
        simp [Tensor.ofFn]
      · cases h
    · cases h
  unfold linear at h
  split at h
  · simp only [Option.bind_eq_some_iff] at h
    obtain ⟨V, -, h⟩ := h
    exact hl V h
  · exact hl W h

theorem static_float {w : Arg OVal} {W : Tensor ℝ} (h : w.src = .static (.float W)) : staticFloat w = some W := by
  simp [staticFloat, h]

theorem works_linear (hm : Onnx.Meaning erf opset .linear n.attrs xs ys) (h : RunOf st n xs ys)
    (hs : Supported pick st opset n xs .linear) : Works erf pick st opset n xs ys .linear := by
  obtain ⟨X, W, B, Y, t, ha, hx, hy, hz⟩ := hm
  obtain ⟨o, ho, hof⟩ := h.output hy
  obtain ⟨s1, s2, s3, s4⟩ := hs
  have hlen := h.ops.length
  obtain ⟨s5, s6⟩ := s4 W (by rw [hx]; rfl)
  have hsrc : ∀ (k : Nat) (w : Arg OVal) (V : OVal), n.inputs[k + 1]? = some w → xs[k + 1]? = some (some V) → w.src = .static V := by
    intro k w V hw hV
    obtain ⟨v, hv⟩ := s2 k w hw
    have := h.ops.static (k + 1) w v hw hv
    rw [hV] at this
    rw [hv, Option.some.inj (Option.some.inj this)]
  have hlin : linear Onnx.dotR (· + ·) (t.getD 0 == 1) X W B = some Y := by
    by_cases h1 : t = some 1
    · subst h1
      rw [if_pos rfl] at hz
      refine C13_linear_is_gemm one_mul (fun v hv => ?_) hz
      obtain rfl := hv
      simpa using s6 v (some 1) (by rw [hx]; rfl) ha
    · rw [if_neg h1] at hz
      have hf : (t.getD 0 == 1) = false := by
        cases t with
        | none => rfl
        | some t =>
          simp only [Option.getD_some, beq_eq_false_iff_ne]
          rintro rfl
          exact h1 rfl
      rw [hf]
      cases B with
      | none => exact C13_linear_is_product s5 hz
      | some b =>
        obtain ⟨p, hp, hb⟩ := hz
        obtain ⟨k, m, hW⟩ := List.length_eq_two.1 s5
        have := s6 b t (by rw [hx]; rfl) ha
        rw [if_neg h1, hW] at this
        exact C13_linear_is_biased_product hW this hp hb
  obtain ⟨m1, m2⟩ := linear_shapes hlin rfl
  have hfit := fits_tensor hof m2
  cases B with
  | none =>
    simp only [Option.map_none, Option.toList_none, List.append_nil] at hx
    obtain ⟨a, w, hi⟩ := h.input2 hx
    have hw := hsrc 0 w (.float W) (by simp [hi]) (by simp [hx])
    refine works_one (a := a) (o := o) (v := .float X) (f := onDev fun x => linear Onnx.dotR (· + ·) (t.getD 0 == 1) x W none)
      ?_ (by simp [hi]) (s1 a (by simp [hi])) (by simp [hx]) ho hy fun r hr => ?_
    · simp only [nodeCode, linearCode, hi, (intAttr_read ha).2, static_float hw, Option.bind_some,
        s3 w (.float W) (by simp [hi]) (by simp [hx]), OVal.shape, ne_eq, not_true_eq_false, if_false]
    · rw [float_dev hr m1]
      exact ⟨.float (.dev Y), by simp only [onDev, onFloat, hlin, Option.map_some], hfit⟩
  | some b =>
    simp only [Option.map_some, Option.toList_some, List.cons_append, List.nil_append] at hx
    obtain ⟨a, w, c, hi⟩ : ∃ a b c, n.inputs = [a, b, c] := List.length_eq_three.1 (by rw [← hlen, hx]; rfl)
    have hw := hsrc 0 w (.float W) (by simp [hi]) (by simp [hx])
    have hb := hsrc 1 c (.float b) (by simp [hi]) (by simp [hx])
    refine works_one (a := a) (o := o) (v := .float X) (f := onDev fun x => linear Onnx.dotR (· + ·) (t.getD 0 == 1) x W (some b))
      ?_ (by simp [hi]) (s1 a (by simp [hi])) (by simp [hx]) ho hy fun r hr => ?_
    · simp only [nodeCode, linearCode, hi, (intAttr_read ha).2, static_float hw, static_float hb, Option.bind_some,
        s3 w (.float W) (by simp [hi]) (by simp [hx]), OVal.shape, ne_eq, not_true_eq_false, if_false]
    · rw [float_dev hr m1]
      exact ⟨.float (.dev Y), by simp only [onDev, onFloat, hlin, Option.map_some], hfit⟩

/-! ### Softmax -/

theorem works_along {op : Op} {f : List ℝ → List ℝ} {X : Tensor ℝ} {axis : Option Int} {k : Nat}
    (hc : ∀ a, Infer.attrInt? n "axis" = some a → nodeCode erf pick st opset n op = some ⟨[.arg 0], eff1 (onDev (genAlong f opset a))⟩)
    (h : RunOf st n xs ys) (hx : xs = [some (.float X)]) (ha : Onnx.HasInt n.attrs "axis" axis)
    (hk : Onnx.index X.shape.length (axis.getD (if opset < 13 then 1 else -1)) = some k)
    (hy : ys = [.float (Onnx.alongT f opset k X)]) (hr : ∀ a ∈ n.inputs, AtRunTime a)
    (hold : opset < 13 → ∀ X axis a, xs = [some (.float X)] → Onnx.HasInt n.attrs "axis" axis →
      Onnx.index X.shape.length (axis.getD 1) = some a → prodShape (X.shape.drop (a + 1)) = 1) :
    Works erf pick st opset n xs ys op := by
  obtain ⟨a, hi⟩ := h.input1 hx
  obtain ⟨o, ho, hof⟩ := h.output hy
  have hX : X.shape ≠ [] := by
    intro h0
    rw [h0] at hk
    revert hk
    generalize axis.getD (if opset < 13 then 1 else -1) = q
    simp only [Onnx.index, List.length_nil]
    rw [if_neg (by omega), if_neg (by omega)]
    exact nofun
  refine works_one (a := a) (o := o) (v := .float X) (hc axis (intAttr_read ha).1) (by simp [hi]) (hr a (by simp [hi])) (by simp [hx]) ho hy
    fun r hr => ?_
  rw [float_dev hr hX]
  have := C61_softmax_partial f hk fun h13 => hold h13 X axis k hx ha (by simpa [h13] using hk)
  refine ⟨_, by simp only [onDev, onFloat, this, Option.map_some], fits_tensor hof ?_⟩
  intro h0
  apply hX
  unfold Onnx.alongT at h0
  split at h0 <;> exact h0

/-! ### Operators that rearrange elements -/

/-- Code for all kinds of elements, from a statement for each kind. -/
theorem lift_rel {P : {α : Type} → [Elem α] → Tensor α → Tensor α → Prop} {f : {α : Type} → [Elem α] → GVal α → Option (GVal α)}
    {ty ot : ArgType} {r : RustVal} {v w : OVal} (hr : Holds ty r v) (hv : Onnx.Rel P v w) (ho : burn.fits ot w)
    (hf : ∀ {α : Type} [Elem α] (x : GVal α) (X Z : Tensor α), Elem.kind α = ot.kind → v.shape = X.shape → w.shape = Z.shape →
      Reps Elem.ofInt ty x X → P X Z → ∃ z, f x = some z ∧ Reps Elem.ofInt ot z Z) :
    ∃ z, r.lift f = some z ∧ Holds ot z w := by
  obtain ⟨hk, -⟩ := ho
  cases v with
  | float X =>
    cases w with
    | float Z =>
      obtain ⟨x, rfl, -, hx⟩ := holds_float hr
      obtain ⟨z, h1, h2⟩ := hf x X Z hk.symm rfl rfl hx hv
      exact ⟨.float z, by simp [RustVal.lift, h1], hk, h2⟩
    | _ => exact hv.elim
  | int X =>
    cases w with
    | int Z =>
      obtain ⟨x, rfl, -, hx⟩ := holds_int hr
      obtain ⟨z, h1, h2⟩ := hf x X Z hk.symm rfl rfl hx hv
      exact ⟨.int z, by simp [RustVal.lift, h1], hk, h2⟩
    | _ => exact hv.elim
  | bool X =>
    cases w with
    | bool Z =>
      obtain ⟨x, rfl, -, hx⟩ := holds_bool hr
      obtain ⟨z, h1, h2⟩ := hf x X Z hk.symm rfl rfl hx hv
      exact ⟨.bool z, by simp [RustVal.lift, h1], hk, h2⟩
    | _ => exact hv.elim

theorem viewed_eq {α : Type} {X Z Z' : Tensor α} {out : List Nat} (h : Viewed X Z out) (h' : Viewed X Z' out) : Z = Z' :=
  Tensor.ext (h.1.trans h'.1.symm) (h.2.trans h'.2.symm)

theorem fits_kind {ty : ArgType} {v : OVal} (h : burn.fits ty v) : ty.kind = v.kind := h.1

theorem one_type {l : Option ArgType} {o : Arg OVal} (ho : n.outputs = [o]) (h : l.map ([·]) = some (n.outputs.map Arg.ty)) :
    l = some o.ty := by
  cases l with
  | none => cases h
  | some t => simpa [ho] using h

theorem reshape_target (hst : StoreOk st) (h : RunOf st n xs ys) {s : Arg OVal} {t : Tensor Int} (hs : n.inputs[1]? = some s)
    (hx : xs[1]? = some (some (.int t))) (hrd : (st.read s).isSome = true) : Infer.reshapeTarget st n = some (some t.data) := by
  obtain ⟨v, hv⟩ := Option.isSome_iff_exists.1 hrd
  have := h.reads 1 s v hs hv
  rw [hx] at this
  obtain rfl := Option.some.inj (Option.some.inj this)
  simp [Infer.reshapeTarget, hs, hv, hst.ints]

theorem works_reshape (hst : StoreOk st) (hm : Onnx.Meaning erf opset .reshape n.attrs xs ys) (h : RunOf st n xs ys)
    (hs : Supported pick st opset n xs .reshape) {prefs : OutPrefs}
    (ht : Infer.apply st opset n prefs .reshape = some (n.outputs.map Arg.ty)) : Works erf pick st opset n xs ys .reshape := by
  obtain ⟨v, t, out, w, az, hx, hts, haz, hre, hview, hy⟩ := hm
  obtain ⟨a, s, hi⟩ := h.input2 hx
  obtain ⟨o, ho, hof⟩ := h.output hy
  obtain ⟨s0, hs⟩ := hs
  obtain ⟨s1, hs⟩ := hs a s hi
  have haz' : ((az.getD 0) == 1) = (az == some 1) := by
    cases az with
    | none => rfl
    | some z => simp
  rcases hs v t az out hx haz hre with ⟨hrd, hh, hrr⟩ | ⟨hrd, hrs, hdev, hne, hot, hcase⟩
  · have htg := reshape_target hst h (s := s) (t := t) (by simp [hi]) (by simp [hx]) hrd
    simp only [Infer.apply, (intAttr_read haz).2, htg, Infer.inTy, hi, ho, List.getElem?_cons_zero, List.getElem?_cons_succ,
      Option.map_some] at ht
    have ht' := one_type ho (by rw [ho]; exact ht)
    refine works_one (a := a) (o := o) (v := v) (f := RustVal.lift fun v => genReshape Elem.ofInt t.data a.ty o.ty v)
      (by simp [nodeCode, htg, hi, ho]) (by simp [hi]) s1 (by simp [hx]) ho hy fun r hr => ?_
    refine lift_rel hr hview hof ?_
    intro α _ x X Z _ hX _ hrx hXZ
    rw [hX] at hre
    rw [haz'] at ht'
    obtain ⟨z, Z', k1, k2, k3⟩ := C56_reshape_partial hrx ht' hre hh hrr
    rw [viewed_eq hXZ k3]
    exact ⟨z, k1, k2⟩
  · have htg : Infer.reshapeTarget st n = some none := by
      simp [Infer.reshapeTarget, hi, hrd, Infer.attrInts, s0]
    obtain ⟨u, hu⟩ := hot o (by simp [ho])
    have hwo : w.shape = out := by
      cases v <;> cases w <;> first | exact hview.elim | exact hview.1
    have hadm : out.length = u.rank := by
      have := hof.2
      rwa [hu, hwo] at this
    have hdev' : (∃ t, a.ty = .tensor t) ∨ ∃ d, a.ty = .scalarTensor d := by
      cases hty : a.ty with
      | tensor t => exact Or.inl ⟨t, rfl⟩
      | scalarTensor d => exact Or.inr ⟨d, rfl⟩
      | scalarNative d => rw [hty] at hdev; cases hdev
      | shape k => rw [hty] at hdev; cases hdev
    have hcode : nodeCode erf pick st opset n .reshape = some ⟨[.arg 0, .name 1], eff2 fun x t => (targetOf t).bind fun tg =>
        if a.ty.isOnDevice then x.lift fun v => genReshapeRuntime tg s.ty o.ty v else none⟩ := by
      simp [nodeCode, htg, hi, ho]
    refine works_two (u1 := .name 1) hcode rfl hi s1 hrs hx ho hy fun r q hr hq => ?_
    have htgt : targetOf q = some t.data := by
      obtain ⟨y, rfl, hk, hy⟩ := holds_int hq
      rcases hcase with ⟨⟨k, hk'⟩, -⟩ | ⟨⟨k, hk'⟩, -⟩
      · rw [hk'] at hy
        cases y with
        | shape l => simp [targetOf, hy.2.2]
        | _ => exact hy.elim
      · rw [hk'] at hy
        cases y with
        | dev y => rw [← hy.1]; rfl
        | _ => exact hy.elim
    simp only [htgt, Option.bind_some, hdev, if_true]
    refine lift_rel hr hview hof ?_
    intro α _ x X Z _ hX _ hrx hXZ
    rw [hX] at hre
    rw [hu]
    obtain ⟨z, Z', k1, k2, k3⟩ := C56_reshape_runtime_partial (shapeTy := s.ty) hrx hdev' hadm
      (by rw [← hadm]; exact List.length_pos_iff.2 hne) hre
      (hcase.imp (fun ⟨⟨k, h1⟩, h2⟩ => ⟨k, h1, h2⟩) fun ⟨⟨k, h1⟩, h2⟩ => ⟨k, h1, h2⟩)
    rw [viewed_eq hXZ k3]
    exact ⟨z, k1, k2⟩

theorem works_flatten (hm : Onnx.Meaning erf opset .flatten n.attrs xs ys) (h : RunOf st n xs ys)
    (hs : Supported pick st opset n xs .flatten) {prefs : OutPrefs}
    (ht : Infer.apply st opset n prefs .flatten = some (n.outputs.map Arg.ty)) : Works erf pick st opset n xs ys .flatten := by
  obtain ⟨v, w, ax, out, hx, hax, hfl, hview, hy⟩ := hm
  obtain ⟨a, hi⟩ := h.input1 hx
  obtain ⟨o, ho, hof⟩ := h.output hy
  obtain ⟨s1, s2⟩ := hs
  have s1 := s1 a (by simp [hi])
  have hfa := h.fitsIn (k := 0) (by simp [hi]) s1 (by simp [hx]; rfl)
  simp only [Infer.apply, (intAttr_read hax).1, Infer.inTy, hi, List.getElem?_cons_zero, Option.map_some] at ht
  have ht' := one_type ho ht
  obtain ⟨t, hta⟩ : ∃ t, a.ty = .tensor t := by
    cases hty : a.ty with
    | tensor t => exact ⟨t, rfl⟩
    | _ => rw [hty] at ht'; simp [Infer.flatten, Infer.tensorOf] at ht'
  have hrank : v.shape.length = t.rank := by
    have := hfa.2
    rw [hta] at this
    exact this
  have hk : ∃ k : Nat, Infer.normAxis v.shape.length (ax.getD 1) = k := by
    unfold Onnx.flatten at hfl
    split at hfl
    · next hc =>
      refine ⟨(Infer.normAxis v.shape.length (ax.getD 1)).toNat, ?_⟩
      unfold Infer.normAxis
      split <;> omega
    · cases hfl
  obtain ⟨k, hk⟩ := hk
  obtain ⟨s3, s4⟩ := s2 v ax k hx hax (by
    unfold Infer.normAxis at hk
    split at hk
    · exact Or.inr hk
    · exact Or.inl hk)
  refine works_one (a := a) (o := o) (v := v) (f := RustVal.lift fun v => genFlatten k v)
    (by simp [nodeCode, Infer.inTy, hi, hta, (intAttr_read hax).2, ← hrank, hk]) (by simp [hi]) s1 (by simp [hx]) ho hy fun r hr => ?_
  refine lift_rel hr hview hof ?_
  intro α _ x X Z _ hX _ hrx hXZ
  rw [hX] at hfl hk s3 s4
  obtain ⟨z, Z', k1, k2, k3⟩ := C56_flatten_partial hrx ht' hk hfl s3 s4
  rw [viewed_eq hXZ k3]
  exact ⟨z, k1, k2⟩

theorem mem_zip_inRange {perm s out j : List Nat} (h : Onnx.transpose perm s = some out) (hj : InRange out j) :
    ∃ i, InRange s i ∧ perm.map (i.getD · 0) = j := by
  obtain ⟨hp, rfl⟩ := isPerm_of h
  refine ⟨unpermute s.length perm j, unpermute_inRange hp hj, unpermute_perm hp ?_⟩
  have := hj.length
  simp only [permShape, List.length_map, hp.length] at this
  exact this

theorem works_transpose (hm : Onnx.Meaning erf opset .transpose n.attrs xs ys) (h : RunOf st n xs ys)
    (hs : Supported pick st opset n xs .transpose) {prefs : OutPrefs}
    (ht : Infer.apply st opset n prefs .transpose = some (n.outputs.map Arg.ty)) : Works erf pick st opset n xs ys .transpose := by
  obtain ⟨v, w, perm, given, out, hx, hg, hp, htr, hy, hrel⟩ := hm
  obtain ⟨a, hi⟩ := h.input1 hx
  obtain ⟨o, ho, hof⟩ := h.output hy
  have s1 := hs a (by simp [hi])
  have hfa := h.fitsIn (k := 0) (by simp [hi]) s1 (by simp [hx]; rfl)
  simp only [Infer.apply, intsAttr_read hg, Infer.inTy, hi, List.getElem?_cons_zero, Option.map_some] at ht
  have ht' := one_type ho ht
  obtain ⟨t, hta⟩ : ∃ t, a.ty = .tensor t := by
    cases hty : a.ty with
    | tensor t => exact ⟨t, rfl⟩
    | _ => rw [hty] at ht'; simp [Infer.transpose, Infer.tensorOf] at ht'
  have hrank : v.shape.length = t.rank := by
    have := hfa.2
    rw [hta] at this
    exact this
  refine works_one (a := a) (o := o) (v := v) (f := RustVal.lift fun v => genTranspose perm v)
    (by
      simp only [nodeCode, permOf, intsAttr_read hg, Infer.inTy, hi, hta, List.getElem?_cons_zero, Option.map_some, ← hrank, hp]
      simp [Function.comp_def]) (by simp [hi]) s1 (by simp [hx]) ho hy fun r hr => ?_
  refine lift_rel hr hrel hof ?_
  intro α _ x X Z _ hX _ hrx hXZ
  rw [hX] at hp htr
  obtain ⟨z, Z', k1, k2, k3, k4⟩ := C56_transpose hrx ht' hp htr
  have : Z' = Z := by
    refine Tensor.eq_of_get (k3.trans hXZ.1.symm) fun j hj => ?_
    rw [k3] at hj
    obtain ⟨i, hi, rfl⟩ := mem_zip_inRange htr hj
    rw [k4 i hi, hXZ.2 i hi]
  rw [← this]
  exact ⟨z, k1, k2⟩

theorem works_squeeze (hst : StoreOk st) (hm : Onnx.Meaning erf opset .squeeze n.attrs xs ys) (h : RunOf st n xs ys)
    (hs : Supported pick st opset n xs .squeeze) {prefs : OutPrefs}
    (ht : Infer.apply st opset n prefs .squeeze = some (n.outputs.map Arg.ty)) : Works erf pick st opset n xs ys .squeeze := by
  obtain ⟨v, w, axes, out, hax, hsq, hview, hy⟩ := hm
  obtain ⟨o, ho, hof⟩ := h.output hy
  obtain ⟨s1, s0, s2, s3⟩ := hs
  -- the axes are known
  have key : ∀ (a : Arg OVal) (as : List Int), n.inputs[0]? = some a → xs[0]? = some (some v) → Infer.squeezeAxes st opset n = some (some as) → as ≠ [] →
      Onnx.squeeze as v.shape = some out → Works erf pick st opset n xs ys .squeeze := by
    intro a as hi hx hq hne hsq
    obtain ⟨l, hl⟩ : ∃ l, n.inputs = a :: l := by
      cases hn : n.inputs with
      | nil => rw [hn] at hi; cases hi
      | cons b l => rw [hn] at hi; cases hi; exact ⟨l, rfl⟩
    simp only [Infer.apply, hq, Infer.inTy, hi, Option.map_some] at ht
    have ht' := one_type ho ht
    refine works_one (a := a) (o := o) (v := v) (f := RustVal.lift fun v => genSqueeze Elem.ofInt (.static as) a.ty o.ty v)
      (by simp only [nodeCode, hq, hl, ho]) hi (s1 a hi).1 hx ho hy fun r hr => ?_
    refine lift_rel hr hview hof ?_
    intro α _ x X Z _ hX _ hrx hXZ
    rw [hX] at hsq
    obtain ⟨z, Z', k1, k2, k3⟩ := C56_squeeze_axes hrx hne ht' hsq
    rw [viewed_eq hXZ k3]
    exact ⟨z, k1, k2⟩
  rcases hax with ⟨hx, hat⟩ | ⟨t, hx, hat, ht1, rfl⟩
  · obtain ⟨a, hi⟩ := h.input1 hx
    have hrd := intsAttr_read hat
    cases axes with
    | some as =>
      have hlk : n.attrs.lookup "axes" = some (.i64s as) := hat
      obtain ⟨s4, s5⟩ := s2 (by rw [hlk]; simp)
      have hne : as ≠ [] := fun h0 => s5 (by rw [hlk, h0])
      exact key a as (by simp [hi]) (by simp [hx]) (by simp [Infer.squeezeAxes, hrd, hne, s4]) hne hsq
    | none =>
      have hq : Infer.squeezeAxes st opset n = some none := by simp [Infer.squeezeAxes, hrd, hi]
      obtain ⟨s4, s5⟩ := s1 a (by simp [hi])
      have hfa := s0 (by simp [hi]) hat a v (by simp [hi]) (by simp [hx])
      simp only [Infer.apply, hq, Infer.inTy, hi, List.getElem?_cons_zero, Option.map_some] at ht
      have ht' := one_type ho ht
      refine works_one (a := a) (o := o) (v := v) (f := RustVal.lift fun v => genSqueeze Elem.ofInt .absent a.ty o.ty v)
        (by simp only [nodeCode, hq, hi, ho]) (by simp [hi]) s4 (by simp [hx]) ho hy fun r hr => ?_
      refine lift_rel hr hview hof ?_
      intro α _ x X Z _ hX _ hrx hXZ
      obtain ⟨z, Z', k1, k2, k3⟩ := C56_squeeze_all_partial hrx (by rwa [hX] at hfa) ht' s5
      simp only [hX] at hsq
      rw [hsq] at hXZ
      rw [viewed_eq hXZ k3]
      exact ⟨z, k1, k2⟩
  · obtain ⟨a, s, hi⟩ := h.input2 hx
    obtain ⟨s4, s5⟩ := s3 s (by simp [hi])
    obtain ⟨u, hu⟩ := Option.isSome_iff_exists.1 s4
    have := h.reads 1 s u (by simp [hi]) hu
    rw [hx] at this
    obtain rfl : OVal.int t = u := Option.some.inj (Option.some.inj this)
    have hne : t.data ≠ [] := by
      intro h0
      apply s5
      rw [hx]
      simp only [List.getElem?_cons_succ, List.getElem?_cons_zero, Option.some.injEq, OVal.int.injEq]
      exact Tensor.ext (by rw [ht1, h0]; rfl) h0
    refine key a t.data (by simp [hi]) (by simp [hx]) ?_ hne hsq
    simp [Infer.squeezeAxes, Infer.attrInts, hat, hi, hu, hst.ints]

theorem works_unsqueeze (hst : StoreOk st) (hm : Onnx.Meaning erf opset .unsqueeze n.attrs xs ys) (h : RunOf st n xs ys)
    (hs : Supported pick st opset n xs .unsqueeze) {prefs : OutPrefs}
    (ht : Infer.apply st opset n prefs .unsqueeze = some (n.outputs.map Arg.ty)) : Works erf pick st opset n xs ys .unsqueeze := by
  obtain ⟨v, w, as, out, hax, hsq, hview, hy⟩ := hm
  obtain ⟨o, ho, hof⟩ := h.output hy
  obtain ⟨s1, s2, s3⟩ := hs
  have step : ∀ (a : Arg OVal) (known : Bool) (axesTy : Option ArgType) (r : RustVal), n.inputs[0]? = some a → xs[0]? = some (some v) →
      (∀ t, axesTy = some t → t.Admits [as.length]) →
      Infer.unsqueeze (if known then some as else none) axesTy o.ty a.ty = some o.ty → Holds a.ty r v →
      ∃ z, r.lift (fun v => genUnsqueeze Elem.toInt as a.ty o.ty v) = some z ∧ Holds o.ty z w := by
    intro a known axesTy r hi hx hty ht' hr
    obtain ⟨s4, s5⟩ := s1 a hi
    refine lift_rel hr hview hof ?_
    intro α _ x X Z hk hX _ hrx hXZ
    rw [hX] at hsq
    obtain ⟨z, Z', k1, k2, k3⟩ := C56_unsqueeze_partial (toInt := Elem.toInt) hrx hty ht' hsq
      (s5 v as hax) (by
        intro m hm x _
        refine Elem.back ?_ x
        rw [hk, hm]; rfl)
    rw [viewed_eq hXZ k3]
    exact ⟨z, k1, k2⟩
  have known : ∀ a l, n.inputs = a :: l → xs[0]? = some (some v) → Infer.unsqueezeAxes st opset n = some (some as) →
      Works erf pick st opset n xs ys .unsqueeze := by
    intro a l hi hx hq
    have hi0 : n.inputs[0]? = some a := by simp [hi]
    simp only [Infer.apply, hq, Infer.inTy, hi0, Option.map_some, ho, List.getElem?_cons_zero] at ht
    have ht' := one_type ho (by rw [ho]; exact ht)
    refine works_one (a := a) (o := o) (v := v) (f := RustVal.lift fun v => genUnsqueeze Elem.toInt as a.ty o.ty v)
      (by simp only [nodeCode, hq, hi, ho]) hi0 (s1 a hi0).1 hx ho hy fun r hr => ?_
    refine step a true none r hi0 hx nofun ?_ hr
    revert ht'
    cases a.ty <;> exact id
  have hax' := hax
  rcases hax' with ⟨hx, hat⟩ | ⟨t, hx, hat, ht1, he⟩
  · obtain ⟨a, hi⟩ := h.input1 hx
    have hlk : n.attrs.lookup "axes" = some (.i64s as) := hat
    have s4 := s2 (by rw [hlk]; simp)
    exact known a [] hi (by simp [hx]) (by simp [Infer.unsqueezeAxes, intsAttr_read hat, s4])
  · obtain ⟨a, s, hi⟩ := h.input2 hx
    obtain ⟨⟨ts, hts⟩, s5⟩ := s3 s (by simp [hi])
    obtain rfl := Option.some.inj he
    -- the rank of the axes has been checked
    have hq0 : Infer.unsqueezeAxes st opset n = Infer.readInts st s := by
      have : Infer.unsqueezeAxes st opset n = if ts.rank ≠ 0 ∧ ts.rank ≠ 1 then none else Infer.readInts st s := by
        simp [Infer.unsqueezeAxes, Infer.attrInts, hat, hi, hts]
      rw [this]
      split
      · next hc =>
        rw [if_pos hc] at this
        simp [Infer.apply, this] at ht
      · rfl
    cases hrd : st.read s with
    | some u =>
      have := h.reads 1 s u (by simp [hi]) hrd
      rw [hx] at this
      obtain rfl : OVal.int t = u := Option.some.inj (Option.some.inj this)
      exact known a [s] hi (by simp [hx]) (by rw [hq0]; simp [Infer.readInts, hrd, hst.ints])
    | none =>
      have hq : Infer.unsqueezeAxes st opset n = some none := by rw [hq0]; simp [Infer.readInts, hrd]
      obtain ⟨hsr, hfs⟩ := s5 hrd
      have hi0 : n.inputs[0]? = some a := by simp [hi]
      have hi1 : n.inputs[1]? = some s := by simp [hi]
      simp only [Infer.apply, hq, Infer.inTy, hi0, hi1, Option.map_some, ho, List.getElem?_cons_zero] at ht
      have ht' := one_type ho (by rw [ho]; exact ht)
      have hfs := hfs t (by simp [hx])
      have hcode : nodeCode erf pick st opset n .unsqueeze = some ⟨[.arg 0, .name 1], eff2 fun x t => (targetOf t).bind fun as =>
          x.lift fun v => genUnsqueeze Elem.toInt as a.ty o.ty v⟩ := by
        simp only [nodeCode, hq, hi, ho]
      refine works_two (u1 := .name 1) hcode rfl hi (s1 a hi0).1 hsr hx ho hy fun r q hr hq => ?_
      have htgt : targetOf q = some t.data := by
        obtain ⟨y, rfl, -, hy⟩ := holds_int hq
        rw [hts] at hy
        cases y with
        | dev y => rw [← hy.1]; rfl
        | _ => exact hy.elim
      simp only [htgt, Option.bind_some]
      refine step a false (some s.ty) r hi0 (by simp [hx]) ?_ ht' hr
      intro t' h'
      rw [← Option.some.inj h', ← ht1]
      exact hfs

/-! ### Gather -/

theorem works_gather (hm : Onnx.Meaning erf opset .gather n.attrs xs ys) (h : RunOf st n xs ys)
    (hs : Supported pick st opset n xs .gather) {prefs : OutPrefs}
    (ht : Infer.apply st opset n prefs .gather = some (n.outputs.map Arg.ty)) : Works erf pick st opset n xs ys .gather := by
  obtain ⟨v, I, w, axis, k, hx, hax, hk, hrel, hy⟩ := hm
  obtain ⟨a, i, hi⟩ := h.input2 hx
  obtain ⟨o, ho, hof⟩ := h.output hy
  obtain ⟨s1, s2, s3⟩ := hs a i hi
  obtain ⟨s4, s5⟩ := s3 v I axis k hx hax hk
  have hfa := h.fitsIn (k := 0) (by simp [hi]) s1 (by simp [hx]; rfl)
  have hna : a.ty.isScalar = false := by
    have h0 : v.shape ≠ [] := by
      intro h0
      rw [h0] at hk
      revert hk
      generalize axis.getD 0 = q
      simp only [Onnx.index, List.length_nil]
      rw [if_neg (by omega), if_neg (by omega)]
      exact nofun
    have := hfa.2
    cases hty : a.ty <;> rw [hty] at this <;> first | rfl | exact absurd this h0
  simp only [Infer.apply, (intAttr_read hax).2, Infer.inTy, hi, List.getElem?_cons_zero, List.getElem?_cons_succ, Option.map_some] at ht
  have ht' := one_type ho ht
  have hcode : nodeCode erf pick st opset n .gather = some ⟨[.arg 0, .arg 1],
      eff2 (onIndexed fun v j => genGather pick Elem.ofInt (axis.getD 0) a.ty i.ty o.ty v j)⟩ := by
    simp only [nodeCode, (intAttr_read hax).2, hi, ho, hna, Bool.false_eq_true, if_false]
  refine works_two (u1 := .arg 1) hcode rfl hi s1 s2 hx ho hy fun r q hr hq => ?_
  obtain ⟨j, rfl, -, hj⟩ := holds_int hq
  simp only [onIndexed]
  refine lift_rel hr hrel hof ?_
  intro α _ x X Z _ hX _ hrx hXZ
  rw [hX] at hk s5
  exact C59_gather_partial hrx hj ht' hk hXZ s4 s5

/-! ### Concat -/

theorem all_hold {α : Type} [Elem α] (hold : ∀ {ty : ArgType} {r : RustVal} {X : Tensor α}, Holds ty r (Elem.wrap X) →
    ∃ v : GVal α, r = Elem.rust v ∧ Reps Elem.ofInt ty v X) : ∀ (l : List ArgType) (Xs : List (Tensor α)) (rs : List RustVal),
    rs.length = l.length → Xs.length = l.length →
    (∀ (k : Nat) (r : RustVal), rs[k]? = some r → ∃ ty X, l[k]? = some ty ∧ Xs[k]? = some X ∧ Holds ty r (Elem.wrap X)) →
    ∃ gs : List (GVal α), rs = gs.map Elem.rust ∧ RepsAll Elem.ofInt l gs Xs
  | [], [], [], _, _, _ => ⟨[], rfl, .nil⟩
  | ty :: l, X :: Xs, r :: rs, h1, h2, h => by
    obtain ⟨ty', X', k1, k2, k3⟩ := h 0 r rfl
    cases k1
    cases k2
    obtain ⟨g, rfl, hg⟩ := hold k3
    obtain ⟨gs, rfl, hgs⟩ := all_hold hold l Xs rs (Nat.succ.inj h1) (Nat.succ.inj h2) fun k r hr => h (k + 1) r hr
    exact ⟨g :: gs, rfl, .cons hg hgs⟩
  | [], _ :: _, _, _, h2, _ => by cases h2
  | [], [], _ :: _, h1, _, _ => by cases h1
  | _ :: _, [], _, _, h2, _ => by cases h2
  | _ :: _, _ :: _, [], h1, _, _ => by cases h1

theorem floats_map (gs : List (GVal ℝ)) : floats (gs.map .float) = some gs := by
  induction gs with
  | nil => rfl
  | cons g gs ih => simp [floats, ih]

theorem ints_map (gs : List (GVal Int)) : ints (gs.map .int) = some gs := by
  induction gs with
  | nil => rfl
  | cons g gs ih => simp [ints, ih]

theorem bools_map (gs : List (GVal Bool)) : bools (gs.map .bool) = some gs := by
  induction gs with
  | nil => rfl
  | cons g gs ih => simp [bools, ih]

theorem repsAll_length {α : Type} {ofInt : Int → α} {tys : List ArgType} {gs : List (GVal α)} {Xs : List (Tensor α)}
    (h : RepsAll ofInt tys gs Xs) : gs.length = tys.length := by
  induction h with
  | nil => rfl
  | cons _ _ ih => simp [ih]

/-- The code of Concat on values of any kind. -/
theorem concat_code {axis : Nat} {ot ty : ArgType} {tys : List ArgType} {rs : List RustVal} {vs : List OVal} {w : OVal}
    {P : {α : Type} → [Elem α] → List (Tensor α) → Tensor α → Prop}
    (hl : rs.length = (ty :: tys).length) (hl' : vs.length = (ty :: tys).length)
    (hr : ∀ (k : Nat) (r : RustVal), rs[k]? = some r → ∃ t v, (ty :: tys)[k]? = some t ∧ vs[k]? = some v ∧ Holds t r v)
    (hrel : Onnx.RelAll P vs w) (ho : burn.fits ot w)
    (hf : ∀ {α : Type} [Elem α] (gs : List (GVal α)) (Xs : List (Tensor α)) (Z : Tensor α), Elem.kind α = ot.kind → w.shape = Z.shape →
      RepsAll Elem.ofInt (ty :: tys) gs Xs → P Xs Z → ∃ z, genConcat Elem.toInt axis ot (ty :: tys) gs = some z ∧ Reps Elem.ofInt ot z Z) :
    ∃ z, concatCode axis ot (ty :: tys) rs = some [z] ∧ Holds ot z w := by
  obtain ⟨hk, -⟩ := ho
  cases w with
  | float Z =>
    obtain ⟨Xs, rfl, hP⟩ := hrel
    obtain ⟨gs, rfl, hgs⟩ := all_hold (α := ℝ) (fun h => by
      obtain ⟨v, h1, -, h2⟩ := holds_float h
      exact ⟨v, h1, h2⟩) (ty :: tys) Xs rs hl (by simpa using hl') fun k r hkr => by
        obtain ⟨t, v, h1, h2, h3⟩ := hr k r hkr
        simp only [List.getElem?_map, Option.map_eq_some_iff] at h2
        obtain ⟨X, h2, rfl⟩ := h2
        exact ⟨t, X, h1, h2, h3⟩
    obtain ⟨z, h1, h2⟩ := hf gs Xs Z hk.symm rfl hgs hP
    have hlen := repsAll_length hgs
    refine ⟨.float z, ?_, hk, h2⟩
    cases gs with
    | nil => cases hlen
    | cons g gs =>
      have h3 : floats ((g :: gs).map Elem.rust) = some (g :: gs) := floats_map (g :: gs)
      have h4 : ints ((g :: gs).map Elem.rust) = none := rfl
      have h5 : bools ((g :: gs).map Elem.rust) = none := rfl
      simp only [concatCode, h3, h4, h5, h1, Option.map_some]
  | int Z =>
    obtain ⟨Xs, rfl, hP⟩ := hrel
    obtain ⟨gs, rfl, hgs⟩ := all_hold (α := Int) (fun h => by
      obtain ⟨v, h1, -, h2⟩ := holds_int h
      exact ⟨v, h1, h2⟩) (ty :: tys) Xs rs hl (by simpa using hl') fun k r hkr => by
        obtain ⟨t, v, h1, h2, h3⟩ := hr k r hkr
        simp only [List.getElem?_map, Option.map_eq_some_iff] at h2
        obtain ⟨X, h2, rfl⟩ := h2
        exact ⟨t, X, h1, h2, h3⟩
    obtain ⟨z, h1, h2⟩ := hf gs Xs Z hk.symm rfl hgs hP
    have hlen := repsAll_length hgs
    refine ⟨.int z, ?_, hk, h2⟩
    cases gs with
    | nil => cases hlen
    | cons g gs =>
      have h3 : ints ((g :: gs).map Elem.rust) = some (g :: gs) := ints_map (g :: gs)
      have h4 : floats ((g :: gs).map Elem.rust) = none := rfl
      have h5 : bools ((g :: gs).map Elem.rust) = none := rfl
      simp only [concatCode, h3, h4, h5, h1, Option.map_some]
  | bool Z =>
    obtain ⟨Xs, rfl, hP⟩ := hrel
    obtain ⟨gs, rfl, hgs⟩ := all_hold (α := Bool) (fun h => by
      obtain ⟨v, h1, -, h2⟩ := holds_bool h
      exact ⟨v, h1, h2⟩) (ty :: tys) Xs rs hl (by simpa using hl') fun k r hkr => by
        obtain ⟨t, v, h1, h2, h3⟩ := hr k r hkr
        simp only [List.getElem?_map, Option.map_eq_some_iff] at h2
        obtain ⟨X, h2, rfl⟩ := h2
        exact ⟨t, X, h1, h2, h3⟩
    obtain ⟨z, h1, h2⟩ := hf gs Xs Z hk.symm rfl hgs hP
    have hlen := repsAll_length hgs
    refine ⟨.bool z, ?_, hk, h2⟩
    cases gs with
    | nil => cases hlen
    | cons g gs =>
      have h3 : bools ((g :: gs).map Elem.rust) = some (g :: gs) := bools_map (g :: gs)
      have h4 : floats ((g :: gs).map Elem.rust) = none := rfl
      have h5 : ints ((g :: gs).map Elem.rust) = none := rfl
      simp only [concatCode, h3, h4, h5, h1, Option.map_some]

theorem works_concat (hm : Onnx.Meaning erf opset .concat n.attrs xs ys) (h : RunOf st n xs ys)
    (hs : Supported pick st opset n xs .concat) {prefs : OutPrefs}
    (ht : Infer.apply st opset n prefs .concat = some (n.outputs.map Arg.ty)) : Works erf pick st opset n xs ys .concat := by
  obtain ⟨vs, w, ax, k, hx, hax, hk, hrel, hy⟩ := hm
  obtain ⟨o, ho, hof⟩ := h.output hy
  obtain ⟨s1, s2, s3, s4⟩ := hs
  have hlk : n.attrs.lookup "axis" = some (.i64 ax) := hax
  have hlen : vs.length = n.inputs.length := by rw [← h.ops.length, hx]; simp
  obtain ⟨a, l, hi⟩ : ∃ a l, n.inputs = a :: l := by
    cases hn : n.inputs with
    | nil => simp [Infer.apply, hlk, hn, Infer.concat] at ht
    | cons a l => exact ⟨a, l, rfl⟩
  simp only [Infer.apply, hlk] at ht
  have ht' := one_type ho ht
  have hcode : nodeCode erf pick st opset n .concat = some ⟨(List.range n.inputs.length).map .arg,
      concatCode (concatAxis ax a.ty) o.ty (n.inputs.map Arg.ty)⟩ := by
    simp only [nodeCode, hlk, ho]
    rw [hi]
  refine ⟨_, hcode, ?_, fun u hu => ?_, fun rs hl hr => ?_⟩
  · simp only [List.map_map]
    rw [show Use.index ∘ Use.arg = id from rfl, List.map_id]
    exact List.nodup_range
  · obtain ⟨j, hj, rfl⟩ := List.mem_map.1 hu
    have hj := List.mem_range.1 hj
    exact ⟨n.inputs[j], List.getElem?_eq_getElem hj, s1 _ (List.getElem_mem hj)⟩
  · simp only [List.length_map, List.length_range] at hl
    have hfst : (n.inputs.map fun a => (a.ty, (st.read a).map st.dims)).map Prod.fst = n.inputs.map Arg.ty := by simp
    have hmain : ∃ z, concatCode (concatAxis ax a.ty) o.ty (n.inputs.map Arg.ty) rs = some [z] ∧ Holds o.ty z w := by
      have hcons : n.inputs.map Arg.ty = a.ty :: l.map Arg.ty := by rw [hi]; rfl
      rw [hcons]
      refine concat_code (vs := vs) (P := fun Xs Z => Onnx.ConcatT k (Xs.map Tensor.vec) Z) (by rw [← hcons]; simpa using hl)
        (by rw [← hcons]; simpa using hlen) ?_ hrel hof ?_
      · intro j r hjr
        have hj : j < n.inputs.length := by rw [← hl]; exact (List.getElem?_eq_some_iff.1 hjr).1
        obtain ⟨b, v, k1, k2, k3⟩ := hr j (.arg j) r (by simp [hj]) hjr
        refine ⟨b.ty, v, ?_, ?_, k3⟩
        · rw [← hcons, List.getElem?_map, show n.inputs[j]? = some b from k1]; rfl
        · have k2 : xs[j]? = some (some v) := k2
          rw [hx, List.getElem?_map] at k2
          obtain ⟨v', h1, h2⟩ := Option.map_eq_some_iff.1 k2
          rw [h1, Option.some.inj h2]
      · intro α _ gs Xs Z hkind hwZ hgs hP
        rw [← hcons, ← hfst] at hgs ⊢
        rw [hwZ] at hk
        refine C57_concat_partial (first := a.ty) ht' (by rw [hfst]; exact s2) hgs (by rw [hfst, hcons]; rfl) (s3 a ax (by simp [hi]) hlk) ?_ hk hP
        intro m hm
        refine ⟨fun d hd => ?_, fun x _ => Elem.back (by rw [hkind, hm]; rfl) x⟩
        rw [hfst] at hd
        obtain ⟨b, hb, hb'⟩ := List.mem_map.1 hd
        exact s4 o (by simp [ho]) m hm b hb d hb'
    obtain ⟨z, h1, h2⟩ := hmain
    refine ⟨[z], h1, by simp [hy], fun j o' w' y' k1 k2 k3 => ?_⟩
    subst hy
    rw [ho] at k1
    cases j with
    | zero =>
      simp only [List.getElem?_cons_zero, Option.some.injEq] at k1 k2 k3
      subst k1 k2 k3
      exact h2
    | succ j => simp at k1

/-! ### Constants -/

theorem const_code {α : Type} [Elem α] {d : DType} {T : Tensor α} {ws wn : Bool}
    (hk : (Infer.constant d T.shape ws wn).kind = Elem.kind α)
    (h0 : T.shape = [] → d ∈ [DType.f16, .f32, .f64, .i32, .i64, .bool])
    (h1 : ∀ k, Infer.constant d T.shape ws wn = .shape k → d = .i64 ∨ d = .i32) :
    ∃ v, constCode d (Infer.constant d T.shape ws wn) T = some v ∧ Reps Elem.ofInt (Infer.constant d T.shape ws wn) v T := by
  match hs : T.shape with
  | [] =>
    have hr : scalarReadable d = true := by
      have := h0 hs
      simp only [List.mem_cons, List.not_mem_nil, or_false] at this
      rcases this with rfl | rfl | rfl | rfl | rfl | rfl <;> rfl
    have hsz := T.size
    rw [hs] at hsz
    match hdat : T.data, hsz with
    | [x], _ =>
      cases wn with
      | true => exact ⟨.native x, by simp [constCode, Infer.constant, hr, hdat], hs, hdat⟩
      | false =>
        have hp : prodShape [1] = prodShape T.shape := by rw [hs]; rfl
        refine ⟨.dev ⟨[1], T.data, by rw [T.size, hp]⟩, ?_, rfl, hs, rfl⟩
        simp only [constCode, Infer.constant, hr, hs, if_true, Bool.false_eq_true, if_false]
        rw [show Burn.reshape T [1] = some ⟨[1], T.data, by rw [T.size, hp]⟩ from dif_pos hp]
        rfl
  | [m] =>
    have hsz := T.size
    cases ws with
    | true =>
      rw [hs] at hk h1
      have hlen : T.data.length = m := by rw [hsz, hs]; simp [prodShape]
      refine ⟨.shape (T.data.map Elem.toInt), ?_, by simp [hlen], hs, ?_⟩
      · simp [constCode, Infer.constant, hlen, h1 m rfl]
      · rw [List.map_map]
        conv => lhs; rw [← List.map_id T.data]
        exact List.map_congr_left fun x _ => (Elem.back hk.symm x).symm
    | false =>
      refine ⟨.dev T, ?_, rfl, by rw [hs]; rfl, Nat.le_refl 1⟩
      simp only [constCode, Infer.constant, Bool.false_eq_true, if_false, hs, reduceCtorEq]
      rw [← hs, show Burn.reshape T T.shape = some T from dif_pos rfl]
      rfl
  | p :: q :: r =>
    refine ⟨.dev T, ?_, rfl, by rw [hs], by simp⟩
    simp only [constCode, Infer.constant, hs, reduceCtorEq, if_false]
    rw [← hs, show Burn.reshape T T.shape = some T from dif_pos rfl]
    rfl

theorem works_constant (hst : StoreOk st) (hm : Onnx.Meaning erf opset .constant n.attrs xs ys) (h : RunOf st n xs ys)
    (hs : Supported pick st opset n xs .constant) {prefs : OutPrefs}
    (ht : Infer.apply st opset n prefs .constant = some (n.outputs.map Arg.ty)) : Works erf pick st opset n xs ys .constant := by
  obtain ⟨v, hx, hy⟩ := hm
  obtain ⟨a, hi⟩ := h.input1 hx
  obtain ⟨o, ho, hof⟩ := h.output hy
  obtain ⟨s1, s2⟩ := hs
  obtain ⟨u, hu⟩ := s1 a (by simp [hi])
  have hrd : st.read a = some u := by rw [Store.read, hu, hst.embedded]
  have := h.reads 0 a u (by simp [hi]) hrd
  rw [hx] at this
  obtain rfl : v = u := Option.some.inj (Option.some.inj this)
  obtain ⟨s3, s4⟩ := s2 v hx
  simp only [Infer.apply, hi, ho, List.getElem?_cons_zero, Option.bind_some, hrd, List.map_cons, List.map_nil, Option.some.injEq,
    List.cons.injEq, and_true, hst.dims] at ht
  have hmain : ∃ z, constOf (st.dtype v) o.ty v = some z ∧ Holds o.ty z v := by
    have hk := hof.1
    have s4 := s4 o (by simp [ho])
    rw [← ht] at hk s4 ⊢
    cases v with
    | float T =>
      obtain ⟨z, h1, h2⟩ := const_code (T := T) hk s3 s4
      exact ⟨.float z, congrArg (Option.map RustVal.float) h1, hk, h2⟩
    | int T =>
      obtain ⟨z, h1, h2⟩ := const_code (T := T) hk s3 s4
      exact ⟨.int z, congrArg (Option.map RustVal.int) h1, hk, h2⟩
    | bool T =>
      obtain ⟨z, h1, h2⟩ := const_code (T := T) hk s3 s4
      exact ⟨.bool z, congrArg (Option.map RustVal.bool) h1, hk, h2⟩
  obtain ⟨z, h1, h2⟩ := hmain
  refine ⟨⟨[], fun _ => (constOf (st.dtype v) o.ty v).map ([·])⟩, by simp [nodeCode, hi, ho, hrd], by simp, by simp, fun rs hl hr => ?_⟩
  refine ⟨[z], by simp [h1], by simp [hy], fun j o' w' y' k1 k2 k3 => ?_⟩
  subst hy
  rw [ho] at k1
  cases j with
  | zero =>
    simp only [List.getElem?_cons_zero, Option.some.injEq] at k1 k2 k3
    subst k1 k2 k3
    exact h2
  | succ j => simp at k1

end OnnxIR
