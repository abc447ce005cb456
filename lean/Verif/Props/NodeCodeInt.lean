import Verif.Props.MatMulInteger
import Verif.Props.NodeCodeRange

/-!
# C80: operators on integers: BitwiseAnd, BitwiseOr, BitwiseXor, BitwiseNot and MatMulInteger
-/

namespace OnnxIR

open Gen Onnx

variable {erf : ℝ → ℝ} {pick : Nat → Int → Option Nat} {st : Store OVal} {opset : Nat} {n : Node OVal} {xs : List (Option OVal)} {ys : List OVal}

/-! ### Bits -/

/-- An integer is determined by its bits. -/
theorem eq_of_bits {a b : Int} (h : ∀ k, a.testBit k = b.testBit k) : a = b := by
  have far : ∀ p q : Nat, ∃ k, p.testBit k = false ∧ q.testBit k = false := fun p q =>
    ⟨p + q, Nat.testBit_lt_two_pow (lt_of_le_of_lt (Nat.le_add_right p q) Nat.lt_two_pow_self),
      Nat.testBit_lt_two_pow (lt_of_le_of_lt (Nat.le_add_left q p) Nat.lt_two_pow_self)⟩
  cases a with
  | ofNat p =>
    cases b with
    | ofNat q => exact congrArg Int.ofNat (Nat.eq_of_testBit_eq fun k => h k)
    | negSucc q =>
      obtain ⟨k, h1, h2⟩ := far p q
      have := h k
      simp [Int.testBit, h1, h2] at this
  | negSucc p =>
    cases b with
    | ofNat q =>
      obtain ⟨k, h1, h2⟩ := far p q
      have := h k
      simp [Int.testBit, h1, h2] at this
    | negSucc q =>
      refine congrArg Int.negSucc (Nat.eq_of_testBit_eq fun k => ?_)
      have := h k
      simpa [Int.testBit] using this

theorem bitsOf_bits (op : Logic) (a b : Int) (k : Nat) : (bitsOf op a b).testBit k = logicFn op (a.testBit k) (b.testBit k) := by
  cases op with
  | and => exact Int.testBit_land a b k
  | or => exact Int.testBit_lor a b k
  | xor => exact Int.testBit_lxor a b k

theorem bitsOf_comm (op : Logic) (a b : Int) : bitsOf op a b = bitsOf op b a := by
  refine eq_of_bits fun k => ?_
  rw [bitsOf_bits, bitsOf_bits]
  cases op <;> simp only [logicFn] <;> cases a.testBit k <;> cases b.testBit k <;> rfl

theorem works_bitwise {op : Logic} (hm : Onnx.Meaning erf opset (.bitwise op) n.attrs xs ys) (h : RunOf st n xs ys)
    (hs : Supported pick st opset n xs (.bitwise op)) {prefs : OutPrefs}
    (ht : Infer.apply st opset n prefs (.broadcast none) = some (n.outputs.map Arg.ty)) : Works erf pick st opset n xs ys (.bitwise op) := by
  obtain ⟨X, Y, Z, hx, hb, hZ, hy⟩ := hm
  obtain ⟨a, b, hi⟩ := h.input2 hx
  obtain ⟨o, ho, hof⟩ := h.output hy
  obtain ⟨ra, na⟩ := hs a (by simp [hi])
  obtain ⟨rb, nb⟩ := hs b (by simp [hi])
  have htt := broadcast_type hi ho ht
  have hz : Tensor.zipBcast (bitsOf op) X Y = some Z := by
    rw [Tensor.zipBcast, hb, Option.map_some]
    congr 1
    refine Tensor.eq_of_get rfl fun i hi => ?_
    rw [Tensor.get_ofFn (show InRange Z.shape i from hi)]
    exact eq_of_bits fun k => by rw [bitsOf_bits, hZ i hi k]
  refine works_two (u1 := .arg 1) (f := onSame (fun _ _ => none) (bin (bitwiseCode (bitsOf op)) a.ty b.ty) fun _ _ => none)
    (by simp [nodeCode, Infer.inTy, hi]) rfl hi ra rb hx ho hy fun r s hr hq => ?_
  obtain ⟨v, rfl, hk, hv⟩ := holds_int hr
  obtain ⟨w, rfl, hk', hw⟩ := holds_int hq
  have hh : (bitwiseCode (bitsOf op)).Handles a.ty b.ty := by
    revert na nb
    generalize a.ty = lt
    generalize b.ty = rt
    intro na nb
    cases lt with
    | shape k => exact absurd rfl (na k)
    | _ =>
      cases rt with
      | shape k => exact absurd rfl (nb k)
      | _ => simp [BinCode.Handles, bitwiseCode]
  obtain ⟨z, k1, k2⟩ := C55_binary_partial (toInt := Elem.toInt) (bitwiseCode_computes (bitsOf_comm op) Elem.ofInt) hv hw (fun _ _ _ => rfl)
    (by unfold ItemsOk; split <;> simp) hz htt hh
  exact ⟨.int z, by simp only [onSame, bin]; erw [k1]; rfl, hof.1, k2⟩

theorem int_fits {u : TensorType} {Z : Tensor Int} (h : burn.fits (.tensor u) (.int Z)) (hs : Z.shape ≠ []) :
    Holds (.tensor u) (.int (.dev Z)) (.int Z) :=
  ⟨h.1, dev_holds h.2 hs⟩

theorem works_bitwiseNot (hm : Onnx.Meaning erf opset .bitwiseNot n.attrs xs ys) (h : RunOf st n xs ys)
    (hs : Supported pick st opset n xs .bitwiseNot) {prefs : OutPrefs}
    (ht : Infer.apply st opset n prefs .same = some (n.outputs.map Arg.ty)) : Works erf pick st opset n xs ys .bitwiseNot := by
  obtain ⟨X, Z, hx, hsh, hZ, hy⟩ := hm
  obtain ⟨a, hi⟩ := h.input1 hx
  obtain ⟨o, ho, hof⟩ := h.output hy
  obtain ⟨ra, t, hta, -⟩ := hs a (by simp [hi])
  have hty := first_type (a := a) (by simp [hi]) ho rfl ht
  rw [hta] at hty
  rw [hty] at hof
  refine works_one (f := complement) (a := a) (v := .int X) rfl (by simp [hi]) ra (by simp [hx]) ho hy fun r hr => ?_
  obtain ⟨x, rfl, -, hv⟩ := holds_int hr
  rw [hta] at hv
  obtain ⟨rfl, hne⟩ := tensor_dev hv
  have e : X.map Int.lnot = Z := by
    refine Tensor.eq_of_get hsh.symm fun i hi => ?_
    rw [Tensor.get_map (show InRange X.shape i from hi)]
    exact eq_of_bits fun k => by rw [Int.testBit_lnot, hZ i hi k]
  rw [hty]
  exact ⟨.int (.dev Z), by simp only [complement, e], int_fits hof (by rw [hsh]; exact hne)⟩

/-! ### MatMulInteger -/

/-- Every operand is mentioned once, in order. -/
theorem works_all {op : Op} {f : List RustVal → Option (List RustVal)} {vs : List OVal} {o : Arg OVal} {y : OVal}
    (hc : nodeCode erf pick st opset n op = some ⟨(List.range n.inputs.length).map .arg, f⟩) (h : RunOf st n xs ys)
    (hr : ∀ a ∈ n.inputs, AtRunTime a) (hx : xs = vs.map some) (ho : n.outputs = [o]) (hy : ys = [y])
    (hf : ∀ rs : List RustVal, rs.length = vs.length →
      (∀ (k : Nat) (a : Arg OVal) (v : OVal) (r : RustVal), n.inputs[k]? = some a → vs[k]? = some v → rs[k]? = some r → Holds a.ty r v) →
      ∃ z, f rs = some [z] ∧ Holds o.ty z y) : Works erf pick st opset n xs ys op := by
  have hlen : vs.length = n.inputs.length := by
    have := h.ops.length
    rw [hx] at this
    simpa using this
  refine ⟨_, hc, by simpa [Function.comp_def, Use.index] using List.nodup_range, fun u hu => ?_, fun rs hl hrs => ?_⟩
  · obtain ⟨k, hk, rfl⟩ := List.mem_map.1 hu
    have hk' := List.mem_range.1 hk
    exact ⟨n.inputs[k], by simp [Use.index, hk'], hr _ (List.getElem_mem hk')⟩
  · simp only [List.length_map, List.length_range] at hl
    obtain ⟨z, h1, h2⟩ := hf rs (hl.trans hlen.symm) fun k a v r ha hv hr => by
      have hk : k < n.inputs.length := (List.getElem?_eq_some_iff.1 ha).1
      obtain ⟨a', v', g1, g2, g3⟩ := hrs k (.arg k) r (by simp [hk]) hr
      simp only [Use.index] at g1 g2
      rw [ha] at g1
      rw [hx, List.getElem?_map, hv] at g2
      simp only [Option.map_some, Option.some.injEq] at g1 g2
      rw [g1, g2]
      exact g3
    refine ⟨[z], h1, by simp [hy], fun k o' w' y' k1 k2 k3 => ?_⟩
    match k, k1, k2, k3 with
    | 0, k1, k2, k3 =>
      obtain rfl : o' = o := by simpa [ho] using k1.symm
      obtain rfl : w' = z := by simpa using k2.symm
      obtain rfl : y' = y := by simpa [hy] using k3.symm
      exact h2
    | k + 1, _, k2, _ => simp at k2

theorem centred_shape {axis : Nat} {z : Option (Tensor Int)} {x : Tensor Int} : (Onnx.centred axis z x).shape = x.shape := rfl

/-- A zero point on the device. -/
theorem zero_point {ty : ArgType} {r : RustVal} {t : Tensor Int} (hd : ty.isOnDevice = true) (hr : Holds ty r (.int t))
    (ht : t.shape = [] ∨ ∃ m, t.shape = [m]) : ∃ g, r = .int g ∧ ZeroPoint (some t) (some g) := by
  obtain ⟨g, rfl, -, hv⟩ := holds_int hr
  refine ⟨g, rfl, ?_⟩
  cases ty with
  | shape k => cases hd
  | scalarNative d => cases hd
  | scalarTensor d =>
    cases g with
    | dev u => exact .scalar hv.2.1 hv.1 hv.2.2
    | _ => exact hv.elim
  | tensor u =>
    obtain ⟨rfl, hne⟩ := tensor_dev hv
    rcases ht with e | ⟨m, e⟩
    · exact absurd e hne
    · exact .vector e

/-- An operand on the device that is not a scalar. -/
theorem int_dev {ty : ArgType} {r : RustVal} {X : Tensor Int} (hd : ty.isOnDevice = true) (hr : Holds ty r (.int X)) (hs : X.shape ≠ []) :
    r = .int (.dev X) := by
  obtain ⟨g, rfl, -, hv⟩ := holds_int hr
  cases ty with
  | shape k => cases hd
  | scalarNative d => cases hd
  | scalarTensor d =>
    cases g with
    | dev u => exact absurd hv.2.1 hs
    | _ => exact hv.elim
  | tensor u => rw [(tensor_dev hv).1]

theorem works_matMulInteger (hm : Onnx.Meaning erf opset .matMulInteger n.attrs xs ys) (h : RunOf st n xs ys)
    (hs : Supported pick st opset n xs .matMulInteger) {prefs : OutPrefs}
    (ht : Infer.apply st opset n prefs .matmulInteger = some (n.outputs.map Arg.ty)) : Works erf pick st opset n xs ys .matMulInteger := by
  obtain ⟨X, Y, Z, za, zb, hzz, hx, hz, hy⟩ := hm
  obtain ⟨o, ho, hof⟩ := h.output hy
  obtain ⟨s1, s2, s3, s4, s5⟩ := hs
  have hx' : xs = (([X, Y] ++ za.toList ++ zb.toList).map OVal.int).map some := by rw [hx, List.map_map]; rfl
  have hnv := s3 X Y (by simp [hx]) (by simp [hx])
  obtain ⟨m1, m2, m3, m4⟩ := matmul_shapes hz
  simp only [centred_shape] at m1 m2 m3 m4
  have hZ := m4 hnv
  obtain ⟨u, hu⟩ : ∃ u, o.ty = .tensor u := by
    simp only [Infer.apply] at ht
    split at ht
    · have := one_type ho ht
      unfold Infer.matmulInteger at this
      split at this
      · exact ⟨_, (Option.some.inj this).symm⟩
      · cases this
    · cases ht
  rw [hu] at hof
  have e4 : ∀ t, za = some t → t.shape = [] := fun t e => s4 t (by simp [hx, e])
  have e5 : ∀ t, zb = some t → t.shape = [] ∨ 2 ≤ Y.shape.length ∧ t.shape = Y.shape.drop (Y.shape.length - 1) := by
    intro t e
    obtain ⟨t', e'⟩ := Option.isSome_iff_exists.1 (hzz (by simp [e]))
    exact s5 Y t (by simp [hx]) (by simp [hx, e, e'])
  have e5' : ∀ t, zb = some t → t.shape = [] ∨ ∃ m, t.shape = [m] := by
    intro t e
    rcases e5 t e with h1 | ⟨h1, h2⟩
    · exact .inl h1
    · exact .inr (List.length_eq_one_iff.1 (by rw [h2, List.length_drop]; omega))
  have key : ∀ {ga gb : Option (GVal Int)}, ZeroPoint za ga → ZeroPoint zb gb → matmulInteger dotZ ga gb X Y = some Z := by
    intro ga gb ha hb
    obtain ⟨z, k1, k2⟩ := C69_matmul_integer_partial (dot := dotZ) m1 hnv ha hb e4 e5
    rw [k1, matmul_unique k2 hz]
  refine works_all (f := matMulIntegerEffect) (by simp [nodeCode, s1]) h (fun a ha => (s2 a ha).1) hx' ho hy fun rs hl hrs => ?_
  rw [hu]
  have hlen : n.inputs.length = ([X, Y] ++ za.toList ++ zb.toList).length := by
    have := h.ops.length
    rw [hx] at this
    simpa using this.symm
  have get : ∀ (k : Nat) (t : Tensor Int), ([X, Y] ++ za.toList ++ zb.toList)[k]? = some t →
      ∃ a r, a ∈ n.inputs ∧ rs[k]? = some r ∧ Holds a.ty r (.int t) := by
    intro k t hk
    have hk' := (List.getElem?_eq_some_iff.1 hk).1
    have h1 : k < n.inputs.length := hlen ▸ hk'
    have h2 : k < rs.length := by rw [hl, List.length_map]; exact hk'
    exact ⟨n.inputs[k], rs[k], List.getElem_mem h1, List.getElem?_eq_getElem h2,
      hrs k _ (.int t) _ (List.getElem?_eq_getElem h1) (by rw [List.getElem?_map, hk]; rfl) (List.getElem?_eq_getElem h2)⟩
  obtain ⟨a0, r0, p0, q0, w0⟩ := get 0 X rfl
  obtain ⟨a1, r1, p1, q1, w1⟩ := get 1 Y rfl
  obtain rfl := int_dev (s2 a0 p0).2 w0 m2
  obtain rfl := int_dev (s2 a1 p1).2 w1 m3
  refine ⟨.int (.dev Z), ?_, int_fits hof hZ⟩
  cases za with
  | none =>
    cases zb with
    | some t => exact absurd (hzz rfl) (by simp)
    | none =>
      match rs, hl, q0, q1 with
      | [r, s], _, q0, q1 =>
        simp only [List.getElem?_cons_zero, List.getElem?_cons_succ, Option.some.injEq] at q0 q1
        subst q0 q1
        simp only [matMulIntegerEffect, key .absent .absent, Option.map_some]
  | some t =>
    obtain ⟨a2, r2, p2, q2, w2⟩ := get 2 t rfl
    obtain ⟨g, rfl, hg⟩ := zero_point (s2 a2 p2).2 w2 (.inl (e4 t rfl))
    cases zb with
    | none =>
      match rs, hl, q0, q1, q2 with
      | [r, s, v], _, q0, q1, q2 =>
        simp only [List.getElem?_cons_zero, List.getElem?_cons_succ, Option.some.injEq] at q0 q1 q2
        subst q0 q1 q2
        simp only [matMulIntegerEffect, key hg .absent, Option.map_some]
    | some t' =>
      obtain ⟨a3, r3, p3, q3, w3⟩ := get 3 t' rfl
      obtain ⟨g', rfl, hg'⟩ := zero_point (s2 a3 p3).2 w3 (e5' t' rfl)
      match rs, hl, q0, q1, q2, q3 with
      | [r, s, v, w], _, q0, q1, q2, q3 =>
        simp only [List.getElem?_cons_zero, List.getElem?_cons_succ, Option.some.injEq] at q0 q1 q2 q3
        subst q0 q1 q2 q3
        simp only [matMulIntegerEffect, key hg hg', Option.map_some]

/-! ### Examples -/

namespace IntExample

open NetExample (store)
open ScatterExample (vec)

/-- The common bits of a tensor and one number. -/
def masked : Node OVal := ⟨.other "BitwiseAnd", "and1", [vec "x", ⟨"m", .scalarNative .i64, .dynamic⟩], [vec "y"], []⟩

/-- The hypotheses are met, with a negative number. -/
example (erf : ℝ → ℝ) (pick : Nat → Int → Option Nat) :
    Onnx.Meaning erf 18 (.bitwise .and) masked.attrs [some (.int ⟨[2], [6, -1], rfl⟩), some (.int ⟨[], [3], rfl⟩)] [.int ⟨[2], [2, 3], rfl⟩] ∧
      Supported pick store 18 masked [some (.int ⟨[2], [6, -1], rfl⟩), some (.int ⟨[], [3], rfl⟩)] (.bitwise .and) := by
  refine ⟨⟨_, _, _, rfl, by decide, fun i hi b => ?_, rfl⟩, fun a ha => ?_⟩
  · match i, hi with
    | [i], hi =>
      simp only [InRange, and_true] at hi
      match i, hi with
      | 0, _ => exact (congrArg (·.testBit b) (show (2 : Int) = bitsOf .and 6 3 by decide +kernel)).trans (bitsOf_bits .and 6 3 b)
      | 1, _ => exact (congrArg (·.testBit b) (show (3 : Int) = bitsOf .and (-1) 3 by decide +kernel)).trans (bitsOf_bits .and (-1) 3 b)
    | [], hi => simp [InRange] at hi
    | _ :: _ :: _, hi => simp [InRange] at hi
  · simp only [masked, List.mem_cons, List.not_mem_nil, or_false] at ha
    rcases ha with rfl | rfl
    · exact ⟨.inl rfl, nofun⟩
    · exact ⟨.inl rfl, nofun⟩

/-- The complement. -/
def inverted : Node OVal := ⟨.other "BitwiseNot", "not1", [vec "x"], [vec "y"], []⟩

/-- The hypotheses are met. -/
example (erf : ℝ → ℝ) (pick : Nat → Int → Option Nat) :
    Onnx.Meaning erf 18 .bitwiseNot inverted.attrs [some (.int ⟨[2], [6, -1], rfl⟩)] [.int ⟨[2], [-7, 0], rfl⟩] ∧
      Supported pick store 18 inverted [some (.int ⟨[2], [6, -1], rfl⟩)] .bitwiseNot := by
  refine ⟨⟨_, ⟨[2], [-7, 0], rfl⟩, rfl, rfl, fun i hi b => ?_, rfl⟩, fun a ha => ?_⟩
  · match i, hi with
    | [i], hi =>
      simp only [InRange, and_true] at hi
      match i, hi with
      | 0, _ => exact Int.testBit_lnot 6 b
      | 1, _ => exact Int.testBit_lnot (-1) b
    | [], hi => simp [InRange] at hi
    | _ :: _ :: _, hi => simp [InRange] at hi
  · obtain rfl : a = vec "x" := by simpa [inverted] using ha
    exact ⟨.inl rfl, _, rfl, by simp [vec]⟩

/-- Two matrices of bytes, the first with a zero point. -/
def product : Node OVal := ⟨.other "MatMulInteger", "mm1",
  [⟨"a", .tensor ⟨.u8, 2, none⟩, .dynamic⟩, ⟨"b", .tensor ⟨.u8, 2, none⟩, .dynamic⟩, ⟨"z", .scalarTensor .u8, .dynamic⟩],
  [⟨"y", .tensor ⟨.i32, 2, none⟩, .dynamic⟩], []⟩

/-- The hypotheses are met. -/
example (erf : ℝ → ℝ) (pick : Nat → Int → Option Nat) :
    (∃ Z, Onnx.Meaning erf 18 .matMulInteger product.attrs
      [some (.int ⟨[1, 2], [5, 6], rfl⟩), some (.int ⟨[2, 1], [2, 3], rfl⟩), some (.int ⟨[], [4], rfl⟩)] [.int Z] ∧ Z.data = [8]) ∧
      Supported pick store 18 product
        [some (.int ⟨[1, 2], [5, 6], rfl⟩), some (.int ⟨[2, 1], [2, 3], rfl⟩), some (.int ⟨[], [4], rfl⟩)] .matMulInteger := by
  constructor
  · obtain ⟨z, h1, h2⟩ := C69_matmul_integer_partial (dot := dotZ) (x := ⟨[1, 2], [5, 6], rfl⟩) (y := ⟨[2, 1], [2, 3], rfl⟩)
      (za := some ⟨[], [4], rfl⟩) (zb := none) (ga := some (.dev ⟨[1], [4], rfl⟩)) (gb := none) (by decide) (by decide)
      (.scalar rfl rfl rfl) .absent (by simp) (by simp)
    refine ⟨z, ⟨_, _, z, some ⟨[], [4], rfl⟩, none, by simp, rfl, h2, rfl⟩, ?_⟩
    have : matmulInteger dotZ (some (.dev ⟨[1], [4], rfl⟩)) none ⟨[1, 2], [5, 6], rfl⟩ ⟨[2, 1], [2, 3], rfl⟩ = some ⟨[1, 1], [8], rfl⟩ := by
      decide +kernel
    rw [this] at h1
    rw [← Option.some.inj h1]
  · refine ⟨by decide, fun a ha => ?_, ?_, ?_, ?_⟩
    · simp only [product, List.mem_cons, List.not_mem_nil, or_false] at ha
      rcases ha with rfl | rfl | rfl <;> exact ⟨.inl rfl, rfl⟩
    · intro X Y h1 h2
      simp at h1 h2
      subst h1 h2
      decide
    · intro t h1
      simp at h1
      subst h1
      rfl
    · intro Y t _ h2
      simp at h2

end IntExample

end OnnxIR
