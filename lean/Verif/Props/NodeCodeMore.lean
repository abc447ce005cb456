import Verif.Props.NodeCodeData
import Verif.Props.Scatter
import Verif.Props.SplitValues
import Mathlib.Data.List.Sort

/-!
# C80: Where, Cast, Split, GatherElements, Hardmax, TopK, ScatterND and ConvTranspose
-/

namespace OnnxIR

open Gen Onnx

variable {erf : ℝ → ℝ} {pick : Nat → Int → Option Nat} {st : Store OVal} {opset : Nat} {n : Node OVal} {xs : List (Option OVal)} {ys : List OVal}

theorem RunOf.input3 (h : RunOf st n xs ys) {x y z : Option OVal} (hx : xs = [x, y, z]) : ∃ a b c, n.inputs = [a, b, c] :=
  List.length_eq_three.1 (by rw [← h.ops.length, hx]; rfl)

/-- Code that mentions three operands, in some order. -/
theorem works_three {op : Op} {f : List RustVal → Option (List RustVal)} {us : List Use} {i j k : Nat} {a b c o : Arg OVal} {u v w y : OVal}
    (hc : nodeCode erf pick st opset n op = some ⟨us, f⟩) (hus : us = [.arg i, .arg j, .arg k]) (hnd : [i, j, k].Nodup)
    (hi : n.inputs[i]? = some a) (hj : n.inputs[j]? = some b) (hk : n.inputs[k]? = some c)
    (hra : AtRunTime a) (hrb : AtRunTime b) (hrc : AtRunTime c)
    (xi : xs[i]? = some (some u)) (xj : xs[j]? = some (some v)) (xk : xs[k]? = some (some w)) (ho : n.outputs = [o]) (hy : ys = [y])
    (hf : ∀ r s t, Holds a.ty r u → Holds b.ty s v → Holds c.ty t w → ∃ z, f [r, s, t] = some [z] ∧ Holds o.ty z y) :
    Works erf pick st opset n xs ys op := by
  subst hus
  refine ⟨_, hc, hnd, fun u hu => ?_, fun rs hl h => ?_⟩
  · simp only [List.mem_cons, List.not_mem_nil, or_false] at hu
    rcases hu with rfl | rfl | rfl
    · exact ⟨a, hi, hra⟩
    · exact ⟨b, hj, hrb⟩
    · exact ⟨c, hk, hrc⟩
  · obtain ⟨r, s, t, rfl⟩ := List.length_eq_three.1 (hl.trans rfl)
    obtain ⟨a', u', k1, k2, k3⟩ := h 0 (.arg i) r rfl rfl
    obtain ⟨b', v', l1, l2, l3⟩ := h 1 (.arg j) s rfl rfl
    obtain ⟨c', w', m1, m2, m3⟩ := h 2 (.arg k) t rfl rfl
    simp only [Use.index] at k1 k2 l1 l2 m1 m2
    rw [hi] at k1; rw [hj] at l1; rw [hk] at m1
    rw [xi] at k2; rw [xj] at l2; rw [xk] at m2
    cases k1; cases k2; cases l1; cases l2; cases m1; cases m2
    obtain ⟨z, hz, hh⟩ := hf r s t k3 l3 m3
    refine ⟨[z], hz, by simp [hy], fun k o' w' y' k1 k2 k3 => ?_⟩
    subst hy
    rw [ho] at k1
    cases k with
    | zero =>
      simp only [List.getElem?_cons_zero, Option.some.injEq] at k1 k2 k3
      subst k1 k2 k3
      exact hh
    | succ k => simp at k1

/-- Code that mentions the first operand and has any number of results. -/
theorem works_outs {op : Op} {f : List RustVal → Option (List RustVal)} {a : Arg OVal} {v : OVal}
    (hc : nodeCode erf pick st opset n op = some ⟨[.arg 0], f⟩) (hi : n.inputs[0]? = some a) (hr : AtRunTime a)
    (hx : xs[0]? = some (some v))
    (hf : ∀ r, Holds a.ty r v → ∃ ws, f [r] = some ws ∧ ws.length = ys.length ∧
      ∀ (k : Nat) (o : Arg OVal) (w : RustVal) (y : OVal), n.outputs[k]? = some o → ws[k]? = some w → ys[k]? = some y → Holds o.ty w y) :
    Works erf pick st opset n xs ys op := by
  refine ⟨_, hc, by simp, fun u hu => ?_, fun rs hl h => ?_⟩
  · obtain rfl : u = .arg 0 := by simpa using hu
    exact ⟨a, hi, hr⟩
  · obtain ⟨r, rfl⟩ := List.length_eq_one_iff.1 (hl.trans rfl)
    obtain ⟨a', v', h1, h2, h3⟩ := h 0 (.arg 0) r rfl rfl
    obtain rfl : a' = a := by rw [show (Use.arg 0).index = 0 from rfl, hi] at h1; exact (Option.some.inj h1).symm
    obtain rfl : v' = v := by
      rw [show (Use.arg 0).index = 0 from rfl, hx] at h2
      exact (Option.some.inj (Option.some.inj h2)).symm
    exact hf r h3

/-- A result of tensor type. -/
theorem dev_holds {α : Type} [Inhabited α] {ofInt : Int → α} {t : TensorType} {Z : Tensor α} (h : Z.shape.length = t.rank) (hs : Z.shape ≠ []) :
    Reps ofInt (.tensor t) (.dev Z) Z :=
  ⟨rfl, h, by rw [← h]; exact List.length_pos_iff.2 hs⟩

theorem tensor_dev {α : Type} [Inhabited α] {ofInt : Int → α} {t : TensorType} {x : GVal α} {X : Tensor α} (h : Reps ofInt (.tensor t) x X) :
    x = .dev X ∧ X.shape ≠ [] := by
  cases x with
  | dev u =>
    obtain ⟨rfl, h2, h3⟩ := h
    exact ⟨rfl, fun e => by simp [e] at h2; omega⟩
  | _ => exact h.elim

/-! ### Where -/

theorem works_where (hm : Onnx.Meaning erf opset .where_ n.attrs xs ys) (h : RunOf st n xs ys)
    (hs : Supported pick st opset n xs .where_) {prefs : OutPrefs}
    (ht : Infer.apply st opset n prefs .where_ = some (n.outputs.map Arg.ty)) : Works erf pick st opset n xs ys .where_ := by
  obtain ⟨C, v, w, y, hx, hrel, hy⟩ := hm
  obtain ⟨c, a, b, hi⟩ := h.input3 hx
  obtain ⟨o, ho, hof⟩ := h.output hy
  obtain ⟨rc, ra, rb, hnd, hok⟩ := hs c a b hi
  simp only [Infer.apply, Infer.inTy, hi, List.getElem?_cons_zero, List.getElem?_cons_succ, Option.map_some] at ht
  have ht' := one_type ho ht
  refine works_three (i := 0) (j := 2) (k := 1) (f := whereCode o.ty c.ty a.ty b.ty) (a := c) (b := b) (c := a) (u := .bool C) (v := w) (w := v)
    ?_ rfl (by decide) (by simp [hi]) (by simp [hi]) (by simp [hi]) rc rb ra (by simp [hx]) (by simp [hx]) (by simp [hx]) ho hy ?_
  · simp only [nodeCode, hi, ho]
    rw [if_pos (by simpa using hnd)]
  · intro r s t hr hs ht
    obtain ⟨c', rfl, -, hc⟩ := holds_bool hr
    cases v with
    | float X =>
      cases w with
      | float Y =>
        cases y with
        | float Z =>
          obtain ⟨x', rfl, -, hx'⟩ := holds_float ht
          obtain ⟨y', rfl, -, hy'⟩ := holds_float hs
          obtain ⟨z, h1, h2⟩ := C58_where_partial (ofInt := Elem.ofInt) hc hx' hy' ht' hrel (hok C X Y Z hx hrel)
          exact ⟨.float z, by simp [whereCode, h1], hof.1, h2⟩
        | _ => exact hrel.elim
      | _ => exact hrel.elim
    | int X =>
      cases w with
      | int Y =>
        cases y with
        | int Z =>
          obtain ⟨x', rfl, -, hx'⟩ := holds_int ht
          obtain ⟨y', rfl, -, hy'⟩ := holds_int hs
          obtain ⟨z, h1, h2⟩ := C58_where_partial (ofInt := Elem.ofInt) hc hx' hy' ht' hrel (hok C X Y Z hx hrel)
          exact ⟨.int z, by simp [whereCode, h1], hof.1, h2⟩
        | _ => exact hrel.elim
      | _ => exact hrel.elim
    | bool X =>
      cases w with
      | bool Y =>
        cases y with
        | bool Z =>
          obtain ⟨x', rfl, -, hx'⟩ := holds_bool ht
          obtain ⟨y', rfl, -, hy'⟩ := holds_bool hs
          obtain ⟨z, h1, h2⟩ := C58_where_partial (ofInt := Elem.ofInt) hc hx' hy' ht' hrel (hok C X Y Z hx hrel)
          exact ⟨.bool z, by simp [whereCode, h1], hof.1, h2⟩
        | _ => exact hrel.elim
      | _ => exact hrel.elim

/-! ### GatherElements -/

theorem works_gatherElements (hm : Onnx.Meaning erf opset .gatherElements n.attrs xs ys) (h : RunOf st n xs ys)
    (hs : Supported pick st opset n xs .gatherElements) {prefs : OutPrefs}
    (ht : Infer.apply st opset n prefs .gatherElements = some (n.outputs.map Arg.ty)) :
    Works erf pick st opset n xs ys .gatherElements := by
  obtain ⟨v, I, w, axis, k, hx, hax, hidx, hrel, hy⟩ := hm
  obtain ⟨a, b, hi⟩ := h.input2 hx
  obtain ⟨o, ho, hof⟩ := h.output hy
  obtain ⟨s1, s2⟩ := hs
  obtain ⟨ra, ta, hta⟩ := s1 a (by simp [hi])
  obtain ⟨rb, tb, htb⟩ := s1 b (by simp [hi])
  obtain ⟨g1, g2⟩ := s2 v I axis k hx hax hidx
  have hto : ∃ u, o.ty = .tensor u := by
    simp only [Infer.apply, Infer.inTy, hi, List.getElem?_cons_zero, List.getElem?_cons_succ, Option.map_some, hta, htb,
      Infer.gatherElements, ho, List.map_cons, List.map_nil, Option.some.injEq, List.cons.injEq, and_true] at ht
    exact ⟨_, ht.symm⟩
  obtain ⟨u, hto⟩ := hto
  refine works_two (u1 := .arg 1) (v := v) (w := .int I) (f := onIndexed fun v j => gatherElementsOn pick (axis.getD 0) v j)
    (by simp only [nodeCode, (intAttr_read hax).2, Option.map_some]) rfl hi ra rb hx ho hy fun r s hr hs => ?_
  obtain ⟨j, rfl, -, hj⟩ := holds_int hs
  rw [htb] at hj
  obtain ⟨rfl, hne⟩ := tensor_dev hj
  simp only [onIndexed]
  refine lift_rel hr hrel hof fun {α} _ x X Z _ hX hZ hxr hP => ?_
  rw [hta] at hxr
  obtain ⟨rfl, -⟩ := tensor_dev hxr
  have := C59_gather_elements_partial (pick := pick) (by rw [← hX]; exact hidx) hP (by rw [← hX]; exact g1) (by rw [← hX]; exact g2)
  refine ⟨.dev Z, by simp only [gatherElementsOn, this, Option.map_some], ?_⟩
  rw [hto]
  refine dev_holds ?_ (by rw [hP.shape]; exact hne)
  have := hof.2
  rw [hto] at this
  rw [← hZ]
  exact this

/-! ### Hardmax -/

theorem works_hardmax (hm : Onnx.Meaning erf opset .hardmax n.attrs xs ys) (h : RunOf st n xs ys)
    (hs : Supported pick st opset n xs .hardmax) : Works erf pick st opset n xs ys .hardmax := by
  obtain ⟨X, axis, k, Z, hx, hax, hidx, hZ, hy⟩ := hm
  obtain ⟨a, hi⟩ := h.input1 hx
  obtain ⟨s1, s2⟩ := hs
  obtain ⟨g1, g2⟩ := s2 X axis k hx hax hidx
  have harg := firstGreatest_spec (lt := (· < ·)) lt_irrefl (fun _ _ _ => lt_trans) lt_trichotomy
  have hX : X.shape ≠ [] := by
    intro e
    simp [e] at g1
  obtain rfl := hZ _ harg
  refine works_dev (a := a) (X := X) h (by simp only [nodeCode, (intAttr_read hax).1, Option.map_some]) (by simp [hi]) (s1 a (by simp [hi]))
    (by simp [hx]) hy hX ?_ (C61_hardmax_partial (zero_add 1) harg hidx g1 g2)
  intro e
  apply hX
  unfold alongT at e
  split at e <;> exact e

/-! ### ScatterND -/

theorem red_read {red : ScatterRed}
    (h : n.attrs.lookup "reduction" = none ∧ red = .none ∨ n.attrs.lookup "reduction" = some (.str (scatterText red))) :
    scatterRed n = some red := by
  rcases h with ⟨e, rfl⟩ | e
  · simp [scatterRed, e]
  · cases red <;> simp [scatterRed, e, scatterText]

theorem works_scatterND (hm : Onnx.Meaning erf opset .scatterND n.attrs xs ys) (h : RunOf st n xs ys)
    (hs : Supported pick st opset n xs .scatterND) {prefs : OutPrefs}
    (ht : Infer.apply st opset n prefs .scatter = some (n.outputs.map Arg.ty)) : Works erf pick st opset n xs ys .scatterND := by
  obtain ⟨I, red, ls, ks, ss, hred, hcase⟩ := hm
  obtain ⟨s1, s2, s3⟩ := hs
  have hcode : nodeCode erf pick st opset n .scatterND = some ⟨[.arg 0, .arg 1, .arg 2], scatterNDEffect red⟩ := by
    simp only [nodeCode, red_read hred, Option.bind_some, if_pos s2]
  have hpos : ∀ {s : List Nat}, s = ks ++ ss → 0 ∉ s → 0 < prodShape ss := by
    intro s hs h0
    have : 0 ∉ ss := fun h => h0 (by simp [hs, h])
    clear h0 hs hcode hcase
    induction ss with
    | nil => simp [prodShape]
    | cons d ss ih =>
      simp only [List.mem_cons, not_or] at this
      simp only [prodShape, List.foldr_cons]
      exact Nat.mul_pos (by omega) (ih this.2)
  have hmax : ∀ {x u : ℝ}, max x u = if x ≤ u then u else x := fun {x u} => by
    split
    · exact max_eq_right ‹_›
    · exact max_eq_left (le_of_not_ge ‹_›)
  have hmin : ∀ {x u : ℝ}, min x u = if u ≤ x then u else x := fun {x u} => by
    split
    · exact min_eq_right ‹_›
    · exact min_eq_left (le_of_not_ge ‹_›)
  have hmaxi : ∀ {x u : Int}, max x u = if x ≤ u then u else x := fun {x u} => by split <;> omega
  have hmini : ∀ {x u : Int}, min x u = if u ≤ x then u else x := fun {x u} => by split <;> omega
  have hto : ∀ {a b c o : Arg OVal}, n.inputs = [a, b, c] → n.outputs = [o] → (∃ t, a.ty = .tensor t) → ∃ t, o.ty = .tensor t := by
    rintro a b c o hi ho ⟨t, hta⟩
    simp only [Infer.apply, Infer.inTy, hi, List.getElem?_cons_zero, Option.map_some, hta, ho, List.map_cons, List.map_nil,
      Option.some.injEq, List.cons.injEq, and_true] at ht
    exact ⟨t, ht.symm⟩
  rcases hcase with ⟨X, U, Z, hx, hZ, hy⟩ | ⟨X, U, Z, hx, hZ, hy⟩
  · obtain ⟨a, b, c, hi⟩ := h.input3 hx
    obtain ⟨o, ho, hof⟩ := h.output hy
    obtain ⟨ra, ta, hta⟩ := s1 a (by simp [hi])
    obtain ⟨rb, tb, htb⟩ := s1 b (by simp [hi])
    obtain ⟨rc, tc, htc⟩ := s1 c (by simp [hi])
    refine works_three (i := 0) (j := 1) (k := 2) hcode rfl (by decide) (by simp [hi]) (by simp [hi]) (by simp [hi]) ra rb rc (by simp [hx]; rfl)
      (by simp [hx]; rfl) (by simp [hx]; rfl) ho hy fun r s t hr hs ht => ?_
    obtain ⟨x', rfl, -, hx'⟩ := holds_float hr
    obtain ⟨i', rfl, -, hi'⟩ := holds_int hs
    obtain ⟨u', rfl, -, hu'⟩ := holds_float ht
    rw [hta] at hx'; rw [htb] at hi'; rw [htc] at hu'
    obtain ⟨rfl, hX⟩ := tensor_dev hx'
    obtain ⟨rfl, -⟩ := tensor_dev hi'
    obtain ⟨rfl, -⟩ := tensor_dev hu'
    have := C63_scatternd_partial (isBool := false) (ge := fun a b : ℝ => decide (b ≤ a)) (le := fun a b => decide (a ≤ b)) nofun
      (hpos hZ.data (s3 (.float X) (by simp [hx]))) (fun _ x u => by simpa [scatterReal] using hmax)
      (fun _ x u => by simpa [scatterReal] using hmin) hZ
    refine ⟨.float (.dev Z), by simp [scatterNDEffect, this], fits_tensor hof (by rw [hZ.shape]; exact hX)⟩
  · obtain ⟨a, b, c, hi⟩ := h.input3 hx
    obtain ⟨o, ho, hof⟩ := h.output hy
    obtain ⟨ra, ta, hta⟩ := s1 a (by simp [hi])
    obtain ⟨rb, tb, htb⟩ := s1 b (by simp [hi])
    obtain ⟨rc, tc, htc⟩ := s1 c (by simp [hi])
    obtain ⟨tt, hto⟩ := hto hi ho ⟨ta, hta⟩
    refine works_three (i := 0) (j := 1) (k := 2) hcode rfl (by decide) (by simp [hi]) (by simp [hi]) (by simp [hi]) ra rb rc (by simp [hx]; rfl)
      (by simp [hx]; rfl) (by simp [hx]; rfl) ho hy fun r s t hr hs ht => ?_
    obtain ⟨x', rfl, -, hx'⟩ := holds_int hr
    obtain ⟨i', rfl, -, hi'⟩ := holds_int hs
    obtain ⟨u', rfl, -, hu'⟩ := holds_int ht
    rw [hta] at hx'; rw [htb] at hi'; rw [htc] at hu'
    obtain ⟨rfl, hX⟩ := tensor_dev hx'
    obtain ⟨rfl, -⟩ := tensor_dev hi'
    obtain ⟨rfl, -⟩ := tensor_dev hu'
    have := C63_scatternd_partial (isBool := false) (ge := fun a b : Int => decide (b ≤ a)) (le := fun a b => decide (a ≤ b)) nofun
      (hpos hZ.data (s3 (.int X) (by simp [hx]))) (fun _ x u => by simpa [scatterInt] using hmaxi)
      (fun _ x u => by simpa [scatterInt] using hmini) hZ
    refine ⟨.int (.dev Z), by simp [scatterNDEffect, this], hof.1, ?_⟩
    have hr := hof.2
    rw [hto] at hr ⊢
    exact dev_holds hr (by rw [hZ.shape]; exact hX)

/-! ### Cast -/

/-- A value with elements of another kind. -/
noncomputable def castOf : ElemKind → OVal → OVal
  | .float, v => .float (toReals v)
  | .int, v => .int (toInts v)
  | .bool, v => .bool (toBools v)

theorem cast_dst {d : Int} {t : Onnx.CastTarget} {v w : OVal} (h : Onnx.castTarget d = some t) (hw : CastT t v w) :
    ∃ dst, Decode.elementType d = some dst ∧ w = castOf dst.kind v ∧
      ∀ src : DType, NativeCastOk src.kind d → castSkipped src dst = false → ∃ ty, Gen.castTarget dst = some ty ∧ ty.kind = dst.kind ∧
        (src.kind = .bool → dst.kind ≠ .float) ∧ (src.kind ≠ .bool → dst.kind ≠ .bool) := by
  unfold Onnx.castTarget at h
  split at h <;> cases h <;>
    refine ⟨_, rfl, by first | exact hw | exact hw.1, fun src hn hsk => ?_⟩ <;>
    revert hn hsk <;> cases src <;> simp [NativeCastOk, DType.kind, castSkipped, Gen.castTarget]

theorem castOf_same {v : OVal} : castOf v.kind v = v := by
  cases v <;> rfl

theorem skipped_kind {s d : DType} (h : castSkipped s d = true) : s.kind = d.kind := by
  revert h
  cases s <;> cases d <;> simp [castSkipped, DType.kind]

theorem toReals_shape (v : OVal) : (toReals v).shape = v.shape := by cases v <;> rfl
theorem toInts_shape (v : OVal) : (toInts v).shape = v.shape := by cases v <;> rfl
theorem toBools_shape (v : OVal) : (toBools v).shape = v.shape := by cases v <;> rfl

theorem castDev_tensor {dst : DType} {v : OVal} {p : Option PShape} {r : Nat} (hr : v.shape.length = r) (h1 : 1 ≤ r) :
    Holds (.tensor ⟨dst, r, p⟩) (castDev dst v) (castOf dst.kind v) := by
  unfold castDev
  cases hd : dst.kind with
  | float => exact ⟨hd, rfl, by rw [toReals_shape]; exact hr, h1⟩
  | int => exact ⟨hd, rfl, by rw [toInts_shape]; exact hr, h1⟩
  | bool => exact ⟨hd, rfl, by rw [toBools_shape]; exact hr, h1⟩

/-- A tensor of one element and no dimensions, and the same with one dimension. -/
def SameOne : OVal → OVal → Prop
  | .float u, .float T => u.shape = [1] ∧ T.shape = [] ∧ u.data = T.data
  | .int u, .int T => u.shape = [1] ∧ T.shape = [] ∧ u.data = T.data
  | .bool u, .bool T => u.shape = [1] ∧ T.shape = [] ∧ u.data = T.data
  | _, _ => False

theorem castDev_scalar {dst : DType} {u v : OVal} (h : SameOne u v) : Holds (.scalarTensor dst) (castDev dst u) (castOf dst.kind v) := by
  have h1 : u.shape = [1] ∧ v.shape = [] := by
    cases u <;> cases v <;> first | exact ⟨h.1, h.2.1⟩ | exact h.elim
  unfold castDev
  cases hd : dst.kind with
  | float =>
    refine ⟨hd, by rw [toReals_shape]; exact h1.1, by rw [toReals_shape]; exact h1.2, ?_⟩
    cases u <;> cases v <;> first | exact h.elim | simp [toReals, Tensor.map, h.2.2]
  | int =>
    refine ⟨hd, by rw [toInts_shape]; exact h1.1, by rw [toInts_shape]; exact h1.2, ?_⟩
    cases u <;> cases v <;> first | exact h.elim | simp [toInts, Tensor.map, h.2.2]
  | bool =>
    refine ⟨hd, by rw [toBools_shape]; exact h1.1, by rw [toBools_shape]; exact h1.2, ?_⟩
    cases u <;> cases v <;> first | exact h.elim | simp [toBools, Tensor.map, h.2.2]

theorem cast_native {src dst : DType} {r : RustVal} {v : OVal} (h : Holds (.scalarNative src) r v)
    (hok : castSkipped src dst = false → ∃ ty, Gen.castTarget dst = some ty ∧ ty.kind = dst.kind ∧
        (src.kind = .bool → dst.kind ≠ .float) ∧ (src.kind ≠ .bool → dst.kind ≠ .bool)) :
    ∃ z, castNum src dst r = some z ∧ Holds (.scalarNative dst) z (castOf dst.kind v) := by
  unfold castNum
  by_cases hsk : castSkipped src dst = true
  · rw [if_pos hsk]
    refine ⟨r, rfl, ?_⟩
    have hk := skipped_kind hsk
    have hv : v.kind = dst.kind := by
      rw [← hk]
      cases v with
      | float X => obtain ⟨_, rfl, e, -⟩ := holds_float h; exact e.symm
      | int X => obtain ⟨_, rfl, e, -⟩ := holds_int h; exact e.symm
      | bool X => obtain ⟨_, rfl, e, -⟩ := holds_bool h; exact e.symm
    rw [← hv, castOf_same]
    cases v with
    | float X => obtain ⟨x, rfl, e, hx⟩ := holds_float h; exact ⟨hk.symm.trans e, by cases x <;> exact hx⟩
    | int X => obtain ⟨x, rfl, e, hx⟩ := holds_int h; exact ⟨hk.symm.trans e, by cases x <;> exact hx⟩
    | bool X => obtain ⟨x, rfl, e, hx⟩ := holds_bool h; exact ⟨hk.symm.trans e, by cases x <;> exact hx⟩
  · rw [if_neg hsk]
    obtain ⟨ty, h1, h2, h3, h4⟩ := hok (by simpa using hsk)
    simp only [h1, Option.bind_some, h2]
    cases v with
    | float X =>
      obtain ⟨x, rfl, e, hx⟩ := holds_float h
      cases x with
      | native x =>
        have e : src.kind = .float := e
        have hb := h4 (by rw [e]; simp)
        cases hd : dst.kind with
        | float => exact ⟨_, rfl, hd, hx⟩
        | int => exact ⟨_, rfl, hd, hx.1, by simp [toInts, Tensor.map, hx.2]⟩
        | bool => exact absurd hd hb
      | _ => exact hx.elim
    | int X =>
      obtain ⟨x, rfl, e, hx⟩ := holds_int h
      cases x with
      | native x =>
        have e : src.kind = .int := e
        have hb := h4 (by rw [e]; simp)
        cases hd : dst.kind with
        | float => exact ⟨_, rfl, hd, hx.1, by simp [toReals, Tensor.map, hx.2]⟩
        | int => exact ⟨_, rfl, hd, hx⟩
        | bool => exact absurd hd hb
      | _ => exact hx.elim
    | bool X =>
      obtain ⟨x, rfl, e, hx⟩ := holds_bool h
      cases x with
      | native x =>
        have e : src.kind = .bool := e
        have hb := h3 e
        cases hd : dst.kind with
        | float => exact absurd hd hb
        | int => exact ⟨_, rfl, hd, hx.1, by simp [toInts, Tensor.map, hx.2]⟩
        | bool => exact ⟨_, rfl, hd, hx⟩
      | _ => exact hx.elim

theorem cast_code {dst : DType} {ty ot : ArgType} {r : RustVal} {v : OVal} (h : Holds ty r v) (ht : Infer.cast dst ty = some ot)
    (hok : ∀ src, ty = .scalarNative src → castSkipped src dst = false → ∃ ty, Gen.castTarget dst = some ty ∧ ty.kind = dst.kind ∧
        (src.kind = .bool → dst.kind ≠ .float) ∧ (src.kind ≠ .bool → dst.kind ≠ .bool)) :
    ∃ z, castCode dst ty r = some z ∧ Holds ot z (castOf dst.kind v) := by
  cases ty with
  | tensor t =>
    have key : castCode dst (.tensor t) r = some (castDev dst v) ∧ v.shape.length = t.rank ∧ 1 ≤ t.rank := by
      cases v with
      | float X =>
        obtain ⟨x, rfl, -, hx⟩ := holds_float h
        cases x with
        | dev u => obtain ⟨rfl, h2, h3⟩ := hx; exact ⟨rfl, h2, h3⟩
        | _ => exact hx.elim
      | int X =>
        obtain ⟨x, rfl, -, hx⟩ := holds_int h
        cases x with
        | dev u => obtain ⟨rfl, h2, h3⟩ := hx; exact ⟨rfl, h2, h3⟩
        | _ => exact hx.elim
      | bool X =>
        obtain ⟨x, rfl, -, hx⟩ := holds_bool h
        cases x with
        | dev u => obtain ⟨rfl, h2, h3⟩ := hx; exact ⟨rfl, h2, h3⟩
        | _ => exact hx.elim
    obtain ⟨k1, k2, k3⟩ := key
    simp only [Infer.cast] at ht
    rw [if_neg (by omega)] at ht
    cases ht
    exact ⟨_, k1, castDev_tensor k2 k3⟩
  | scalarTensor d =>
    cases ht
    cases v with
    | float X =>
      obtain ⟨x, rfl, -, hx⟩ := holds_float h
      cases x with
      | dev u => exact ⟨_, rfl, castDev_scalar (u := .float u) hx⟩
      | _ => exact hx.elim
    | int X =>
      obtain ⟨x, rfl, -, hx⟩ := holds_int h
      cases x with
      | dev u => exact ⟨_, rfl, castDev_scalar (u := .int u) hx⟩
      | _ => exact hx.elim
    | bool X =>
      obtain ⟨x, rfl, -, hx⟩ := holds_bool h
      cases x with
      | dev u => exact ⟨_, rfl, castDev_scalar (u := .bool u) hx⟩
      | _ => exact hx.elim
  | scalarNative s =>
    cases ht
    obtain ⟨z, h1, h2⟩ := cast_native h (hok s rfl)
    refine ⟨z, ?_, h2⟩
    cases v with
    | float X =>
      obtain ⟨x, rfl, -, hx⟩ := holds_float h
      cases x with
      | native x => exact h1
      | _ => exact hx.elim
    | int X =>
      obtain ⟨x, rfl, -, hx⟩ := holds_int h
      cases x with
      | native x => exact h1
      | _ => exact hx.elim
    | bool X =>
      obtain ⟨x, rfl, -, hx⟩ := holds_bool h
      cases x with
      | native x => exact h1
      | _ => exact hx.elim
  | shape k =>
    cases v with
    | float X => obtain ⟨_, _, e, -⟩ := holds_float h; cases e
    | bool X => obtain ⟨_, _, e, -⟩ := holds_bool h; cases e
    | int X =>
      obtain ⟨x, rfl, -, hx⟩ := holds_int h
      cases x with
      | shape l =>
        obtain ⟨rfl, hs, hd⟩ := hx
        obtain ⟨sh, da, hl⟩ := X
        simp only [List.map_id] at hs hd
        subst hs hd
        cases hk : dst.kind with
        | int =>
          obtain rfl : ArgType.shape da.length = ot := by
            revert ht hk
            cases dst <;> simp [Infer.cast, Infer.isFloatOrBool, DType.kind]
          exact ⟨.int (.shape da), by simp [castCode, hk], rfl, rfl, rfl, by simp [toInts]⟩
        | float =>
          obtain rfl : ArgType.tensor ⟨dst, 1, some [some da.length]⟩ = ot := by
            revert ht hk
            cases dst <;> simp [Infer.cast, Infer.isFloatOrBool, DType.kind]
          exact ⟨.float (.dev (Burn.ofShape (fun k : Int => (k : ℝ)) da)), by simp [castCode, hk], hk, rfl, rfl, Nat.le_refl 1⟩
        | bool =>
          obtain rfl : ArgType.tensor ⟨dst, 1, some [some da.length]⟩ = ot := by
            revert ht hk
            cases dst <;> simp [Infer.cast, Infer.isFloatOrBool, DType.kind]
          refine ⟨.bool (.dev (Burn.ofShape (· != 0) da)), by simp [castCode, hk], hk, ?_, rfl, Nat.le_refl 1⟩
          refine Tensor.ext rfl ?_
          simp only [Burn.ofShape, toBools, Tensor.map]
          exact List.map_congr_left fun k _ => by by_cases e : k = 0 <;> simp [e]
      | _ => exact hx.elim

theorem works_cast (hm : Onnx.Meaning erf opset .cast n.attrs xs ys) (h : RunOf st n xs ys)
    (hs : Supported pick st opset n xs .cast) {prefs : OutPrefs}
    (ht : Infer.apply st opset n prefs .cast = some (n.outputs.map Arg.ty)) : Works erf pick st opset n xs ys .cast := by
  obtain ⟨v, w, d, t, hx, hd, htg, hc, hy⟩ := hm
  obtain ⟨a, hi⟩ := h.input1 hx
  obtain ⟨o, ho, hof⟩ := h.output hy
  obtain ⟨ra, hn⟩ := hs a (by simp [hi])
  obtain ⟨dst, h1, rfl, h2⟩ := cast_dst htg hc
  have hl : n.attrs.lookup "to" = some (.i64 d) := hd
  simp only [Infer.apply, hl, Infer.inTy, hi, List.getElem?_cons_zero, Option.map_some, h1, Option.bind_some] at ht
  have ht' := one_type ho ht
  refine works_one (f := castCode dst a.ty) (a := a) (o := o) (v := v) ?_ (by simp [hi]) ra (by simp [hx]) ho hy fun r hr => ?_
  · simp [nodeCode, Infer.inTy, hi, (intAttr_read hd).1, h1]
  · exact cast_code hr ht' fun src e => h2 src (hn src d e hd)

/-! ### Split -/

theorem piece_unique {α : Type} [Inhabited α] {a : Nat} {sizes : List Nat} {X : Tensor α} {Zs Zs' : List (Tensor α)} (h : SplitT a sizes X Zs)
    (h' : SplitT a sizes X Zs') : Zs = Zs' := by
  refine List.ext_getElem (h.count.trans h'.count.symm) fun k h1 h2 => ?_
  have hk : k < sizes.length := by rw [← h.count]; exact h1
  obtain ⟨p1, p2⟩ := h.piece k sizes[k] Zs[k] (by simp [hk]) (by simp [h1])
  obtain ⟨q1, q2⟩ := h'.piece k sizes[k] Zs'[k] (by simp [hk]) (by simp [h2])
  exact Tensor.eq_of_get (p1.trans q1.symm) fun i hi => (p2 i hi).trans (q2 i (by rw [q1, ← p1]; exact hi)).symm

theorem works_split (hst : StoreOk st) (hm : Onnx.Meaning erf opset .split n.attrs xs ys) (h : RunOf st n xs ys)
    (hs : Supported pick st opset n xs .split) {prefs : OutPrefs}
    (ht : Infer.apply st opset n prefs .split = some (n.outputs.map Arg.ty)) : Works erf pick st opset n xs ys .split := by
  obtain ⟨v, axis, k, sizes, hax, hidx, hsz, hrel⟩ := hm
  obtain ⟨s1, s2, s3, s4, s5, s6⟩ := hs
  have hx0 : xs[0]? = some (some v) := by
    rcases hsz with ⟨t, e, -⟩ | ⟨e, -⟩ | ⟨e, -⟩ <;> simp [e]
  obtain ⟨a, hi⟩ := h.input (k := 0) (List.getElem?_eq_some_iff.1 hx0).1
  obtain ⟨ra, ta, hta⟩ := s1 a hi
  have had := s2 a v hi hx0
  rw [hta] at had
  rw [h.length] at hsz
  have hpos := s6 v k sizes hx0 hsz
  -- the type of every result
  have hto : ∀ (j : Nat) (o : Arg OVal), n.outputs[j]? = some o → ∃ u, o.ty = .tensor u := by
    intro j o ho
    simp only [Infer.apply, (intAttr_read hax).2, Infer.inTy, hi, Option.map_some, hta] at ht
    cases hsp : Infer.splitSizes st n with
    | none => simp [hsp] at ht
    | some z =>
      simp only [hsp] at ht
      obtain ⟨hj, hoj⟩ := List.getElem?_eq_some_iff.1 ho
      have h2 := mapM_get ht j
      rw [List.getElem?_range hj, List.getElem?_map, ho, Option.map_some, Option.bind_some] at h2
      replace h2 := h2.symm
      simp only [Infer.splitOutput, Infer.splitTensor] at h2
      split at h2
      · split at h2
        · split at h2
          · exact ⟨_, (Option.some.inj h2).symm⟩
          · cases h2
        · exact ⟨_, (Option.some.inj h2).symm⟩
      · exact ⟨_, (Option.some.inj h2).symm⟩
  -- the code
  have hcfg : ∀ {α : Type} [Elem α] (X : Tensor α) (Zs : List (Tensor α)), v.shape = X.shape → SplitT k sizes X Zs → ys.length = Zs.length →
      ∃ c, nodeCode erf pick st opset n .split = some ⟨[.arg 0], splitEffect c n.outputs.length⟩ ∧ genSplit c n.outputs.length X = some Zs := by
    intro α _ X Zs hX hZ hlen
    have hcnt : n.outputs.length = sizes.length := by rw [← h.length, hlen, hZ.count]
    have hne : sizes ≠ [] := fun e0 => s5 (List.length_eq_zero_iff.1 (by rw [hcnt, e0]; rfl))
    have hone : xs = [some v] → ¬ 1 < n.inputs.length := fun e0 => by rw [← h.ops.length, e0]; simp
    have hcode : ∀ {num : Option Int} {arg : Infer.SplitArg} {c : Infer.SplitConfig}, Infer.attrInt? n "num_outputs" = some num → splitIn st n = some arg →
        Infer.splitConfig ta.rank ta.staticShape (axis.getD 0) (num.map OnnxIR.asUsize) arg n.outputs.length = some c →
        nodeCode erf pick st opset n .split = some ⟨[.arg 0], splitEffect c n.outputs.length⟩ := by
      intro num arg c e1 e2 e3
      simp only [nodeCode, splitCode, Infer.inTy, hi, Option.map_some, hta, (intAttr_read hax).2, e1, e2, e3]
    rw [hX] at had hidx
    rcases hsz with ⟨t, e, ed, es, en⟩ | ⟨e, es, en⟩ | ⟨e, es, en, ee⟩
    · obtain ⟨s, hsi⟩ := h.input (k := 1) (by simp [e])
      obtain ⟨⟨w, hw, -⟩, tt, htt, hr1, hd1⟩ := s3 s hsi
      have hrd : st.read s = some (.int t) := by
        rw [hw, (read_ints hst h hsi (t := t) (by simp [e]) hw).1]
      have hlen2 : 1 < n.inputs.length := (List.getElem?_eq_some_iff.1 hsi).1
      have harg : splitIn st n = some (.constInput (sizes.map Int.ofNat)) := by
        unfold splitIn
        rw [if_pos hlen2, hsi, Option.bind_some]
        simp [htt, hr1, hd1, hrd, hst.ints, es]
      obtain ⟨c, Zs', c1, c2, c3⟩ := C83_split_sizes_partial had hidx hne hpos hZ.total
        (.inl rfl : Infer.SplitArg.constInput (sizes.map Int.ofNat) = _ ∨ _)
      rw [piece_unique hZ c3]
      rw [← hcnt] at c1 c2
      exact ⟨c, hcode (num := none) (by simp [Infer.attrInt?, en]) harg c1, c2⟩
    · obtain ⟨c, Zs', c1, c2, c3⟩ := C83_split_sizes_partial had hidx hne hpos hZ.total
        (.inr rfl : Infer.SplitArg.attr (sizes.map Int.ofNat) = _ ∨ _)
      rw [piece_unique hZ c3]
      rw [← hcnt] at c1 c2
      refine ⟨c, hcode (num := none) (by simp [Infer.attrInt?, en]) ?_ c1, c2⟩
      simp only [splitIn, intsAttr_read es, if_neg (hone e)]
    · obtain ⟨numOf, hn1, hnum⟩ : ∃ numOf : Option Int, Infer.attrInt? n "num_outputs" = some numOf ∧
          (numOf.map OnnxIR.asUsize = none ∨ numOf.map OnnxIR.asUsize = some n.outputs.length) := by
        rcases en with en | en
        · exact ⟨none, by simp [Infer.attrInt?, en], .inl rfl⟩
        · refine ⟨some (Int.ofNat n.outputs.length), by simp [Infer.attrInt?, en], .inr ?_⟩
          have : (n.outputs.length : Int) < 2 ^ 63 := s4 (Int.ofNat n.outputs.length) en
          simp [OnnxIR.asUsize]
          omega
      obtain ⟨c, Zs', c1, c2, c3⟩ := C83_split_even_partial (num := (numOf.map OnnxIR.asUsize)) had hidx hnum (hX ▸ ee) hpos
      rw [piece_unique hZ c3]
      refine ⟨c, hcode (num := numOf) hn1 ?_ c1, c2⟩
      simp only [splitIn, Infer.attrInts, es, if_neg (hone e)]
  have hres : ∀ {α : Type} [Elem α] (X : Tensor α) (Zs : List (Tensor α)), SplitT k sizes X Zs → ∀ (j : Nat) (Z : Tensor α), Zs[j]? = some Z →
      Z.shape ≠ [] := by
    intro α _ X Zs hZ j Z hj e0
    have hjl : j < sizes.length := by rw [← hZ.count]; exact (List.getElem?_eq_some_iff.1 hj).1
    have h1 := (hZ.piece j sizes[j] Z (by simp [hjl]) hj).1
    have h2 := hZ.axis
    rw [e0] at h1
    have := congrArg List.length h1
    simp at this
    omega
  cases v with
  | float X =>
    obtain ⟨Zs, rfl, hZ⟩ := hrel
    obtain ⟨c, hc, hg⟩ := hcfg X Zs rfl hZ (by simp)
    refine works_outs hc hi ra hx0 fun r hr => ?_
    rw [hta] at hr
    obtain ⟨x, rfl, -, hx⟩ := holds_float hr
    obtain ⟨rfl, -⟩ := tensor_dev hx
    refine ⟨Zs.map fun z => .float (.dev z), by simp [splitEffect, hg], by simp, fun j o w y ho hw hy => ?_⟩
    obtain ⟨u, hu⟩ := hto j o ho
    obtain ⟨f1, f2⟩ := h.fits j o y ho hy
    simp only [List.getElem?_map, Option.map_eq_some_iff] at hw hy
    obtain ⟨Z, hz, rfl⟩ := hw
    obtain ⟨Z', hz', rfl⟩ := hy
    obtain rfl : Z = Z' := Option.some.inj (hz.symm.trans hz')
    rw [hu] at f1 f2 ⊢
    exact ⟨f1, dev_holds f2 (hres X Zs hZ j Z hz)⟩
  | int X =>
    obtain ⟨Zs, rfl, hZ⟩ := hrel
    obtain ⟨c, hc, hg⟩ := hcfg X Zs rfl hZ (by simp)
    refine works_outs hc hi ra hx0 fun r hr => ?_
    rw [hta] at hr
    obtain ⟨x, rfl, -, hx⟩ := holds_int hr
    obtain ⟨rfl, -⟩ := tensor_dev hx
    refine ⟨Zs.map fun z => .int (.dev z), by simp [splitEffect, hg], by simp, fun j o w y ho hw hy => ?_⟩
    obtain ⟨u, hu⟩ := hto j o ho
    obtain ⟨f1, f2⟩ := h.fits j o y ho hy
    simp only [List.getElem?_map, Option.map_eq_some_iff] at hw hy
    obtain ⟨Z, hz, rfl⟩ := hw
    obtain ⟨Z', hz', rfl⟩ := hy
    obtain rfl : Z = Z' := Option.some.inj (hz.symm.trans hz')
    rw [hu] at f1 f2 ⊢
    exact ⟨f1, dev_holds f2 (hres X Zs hZ j Z hz)⟩
  | bool X =>
    obtain ⟨Zs, rfl, hZ⟩ := hrel
    obtain ⟨c, hc, hg⟩ := hcfg X Zs rfl hZ (by simp)
    refine works_outs hc hi ra hx0 fun r hr => ?_
    rw [hta] at hr
    obtain ⟨x, rfl, -, hx⟩ := holds_bool hr
    obtain ⟨rfl, -⟩ := tensor_dev hx
    refine ⟨Zs.map fun z => .bool (.dev z), by simp [splitEffect, hg], by simp, fun j o w y ho hw hy => ?_⟩
    obtain ⟨u, hu⟩ := hto j o ho
    obtain ⟨f1, f2⟩ := h.fits j o y ho hy
    simp only [List.getElem?_map, Option.map_eq_some_iff] at hw hy
    obtain ⟨Z, hz, rfl⟩ := hw
    obtain ⟨Z', hz', rfl⟩ := hy
    obtain rfl : Z = Z' := Option.some.inj (hz.symm.trans hz')
    rw [hu] at f1 f2 ⊢
    exact ⟨f1, dev_holds f2 (hres X Zs hZ j Z hz)⟩

/-! ### TopK -/

theorem greatestFirst_sorted (l : List ℝ) : (greatestFirst l).Perm (List.range l.length) ∧ (greatestFirst l).Pairwise (Before (· < ·) l) := by
  have hp : (greatestFirst l).Perm (List.range l.length) := by
    unfold greatestFirst
    exact List.mergeSort_perm _ _
  refine ⟨hp, ?_⟩
  have hs : (greatestFirst l).Pairwise fun p q => l.getD q 0 < l.getD p 0 ∨ (l.getD p 0 = l.getD q 0 ∧ p ≤ q) := by
    have := List.pairwise_mergeSort
      (le := fun p q => haveI := Classical.propDecidable
        decide (l.getD q 0 < l.getD p 0) || (decide (l.getD p 0 = l.getD q 0) && decide (p ≤ q)))
      (by
        intro p q r h1 h2
        simp only [Bool.or_eq_true, decide_eq_true_eq, Bool.and_eq_true] at h1 h2 ⊢
        rcases h1 with h1 | ⟨h1, h1'⟩ <;> rcases h2 with h2 | ⟨h2, h2'⟩
        · exact .inl (h2.trans h1)
        · exact .inl (h2 ▸ h1)
        · exact .inl (h1 ▸ h2)
        · exact .inr ⟨h1.trans h2, h1'.trans h2'⟩)
      (by
        intro p q
        simp only [Bool.or_eq_true, decide_eq_true_eq, Bool.and_eq_true]
        rcases lt_trichotomy (l.getD p 0) (l.getD q 0) with h | h | h
        · exact .inr (.inl h)
        · rcases Nat.le_total p q with h' | h'
          · exact .inl (.inr ⟨h, h'⟩)
          · exact .inr (.inr ⟨h.symm, h'⟩)
        · exact .inl (.inl h)) (List.range l.length)
    refine List.Pairwise.imp ?_ this
    intro p q h
    simpa only [Bool.or_eq_true, decide_eq_true_eq, Bool.and_eq_true] using h
  have hn : (greatestFirst l).Nodup := hp.nodup_iff.2 List.nodup_range
  refine List.Pairwise.imp_of_mem (fun {p q} hpm hqm h => ?_) (hs.and hn)
  have h1 : p < l.length := by simpa using hp.mem_iff.1 hpm
  have h2 : q < l.length := by simpa using hp.mem_iff.1 hqm
  obtain ⟨h, hpq⟩ := h
  refine ⟨l[p], l[q], by simp [h1], by simp [h2], ?_⟩
  simp only [List.getD, List.getElem?_eq_getElem h1, List.getElem?_eq_getElem h2, Option.getD_some] at h
  rcases h with h | ⟨h, h'⟩
  · exact .inl h
  · exact .inr ⟨by rw [h]; exact lt_irrefl _, Nat.lt_of_le_of_ne h' hpq⟩

theorem before_asymm {l : List ℝ} {p q : Nat} (h : Before (· < ·) l p q) (h' : Before (· < ·) l q p) : False := by
  obtain ⟨x, y, h1, h2, h3⟩ := h
  obtain ⟨y', x', g1, g2, g3⟩ := h'
  obtain rfl : y = y' := Option.some.inj (h2.symm.trans g1)
  obtain rfl : x = x' := Option.some.inj (h1.symm.trans g2)
  rcases h3 with h3 | ⟨h3, h4⟩ <;> rcases g3 with g3 | ⟨g3, g4⟩
  · exact lt_asymm h3 g3
  · exact g3 h3
  · exact h3 g3
  · omega

theorem topPlaces_unique {l : List ℝ} {k : Nat} {ps ps' : List Nat} (h : TopPlaces (· < ·) l k ps) (h' : TopPlaces (· < ·) l k ps') : ps = ps' := by
  have nd : ∀ {qs : List Nat}, qs.Pairwise (Before (· < ·) l) → qs.Nodup := fun hq =>
    hq.imp fun hb e => by subst e; exact before_asymm hb hb
  have hperm : ps.Perm ps' := by
    by_cases hsub : ps ⊆ ps'
    · exact (List.subperm_of_subset (nd h.order) hsub).perm_of_length_le (by rw [h.length, h'.length])
    · by_cases hsub' : ps' ⊆ ps
      · exact ((List.subperm_of_subset (nd h'.order) hsub').perm_of_length_le (by rw [h.length, h'.length])).symm
      · simp only [List.subset_def, not_forall] at hsub hsub'
        obtain ⟨p, p1, p2⟩ := hsub
        obtain ⟨q, q1, q2⟩ := hsub'
        exact (before_asymm (h.rest q (h'.inside q q1) q2 p p1) (h'.rest p (h.inside p p1) p2 q q1)).elim
  exact hperm.eq_of_pairwise (fun p q _ _ h1 h2 => (before_asymm h1 h2).elim) h.order h'.order

theorem topKT_unique {a k : Nat} {X V V' : Tensor ℝ} {I I' : Tensor Int} (h : TopKT (· < ·) a k X V I) (h' : TopKT (· < ·) a k X V' I') :
    V = V' ∧ I = I' := by
  have key : ∀ i, InRange (X.shape.set a k) i → V.get i = V'.get i ∧ I.get i = I'.get i := by
    intro i hi
    obtain ⟨ps, p1, p, p2, p3, p4⟩ := h.elems i hi
    obtain ⟨qs, q1, q, q2, q3, q4⟩ := h'.elems i hi
    obtain rfl := topPlaces_unique p1 q1
    obtain rfl : p = q := Option.some.inj (p2.symm.trans q2)
    exact ⟨p3.trans q3.symm, p4.trans q4.symm⟩
  exact ⟨Tensor.eq_of_get (h.vshape.trans h'.vshape.symm) fun i hi => (key i (h.vshape ▸ hi)).1,
    Tensor.eq_of_get (h.ishape.trans h'.ishape.symm) fun i hi => (key i (h.ishape ▸ hi)).2⟩

theorem works_topK (hst : StoreOk st) (hm : Onnx.Meaning erf opset .topK n.attrs xs ys) (h : RunOf st n xs ys)
    (hs : Supported pick st opset n xs .topK) {prefs : OutPrefs}
    (ht : Infer.apply st opset n prefs .topk = some (n.outputs.map Arg.ty)) : Works erf pick st opset n xs ys .topK := by
  obtain ⟨X, k, axis, ax, V, I, hk, hax, hidx, hl, hso, htop, rfl⟩ := hm
  obtain ⟨s1, s2, s3⟩ := hs
  have hk63 := s3 X k hk
  have hk' : OnnxIR.asUsize (Int.ofNat k) = k := by
    simp [OnnxIR.asUsize]; omega
  have hx0 : xs[0]? = some (some (.float X)) := by
    rcases hk with ⟨t, e, -⟩ | ⟨e, -⟩ <;> simp [e]
  obtain ⟨a, hi⟩ := h.input (k := 0) (List.getElem?_eq_some_iff.1 hx0).1
  obtain ⟨ra, ta, hta⟩ := s1 a hi
  have hcount : topCount st n = some (.static k) := by
    rcases hk with ⟨t, e, -, ed⟩ | ⟨e, ek⟩
    · obtain ⟨s, hsi⟩ := h.input (k := 1) (by simp [e])
      obtain ⟨w, hw, hd⟩ := s2 s hsi
      obtain rfl := (read_ints hst h hsi (t := t) (by simp [e]) hw).1
      unfold topCount
      simp only [hsi, hw, hd, if_true, hst.ints, Option.bind_some, ed, List.head?_cons, Option.map_some, hk']
    · have : n.inputs[1]? = none := List.getElem?_eq_none (by rw [← h.ops.length, e]; simp)
      unfold topCount
      simp only [this, (intAttr_read ek).1, hk']
  have hone : ∀ key, (n.attrs.lookup key = none ∨ n.attrs.lookup key = some (.i64 1)) → Infer.attrInt n key 1 = some 1 := by
    rintro key (e | e) <;> simp [Infer.attrInt, e]
  obtain ⟨V', I', hg, ht'⟩ := C61_topk_partial (lt := (· < ·)) (order := greatestFirst) (X := X) greatestFirst_sorted hidx htop.enough
  obtain ⟨rfl, rfl⟩ := topKT_unique htop ht'
  simp only [Infer.apply, Infer.inTy, hi, Option.map_some, hta, Option.bind_some, Infer.topk, Option.some.injEq] at ht
  refine works_outs (f := topKEffect axis (.static k) 1 1) (by simp only [nodeCode, topKCode, (intAttr_read hax).1, hone _ hl, hone _ hso, hcount]) hi ra hx0 fun r hr => ?_
  rw [hta] at hr
  obtain rfl := float_tensor hr
  refine ⟨[.float (.dev V), .int (.dev I)], by simp [topKEffect, hg], rfl, fun j o w y ho hw hy => ?_⟩
  have hty : [ArgType.tensor ⟨ta.dtype, ta.rank, none⟩, .tensor ⟨.i64, ta.rank, none⟩][j]? = some o.ty := by
    rw [ht, List.getElem?_map, ho]; rfl
  have hne : X.shape.set ax k ≠ [] := by
    intro e
    have := congrArg List.length e
    have h2 := htop.axis
    simp at this
    simp [this] at h2
  obtain ⟨f1, f2⟩ := h.fits j o y ho hy
  match j, hw, hy, hty with
  | 0, hw, hy, hty =>
    simp only [List.getElem?_cons_zero, Option.some.injEq] at hw hy hty
    subst hw hy
    rw [← hty] at f1 f2 ⊢
    exact ⟨f1, dev_holds f2 (htop.vshape ▸ hne)⟩
  | 1, hw, hy, hty =>
    simp only [List.getElem?_cons_succ, List.getElem?_cons_zero, Option.some.injEq] at hw hy hty
    subst hw hy
    rw [← hty] at f1 f2 ⊢
    exact ⟨f1, dev_holds f2 (htop.ishape ▸ hne)⟩
  | j + 2, hw, hy, hty => simp at hw

/-! ### ConvTranspose -/

theorem convTransposeT_unique {α : Type} [Inhabited α] [AddCommMonoid α] [Mul α] {as : List TAxis} {groups n cg mg : Nat} {outs outs' : List Nat} {x w : Tensor α}
    {b : Option (Tensor α)} {y y' : Tensor α} (h : ConvTransposeT as groups n cg mg outs x w b y)
    (h' : ConvTransposeT as groups n cg mg outs' x w b y') : y = y' := by
  have hout : outs = outs' := by
    have h1 := h.sizes
    have h2 := h'.sizes
    clear h h'
    induction h1 generalizing outs' with
    | nil => cases h2; rfl
    | cons e _ ih =>
      cases h2 with
      | cons e' t' =>
        rw [ih t']
        congr 1
        omega
  subst hout
  refine Tensor.eq_of_get (h.shape.trans h'.shape.symm) fun i hi => ?_
  rw [h.shape] at hi
  obtain ⟨a, c, o, rfl, h1, h2, h3⟩ := inRange_two hi
  have hmg : 0 < mg := Nat.pos_of_ne_zero (by rintro rfl; simp at h2)
  have hg : c / mg < groups := Nat.div_lt_of_lt_mul (by rw [Nat.mul_comm]; exact h2)
  have hc : c / mg * mg + c % mg = c := by rw [Nat.mul_comm]; exact Nat.div_add_mod c mg
  have e := h.value a (c / mg) (c % mg) o h1 hg (Nat.mod_lt _ hmg) h3
  have e' := h'.value a (c / mg) (c % mg) o h1 hg (Nat.mod_lt _ hmg) h3
  rw [hc] at e e'
  rw [e, e']

/-- The two halves of `pads` are the amounts before and after. -/
theorem pads_halves {d : Nat} {l : List Int} {ps : List (Nat × Nat)} (h : PadsAttr d l ps) (hl : l.take (l.length / 2) = l.drop (l.length / 2)) :
    ∀ p ∈ ps, p.1 = p.2 := by
  obtain ⟨-, rfl⟩ := h
  have e : (List.map (fun a : Nat × Nat => (a.1 : Int)) ps ++ List.map (fun a => (a.2 : Int)) ps).length / 2 =
      (List.map (fun a : Nat × Nat => (a.1 : Int)) ps).length := by
    simp only [List.length_append, List.length_map]; omega
  rw [e, List.take_left', List.drop_left'] at hl
  · intro p hp
    have := List.map_inj_left.1 hl p hp
    omega
  · rfl
  · rfl

theorem works_convTranspose {d : Nat} (hd : Op.axesOk (.convTranspose d) = true) (hm : Onnx.Meaning erf opset (.convTranspose d) n.attrs xs ys)
    (h : RunOf st n xs ys) (hs : Supported pick st opset n xs (.convTranspose d)) : Works erf pick st opset n xs ys (.convTranspose d) := by
  obtain ⟨X, W, B, Y, g, groups, b, cg, mg, es, pv, outs, hx, hg, hg1, hg0, hes, hX, hW, hb, hk, hst', hdi, hop, hpv, hpads, hap, -, hpos, hc, hy⟩ := hm
  obtain ⟨s1, s2, s3, s4, s5, s6, s7, s8⟩ := hs
  have hx0 : xs[0]? = some (some (.float X)) := by rw [hx]; rfl
  have hx1 : xs[1]? = some (some (.float W)) := by rw [hx]; rfl
  obtain ⟨a, ha⟩ := h.input (k := 0) (by rw [hx]; simp)
  obtain ⟨w, hwi⟩ := h.input (k := 1) (by rw [hx]; simp)
  have hrw := const_float s2 h hwi hx1
  have hsw := s2.2 w _ hwi hx1
  have hbias : convBias st n.inputs[2]? ≠ .omitted ∧ (convBias st n.inputs[2]?).value = B := by
    cases B with
    | none => rw [h.noInput (k := 2) (by rw [hx]; simp)]; exact ⟨nofun, rfl⟩
    | some t =>
      obtain ⟨c, hci⟩ := h.input (k := 2) (by rw [hx]; simp)
      have := const_float s2 h hci (by rw [hx]; rfl : xs[1 + 1]? = some (some (.float t)))
      rw [hci]
      simp [convBias, this, ConvBias.value]
  have hg63 : groups < 2 ^ 63 := by
    cases g with
    | none => simp only [Option.getD_none] at hg1; omega
    | some g =>
      have := s7 g hg
      simp only [Option.getD_some] at hg1
      omega
  have hone : ∀ {c : Nat}, c < 2 ^ 63 → ∀ v ∈ List.replicate d c, v < 2 ^ 63 := fun hc v hv => by rw [List.eq_of_mem_replicate hv]; exact hc
  obtain ⟨kv, k1, k2⟩ := sizes_read hk (fun l hl => s3.1 _ (by simp) l hl) fun k hk => s6 _ hx1 k (by rw [OVal.shape, hW]; simp at hk ⊢; exact .inr (.inr hk))
  obtain ⟨sv, t1, t2⟩ := sizes_read hst' (fun l hl => s3.1 _ (by simp) l hl) (hone (by decide))
  obtain ⟨dv, d1, d2⟩ := sizes_read hdi (fun l hl => s3.1 _ (by simp) l hl) (hone (by decide))
  obtain ⟨ov, o1, o2⟩ := sizes_read hop s5 (hone (by decide))
  obtain ⟨ap, a1, a2⟩ : ∃ ap, Infer.attrStr n "auto_pad" = some ap ∧ ap.getD "NOTSET" = "NOTSET" := by
    rcases hap with e | e
    · exact ⟨none, by simp [Infer.attrStr, e], rfl⟩
    · exact ⟨some "NOTSET", by simp [Infer.attrStr, e], rfl⟩
  have hattrs : transposeAttrs n = some ⟨kv, sv, pv, dv, ap, ov, g⟩ := by
    unfold transposeAttrs
    rw [if_neg]
    · simp [Infer.windowAttrs, intsAttr_read k1, intsAttr_read t1, intsAttr_read hpv, intsAttr_read d1, a1, intsAttr_read o1, (intAttr_read hg).1]
    · rw [List.any_eq_true]
      rintro ⟨p, hp, hp'⟩
      have := s4 p hp
      simp only [beq_iff_eq] at hp'
      rw [List.contains_iff_mem.2 this] at hp'
      cases hp'
  have hsym : (∀ e ∈ es, e.pad.1 = e.pad.2) ∧ ∀ e ∈ es, e.pad.1 < 2 ^ 63 := by
    cases pv with
    | none =>
      have h0 : ∀ e ∈ es, e.pad.1 = 0 ∧ e.pad.2 = 0 := by
        intro e he
        have hp := hpads.2
        simp only [Option.getD_none] at hp
        have m1 : ((e.pad.1 : Nat) : Int) ∈ List.replicate (2 * d) (0 : Int) := by
          rw [hp]; exact List.mem_append_left _ (List.mem_map.2 ⟨e.pad, List.mem_map.2 ⟨e, he, rfl⟩, rfl⟩)
        have m2 : ((e.pad.2 : Nat) : Int) ∈ List.replicate (2 * d) (0 : Int) := by
          rw [hp]; exact List.mem_append_right _ (List.mem_map.2 ⟨e.pad, List.mem_map.2 ⟨e, he, rfl⟩, rfl⟩)
        have := List.eq_of_mem_replicate m1
        have := List.eq_of_mem_replicate m2
        omega
      exact ⟨fun e he => by rw [(h0 e he).1, (h0 e he).2], fun e he => by rw [(h0 e he).1]; decide⟩
    | some l =>
      obtain ⟨q1, q2⟩ := s8 l hpv
      refine ⟨fun e he => pads_halves hpads q2 e.pad (List.mem_map.2 ⟨e, he, rfl⟩), fun e he => ?_⟩
      have m1 : ((e.pad.1 : Nat) : Int) ∈ l := by
        have := hpads.2
        simp only [Option.getD_some] at this
        rw [this]; exact List.mem_append_left _ (List.mem_map.2 ⟨e.pad, List.mem_map.2 ⟨e, he, rfl⟩, rfl⟩)
      have := q1 _ m1
      omega
  have hok : TransposeOk ⟨kv, sv, pv, dv, ap, ov, g⟩ es := by
    subst hes
    refine ⟨k2, fun e => ?_, ?_, ?_, ?_, hpads, hsym.2, hsym.1, a2⟩
    · simp only at e
      rw [e] at k1
      exact s3.2 k1
    · simpa using t2
    · simpa using d2
    · simpa using o2
  have hn : es.length = 1 ∨ es.length = 2 ∨ es.length = 3 := by
    rw [hes]
    simpa only [Op.axesOk, Bool.or_eq_true, beq_iff_eq, or_assoc] using hd
  have hl : ∀ e ∈ es, 0 ≤ transposedLength e.input e.pad.1 e.pad.2 e.kernel e.stride e.dilation e.outPad := by
    have := hc.sizes
    clear hok hn hsym hpos hc hX hW hpads hes hk hst' hdi hop k2 t2 d2 o2
    induction this with
    | nil => simp
    | cons e _ ih =>
      intro x hx
      rcases List.mem_cons.1 hx with rfl | hx
      · rw [e]; omega
      · exact ih x hx
  obtain ⟨y, outs', p1, p2⟩ := C75_convTranspose_partial hn hok hpos hl hg1 hg0 hg63 hX hW (b := convBias st n.inputs[2]?)
    (fun t e => hb t (by rw [← hbias.2, e]; rfl)) hbias.1
  rw [hbias.2] at p2
  rw [hes, convTransposeT_unique p2 hc] at p1
  exact works_dev h (by simp [nodeCode, convTransposeCode, hwi, hattrs, hrw, hsw, OVal.shape]; rfl) ha (s1 a ha) hx0 hy (by rw [hX]; simp)
    (by rw [hc.shape]; simp) p1

end OnnxIR
