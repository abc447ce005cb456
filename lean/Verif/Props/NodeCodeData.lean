import Verif.Props.AxisOps
import Verif.Props.DepthSpace
import Verif.Props.Fill
import Verif.Props.NodeCodeNet
import Verif.Props.Slice

/-!
# C80 for operators that move, repeat, cut out or compare elements, and the remaining ones with constant parameters
-/

namespace OnnxIR

open Gen Onnx

variable {erf : ℝ → ℝ} {pick : Nat → Int → Option Nat} {st : Store OVal} {opset : Nat} {n : Node OVal} {xs : List (Option OVal)} {ys : List OVal}

/-! ### Functions of tensors of any kind -/

theorem any_rel {P : {α : Type} → [Elem α] → Tensor α → Tensor α → Prop} {f : {α : Type} → [Elem α] → Tensor α → Option (Tensor α)}
    {t u : TensorType} {r : RustVal} {v w : OVal} (hr : Holds (.tensor t) r v) (hv : Onnx.Rel P v w) (ho : burn.fits (.tensor u) w)
    (hw : v.shape ≠ [] → w.shape ≠ []) (hf : ∀ {α : Type} [Elem α] (X Z : Tensor α), v.shape = X.shape → P X Z → f X = some Z) :
    ∃ z, onAny f r = some z ∧ Holds (.tensor u) z w := by
  refine lift_rel hr hv ho ?_
  intro α _ x X Z _ hX hZ hx hP
  match x, hx with
  | .dev y, hx =>
    obtain ⟨rfl, hl, hp⟩ := hx
    refine ⟨.dev Z, ?_, ?_⟩
    · simp [hf _ Z hX hP]
    · have h2 : w.shape.length = u.rank := ho.2
      refine ⟨rfl, ?_, ?_⟩
      · rw [← hZ]; exact h2
      · rw [← h2]; exact List.length_pos_iff.2 (hw fun e => by rw [hX] at e; rw [e] at hl; simp at hl; omega)

theorem works_any {op : Op} {P : {α : Type} → [Elem α] → Tensor α → Tensor α → Prop}
    {f : {α : Type} → [Elem α] → Tensor α → Option (Tensor α)} {a o : Arg OVal} {t u : TensorType} {v w : OVal}
    (h : RunOf st n xs ys) (hc : nodeCode erf pick st opset n op = some ⟨[.arg 0], eff1 (onAny f)⟩)
    (hi : n.inputs[0]? = some a) (hr : AtRunTime a) (hx : xs[0]? = some (some v)) (ho : n.outputs = [o]) (hy : ys = [w])
    (hta : a.ty = .tensor t) (hto : o.ty = .tensor u) (hw : v.shape ≠ [] → w.shape ≠ []) (hrel : Onnx.Rel P v w)
    (hf : ∀ {α : Type} [Elem α] (X Z : Tensor α), v.shape = X.shape → P X Z → f X = some Z) :
    Works erf pick st opset n xs ys op := by
  have hof := h.fits 0 o w (by simp [ho]) (by simp [hy])
  refine works_one hc hi hr hx ho hy fun r hr => ?_
  rw [hta] at hr
  rw [hto] at hof ⊢
  exact any_rel hr hrel hof hw hf

/-- A shape that follows from the one of the operand. -/
theorem rel_shape {P : {α : Type} → [Elem α] → Tensor α → Tensor α → Prop} {Q : List Nat → List Nat → Prop} {v w : OVal}
    (h : Onnx.Rel P v w) (hq : ∀ {α : Type} [Elem α] (X Z : Tensor α), P X Z → Q X.shape Z.shape) : Q v.shape w.shape := by
  cases v <;> cases w <;> first | exact hq _ _ h | exact h.elim

/-- The rank of a tensor that an argument of tensor type holds. -/
theorem RunOf.tensor (h : RunOf st n xs ys) {k : Nat} {a : Arg OVal} {v : OVal} {t : TensorType} (ha : n.inputs[k]? = some a)
    (hr : AtRunTime a) (hx : xs[k]? = some (some v)) (ht : a.ty = .tensor t) : v.shape.length = t.rank := by
  have := (h.fitsIn ha hr hx).2
  rw [ht] at this
  exact this

/-- The type of the output is the one of the first input. -/
theorem first_type {o a : Arg OVal} (hi : n.inputs[0]? = some a) (ho : n.outputs = [o]) {l : Option ArgType}
    (hl : l = Infer.sameAsInput (n.inputs.map Arg.ty)) (ht : l.map ([·]) = some (n.outputs.map Arg.ty)) : o.ty = a.ty := by
  have := one_type ho ht
  rw [hl] at this
  cases hn : n.inputs with
  | nil => simp [hn] at hi
  | cons b l =>
    rw [hn] at hi this
    obtain rfl : b = a := by simpa using hi
    exact (Option.some.inj this).symm

theorem copied_type {o a : Arg OVal} {prefs : OutPrefs} (hi : n.inputs[0]? = some a) (ho : n.outputs = [o])
    (ht : Infer.apply st opset n prefs .copied = some (n.outputs.map Arg.ty)) : o.ty = a.ty := by
  simp only [Infer.apply, Infer.inTy, hi, Option.map_some, Option.bind_some, Infer.copyFirst] at ht
  exact (Option.some.inj (one_type ho ht)).symm

/-- A constant list of integers. -/
theorem read_ints (hst : StoreOk st) (h : RunOf st n xs ys) {k : Nat} {s : Arg OVal} {t : Tensor Int} (hs : n.inputs[k]? = some s)
    (hx : xs[k]? = some (some (.int t))) {v : OVal} (hv : st.read s = some v) : v = .int t ∧ (st.read s).bind st.ints = some t.data := by
  have := h.reads k s v hs hv
  rw [hx] at this
  obtain rfl : OVal.int t = v := Option.some.inj (Option.some.inj this)
  exact ⟨rfl, by rw [hv]; exact hst.ints t⟩

theorem scalar_data {α : Type} [Inhabited α] {t : Tensor α} (h : t.shape = []) : t.data = [t.get []] := by
  obtain ⟨x, hx⟩ : ∃ x, t.data = [x] := List.length_eq_one_iff.1 (by rw [t.size, h]; rfl)
  simp [Tensor.get, h, hx, flatIdx]

/-! ### Tile, Trilu, DepthToSpace, SpaceToDepth, Expand -/

theorem works_tile (hst : StoreOk st) (hm : Onnx.Meaning erf opset .tile n.attrs xs ys) (h : RunOf st n xs ys)
    (hs : Supported pick st opset n xs .tile) {prefs : OutPrefs}
    (ht : Infer.apply st opset n prefs .copied = some (n.outputs.map Arg.ty)) : Works erf pick st opset n xs ys .tile := by
  obtain ⟨v, t, w, hx, hsh, hrel, hy⟩ := hm
  obtain ⟨a, s, hi⟩ := h.input2 hx
  obtain ⟨o, ho, hof⟩ := h.output hy
  obtain ⟨ra, ty, hty⟩ := hs.1 a (by simp [hi])
  obtain ⟨c, hc, hd⟩ := hs.2 s (by simp [hi])
  obtain ⟨rfl, hread⟩ := read_ints (t := t) hst h (k := 1) (by simp [hi]) (by simp [hx]) hc
  have hto := copied_type (a := a) (by simp [hi]) ho ht
  rw [hty] at hto
  exact works_any (f := fun u => genTile (.static t.data) u) h
    (by simp [nodeCode, tileRepeats, hi, hc, hd, hst.ints]) (by simp [hi]) ra (by simp [hx]) ho hy hty hto
    (rel_shape (Q := fun s s' => s ≠ [] → s' ≠ []) hrel fun X Z hZ hne e => hne (List.length_eq_zero_iff.1 (by rw [← hZ.rank, e]; rfl)))
    hrel fun X Z _ hZ => C62_tile_partial hZ

theorem works_trilu (hst : StoreOk st) (hm : Onnx.Meaning erf opset .trilu n.attrs xs ys) (h : RunOf st n xs ys)
    (hs : Supported pick st opset n xs .trilu) {prefs : OutPrefs}
    (ht : Infer.apply st opset n prefs .same = some (n.outputs.map Arg.ty)) : Works erf pick st opset n xs ys .trilu := by
  obtain ⟨v, w, u, k, hdiag, hu, hk, hr2, hrel, hy⟩ := hm
  obtain ⟨o, ho, hof⟩ := h.output hy
  have hx0 : xs[0]? = some (some v) := by rcases hdiag with ⟨h1, -⟩ | ⟨t, h1, -⟩ <;> simp [h1]
  obtain ⟨a, hi⟩ := h.input (k := 0) (by rcases hdiag with ⟨h1, -⟩ | ⟨t, h1, -⟩ <;> simp [h1])
  obtain ⟨ra, ty, hty⟩ := hs.1 a hi
  have hto : o.ty = a.ty := first_type hi ho rfl ht
  obtain ⟨d, hd, hkd⟩ : ∃ d, triluIn st n = some d ∧ (d = .static k ∨ d = .absent ∧ k = 0) := by
    rcases hdiag with ⟨h1, rfl⟩ | ⟨t, h1, h2, rfl⟩
    · exact ⟨.absent, by simp [triluIn, h.noInput (k := 1) (by simp [h1])], .inr ⟨rfl, rfl⟩⟩
    · obtain ⟨s, hs1⟩ := h.input (k := 1) (by simp [h1])
      obtain ⟨c, hc, hdt⟩ := hs.2 s hs1
      obtain ⟨rfl, -⟩ := read_ints (t := t) hst h hs1 (by simp [h1]) hc
      refine ⟨.static (t.get []), ?_, .inl rfl⟩
      simp [triluIn, hs1, hc, hdt, (scalar_data h2)]
  have key : Works erf pick st opset n xs ys .trilu := by
    refine works_one (f := onNumbers fun x => genTrilu (Elem.ofInt 0) (u.getD 1 != 0) d x) (v := v)
      (by simp [nodeCode, (intAttr_read hu).2, hd]) hi ra hx0 ho hy fun r hr => ?_
    have hnb : onNumbers (fun x => genTrilu (Elem.ofInt 0) (u.getD 1 != 0) d x) r =
        onAny (fun x => genTrilu (Elem.ofInt 0) (u.getD 1 != 0) d x) r := by
      cases r with
      | bool g => cases v <;> first | exact absurd rfl hk | exact hr.elim
      | _ => rfl
    rw [hnb]
    rw [hto, hty] at hof ⊢
    rw [hty] at hr
    refine any_rel hr hrel hof (rel_shape (Q := fun s s' => s ≠ [] → s' ≠ []) hrel fun X Z hZ hne => by rw [hZ]; exact hne) fun X Z hX hZ => ?_
    rw [hX] at hr2
    rw [hZ, C62_trilu_partial hr2 hkd]
  exact key

theorem blockSize_eq {bs : Nat} (hb : HasInt n.attrs "blocksize" (some (Int.ofNat bs))) (hlt : ∀ b, HasInt n.attrs "blocksize" (some b) → b < 2 ^ 63) :
    blockSize n = some bs := by
  have := hlt _ hb
  unfold HasInt at hb
  simp only [blockSize, hb, Option.map_some, Option.some.injEq, OnnxIR.asUsize]
  have h2 : (bs : Int) < 2 ^ 63 := this
  rw [Int.emod_eq_of_lt (by simp) (by omega)]
  simp

theorem works_depthToSpace (hm : Onnx.Meaning erf opset .depthToSpace n.attrs xs ys) (h : RunOf st n xs ys)
    (hs : Supported pick st opset n xs .depthToSpace) {prefs : OutPrefs}
    (ht : Infer.apply st opset n prefs .depthToSpace = some (n.outputs.map Arg.ty)) : Works erf pick st opset n xs ys .depthToSpace := by
  obtain ⟨v, w, bs, m, hx, hb, hpos, hmode, hrel, hy⟩ := hm
  obtain ⟨a, hi⟩ := h.input1 hx
  obtain ⟨o, ho, hof⟩ := h.output hy
  have ra := hs.1 a (by simp [hi])
  have hbs := blockSize_eq hb hs.2
  have hmd : depthMode n = some m := by
    rcases hmode with ⟨h1, rfl⟩ | h1
    · simp [depthMode, h1]
    · cases m <;> simp [depthMode, h1, depthText]
  obtain ⟨t, u, hta, hto⟩ : ∃ t u, a.ty = .tensor t ∧ o.ty = .tensor u := by
    unfold HasInt at hb
    simp only [Infer.apply, hb, Option.map_some, Infer.inTy, hi, List.getElem?_cons_zero] at ht
    have ht' := one_type ho ht
    cases hty : a.ty with
    | tensor t =>
      rw [hty] at ht'
      simp only [Infer.depthToSpace] at ht'
      split at ht'
      · cases ht'
      · split at ht'
        · exact ⟨t, _, rfl, (Option.some.inj ht').symm⟩
        · exact ⟨t, _, rfl, (Option.some.inj ht').symm⟩
        · cases ht'
    | _ => rw [hty] at ht'; simp [Infer.depthToSpace] at ht'
  refine works_any (f := fun u => depthToSpace m bs u) h (by simp [nodeCode, hbs, hmd]) (by simp [hi]) ra (by simp [hx]) ho hy hta hto
    (rel_shape (Q := fun s s' => s ≠ [] → s' ≠ []) hrel fun X Z hZ _ => ?_) hrel fun X Z _ hZ => ?_
  · obtain ⟨b, c, hh, ww, -, e, -⟩ := hZ
    rw [e]; simp
  · obtain ⟨b, c, hh, ww, e, -⟩ := id hZ
    obtain ⟨y, h1, h2⟩ := C48_depth_to_space m hpos e
    rw [h1, C48_depth_to_space_unique hpos h2 hZ]

theorem works_spaceToDepth (hm : Onnx.Meaning erf opset .spaceToDepth n.attrs xs ys) (h : RunOf st n xs ys)
    (hs : Supported pick st opset n xs .spaceToDepth) {prefs : OutPrefs}
    (ht : Infer.apply st opset n prefs .spaceToDepth = some (n.outputs.map Arg.ty)) : Works erf pick st opset n xs ys .spaceToDepth := by
  obtain ⟨v, w, bs, hx, hb, hpos, hrel, hy⟩ := hm
  obtain ⟨a, hi⟩ := h.input1 hx
  obtain ⟨o, ho, hof⟩ := h.output hy
  have ra := hs.1 a (by simp [hi])
  have hbs := blockSize_eq hb hs.2
  obtain ⟨t, u, hta, hto⟩ : ∃ t u, a.ty = .tensor t ∧ o.ty = .tensor u := by
    unfold HasInt at hb
    simp only [Infer.apply, hb, Option.map_some, Infer.inTy, hi, List.getElem?_cons_zero] at ht
    have ht' := one_type ho ht
    cases hty : a.ty with
    | tensor t =>
      rw [hty] at ht'
      simp only [Infer.spaceToDepth] at ht'
      split at ht'
      · cases ht'
      · split at ht'
        · exact ⟨t, _, rfl, (Option.some.inj ht').symm⟩
        · exact ⟨t, _, rfl, (Option.some.inj ht').symm⟩
        · cases ht'
    | _ => rw [hty] at ht'; simp [Infer.spaceToDepth] at ht'
  refine works_any (f := fun u => spaceToDepth bs u) h (by simp [nodeCode, hbs]) (by simp [hi]) ra (by simp [hx]) ho hy hta hto
    (rel_shape (Q := fun s s' => s ≠ [] → s' ≠ []) hrel fun X Z hZ _ => ?_) hrel fun X Z _ hZ => ?_
  · obtain ⟨b, c, hh, ww, -, e, -⟩ := hZ
    rw [e]; simp
  · obtain ⟨b, c, hh, ww, e, -⟩ := id hZ
    obtain ⟨y, h1, h2⟩ := C48_space_to_depth hpos e
    rw [h1, C48_space_to_depth_unique hpos h2 hZ]

theorem works_expand (hst : StoreOk st) (hm : Onnx.Meaning erf opset .expand n.attrs xs ys) (h : RunOf st n xs ys)
    (hs : Supported pick st opset n xs .expand) {prefs : OutPrefs}
    (ht : Infer.apply st opset n prefs .expand = some (n.outputs.map Arg.ty)) : Works erf pick st opset n xs ys .expand := by
  obtain ⟨v, t, target, out, w, hx, hsh, htg, hexp, hrel, hy⟩ := hm
  obtain ⟨a, s, hi⟩ := h.input2 hx
  obtain ⟨o, ho, hof⟩ := h.output hy
  obtain ⟨ra, n1, n2⟩ := hs.1 a (by simp [hi])
  obtain ⟨c, hc⟩ := hs.2.1 s (by simp [hi])
  obtain ⟨g1, g2, g3⟩ := hs.2.2 v t hx
  obtain ⟨rfl, hread⟩ := read_ints (t := t) hst h (k := 1) (by simp [hi]) (by simp [hx]) hc
  rw [htg] at hread
  obtain ⟨u, hu, hrank⟩ : ∃ u : TensorType, o.ty = .tensor u ∧ u.rank = target.length := by
    simp only [Infer.apply, Infer.inTy, hi, ho, List.getElem?_cons_zero, List.getElem?_cons_succ, Option.map_some, Infer.readInts, hc,
      hst.ints, htg, Option.bind_some] at ht
    have ht' := one_type ho (by rw [ho]; exact ht)
    unfold Infer.expand at ht'
    split at ht'
    · obtain ⟨d, -, h2⟩ := Option.bind_eq_some_iff.1 ht'
      exact ⟨_, (Option.some.inj h2).symm, by simp⟩
    · cases ht'
  refine works_one (f := RustVal.lift fun v => genExpand (target.map Int.ofNat) a.ty o.ty v) (v := v)
    (by simp only [nodeCode, hi, ho, hread, Option.map_some]) (by simp [hi]) ra (by simp [hx]) ho hy fun r hr => ?_
  refine lift_rel hr hrel hof ?_
  intro α _ x X Z _ hX _ hrx hXZ
  rw [hX] at hexp g2 g3
  rw [hu]
  obtain ⟨z, Z', k1, k2, k3, k4⟩ := C56_expand_partial (o := u) hrx n1 (fun e => g1 (by rw [htg, e]; rfl)) hrank
    (by rw [htg] at g2; simpa using g2) g3 n2 hexp
  obtain rfl : Z' = Z := by
    refine Tensor.eq_of_get (k3.trans hXZ.1.symm) fun j hj => ?_
    rw [k3] at hj
    rw [k4 j hj, hXZ.2 j hj]
  exact ⟨z, k1, k2⟩

/-! ### Pad and Dropout -/

theorem works_pad (hst : StoreOk st) (hm : Onnx.Meaning erf opset .pad n.attrs xs ys) (h : RunOf st n xs ys)
    (hs : Supported pick st opset n xs .pad) : Works erf pick st opset n xs ys .pad := by
  obtain ⟨X, mode, pads, value, Z, hop, hmode, hZ, hy⟩ := hm
  obtain ⟨o, ho, hof⟩ := h.output hy
  have hx0 : xs[0]? = some (some (.float X)) ∧ xs.length < 4 := by
    rcases hop with ⟨h1, -⟩ | ⟨t, v, h1 | h1, -⟩
    · simp [h1]
    · simp [h1.1]
    · simp [h1]
  obtain ⟨a, hi⟩ := h.input (k := 0) (List.getElem?_eq_some_iff.1 hx0.1).1
  obtain ⟨ra, ty, hty⟩ := hs.1 a hi
  have hlen : n.inputs.length < 4 := by rw [← h.ops.length]; exact hx0.2
  have hmd : padMode n = some mode := by
    rcases hmode with ⟨h1, rfl⟩ | h1
    · simp [padMode, h1]
    · cases mode <;> simp [padMode, h1, fillText]
  have hpads : padAmounts st n = some pads := by
    rcases hop with ⟨-, h2, h3, -⟩ | ⟨t, v, h1, -, rfl, -, -, h2, h3, -⟩
    · unfold HasInts at h2
      simp [padAmounts, h2, h3]
    · have hx1 : xs[1]? = some (some (.int t)) := by
        rcases h1 with h1 | h1
        · simp [h1.1]
        · simp [h1]
      obtain ⟨s, hs1⟩ := h.input (k := 1) (List.getElem?_eq_some_iff.1 hx1).1
      obtain ⟨c, hc⟩ := hs.2.2.1 s hs1
      obtain ⟨rfl, hr⟩ := read_ints (t := t) hst h hs1 hx1 hc
      simp [padAmounts, h2, h3, hs1, hr]
  have hZs : X.shape ≠ [] → Z.shape ≠ [] := fun hne e => hne (List.length_eq_zero_iff.1 (by rw [← hZ.rank, e]; rfl))
  have hXs : ∀ r, Holds a.ty r (.float X) → r = .float (.dev X) ∧ X.shape ≠ [] := by
    intro r hr
    rw [hty] at hr
    refine ⟨float_tensor hr, fun e => ?_⟩
    obtain ⟨g, rfl, -, hg⟩ := holds_float hr
    match g, hg with
    | .dev y, hg => have := hg.2.1; have h3 := hg.2.2; rw [e] at this; simp at this; omega
  -- the value is known
  have known : padConstant st n = some (some value) → Works erf pick st opset n xs ys .pad := by
    intro hc
    refine works_one (f := onDev (genPad n.inputs.length mode (.static pads) (.static true value))) (v := .float X)
      (by cases mode <;> simp [nodeCode, padCode, hmd, hpads, hc]) hi ra hx0.1 ho hy fun r hr => ?_
    obtain ⟨rfl, hne⟩ := hXs r hr
    have := C62_pad_partial (ofInt := Elem.ofInt) (pv := .static true value) hlen (fun _ => ⟨rfl, rfl⟩) hZ
    exact ⟨.float (.dev Z), by simp [onDev, onFloat, this], fits_tensor hof (hZs hne)⟩
  rcases hop with ⟨h1, -, -, v, hv, hval⟩ | ⟨t, v, h1, -, -, hvs, hval, -, -, hv⟩
  · refine known ?_
    obtain ⟨b, hb, rfl⟩ := hv
    cases b with
    | none =>
      simp only [Option.map_none, Option.getD_none] at hb hval
      simp [padConstant, hb, h.noInput (k := 2) (by simp [h1]), hval]
    | some b =>
      simp only [Option.map_some, Option.getD_some] at hb hval
      have := hs.2.1 b hb
      rw [show padConstant st n = if b / 2 ^ 23 % 256 = 255 then none else some (some (f32 b)) by simp only [padConstant, hb], if_neg this, hval]
  · rcases h1 with ⟨h1, rfl⟩ | h1
    · refine known ?_
      simp only [Option.map_none, Option.getD_none] at hval
      simp [padConstant, hv, h.noInput (k := 2) (by simp [h1]), hval]
    · obtain ⟨c, hc⟩ := h.input (k := 2) (by simp [h1])
      have hx2 : xs[2]? = some (v.map .float) := by simp [h1]
      rcases hs.2.2.2 c hc with hopt | ⟨w, hw, hd⟩ | ⟨hno, hrun⟩
      · refine known ?_
        have := h.ops.absent 2 c hc hopt
        rw [hx2] at this
        cases v with
        | some u => cases this
        | none =>
          simp only [Option.map_none, Option.getD_none] at hval
          simp [padConstant, hv, hc, hopt, hval]
      · refine known ?_
        have := h.reads 2 c w hc hw
        rw [hx2] at this
        cases v with
        | none => cases this
        | some u =>
          obtain rfl : OVal.float u = w := Option.some.inj (Option.some.inj this)
          have h0 := scalar_data (hvs u rfl)
          simp only [Option.map_some, Option.getD_some] at hval
          have hsf : scalarFloat st (.float u) = some value := by simp [scalarFloat, hd, h0, hval]
          cases hsrc : c.src with
          | optional =>
            have := h.ops.absent 2 c hc hsrc
            rw [hx2] at this
            cases this
          | _ => simp [padConstant, hv, hc, hsrc, hw, hsf]
      · obtain ⟨w, hw, hfw⟩ := h.ops.run 2 c hc hrun
        rw [hx2] at hw
        cases v with
        | none => cases hw
        | some u =>
          obtain rfl : OVal.float u = w := Option.some.inj (Option.some.inj hw)
          simp only [Option.map_some, Option.getD_some] at hval
          have hpc : padConstant st n = some none := by
            rcases hrun with hsrc | hsrc <;> simp [padConstant, hv, hc, hsrc, hno]
          by_cases hmc : mode = .constant
          · subst hmc
            have hcode : nodeCode erf pick st opset n .pad = some ⟨[.arg 0, .arg 2], eff2 fun
                | .float (.dev x), .float g => (genPad n.inputs.length .constant (.static pads) (.runtime c.ty g) x).map fun z => .float (.dev z)
                | _, _ => none⟩ := by
              simp only [nodeCode, padCode, hmd, hpads, hpc, Infer.inTy, hc, Option.map_some]
              rfl
            refine ⟨_, hcode, by simp [Use.index], ?_, ?_⟩
            · intro q hq
              simp only [List.mem_cons, List.not_mem_nil, or_false] at hq
              rcases hq with rfl | rfl
              · exact ⟨a, hi, ra⟩
              · exact ⟨c, hc, hrun⟩
            · intro rs hl hr
              match rs, hl with
              | [r0, r2], _ =>
                obtain ⟨a', v', e1, e2, e3⟩ := hr 0 (.arg 0) r0 rfl rfl
                obtain ⟨c', u', f1, f2, f3⟩ := hr 1 (.arg 2) r2 rfl rfl
                have e1 : n.inputs[0]? = some a' := e1
                have e2 : xs[0]? = some (some v') := e2
                have f1 : n.inputs[2]? = some c' := f1
                have f2 : xs[2]? = some (some u') := f2
                rw [hi] at e1
                rw [hx0.1] at e2
                rw [hc] at f1
                rw [hx2] at f2
                cases e1; cases e2; cases f1; cases f2
                obtain ⟨rfl, hne⟩ := hXs r0 e3
                obtain ⟨g, rfl, -, hg⟩ := holds_float f3
                have := C62_pad_partial (ofInt := Int.cast) (pv := .runtime c.ty g) (v := value) hlen
                  (fun _ => ⟨u, hg, hvs u rfl, by rw [scalar_data (hvs u rfl), hval]⟩) hZ
                refine ⟨[.float (.dev Z)], by simp [eff2, this], by simp [hy], ?_⟩
                intro k o' w' y' k1 k2 k3
                subst hy
                rw [ho] at k1
                cases k with
                | zero =>
                  simp only [List.getElem?_cons_zero, Option.some.injEq] at k1 k2 k3
                  subst k1 k2 k3
                  exact fits_tensor hof (hZs hne)
                | succ k => simp at k1
          · refine works_one (f := onDev (genPad n.inputs.length mode (.static pads) (.static true 0))) (v := .float X)
              (by cases mode <;> simp_all [nodeCode, padCode]) hi ra hx0.1 ho hy fun r hr => ?_
            obtain ⟨rfl, hne⟩ := hXs r hr
            have := C62_pad_partial (ofInt := Elem.ofInt) (pv := .static true 0) hlen (fun e => absurd e hmc) hZ
            exact ⟨.float (.dev Z), by simp [onDev, onFloat, this], fits_tensor hof (hZs hne)⟩

theorem works_dropout (hm : Onnx.Meaning erf opset .dropout n.attrs xs ys) (h : RunOf st n xs ys)
    (hs : Supported pick st opset n xs .dropout) : Works erf pick st opset n xs ys .dropout := by
  obtain ⟨X, hx, -, hy⟩ := hm
  rw [List.head?_eq_getElem?] at hx
  obtain ⟨o, ho, hof⟩ := h.output hy
  obtain ⟨a, hi⟩ := h.input (k := 0) (List.getElem?_eq_some_iff.1 hx).1
  obtain ⟨ra, ty, hty⟩ := hs.1 a hi
  refine works_one (f := onDev some) (v := .float X) ?_ hi ra hx ho hy fun r hr => ?_
  · rcases hs.2 with ⟨b, hb⟩ | ⟨h1, s, t, h2, h3, h4, h5⟩
    · simp [nodeCode, dropoutCode, ho, hb]
    · simp [nodeCode, dropoutCode, ho, h1, h2, h3, scalarFloat, h4, scalar_data h5]
  · rw [hty] at hr
    obtain rfl := float_tensor hr
    obtain ⟨g, hg0, -, hg⟩ := holds_float hr
    refine ⟨.float (.dev X), rfl, fits_tensor hof fun e => ?_⟩
    cases hg0
    have := hg.2.1; have h3 := hg.2.2; rw [e] at this; simp at this; omega

/-! ### Mean, Max, Min, PRelu, GroupNormalization -/

theorem works_mean (hm : Onnx.Meaning erf opset .mean n.attrs xs ys) (h : RunOf st n xs ys)
    (hs : Supported pick st opset n xs .mean) {prefs : OutPrefs}
    (ht : Infer.apply st opset n prefs (.broadcast none) = some (n.outputs.map Arg.ty)) : Works erf pick st opset n xs ys .mean := by
  obtain ⟨Xs, Z, hx, hZ, hy⟩ := hm
  obtain ⟨s1, ⟨a, ha, had⟩, r, s2⟩ := hs
  obtain ⟨o, ho, hof⟩ := h.output hy
  have hlen : Xs.length = n.inputs.length := by rw [← h.ops.length, hx]; simp
  simp only [Infer.apply] at ht
  have ht' := one_type ho ht
  refine ⟨_, rfl, ?_, fun u hu => ?_, fun rs hl hr => ?_⟩
  · simp only [List.map_map]
    rw [show Use.index ∘ Use.arg = id from rfl, List.map_id]
    exact List.nodup_range
  · obtain ⟨j, hj, rfl⟩ := List.mem_map.1 hu
    have hj := List.mem_range.1 hj
    exact ⟨n.inputs[j], List.getElem?_eq_getElem hj, s1 _ (List.getElem_mem hj)⟩
  · simp only [List.length_map, List.length_range] at hl
    obtain ⟨gs, rfl, hgs⟩ := all_hold (α := ℝ) (fun h => by
      obtain ⟨v, h1, -, h2⟩ := holds_float h
      exact ⟨v, h1, h2⟩) (n.inputs.map Arg.ty) Xs rs (by simpa using hl) (by simpa using hlen) fun k r hkr => by
        have hj : k < n.inputs.length := by rw [← hl]; exact (List.getElem?_eq_some_iff.1 hkr).1
        obtain ⟨b, v, k1, k2, k3⟩ := hr k (.arg k) r (by simp [hj]) hkr
        have k2 : xs[k]? = some (some v) := k2
        rw [hx, List.getElem?_map] at k2
        obtain ⟨X, h1, h2⟩ := Option.map_eq_some_iff.1 k2
        refine ⟨b.ty, X, ?_, h1, ?_⟩
        · rw [List.getElem?_map, show n.inputs[k]? = some b from k1]; rfl
        · rw [← Option.some.inj h2] at k3
          exact k3
    obtain ⟨z, z1, z2⟩ := C58_mean_partial (divCount := fun (x : ℝ) k => x / k) hgs s2
      (List.any_eq_true.2 ⟨a.ty, List.mem_map_of_mem ha, had⟩) ht' hZ
    have hfl : floats (gs.map Elem.rust) = some gs := floats_map gs
    refine ⟨[.float z], by simp only [hfl, Option.bind_some, z1, Option.map_some], by simp [hy], fun k o' w y k1 k2 k3 => ?_⟩
    subst hy
    rw [ho] at k1
    cases k with
    | zero =>
      simp only [List.getElem?_cons_zero, Option.some.injEq] at k1 k2 k3
      subst k1 k2 k3
      exact ⟨hof.1, z2⟩
    | succ k => simp at k1

theorem works_pair {op : Op} {f : ℝ → ℝ → ℝ} (hcode : ∀ {a b : Arg OVal}, n.inputs = [a, b] →
    nodeCode erf pick st opset n op =
      some ⟨[.arg 0, .arg 1], eff2 (onSame (bin (pairCode f) a.ty b.ty) (fun _ _ => none) fun _ _ => none)⟩)
    {X Y Z : Tensor ℝ} (hx : xs = [some (.float X), some (.float Y)]) (hZ : Tensor.zipBcast f X Y = some Z) (hy : ys = [.float Z])
    (h : RunOf st n xs ys) (hs : ∀ a ∈ n.inputs, AtRunTime a ∧ ∃ t, a.ty = .tensor t) {prefs : OutPrefs}
    (ht : Infer.apply st opset n prefs (.broadcast none) = some (n.outputs.map Arg.ty)) : Works erf pick st opset n xs ys op := by
  obtain ⟨a, b, hi⟩ := h.input2 hx
  obtain ⟨o, ho, hof⟩ := h.output hy
  have htt := broadcast_type hi ho ht
  obtain ⟨ra, t, hta⟩ := hs a (by simp [hi])
  obtain ⟨rb, u, htb⟩ := hs b (by simp [hi])
  refine works_two (u1 := .arg 1) (hcode hi) rfl hi ra rb hx ho hy fun r s hr hq => ?_
  obtain ⟨v, rfl, hk, hv⟩ := holds_float hr
  obtain ⟨w, rfl, hk', hw⟩ := holds_float hq
  have n1 : a.ty.kind ≠ .int := by rw [hk]; exact nofun
  have n2 : b.ty.kind ≠ .int := by rw [hk']; exact nofun
  obtain ⟨z, k1, k2⟩ := C55_binary_partial (toInt := Elem.toInt) (pairCode_computes f Int.cast) hv hw (ne_array hv hw n1 n2)
    (items_none hv hw n1 n2) hZ htt (by rw [hta, htb]; exact .inl rfl)
  exact ⟨.float z, by simp only [onSame, bin]; erw [k1]; rfl, hof.1, k2⟩

theorem works_prelu (hm : Onnx.Meaning erf opset .prelu n.attrs xs ys) (h : RunOf st n xs ys)
    (hs : Supported pick st opset n xs .prelu) : Works erf pick st opset n xs ys .prelu := by
  obtain ⟨X, S, Z, hx, hb, hZ, hy⟩ := hm
  obtain ⟨a, s, hi⟩ := h.input2 hx
  obtain ⟨o, ho, hof⟩ := h.output hy
  obtain ⟨ra, ty, hty⟩ := hs.1 a (by simp [hi])
  obtain ⟨⟨c, hc⟩, hok⟩ := hs.2 s (by simp [hi])
  have hrd := h.reads 1 s c (by simp [hi]) hc
  rw [hx] at hrd
  obtain rfl : OVal.float S = c := Option.some.inj (Option.some.inj hrd)
  obtain ⟨y, h1, h2⟩ := C65_prelu_partial hb (hok (.float X) (.float S) hx)
  rw [hZ] at h2
  obtain rfl := Option.some.inj h2
  have hZs : Z.shape = X.shape := by
    unfold Tensor.zipBcast at hZ
    rw [hb] at hZ
    rw [← Option.some.inj hZ]
    rfl
  refine works_one (f := onDev (genPRelu s.ty (some S))) (v := .float X) (by simp [nodeCode, hi, readFloat, hc]) (by simp [hi]) ra
    (by simp [hx]) ho hy fun r hr => ?_
  rw [hty] at hr
  obtain rfl := float_tensor hr
  obtain ⟨g, hg0, -, hg⟩ := holds_float hr
  refine ⟨.float (.dev Z), by simp [onDev, onFloat, h1], fits_tensor hof fun e => ?_⟩
  cases hg0
  have := hg.2.1; have h3 := hg.2.2; rw [hZs] at e; rw [e] at this; simp at this; omega

theorem works_groupNorm (hm : Onnx.Meaning erf opset .groupNorm n.attrs xs ys) (h : RunOf st n xs ys)
    (hs : Supported pick st opset n xs .groupNorm) : Works erf pick st opset n xs ys .groupNorm := by
  obtain ⟨X, s, b, eps, G, N, k, sx, hx, he, hg, hG, hX, hss, hbs, hy⟩ := hm
  obtain ⟨s1, s2, s3, s4⟩ := hs
  have hx0 : xs[0]? = some (some (.float X)) := by rw [hx]; rfl
  have hx1 : xs[1]? = some (some (.float s)) := by rw [hx]; rfl
  have hx2 : xs[2]? = some (some (.float b)) := by rw [hx]; rfl
  obtain ⟨a, ha⟩ := h.input (k := 0) (by rw [hx]; simp)
  obtain ⟨w, hw⟩ := h.input (k := 1) (by rw [hx]; simp)
  obtain ⟨c, hc⟩ := h.input (k := 2) (by rw [hx]; simp)
  have r1 := const_float s2 h hw hx1
  have r2 := const_float s2 h hc hx2
  have hst := s2.2 w _ hw hx1
  obtain ⟨h2, hop⟩ := s4 _ hx0
  have hk1 : opset < 21 → k = 1 := by
    intro hlt
    have := hop hlt N (G * k) sx hX
    unfold HasInt at this hg
    rw [hg] at this
    simp only [Option.map_some, Option.some.injEq, AttrVal.i64.injEq, Int.ofNat_eq_natCast, Int.natCast_inj] at this
    have : G * 1 = G * k := by omega
    exact (Nat.eq_of_mul_eq_mul_left hG this).symm
  have hshape : s.shape = [G * k] := by
    rw [hss]
    split
    · rename_i hlt
      rw [hk1 hlt]; simp
    · rfl
  have hgn : OnnxIR.asUsize (Int.ofNat G) = G := by
    have := s3 _ hg
    simp only [OnnxIR.asUsize]
    rw [Int.emod_eq_of_lt (by simp) (by omega)]
    simp
  have hval := C66_group_norm_partial (eps := eps) (perGroup := decide (opset < 21)) hX h2 hshape (hbs.trans hshape)
    fun e => hk1 (of_decide_eq_true e)
  unfold HasInt at hg
  refine works_dev h (f := genGroupNorm eps (some G) (.constant s) (.constant b)) ?_ ha (s1 a ha) hx0 hy (by rw [hX]; simp) ?_ hval
  · simp only [nodeCode, groupNormCode, hw, floatAttr_read he, hg, Option.map_some, r1, hc, hgn, paramIn, r2]
    rw [if_neg (by rw [hst]; simp [OVal.shape])]
  · rw [show (groupNormT (eps.getD 0.00001) G (decide (opset < 21)) X s b).shape = X.shape from rfl, hX]; simp

/-! ### ArgMax, ArgMin, Slice -/

theorem firstGreatest_spec {lt : ℝ → ℝ → Prop} (hirr : ∀ a, ¬ lt a a) (htr : ∀ a b c, lt a b → lt b c → lt a c)
    (htot : ∀ a b, lt a b ∨ a = b ∨ lt b a) (l : List ℝ) (hl : l ≠ []) : FirstMax lt l (firstGreatest lt l) := by
  classical
  have hex : ∀ l : List ℝ, l ≠ [] → ∃ x ∈ l, ∀ y ∈ l, ¬ lt x y := by
    intro l
    induction l with
    | nil => intro h; exact absurd rfl h
    | cons a l ih =>
      intro _
      by_cases hn : l = []
      · exact ⟨a, by simp, fun y hy => by simp [hn] at hy; rw [hy]; exact hirr a⟩
      · obtain ⟨x, hx, hm⟩ := ih hn
        by_cases hc : lt x a
        · refine ⟨a, by simp, fun y hy => ?_⟩
          rcases List.mem_cons.1 hy with rfl | hy
          · exact hirr _
          · exact fun h => hm y hy (htr _ _ _ hc h)
        · refine ⟨x, by simp [hx], fun y hy => ?_⟩
          rcases List.mem_cons.1 hy with rfl | hy
          · exact hc
          · exact hm y hy
  obtain ⟨x, hx, hm⟩ := hex l hl
  have hlt : firstGreatest lt l < l.length := by
    unfold firstGreatest
    exact List.findIdx_lt_length_of_exists ⟨x, hx, by simpa using hm⟩
  have hat := List.findIdx_getElem (xs := l) (p := fun x => @decide (∀ y ∈ l, ¬ lt x y) (Classical.propDecidable _)) (w := hlt)
  have hat : ∀ y ∈ l, ¬ lt (l[firstGreatest lt l]) y := by
    unfold firstGreatest
    simpa using hat
  refine ⟨l[firstGreatest lt l], List.getElem?_eq_getElem hlt, hat, fun j hj => ?_⟩
  have hjl : j < l.length := Nat.lt_trans hj hlt
  refine ⟨l[j], List.getElem?_eq_getElem hjl, ?_⟩
  have hnot := List.not_of_lt_findIdx (xs := l) (p := fun x => @decide (∀ y ∈ l, ¬ lt x y) (Classical.propDecidable _)) (i := j) hj
  simp only [decide_eq_false_iff_not, not_forall, not_not] at hnot
  obtain ⟨y, hy, hlty⟩ := hnot
  have := hat y hy
  rcases htot (l[firstGreatest lt l]) y with h | h | h
  · exact absurd h this
  · rw [h]; exact hlty
  · exact htr _ _ _ hlty h

theorem works_arg {op : Op} {lt : ℝ → ℝ → Prop} (hirr : ∀ a, ¬ lt a a) (htr : ∀ a b c, lt a b → lt b c → lt a c)
    (htot : ∀ a b, lt a b ∨ a = b ∨ lt b a) (hcode : nodeCode erf pick st opset n op = argMaxCode lt n)
    {X : Tensor ℝ} {axis keep : Option Int} {a : Nat} {Z : Tensor Int} (hx : xs = [some (.float X)]) (hax : HasInt n.attrs "axis" axis)
    (hk : HasInt n.attrs "keepdims" keep) (hidx : index X.shape.length (axis.getD 0) = some a)
    (hlast : n.attrs.lookup "select_last_index" = none ∨ n.attrs.lookup "select_last_index" = some (.i64 0))
    (hZ : ArgMaxT lt a (keep.getD 1 != 0) X Z) (hy : ys = [.int Z]) (h : RunOf st n xs ys) (hs : ∀ a ∈ n.inputs, AtRunTime a)
    {prefs : OutPrefs} (ht : Infer.apply st opset n prefs .argmax = some (n.outputs.map Arg.ty)) :
    Works erf pick st opset n xs ys op := by
  obtain ⟨x, hi⟩ := h.input1 hx
  obtain ⟨o, ho, hof⟩ := h.output hy
  have ra := hs x (by simp [hi])
  simp only [Infer.apply, (intAttr_read hk).2, Infer.inTy, hi, List.getElem?_cons_zero, Option.map_some] at ht
  split at ht
  · rename_i hkk
    have ht' := one_type ho ht
    have hl0 : Infer.attrInt n "select_last_index" 0 = some 0 := by
      rcases hlast with e | e <;> simp [Infer.attrInt, e]
    refine works_one (v := .float X) (f := fun
        | .float (.dev u) => (genArgMax (firstGreatest lt) axis (keep.getD 1 != 0) o.ty u).map .int
        | _ => none) ?_ (by simp [hi]) ra (by simp [hx]) ho hy fun r hr => ?_
    · rw [hcode]
      simp only [argMaxCode, (intAttr_read hax).1, (intAttr_read hk).2, hl0, ho]
      rw [if_pos ⟨hkk, trivial⟩]
      rfl
    · obtain ⟨v, rfl, -, hv⟩ := holds_float hr
      obtain ⟨u, z, rfl, k1, k2⟩ := C61_argmax (arg := firstGreatest lt) (fun l hl => firstGreatest_spec hirr htr htot l hl) hv hidx (.inl ht') hZ
      exact ⟨.int z, by simp only [k1, Option.map_some], hof.1, k2⟩
  · cases ht

theorem works_slice (hst : StoreOk st) (hm : Onnx.Meaning erf opset .slice n.attrs xs ys) (h : RunOf st n xs ys)
    (hs : Supported pick st opset n xs .slice) : Works erf pick st opset n xs ys .slice := by
  obtain ⟨v, w, S, E, A, T, hb, l1, l2, l3, hrel, hy⟩ := hm
  obtain ⟨s1, s2, s3, s4⟩ := hs
  obtain ⟨g1, g2, g3, g4⟩ := s4 v S E A T hb
  obtain ⟨o, ho, hof⟩ := h.output hy
  obtain ⟨u, hto⟩ := s2 o (by simp [ho])
  have hx0 : xs[0]? = some (some v) := by
    rcases hb with ⟨h1, -⟩ | ⟨h1, -⟩
    · simp [h1]
    · rwa [List.head?_eq_getElem?] at h1
  obtain ⟨a, hi⟩ := h.input (k := 0) (List.getElem?_eq_some_iff.1 hx0).1
  obtain ⟨ra, t, hta⟩ := s1 a hi
  have hsh : v.shape ≠ [] → w.shape ≠ [] := rel_shape (Q := fun s s' => s ≠ [] → s' ≠ []) hrel fun X Z hZ hne => by
    unfold sliceT at hZ
    split at hZ
    · rw [← Option.some.inj hZ]
      simpa [Tensor.pickAll, Tensor.ofFn] using hne
    · cases hZ
  -- constant bounds
  have key : ∀ (axes steps : Option SliceIn), isConst axes → isConst steps → HoldsOr axes (upTo S.length) A →
      HoldsOr steps (List.replicate S.length 1) T →
      nodeCode erf pick st opset n .slice = some ⟨[.arg 0], eff1 (onAny fun u => genSlice (.static S) (.static E) axes steps u)⟩ →
      Works erf pick st opset n xs ys .slice := by
    intro axes steps ca ct ha hT hc
    refine works_any (f := fun u => genSlice (.static S) (.static E) axes steps u) h hc hi ra hx0 ho hy hta hto hsh hrel
      fun X Z hX hZ => ?_
    exact C60_slice_partial (A := A) rfl rfl ha hT l2.symm (l1.trans l2.symm) (l3.trans l2.symm) (by rw [← hX]; exact g4)
      ⟨ca, g1, ct, g2, g3⟩ hZ
  rcases hb with ⟨h1, hS, hE, hT, ax, hax, hA⟩ | ⟨h1, h2, h3, hS, hE, hA, hT⟩
  · refine key (some (.static A)) (some (.static T)) trivial trivial rfl rfl ?_
    have hlen : n.inputs.length < 2 := by rw [← h.ops.length, h1]; simp
    simp only [nodeCode, sliceCode, hlen, if_true, intsAttr_read hS, intsAttr_read hE, intsAttr_read hax, hA, hT]
    rfl
  · have hlen : ¬ n.inputs.length < 2 := by rw [← h.ops.length]; omega
    have read : ∀ {k : Nat} {t : Tensor Int}, xs[k + 1]? = some (some (.int t)) → sliceList st n (k + 1) = some (some (.static t.data)) := by
      intro k t hx
      obtain ⟨s, hs⟩ := h.input (List.getElem?_eq_some_iff.1 hx).1
      obtain ⟨c, hc⟩ := s3 k s hs
      obtain ⟨rfl, hr⟩ := read_ints (t := t) hst h hs hx hc
      simp [sliceList, hs, hr]
    have absent : ∀ {k : Nat}, xs[k]? = none → sliceList st n k = some none := by
      intro k hx
      simp [sliceList, h.noInput (List.getElem?_eq_none_iff.1 hx)]
    obtain ⟨tS, e1, -, rfl⟩ := hS.resolve_left fun e => by
      have := List.getElem?_eq_none_iff.1 e.1; omega
    obtain ⟨tE, e2, -, rfl⟩ := hE.resolve_left fun e => by
      have := List.getElem?_eq_none_iff.1 e.1; omega
    rcases hA with ⟨e3, rfl⟩ | ⟨tA, e3, -, rfl⟩ <;> rcases hT with ⟨e4, rfl⟩ | ⟨tT, e4, -, rfl⟩
    · refine key none none trivial trivial rfl rfl ?_
      simp only [nodeCode, sliceCode, hlen, if_false, read e1, read e2, absent e3, absent e4]
    · refine key none (some (.static tT.data)) trivial trivial rfl rfl ?_
      simp only [nodeCode, sliceCode, hlen, if_false, read e1, read e2, absent e3, read e4]
    · refine key (some (.static tA.data)) none trivial trivial rfl rfl ?_
      simp only [nodeCode, sliceCode, hlen, if_false, read e1, read e2, read e3, absent e4]
    · refine key (some (.static tA.data)) (some (.static tT.data)) trivial trivial rfl rfl ?_
      simp only [nodeCode, sliceCode, hlen, if_false, read e1, read e2, read e3, read e4]

end OnnxIR
