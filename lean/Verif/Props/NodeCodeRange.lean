import Verif.Props.Cast
import Verif.Props.Fill
import Verif.Props.NodeCodeScatter
import Verif.Props.RangeMod

/-!
# C80: Range, OneHot, ConstantOfShape, Mod, Identity and EyeLike
-/

namespace OnnxIR

open Gen Onnx

variable {erf : ℝ → ℝ} {pick : Nat → Int → Option Nat} {st : Store OVal} {opset : Nat} {n : Node OVal} {xs : List (Option OVal)} {ys : List OVal}

/-! ### Range -/

theorem mentionedFrom_mem {k : Nat} {ops : List (Option Int)} {u : Use} (h : u ∈ mentionedFrom k ops) :
    ∃ j, u = .name (k + j) ∧ ops[j]? = some none := by
  induction ops generalizing k with
  | nil => cases h
  | cons o ops ih =>
    cases o with
    | some v =>
      obtain ⟨j, h1, h2⟩ := ih (k := k + 1) h
      exact ⟨j + 1, by rw [h1]; congr 1; omega, by simpa using h2⟩
    | none =>
      simp only [mentionedFrom, List.mem_cons] at h
      rcases h with rfl | h
      · exact ⟨0, rfl, rfl⟩
      · obtain ⟨j, h1, h2⟩ := ih (k := k + 1) h
        exact ⟨j + 1, by rw [h1]; congr 1; omega, by simpa using h2⟩

theorem mentionedFrom_nodup {k : Nat} {ops : List (Option Int)} : ((mentionedFrom k ops).map Use.index).Nodup := by
  induction ops generalizing k with
  | nil => simp [mentionedFrom]
  | cons o ops ih =>
    cases o with
    | some v => exact ih
    | none =>
      simp only [mentionedFrom, List.map_cons, List.nodup_cons]
      refine ⟨fun h => ?_, ih⟩
      obtain ⟨u, hu, e⟩ := List.mem_map.1 h
      obtain ⟨j, rfl, -⟩ := mentionedFrom_mem hu
      simp only [Use.index] at e
      omega

theorem fillOperands_eq {k : Nat} {ops : List (Option Int)} {vals : List Int} {rs : List RustVal} (hl : ops.length = vals.length)
    (hc : ∀ (j : Nat) v, ops[j]? = some (some v) → vals[j]? = some v) (hr : rs.length = (mentionedFrom k ops).length)
    (hm : ∀ (i : Nat) u r, (mentionedFrom k ops)[i]? = some u → rs[i]? = some r → ∃ v, vals[u.index - k]? = some v ∧ r = .int (.native v)) :
    fillOperands ops rs = some vals := by
  induction ops generalizing k vals rs with
  | nil =>
    obtain rfl : vals = [] := List.length_eq_zero_iff.1 hl.symm
    rfl
  | cons o ops ih =>
    match vals, hl with
    | w :: vals, hl =>
      have hl' : ops.length = vals.length := by simpa using hl
      have hc' : ∀ (j : Nat) v, ops[j]? = some (some v) → vals[j]? = some v := fun j v h => by simpa using hc (j + 1) v (by simpa using h)
      have step : ∀ {rs' : List RustVal}, rs'.length = (mentionedFrom (k + 1) ops).length →
          (∀ (i : Nat) u r, (mentionedFrom (k + 1) ops)[i]? = some u → rs'[i]? = some r →
            ∃ v, (w :: vals)[u.index - k]? = some v ∧ r = .int (.native v)) → fillOperands ops rs' = some vals := by
        intro rs' h1 h2
        refine ih (k := k + 1) hl' hc' h1 fun i u r hu hr' => ?_
        obtain ⟨v, hv, e⟩ := h2 i u r hu hr'
        obtain ⟨j, rfl, -⟩ := mentionedFrom_mem (List.mem_of_getElem? hu)
        refine ⟨v, ?_, e⟩
        simp only [Use.index] at hv ⊢
        rw [show k + 1 + j - k = j + 1 by omega] at hv
        rw [show k + 1 + j - (k + 1) = j by omega]
        simpa using hv
      cases o with
      | some v =>
        obtain rfl : w = v := by simpa using hc 0 v rfl
        simp [fillOperands, step hr hm]
      | none =>
        match rs, hr with
        | r :: rs, hr =>
          obtain ⟨v, hv, rfl⟩ := hm 0 (.name k) r rfl rfl
          simp only [Use.index, Nat.sub_self, List.getElem?_cons_zero, Option.some.injEq] at hv
          subst hv
          have := step (rs' := rs) (by simpa [mentionedFrom] using hr) fun i u r' hu hr' =>
            hm (i + 1) u r' (by simpa [mentionedFrom] using hu) (by simpa using hr')
          simp [fillOperands, this]

/-- What the code knows of an operand of Range. -/
theorem rangeOperand_spec (hst : StoreOk st) (h : RunOf st n xs ys) {k : Nat} {a : Arg OVal} {t : Tensor Int} (ha : n.inputs[k]? = some a)
    (hx : xs[k]? = some (some (.int t))) (ht : t.shape = [])
    (hs : (AtRunTime a ∧ a.ty = .scalarNative .i64 ∧ st.read a = none) ∨ ∃ v, st.read a = some v ∧ st.dtype v = .i64) :
    ∃ o, rangeOperand st a = some o ∧ ((o = none ∧ AtRunTime a ∧ a.ty = .scalarNative .i64) ∨ o = some (t.get [])) := by
  rcases hs with ⟨h1, h2, h3⟩ | ⟨v, h1, h2⟩
  · exact ⟨none, by simp [rangeOperand, h3, h2], .inl ⟨rfl, h1, h2⟩⟩
  · obtain ⟨rfl, -⟩ := read_ints (t := t) hst h ha hx h1
    exact ⟨some (t.get []), by simp [rangeOperand, h1, h2, hst.ints, scalar_data ht], .inr rfl⟩

theorem native_holds {r : RustVal} {t : Tensor Int} {d : DType} (h : Holds (.scalarNative d) r (.int t)) : r = .int (.native (t.get [])) := by
  obtain ⟨v, rfl, -, hv⟩ := holds_int h
  cases v with
  | native x =>
    obtain ⟨h1, h2⟩ : t.shape = [] ∧ t.data = [x] := hv
    simp [Tensor.get, h1, h2, flatIdx]
  | dev _ => exact hv.elim
  | shape _ => exact hv.elim

theorem works_range (hst : StoreOk st) (hm : Onnx.Meaning erf opset .range n.attrs xs ys) (h : RunOf st n xs ys)
    (hs : Supported pick st opset n xs .range) {prefs : OutPrefs}
    (ht : Infer.apply st opset n prefs .range = some (n.outputs.map Arg.ty)) : Works erf pick st opset n xs ys .range := by
  obtain ⟨s, l, d, Z, hx, hss, hls, hds, hZs, hZ, hy⟩ := hm
  obtain ⟨s1, s2⟩ := hs
  obtain ⟨a, b, c, hi⟩ := h.input3 hx
  obtain ⟨o, ho, hof⟩ := h.output hy
  obtain ⟨os, e1, k1⟩ := rangeOperand_spec hst h (k := 0) (a := a) (t := s) (by simp [hi]) (by simp [hx]) hss (s1 a (by simp [hi]))
  obtain ⟨ol, e2, k2⟩ := rangeOperand_spec hst h (k := 1) (a := b) (t := l) (by simp [hi]) (by simp [hx]) hls (s1 b (by simp [hi]))
  obtain ⟨od, e3, k3⟩ := rangeOperand_spec hst h (k := 2) (a := c) (t := d) (by simp [hi]) (by simp [hx]) hds (s1 c (by simp [hi]))
  obtain ⟨hp, hb⟩ := s2 d (by simp [hx])
  obtain ⟨out, -, hout, hr⟩ := C33_range_partial (s.get []) (l.get []) (d.get []) hp hb
  have hdata : out = Z.data := by
    have := IsRange.unique hr hZ
    exact List.map_injective_iff.2 (fun a b e => by exact_mod_cast e) this
  have hone : ∀ (j : Nat), [os, ol, od][j]? = some none → ∃ a' t', n.inputs[j]? = some a' ∧ xs[j]? = some (some (.int t')) ∧
      [s.get [], l.get [], d.get []][j]? = some (t'.get []) ∧ AtRunTime a' ∧ a'.ty = .scalarNative .i64 := by
    intro j hj
    match j, hj with
    | 0, hj =>
      obtain rfl : os = none := by simpa using hj
      obtain ⟨-, h1, h2⟩ | h1 := k1
      · exact ⟨a, s, by simp [hi], by simp [hx], rfl, h1, h2⟩
      · cases h1
    | 1, hj =>
      obtain rfl : ol = none := by simpa using hj
      obtain ⟨-, h1, h2⟩ | h1 := k2
      · exact ⟨b, l, by simp [hi], by simp [hx], rfl, h1, h2⟩
      · cases h1
    | 2, hj =>
      obtain rfl : od = none := by simpa using hj
      obtain ⟨-, h1, h2⟩ | h1 := k3
      · exact ⟨c, d, by simp [hi], by simp [hx], rfl, h1, h2⟩
      · cases h1
    | j + 3, hj => simp at hj
  refine ⟨⟨mentionedFrom 0 [os, ol, od], rangeEffect [os, ol, od]⟩,
    by simp only [nodeCode, rangeCode, hi, e1, e2, e3, Option.bind_some, Option.map_some], mentionedFrom_nodup, fun u hu => ?_,
    fun rs hl hrs => ?_⟩
  · obtain ⟨j, rfl, hj⟩ := mentionedFrom_mem hu
    obtain ⟨a', t', h1, -, -, h2, -⟩ := hone j hj
    exact ⟨a', by simpa [Use.index] using h1, h2⟩
  · have hfill : fillOperands [os, ol, od] rs = some [s.get [], l.get [], d.get []] := by
      refine fillOperands_eq (k := 0) rfl (fun j v hj => ?_) hl fun i u r hu hr' => ?_
      · match j, hj with
        | 0, hj =>
          obtain rfl : os = some v := by simpa using hj
          obtain ⟨h1, -⟩ | h1 := k1
          · cases h1
          · simp [Option.some.inj h1]
        | 1, hj =>
          obtain rfl : ol = some v := by simpa using hj
          obtain ⟨h1, -⟩ | h1 := k2
          · cases h1
          · simp [Option.some.inj h1]
        | 2, hj =>
          obtain rfl : od = some v := by simpa using hj
          obtain ⟨h1, -⟩ | h1 := k3
          · cases h1
          · simp [Option.some.inj h1]
        | j + 3, hj => simp at hj
      · obtain ⟨j, rfl, hj⟩ := mentionedFrom_mem (List.mem_of_getElem? hu)
        obtain ⟨a', t', h1, h2, h3, -, h5⟩ := hone j hj
        obtain ⟨a'', v', g1, g2, g3⟩ := hrs i _ r hu hr'
        simp only [Use.index, Nat.zero_add] at g1 g2
        obtain rfl : a'' = a' := Option.some.inj (g1.symm.trans h1)
        obtain rfl : v' = .int t' := Option.some.inj (Option.some.inj (g2.symm.trans h2))
        rw [h5] at g3
        exact ⟨t'.get [], by simpa [Use.index] using h3, native_holds g3⟩
    have hZ' : (⟨[Z.data.length], Z.data, by simp [prodShape]⟩ : Tensor Int) = Z := Tensor.ext hZs.symm rfl
    subst hdata
    refine ⟨[.int (.dev Z)], by simp only [rangeEffect, hfill, hout, Option.map_some, hZ'], by simp [hy], fun k o' w y' k1 k2 k3 => ?_⟩
    match k, k1, k2, k3 with
    | 0, k1, k2, k3 =>
      obtain rfl : o' = o := by simpa [ho] using k1.symm
      obtain rfl : w = .int (.dev Z) := by simpa using k2.symm
      obtain rfl : y' = .int Z := by simpa [hy] using k3.symm
      refine ⟨hof.1, ?_⟩
      simp only [Infer.apply, ho, List.map_cons, List.map_nil] at ht
      cases he : (Infer.inTy n 0).bind ArgType.elemType with
      | none => simp [he] at ht
      | some e =>
        simp only [he, Option.map_some, Option.some.injEq, List.cons.injEq, and_true, Infer.ofRank] at ht
        rw [← ht]
        exact dev_holds (by rw [hZs]; rfl) (by rw [hZs]; simp)
    | k + 1, _, k2, _ => simp at k2

/-! ### OneHot -/

theorem works_oneHot (hst : StoreOk st) (hm : Onnx.Meaning erf opset .oneHot n.attrs xs ys) (h : RunOf st n xs ys)
    (hs : Supported pick st opset n xs .oneHot) : Works erf pick st opset n xs ys .oneHot := by
  obtain ⟨I, D, V, off, on, d, a, axis, hx, hD, hV, hax, ha, hy⟩ := hm
  obtain ⟨s1, s2, s3, s4, s5⟩ := hs
  obtain ⟨ia, da, va, hi⟩ := h.input3 hx
  obtain ⟨o, ho, hof⟩ := h.output hy
  obtain ⟨ra, ta, hta⟩ := s1 ia (by simp [hi])
  obtain ⟨dv, hdv, hdt⟩ := s2 da (by simp [hi])
  obtain ⟨vv, hvv⟩ := s3 va (by simp [hi])
  obtain ⟨rfl, -⟩ := read_ints (t := D) hst h (k := 1) (by simp [hi]) (by simp [hx]) hdv
  have hval := h.reads 2 va vv (by simp [hi]) hvv
  simp only [hx, List.getElem?_cons_succ, List.getElem?_cons_zero, Option.some.injEq] at hval
  subst hval
  have hI := s4 I D (by simp [hx]) (by simp [hx])
  have hVk := s5 V (by simp [hx])
  have hint : ∀ v ∈ V.data, ((Onnx.towardsZero v : Int) : ℝ) = v := by
    intro v hv
    obtain ⟨k, rfl⟩ := hVk v hv
    simp [Onnx.towardsZero]
  have hd : Infer.asUsize (d : Int) = d := by simp [Infer.asUsize]
  refine works_one (f := oneHotOn d off on axis) (a := ia) (v := .int I)
    (by simp [nodeCode, oneHotCode, hi, (intAttr_read hax).1, hdv, readFloat, hvv, hst.ints, hD, hV, hdt, hd]) (by simp [hi]) ra
    (by simp [hx]) ho hy fun r hr => ?_
  obtain ⟨x', rfl, -, hx'⟩ := holds_int hr
  rw [hta] at hx'
  obtain ⟨rfl, -⟩ := tensor_dev hx'
  have hz := C62_onehot_partial (viaInt := fun x : ℝ => ((Onnx.towardsZero x : Int) : ℝ)) (intIndices := true) (off := off) (on := on) ha
    (fun x hx => hI x hx d (by simp [hD])) fun _ => ⟨hint on (by simp [hV]), hint off (by simp [hV])⟩
  exact ⟨.float (.dev (oneHotT d a on off I)), by simp only [oneHotOn, hz, Option.map_some], fits_tensor hof (by simp [oneHotT, Tensor.ofFn])⟩

/-! ### ConstantOfShape -/

theorem filled_eq {α : Type} [Elem α] {x : α} {dims : List Nat} (h : ∀ d ∈ dims.map Int.ofNat, 1 ≤ d) :
    filled dims.length x (dims.map Int.ofNat) = some (Elem.rust (.dev (Tensor.ofFn dims fun _ => x))) := by
  have := expandTo_ones (x := x) h
  simp only [List.length_map] at this
  have hm : (dims.map Int.ofNat).map Int.toNat = dims := by simp [List.map_map, Function.comp_def]
  rw [hm] at this
  rw [filled, this]
  rfl

theorem works_constantOfShape (hst : StoreOk st) (hm : Onnx.Meaning erf opset .constantOfShape n.attrs xs ys) (h : RunOf st n xs ys)
    (hs : Supported pick st opset n xs .constantOfShape) : Works erf pick st opset n xs ys .constantOfShape := by
  obtain ⟨t, dims, hx, hsh, hdims, hcase⟩ := hm
  obtain ⟨s1, s2, s3, s4⟩ := hs
  obtain ⟨a, hi⟩ := h.input1 hx
  obtain ⟨hne, hpos⟩ := s3 t (by simp [hx])
  rw [hdims] at hne hpos
  have hdn : dims ≠ [] := fun e => hne (by rw [e]; rfl)
  have hnat : (dims.map Int.ofNat).map Int.toNat = dims := by simp [List.map_map, Function.comp_def]
  have key : ∀ {o : Arg OVal} {y : OVal} {u : TensorType} {f : List Int → Option RustVal} {w : RustVal}, n.outputs = [o] → ys = [y] →
      o.ty = .tensor u → filledOf st n u.rank = some f → f (dims.map Int.ofNat) = some w → Holds o.ty w y →
      Works erf pick st opset n xs ys .constantOfShape := by
    intro o y u f w ho hy hu hf hw hh
    rcases s1 a (by simp [hi]) with ⟨r1, ⟨k, hk⟩, r3⟩ | ⟨v, hv⟩
    · have hc : nodeCode erf pick st opset n .constantOfShape = some ⟨[.name 0], eff1 (withSizes f)⟩ := by
        simp only [nodeCode, filledCode, hi, ho, hu, hf, Option.bind_some, r3, Option.bind_none]
      refine ⟨_, hc, by simp, fun u hu => ?_, fun rs hl hrs => ?_⟩
      · obtain rfl : u = .name 0 := by simpa using hu
        exact ⟨a, by simp [hi, Use.index], r1⟩
      · obtain ⟨r, rfl⟩ := List.length_eq_one_iff.1 (hl.trans rfl)
        obtain ⟨a', v', h1, h2, h3⟩ := hrs 0 (.name 0) r rfl rfl
        obtain rfl : a' = a := by simpa [hi, Use.index] using h1.symm
        obtain rfl : v' = .int t := by simpa [hx, Use.index] using h2.symm
        obtain ⟨g, rfl, -, hg⟩ := holds_int h3
        rw [hk] at hg
        cases g with
        | shape l =>
          have hl' : l = dims.map Int.ofNat := by
            obtain ⟨g1, g2⟩ := hg
            simp_all
          subst hl'
          refine ⟨[w], by simp [eff1, withSizes, hw], by simp [hy], fun k o' w' y' k1 k2 k3 => ?_⟩
          match k, k1, k2, k3 with
          | 0, k1, k2, k3 =>
            obtain rfl : o' = o := by simpa [ho] using k1.symm
            obtain rfl : w' = w := by simpa using k2.symm
            obtain rfl : y' = y := by simpa [hy] using k3.symm
            exact hh
          | k + 1, _, k2, _ => simp at k2
        | dev _ => exact hg.elim
        | native _ => exact hg.elim
    · obtain ⟨rfl, hr⟩ := read_ints (t := t) hst h (k := 0) (by simp [hi]) (by simp [hx]) hv
      refine ⟨⟨[], fun _ => (f (dims.map Int.ofNat)).map ([·])⟩,
        by simp only [nodeCode, filledCode, hi, ho, hu, hf, Option.bind_some, hr, hdims], by simp, nofun, fun rs hl hrs => ?_⟩
      refine ⟨[w], by simp [hw], by simp [hy], fun k o' w' y' k1 k2 k3 => ?_⟩
      match k, k1, k2, k3 with
      | 0, k1, k2, k3 =>
        obtain rfl : o' = o := by simpa [ho] using k1.symm
        obtain rfl : w' = w := by simpa using k2.symm
        obtain rfl : y' = y := by simpa [hy] using k3.symm
        exact hh
      | k + 1, _, k2, _ => simp at k2
  have hshape : ∀ {α : Type} [Inhabited α] {x : α}, (Tensor.ofFn dims fun _ => x).shape = dims := rfl
  rcases hcase with ⟨hv, hy⟩ | ⟨v, x, hv, hd, hy⟩ | ⟨v, x, hv, hd, hy⟩ | ⟨v, x, hv, hd, hy⟩
  · obtain ⟨o, ho, hof⟩ := h.output hy
    obtain ⟨u, hu⟩ := s2 o (by simp [ho])
    have hl : dims.length = u.rank := by have := hof.2; rw [hu] at this; exact this
    exact key (f := filled u.rank (0 : ℝ)) (w := .float (.dev (Tensor.ofFn dims fun _ => 0))) ho hy hu (by simp only [filledOf, hv]) (by rw [← hl]; exact filled_eq hpos) ⟨hof.1, by rw [hu]; exact dev_holds hl hdn⟩
  · obtain ⟨o, ho, hof⟩ := h.output hy
    obtain ⟨u, hu⟩ := s2 o (by simp [ho])
    have hl : dims.length = u.rank := by have := hof.2; rw [hu] at this; exact this
    obtain ⟨h1, h2⟩ := s4 _ hv
    have h3 : st.dtype (.float v) ∈ [DType.f32, .f64] := by
      simp only [List.mem_cons, List.not_mem_nil, or_false] at h1 ⊢
      rcases h1 with e | e | e | e | e <;> rw [e] at h2 ⊢ <;> first | (cases h2; done) | simp
    exact key (f := filled u.rank x) (w := .float (.dev (Tensor.ofFn dims fun _ => x))) ho hy hu (by simp only [filledOf, hv, if_pos h3, hd, List.head?_cons, Option.map_some]) (by rw [← hl]; exact filled_eq hpos)
      ⟨hof.1, by rw [hu]; exact dev_holds hl hdn⟩
  · obtain ⟨o, ho, hof⟩ := h.output hy
    obtain ⟨u, hu⟩ := s2 o (by simp [ho])
    have hl : dims.length = u.rank := by have := hof.2; rw [hu] at this; exact this
    obtain ⟨h1, h2⟩ := s4 _ hv
    have h3 : st.dtype (.int v) ∈ [DType.i32, .i64] := by
      simp only [List.mem_cons, List.not_mem_nil, or_false] at h1 ⊢
      rcases h1 with e | e | e | e | e <;> rw [e] at h2 ⊢ <;> first | (cases h2; done) | simp
    exact key (f := filled u.rank x) (w := .int (.dev (Tensor.ofFn dims fun _ => x))) ho hy hu (by simp only [filledOf, hv, if_pos h3, hd, List.head?_cons, Option.map_some]) (by rw [← hl]; exact filled_eq hpos)
      ⟨hof.1, by rw [hu]; exact dev_holds hl hdn⟩
  · obtain ⟨o, ho, hof⟩ := h.output hy
    obtain ⟨u, hu⟩ := s2 o (by simp [ho])
    have hl : dims.length = u.rank := by have := hof.2; rw [hu] at this; exact this
    exact key (f := filledBool x) (w := .bool (.dev (Tensor.ofFn dims fun _ => x))) ho hy hu (by simp only [filledOf, hv, hd, List.head?_cons, Option.map_some])
      (by rw [filledBool, if_pos (fun d hd => by have := hpos d hd; omega), hnat]) ⟨hof.1, by rw [hu]; exact dev_holds hl hdn⟩

/-! ### Mod -/

theorem modElem_isMod {fl : Bool} {a b r : Int} (h : IsMod fl a b r) : (if fl then a.tmod b else a.fmod b) = r := by
  have hb : b ≠ 0 := by
    rintro rfl
    simp [IsMod] at h
  refine IsMod.unique ?_ h
  cases fl
  · simpa using fmod_isMod hb
  · simpa using tmod_isMod hb

theorem modCode_computes {fl : Bool} : ({modCode fl with natives := none} : BinCode Int Int).Computes
    (fun a b => if fl then a.tmod b else a.fmod b) id id fun _ _ => True where
  method _ _ := rfl
  devNative := by simp [modCode]
  nativeDev := by simp [modCode]
  natives := by simp
  shapes := by simp [modCode]
  shapeScalar := by simp [modCode]
  scalarShape := by simp [modCode]

theorem works_mod (hm : Onnx.Meaning erf opset .mod n.attrs xs ys) (h : RunOf st n xs ys) (hs : Supported pick st opset n xs .mod)
    {prefs : OutPrefs} (ht : Infer.apply st opset n prefs (.broadcast none) = some (n.outputs.map Arg.ty)) :
    Works erf pick st opset n xs ys .mod := by
  obtain ⟨X, Y, Z, flag, hx, hfl, hb, hZ, hy⟩ := hm
  obtain ⟨a, b, hi⟩ := h.input2 hx
  obtain ⟨o, ho, hof⟩ := h.output hy
  obtain ⟨ra, ta, hta⟩ := hs a (by simp [hi])
  obtain ⟨rb, tb, htb⟩ := hs b (by simp [hi])
  have htt := broadcast_type hi ho ht
  have hflag : modFlag flag = (flag.getD 0 != 0) := by cases flag <;> simp [modFlag]
  have hz : Tensor.zipBcast (fun a b => if modFlag flag then a.tmod b else a.fmod b) X Y = some Z := by
    rw [Tensor.zipBcast, hb, Option.map_some]
    congr 1
    refine Tensor.eq_of_get rfl fun i hi => ?_
    rw [Tensor.get_ofFn (show InRange Z.shape i from hi), hflag]
    exact modElem_isMod (hZ i hi)
  refine works_two (u1 := .arg 1) (f := onSame (fun _ _ => none) (bin (modCode (modFlag flag)) a.ty b.ty) fun _ _ => none)
    (by simp [nodeCode, (intAttr_read hfl).1, Infer.inTy, hi]) rfl hi ra rb hx ho hy fun r s hr hq => ?_
  obtain ⟨v, rfl, hk, hv⟩ := holds_int hr
  obtain ⟨w, rfl, hk', hw⟩ := holds_int hq
  rw [hta] at hv htt
  rw [htb] at hw htt
  obtain ⟨rfl, -⟩ := tensor_dev hv
  obtain ⟨rfl, -⟩ := tensor_dev hw
  obtain ⟨z, k1, k2⟩ := C55_binary_partial (toInt := id) (modCode_computes (fl := modFlag flag)) hv hw (fun _ _ _ => rfl)
    (by simp [ItemsOk]) hz htt (by simp [BinCode.Handles, modCode])
  rw [hta, htb]
  exact ⟨.int z, by simp only [onSame, bin]; erw [k1]; rfl, hof.1, k2⟩

/-! ### Identity and EyeLike -/

theorem works_identity (hm : Onnx.Meaning erf opset .identity n.attrs xs ys) (h : RunOf st n xs ys)
    (hs : Supported pick st opset n xs .identity) {prefs : OutPrefs}
    (ht : Infer.apply st opset n prefs .same = some (n.outputs.map Arg.ty)) : Works erf pick st opset n xs ys .identity := by
  obtain ⟨v, hx, hy⟩ := hm
  obtain ⟨a, hi⟩ := h.input1 hx
  obtain ⟨o, ho, -⟩ := h.output hy
  have hty := first_type (a := a) (by simp [hi]) ho rfl ht
  refine works_one (f := some) (a := a) (v := v) rfl (by simp [hi]) (hs a (by simp [hi])) (by simp [hx]) ho hy fun r hr => ⟨r, rfl, ?_⟩
  rw [hty]
  exact hr

theorem eyeMask_eq {k : Int} {rows cols : Nat} : eyeMask k [rows, cols] = some (diagonalT k rows cols) := by
  simp only [eyeMask, diagonalT, Option.some.injEq]
  refine Tensor.eq_of_get rfl fun i hi => ?_
  rw [Tensor.get_map (show InRange [rows, cols] i from hi), Tensor.get_ofFn (show InRange [rows, cols] i from hi),
    Tensor.get_ofFn (show InRange [rows, cols] i from hi), Bool.eq_iff_iff]
  simp only [bne, Bool.not_not, beq_iff_eq, decide_eq_true_eq]
  omega

theorem works_eyeLike (hm : Onnx.Meaning erf opset .eyeLike n.attrs xs ys) (h : RunOf st n xs ys)
    (hs : Supported pick st opset n xs .eyeLike) {prefs : OutPrefs}
    (ht : Infer.apply st opset n prefs .eyeLike = some (n.outputs.map Arg.ty)) : Works erf pick st opset n xs ys .eyeLike := by
  obtain ⟨v, w, rows, cols, k, dtype, hx, hsh, hk, hd, hw, hy⟩ := hm
  obtain ⟨a, hi⟩ := h.input1 hx
  obtain ⟨o, ho, hof⟩ := h.output hy
  obtain ⟨ra, t, hta⟩ := hs a (by simp [hi])
  have key : ∃ d p, o.ty = .tensor ⟨d, 2, p⟩ ∧ w = castOf d.kind (.bool (diagonalT (k.getD 0) rows cols)) := by
    have hfit := h.fitsIn (k := 0) (a := a) (v := v) (by simp [hi]) ra (by simp [hx])
    rw [hta] at hfit
    cases dtype with
    | none =>
      have hl : n.attrs.lookup "dtype" = none := hd
      simp only [Infer.apply, Infer.attrDtype, Infer.attrInt?, hl, Infer.inTy, hi, List.getElem?_cons_zero, Option.map_some, hta] at ht
      split at ht
      · rename_i h2
        simp only [Infer.likeInput, Option.map_some, ho, List.map_cons, List.map_nil, Option.some.injEq, List.cons.injEq, and_true] at ht
        refine ⟨t.dtype, t.staticShape, by rw [← ht, h2]; rfl, ?_⟩
        have hkd : v.kind = t.dtype.kind := hfit.1.symm
        rw [← hkd]
        cases v <;> exact hw
      · cases ht
    | some d =>
      obtain ⟨c, hc1, hc2⟩ := hw
      obtain ⟨dst, h1, h2, -⟩ := cast_dst hc1 hc2
      have hl : n.attrs.lookup "dtype" = some (.i64 d) := hd
      simp only [Infer.apply, Infer.attrDtype, Infer.attrInt?, hl, Infer.inTy, hi, List.getElem?_cons_zero, Option.map_some, hta, h1] at ht
      split at ht
      · rename_i h3
        simp only [Infer.likeInput, Option.map_some, ho, List.map_cons, List.map_nil, Option.some.injEq, List.cons.injEq, and_true] at ht
        exact ⟨dst, t.staticShape, by rw [← ht, h3]; rfl, h2⟩
      · cases ht
  obtain ⟨d, p, hoty, rfl⟩ := key
  refine works_one (f := eyeOn (k.getD 0) d) (a := a) (v := v) ?_ (by simp [hi]) ra (by simp [hx]) ho hy fun r hr => ?_
  · simp only [nodeCode, (intAttr_read hk).2, ho, hoty]
  · rw [hoty]
    refine ⟨castDev d (.bool (diagonalT (k.getD 0) rows cols)), ?_, castDev_tensor rfl (by decide)⟩
    rw [hta] at hr
    cases v with
    | float X =>
      obtain ⟨x, rfl, -, hv⟩ := holds_float hr
      obtain ⟨rfl, -⟩ := tensor_dev hv
      simp only [OVal.shape] at hsh
      simp only [eyeOn, hsh, eyeMask_eq, Option.map_some]
    | int X =>
      obtain ⟨x, rfl, -, hv⟩ := holds_int hr
      obtain ⟨rfl, -⟩ := tensor_dev hv
      simp only [OVal.shape] at hsh
      simp only [eyeOn, hsh, eyeMask_eq, Option.map_some]
    | bool X =>
      obtain ⟨x, rfl, -, hv⟩ := holds_bool hr
      obtain ⟨rfl, -⟩ := tensor_dev hv
      simp only [OVal.shape] at hsh
      simp only [eyeOn, hsh, eyeMask_eq, Option.map_some]

/-! ### Examples -/

namespace RangeExample

open NetExample (store)
open ScatterExample (number vec)

/-- Every second number below a number known when the code runs. -/
def evens : Node OVal := ⟨.other "Range", "range1", [number 0, ⟨"n", .scalarNative .i64, .dynamic⟩, number 2], [vec "y"], []⟩

/-- Two rows, each with a one at its index. -/
noncomputable def rows : Node OVal := ⟨.other "OneHot", "onehot1",
  [vec "i", number 3, ⟨"", .tensor ⟨.f32, 1, some [some 2]⟩, .static (.float ⟨[2], [0, 1], rfl⟩)⟩], [⟨"y", .tensor ⟨.f32, 2, none⟩, .dynamic⟩], []⟩

/-- The hypotheses are met. -/
example (erf : ℝ → ℝ) (pick : Nat → Int → Option Nat) :
    Onnx.Meaning erf 17 .range evens.attrs [some (.int ⟨[], [0], rfl⟩), some (.int ⟨[], [5], rfl⟩), some (.int ⟨[], [2], rfl⟩)]
        [.int ⟨[3], [0, 2, 4], rfl⟩] ∧
      Supported pick store 17 evens [some (.int ⟨[], [0], rfl⟩), some (.int ⟨[], [5], rfl⟩), some (.int ⟨[], [2], rfl⟩)] .range ∧
      Onnx.Meaning erf 17 .oneHot rows.attrs [some (.int ⟨[2], [2, -3], rfl⟩), some (.int ⟨[], [3], rfl⟩), some (.float ⟨[2], [0, 1], rfl⟩)]
        [.float (oneHotT 3 1 1 0 ⟨[2], [2, -3], rfl⟩)] ∧
      Supported pick store 17 rows [some (.int ⟨[2], [2, -3], rfl⟩), some (.int ⟨[], [3], rfl⟩), some (.float ⟨[2], [0, 1], rfl⟩)] .oneHot := by
  refine ⟨⟨_, _, _, _, rfl, rfl, rfl, rfl, rfl, ⟨by simp [Tensor.get, flatIdx], 3, ?_, ?_, ?_⟩, rfl⟩, ⟨fun a ha => ?_, fun d hd => ?_⟩,
    ⟨_, _, _, 0, 1, 3, 1, none, rfl, rfl, rfl, rfl, by decide, rfl⟩, fun a ha => ?_, fun a ha => ?_, fun a ha => ?_, fun I D h1 h2 => ?_,
    fun V hV => ?_⟩
  · simp [Tensor.get, flatIdx, List.range_succ]
    norm_num
  · intro i hi
    match i, hi with
    | 0, _ => simp [BeforeLimit, Tensor.get, flatIdx]
    | 1, _ => simp [BeforeLimit, Tensor.get, flatIdx]; norm_num
    | 2, _ => simp [BeforeLimit, Tensor.get, flatIdx]; norm_num
  · simp [BeforeLimit, Tensor.get, flatIdx]; norm_num
  · simp only [evens, List.mem_cons, List.not_mem_nil, or_false] at ha
    rcases ha with rfl | rfl | rfl
    · exact .inr ⟨_, rfl, rfl⟩
    · exact .inl ⟨.inl rfl, rfl, rfl⟩
    · exact .inr ⟨_, rfl, rfl⟩
  · cases hd; decide
  · cases ha; exact ⟨.inl rfl, _, rfl⟩
  · cases ha; exact ⟨_, rfl, rfl⟩
  · cases ha; exact ⟨_, rfl⟩
  · cases h1; cases h2; decide
  · cases hV
    intro v hv
    simp only [List.mem_cons, List.not_mem_nil, or_false] at hv
    rcases hv with rfl | rfl
    · exact ⟨0, by simp⟩
    · exact ⟨1, by simp⟩

/-- A tensor of ones, of sizes known when the code runs. -/
noncomputable def ones : Node OVal := ⟨.other "ConstantOfShape", "constantofshape1", [⟨"s", .shape 2, .dynamic⟩], [⟨"y", .tensor ⟨.f32, 2, none⟩, .dynamic⟩],
  [("value", .tensor (.float ⟨[1], [1], rfl⟩))]⟩

/-- The hypotheses are met. -/
example (erf : ℝ → ℝ) (pick : Nat → Int → Option Nat) :
    Onnx.Meaning erf 17 .constantOfShape ones.attrs [some (.int ⟨[2], [2, 3], rfl⟩)] [.float (Tensor.ofFn [2, 3] fun _ => 1)] ∧
      Supported pick store 17 ones [some (.int ⟨[2], [2, 3], rfl⟩)] .constantOfShape := by
  refine ⟨⟨_, [2, 3], rfl, rfl, rfl, .inr (.inl ⟨_, _, rfl, rfl, rfl⟩)⟩, fun a ha => ?_, fun o ho => ?_, fun t ht => ?_, fun v hv => ?_⟩
  · simp only [ones, List.mem_cons, List.not_mem_nil, or_false] at ha
    subst ha
    exact .inl ⟨.inl rfl, ⟨_, rfl⟩, rfl⟩
  · simp only [ones, List.mem_cons, List.not_mem_nil, or_false] at ho
    subst ho
    exact ⟨_, rfl⟩
  · cases ht; decide
  · cases hv
    exact ⟨by simp [store, OVal.kind], rfl⟩

/-- Remainders with the sign of the divisor. -/
def remainders : Node OVal := ⟨.other "Mod", "mod1", [vec "x", vec "d"], [vec "y"], []⟩

/-- The hypotheses are met, with the single divisor -3 broadcast. -/
example (erf : ℝ → ℝ) (pick : Nat → Int → Option Nat) :
    Onnx.Meaning erf 17 .mod remainders.attrs [some (.int ⟨[3], [5, 6, -7], rfl⟩), some (.int ⟨[1], [-3], rfl⟩)] [.int ⟨[3], [-1, 0, -1], rfl⟩] ∧
      Supported pick store 17 remainders [some (.int ⟨[3], [5, 6, -7], rfl⟩), some (.int ⟨[1], [-3], rfl⟩)] .mod := by
  refine ⟨⟨_, _, _, none, rfl, rfl, by decide, fun i hi => ?_, rfl⟩, fun a ha => ?_⟩
  · match i, hi with
    | [i], hi =>
      simp only [InRange, and_true] at hi
      match i, hi with
      | 0, _ => exact ⟨⟨-2, by decide +kernel⟩, by decide +kernel, by decide +kernel⟩
      | 1, _ => exact ⟨⟨-2, by decide +kernel⟩, by decide +kernel, by decide +kernel⟩
      | 2, _ => exact ⟨⟨2, by decide +kernel⟩, by decide +kernel, by decide +kernel⟩
    | [], hi => simp [InRange] at hi
    | _ :: _ :: _, hi => simp [InRange] at hi
  · simp only [remainders, List.mem_cons, List.not_mem_nil, or_false] at ha
    rcases ha with rfl | rfl <;> exact ⟨.inl rfl, _, rfl⟩

/-- Ones above the main diagonal, as integers. -/
def above : Node OVal := ⟨.other "EyeLike", "eye1", [⟨"x", .tensor ⟨.f32, 2, none⟩, .dynamic⟩], [⟨"y", .tensor ⟨.i64, 2, none⟩, .dynamic⟩],
  [("k", .i64 1), ("dtype", .i64 7)]⟩

/-- The hypotheses are met. -/
example (erf : ℝ → ℝ) (pick : Nat → Int → Option Nat) :
    Onnx.Meaning erf 17 .eyeLike above.attrs [some (.float ⟨[2, 3], [5, 6, 7, 8, 9, 10], rfl⟩)] [.int ⟨[2, 3], [0, 1, 0, 0, 0, 1], rfl⟩] ∧
      Supported pick store 17 above [some (.float ⟨[2, 3], [5, 6, 7, 8, 9, 10], rfl⟩)] .eyeLike := by
  refine ⟨⟨_, _, 2, 3, some 1, some 7, rfl, rfl, rfl, rfl, ⟨_, rfl, by exact ⟨rfl, by decide +kernel⟩⟩, rfl⟩, fun a ha => ?_⟩
  obtain rfl : a = ⟨"x", .tensor ⟨.f32, 2, none⟩, .dynamic⟩ := by simpa [above] using ha
  exact ⟨.inl rfl, _, rfl⟩

/-- A tensor passed on. -/
def passed : Node OVal := ⟨.identity, "identity1", [vec "x"], [vec "y"], []⟩

/-- The hypotheses are met. -/
example (erf : ℝ → ℝ) (pick : Nat → Int → Option Nat) :
    Onnx.Meaning erf 17 .identity passed.attrs [some (.int ⟨[3], [5, 6, -7], rfl⟩)] [.int ⟨[3], [5, 6, -7], rfl⟩] ∧
      Supported pick store 17 passed [some (.int ⟨[3], [5, 6, -7], rfl⟩)] .identity := by
  refine ⟨⟨_, rfl, rfl⟩, fun a ha => ?_⟩
  obtain rfl : a = vec "x" := by simpa [passed] using ha
  exact .inl rfl

end RangeExample

end OnnxIR
