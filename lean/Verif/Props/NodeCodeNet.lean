import Verif.Props.LogSumExp
import Verif.Props.NodeCode
import Verif.Props.Norm
import Verif.Props.Reduce
import Verif.Props.Select
import Verif.Props.ShapeOp
import Verif.Props.WindowUnique

/-!
# C80 for convolutions, pooling, normalisation, reductions and the remaining element-wise operators
-/

namespace OnnxIR

open Gen Onnx

variable {erf : ℝ → ℝ} {pick : Nat → Int → Option Nat} {st : Store OVal} {opset : Nat} {n : Node OVal} {xs : List (Option OVal)} {ys : List OVal}

/-! ### Functions of tensors with parameters -/

theorem works_dev {op : Op} {f : Tensor ℝ → Option (Tensor ℝ)} {a : Arg OVal} {X Y : Tensor ℝ} (h : RunOf st n xs ys)
    (hc : nodeCode erf pick st opset n op = some ⟨[.arg 0], eff1 (onDev f)⟩) (hi : n.inputs[0]? = some a) (hr : AtRunTime a)
    (hx : xs[0]? = some (some (.float X))) (hy : ys = [.float Y]) (hX : X.shape ≠ []) (hY : Y.shape ≠ []) (hf : f X = some Y) :
    Works erf pick st opset n xs ys op := by
  obtain ⟨o, ho, hof⟩ := h.output hy
  refine works_one hc hi hr hx ho hy fun r hr => ?_
  rw [float_dev hr hX]
  exact ⟨.float (.dev Y), by simp [onDev, onFloat, hf], fits_tensor hof hY⟩

theorem const_float {k : Nat} {a : Arg OVal} {W : Tensor ℝ} (hc : ConstantFrom1 st n xs) (h : RunOf st n xs ys)
    (ha : n.inputs[k + 1]? = some a) (hx : xs[k + 1]? = some (some (.float W))) : readFloat st a = some W := by
  obtain ⟨v, hv⟩ := hc.1 k a ha
  have := h.reads _ a v ha hv
  rw [hx] at this
  obtain rfl : OVal.float W = v := Option.some.inj (Option.some.inj this)
  simp [readFloat, hv]

theorem RunOf.input (h : RunOf st n xs ys) {k : Nat} (hk : k < xs.length) : ∃ a, n.inputs[k]? = some a :=
  ⟨_, List.getElem?_eq_getElem (h.ops.length ▸ hk)⟩

theorem RunOf.noInput (h : RunOf st n xs ys) {k : Nat} (hk : xs.length ≤ k) : n.inputs[k]? = none :=
  List.getElem?_eq_none (h.ops.length ▸ hk)

/-! ### Windows -/

theorem ofNat_inj {l m : List Nat} (h : l.map Int.ofNat = m.map Int.ofNat) : l = m :=
  List.map_injective_iff.2 (fun _ _ e => Int.ofNat.inj e) h

theorem sizes_read {key : String} {dflt l : List Nat} (h : Onnx.HasSizes n.attrs key dflt l)
    (hb : ∀ l, Onnx.HasInts n.attrs key (some l) → ∀ v ∈ l, v < 2 ^ 63) (hd : ∀ v ∈ dflt, v < 2 ^ 63) :
    ∃ v, Onnx.HasInts n.attrs key v ∧ SizesAttr v (dflt.map Int.ofNat) l := by
  obtain ⟨v, h1, h2⟩ := h
  refine ⟨v, h1, h2, fun x hx => ?_⟩
  cases v with
  | none =>
    rw [← ofNat_inj h2] at hx
    exact hd x hx
  | some l' =>
    have : Int.ofNat x ∈ l' := by
      rw [show l' = l.map Int.ofNat from h2]
      exact List.mem_map.2 ⟨x, hx, rfl⟩
    have := hb l' h1 _ this
    simp only [Int.ofNat_eq_natCast] at this
    omega

theorem mode_of (m : PadMode) : ∃ am : AutoPad, am.mode = m := by
  cases m
  · exact ⟨.notSet, rfl⟩
  · exact ⟨.sameUpper, rfl⟩
  · exact ⟨.sameLower, rfl⟩
  · exact ⟨.valid, rfl⟩

/-- What the attributes of an operator with windows are read as. -/
theorem windowed_read {d : Nat} {sx ks ss ds : List Nat} {ps : List (Nat × Nat)} {kv : Option (List Int)}
    (hw : Onnx.Windowed n.attrs d sx ks ss ds ps) (hk : Onnx.HasInts n.attrs "kernel_shape" kv) (ho : WindowAttrsOk n) :
    ∃ (a : WindowAttrs) (m : AutoPad) (amounts : List (Nat × Nat)), Infer.windowAttrs n = some a ∧ a.kernelShape = kv ∧
      a.ceilMode = none ∧ SizesAttr a.strides (List.replicate d 1) ss ∧ SizesAttr a.dilations (List.replicate d 1) ds ∧
      PadsAttr d (a.pads.getD (List.replicate (2 * d) 0)) amounts ∧ a.autoPad.getD "NOTSET" = m.mode.text ∧
      AllAutoPadded m.mode amounts sx ks ss ds ps ∧ ss.length = d ∧ ds.length = d ∧ Sized m.mode amounts sx ks ss ds ∧
      (m.Plain ∨ n.attrs.lookup "auto_pad" = some (.str "SAME_UPPER") ∨ n.attrs.lookup "auto_pad" = some (.str "SAME_LOWER")) := by
  obtain ⟨⟨hlx, hlk⟩, hst, hdi, ⟨m, amounts, pv, hmode, hpv, hpads, hall⟩, hfits⟩ := hw
  have hone : ∀ v ∈ List.replicate d 1, v < 2 ^ 63 := fun v hv => by rw [List.eq_of_mem_replicate hv]; decide
  obtain ⟨sv, h1, h2⟩ := sizes_read hst (fun l hl => ho.1 _ (by simp) l hl) hone
  obtain ⟨dv, h3, h4⟩ := sizes_read hdi (fun l hl => ho.1 _ (by simp) l hl) hone
  obtain ⟨am, rfl⟩ := mode_of m
  have hstr : ∃ ap, Infer.attrStr n "auto_pad" = some ap ∧ ap.getD "NOTSET" = am.mode.text := by
    rcases hmode with ⟨e, e'⟩ | e
    · exact ⟨none, by simp [Infer.attrStr, e], by rw [e']; rfl⟩
    · exact ⟨some am.mode.text, by simp [Infer.attrStr, e], rfl⟩
  obtain ⟨ap, h5, h6⟩ := hstr
  obtain ⟨l1, l2⟩ := allAutoPadded_lengths hall
  obtain ⟨m1, m2, m3, -, -⟩ := windowAxes_maps hall
  refine ⟨_, am, amounts, by simp [Infer.windowAttrs, intsAttr_read hk, intsAttr_read h1, intsAttr_read hpv, intsAttr_read h3, h5]; rfl,
    rfl, rfl, ?_, ?_, hpads, h6, hall, l1.trans hlx, l2.trans hlx, ⟨fun x hx => ?_, fun k hk => ?_, fun s hs => ?_, fun qs hq => ?_⟩, ?_⟩
  · simpa using h2
  · simpa using h4
  · rw [← m1] at hx
    obtain ⟨b, hb, rfl⟩ := List.mem_map.1 hx
    exact (hfits b hb).1
  · rw [← m2] at hk
    obtain ⟨b, hb, rfl⟩ := List.mem_map.1 hk
    exact (hfits b hb).2.1
  · rw [← m3] at hs
    obtain ⟨b, hb, rfl⟩ := List.mem_map.1 hs
    exact (hfits b hb).2.2.1
  · rw [allAutoPadded_unique hq hall]
    exact fun b hb => (hfits b hb).2.2.2
  · cases am with
    | notSet => exact .inl (.inl rfl)
    | valid => exact .inl (.inr rfl)
    | sameUpper =>
      rcases hmode with ⟨-, e⟩ | e
      · cases e
      · exact .inr (.inl e)
    | sameLower =>
      rcases hmode with ⟨-, e⟩ | e
      · cases e
      · exact .inr (.inr e)

/-- A type that says nothing but the rank. -/
theorem admits_own_rank {s : List Nat} : (ArgType.tensor ⟨.f32, s.length, none⟩).Admits s := by
  simp [ArgType.Admits]

/-- The type under which the code of an operator with windows is that of a type that is right. -/
theorem type_for {P : ArgType → Prop} {m : AutoPad} {a : Arg OVal} {v : OVal} (hs : SameModeOk n xs) (ha : n.inputs[0]? = some a)
    (hx : xs[0]? = some (some v))
    (hm : m.Plain ∨ n.attrs.lookup "auto_pad" = some (.str "SAME_UPPER") ∨ n.attrs.lookup "auto_pad" = some (.str "SAME_LOWER"))
    (hp : m.Plain → ∀ t t', P t → P t')
    (hP : ∀ t : ArgType, t.Admits v.shape → (m = .sameUpper ∨ m = .sameLower → t.staticShapeKnown ≠ none) → P t) : P a.ty := by
  rcases hm with hm | hm
  · refine hp hm _ a.ty (hP _ admits_own_rank fun h => ?_)
    rcases hm with rfl | rfl <;> rcases h with h | h <;> cases h
  · obtain ⟨h1, h2⟩ := hs hm a v ha hx
    exact hP a.ty h1 fun _ => h2

theorem conv_code {P : Type} {d : Nat} {pc : List Int → Option P} {padding : WindowConfig P → ArgType → Option Burn.Padding}
    {Ok : List (Nat × Nat) → Prop} (kit : PadKit d pc padding Ok) (hpl : ∀ {c} x y, c.autoPad.Plain → padding c x = padding c y)
    {X W Y : Tensor ℝ} {B : Option (Tensor ℝ)} {g : Option Int} {groups b cg mg : Nat} {sx ks ss ds : List Nat} {ps : List (Nat × Nat)}
    {outs : List Nat} {a : Arg OVal} {bias : ConvBias ℝ} (hbias : bias ≠ .omitted) (hB : bias.value = B)
    (ha : n.inputs[0]? = some a) (hx0 : xs[0]? = some (some (.float X)))
    (hg1 : g.getD 1 = (groups : Int)) (hg0 : 0 < groups) (hg63 : groups < 2 ^ 63) (hX : X.shape = b :: groups * cg :: sx)
    (hW : W.shape = groups * mg :: cg :: ks) (hb : ∀ t ∈ B, t.shape = [groups * mg]) (hk : Onnx.HasSizes n.attrs "kernel_shape" ks ks)
    (hk63 : ∀ k ∈ ks, k < 2 ^ 63) (hw : Onnx.Windowed n.attrs d sx ks ss ds ps)
    (hc : Onnx.ConvT (Onnx.windowAxes ps sx ks ss ds) groups b cg mg outs X W B Y) (ho : WindowAttrsOk n) (hs : SameModeOk n xs)
    (hok : Ok ps) :
    ∃ wa, Infer.windowAttrs n = some wa ∧ genConv d pc padding wa g a.ty X W bias = some Y := by
  obtain ⟨kv, k1, k2⟩ := sizes_read hk (fun l hl => ho.1 _ (by simp) l hl) hk63
  obtain ⟨wa, m, amounts, h1, h2, -, h4, h5, h6, h7, h8, h9, h10, h11, h12⟩ := windowed_read hw k1 ho
  refine ⟨wa, h1, type_for (P := fun t => genConv d pc padding wa g t X W bias = some Y) hs ha hx0 h12
    (fun hp t t' ht => by rw [← ht]; exact (genConv_type hpl (autoPadOf_mode h7) hp)) fun t ht hm => ?_⟩
  have hca : ConvAttrs d wa W.shape m amounts ss ds := by
    refine ⟨?_, ?_, h4, h5, h6, h7⟩
    · rw [h2, hW]; exact k2
    · rw [h2]
      intro e
      rw [e] at k1
      exact ho.2 k1
  obtain ⟨ps', y, outs', p1, p2, p3⟩ := conv_of_kit kit hca hg1 hg0 hg63 hX hW hw.axes.1 hw.axes.2 h9 h10
    (fun t ht => hb t (by rw [← hB, ht]; rfl)) hbias ht hm h11 fun qs hq => by rw [allAutoPadded_unique hq h8]; exact hok
  rw [allAutoPadded_unique p1 h8, hB] at p3
  rw [p2, convT_unique p3 hc]

def Op.axesOk : Op → Bool
  | .conv d => d == 1 || d == 2 || d == 3
  | .maxPool d => d == 1 || d == 2
  | .averagePool d => d == 1 || d == 2
  | .convTranspose d => d == 1 || d == 2 || d == 3
  | _ => true

theorem axes_ok : ∀ p ∈ opNames, p.2.axesOk = true := by decide +kernel

theorem axesOk_of {t : NodeType} {op : Op} (h : opOf t = some op) : op.axesOk = true :=
  axes_ok (t, op) (mem_of_lookup h)

theorem works_conv {d : Nat} (hd : Op.axesOk (.conv d) = true) (hm : Onnx.Meaning erf opset (.conv d) n.attrs xs ys) (h : RunOf st n xs ys)
    (hs : Supported pick st opset n xs (.conv d)) : Works erf pick st opset n xs ys (.conv d) := by
  obtain ⟨X, W, B, Y, g, groups, b, cg, mg, sx, ks, ss, ds, ps, outs, hx, hg, hg1, hg0, hX, hW, hb, hk, hw, hc, hy⟩ := hm
  obtain ⟨s1, s2, s3, s4, s5, s6, s7⟩ := hs
  have hx0 : xs[0]? = some (some (.float X)) := by rw [hx]; rfl
  have hx1 : xs[1]? = some (some (.float W)) := by rw [hx]; rfl
  obtain ⟨a, ha⟩ := h.input (k := 0) (by rw [hx]; simp)
  obtain ⟨w, hwi⟩ := h.input (k := 1) (by rw [hx]; simp)
  have hrw := const_float s2 h hwi hx1
  have hsw := s2.2 w _ hwi hx1
  have hbias : convBias st n.inputs[2]? ≠ .omitted ∧ (convBias st n.inputs[2]?).value = B := by
    cases B with
    | none => rw [h.noInput (k := 2) (by rw [hx]; simp)]; exact ⟨nofun, rfl⟩
    | some t =>
      obtain ⟨c, hci⟩ := h.input (k := 2) (by rw [hx]; simp)
      have := const_float s2 h hci (by rw [hx]; rfl : xs[1 + 1]? = some (some (.float t)))
      rw [hci]
      simp [convBias, this, ConvBias.value]
  have hk63 : ∀ k ∈ ks, k < 2 ^ 63 := fun k hk => s5 _ hx1 k (by simp [OVal.shape, hW, hk])
  have hg63 : groups < 2 ^ 63 := by
    cases g with
    | none => simp only [Option.getD_none] at hg1; omega
    | some g =>
      have := s6 g hg
      simp only [Option.getD_some] at hg1
      omega
  have hXn : X.shape ≠ [] := by rw [hX]; simp
  have hYn : Y.shape ≠ [] := by rw [hc.shape]; simp
  simp only [Op.axesOk, Bool.or_eq_true, beq_iff_eq] at hd
  rcases hd with (rfl | rfl) | rfl
  · obtain ⟨wa, k1, k2⟩ := conv_code kit1 plain1 hbias.1 hbias.2 ha hx0 hg1 hg0 hg63 hX hW hb hk hk63 hw hc s3 s4 trivial
    exact works_dev h (by simp [nodeCode, convCode, ha, hwi, k1, (intAttr_read hg).1, hrw, hsw, OVal.shape]; rfl) ha (s1 a ha) hx0 hy hXn hYn k2
  · obtain ⟨wa, k1, k2⟩ := conv_code kit2 plain2 hbias.1 hbias.2 ha hx0 hg1 hg0 hg63 hX hW hb hk hk63 hw hc s3 s4 trivial
    exact works_dev h (by simp [nodeCode, convCode, ha, hwi, k1, (intAttr_read hg).1, hrw, hsw, OVal.shape]; rfl) ha (s1 a ha) hx0 hy hXn hYn k2
  · obtain ⟨wa, k1, k2⟩ := conv_code kit3 plain3 hbias.1 hbias.2 ha hx0 hg1 hg0 hg63 hX hW hb hk hk63 hw hc s3 s4
      (s7 rfl _ hx1 (.float X) b (groups * cg) sx ss ds ps hx0 hX (by rw [OVal.shape, hW]; exact hw))
    exact works_dev h (by simp [nodeCode, convCode, ha, hwi, k1, (intAttr_read hg).1, hrw, hsw, OVal.shape]; rfl) ha (s1 a ha) hx0 hy hXn hYn k2

/-! ### Pooling -/

theorem pool_read {d : Nat} {sx ks ss ds : List Nat} {ps : List (Nat × Nat)} (hw : Onnx.Windowed n.attrs d sx ks ss ds ps)
    (hk : Onnx.HasInts n.attrs "kernel_shape" (some (ks.map Int.ofNat)))
    (hc : n.attrs.lookup "ceil_mode" = none ∨ n.attrs.lookup "ceil_mode" = some (.i64 0)) (ho : WindowAttrsOk n) :
    ∃ (a : WindowAttrs) (m : AutoPad) (amounts : List (Nat × Nat)), poolAttrs n = some a ∧ PoolAttrs d a m amounts ks ss ds ∧
      AllAutoPadded m.mode amounts sx ks ss ds ps ∧ ss.length = d ∧ ds.length = d ∧ Sized m.mode amounts sx ks ss ds ∧
      (m.Plain ∨ n.attrs.lookup "auto_pad" = some (.str "SAME_UPPER") ∨ n.attrs.lookup "auto_pad" = some (.str "SAME_LOWER")) := by
  obtain ⟨a, m, amounts, h1, h2, -, h4, h5, h6, h7, h8, h9, h10, h11, h12⟩ := windowed_read hw hk ho
  have hcm : ∃ c : Option Int, Infer.attrInt? n "ceil_mode" = some c ∧ c.getD 0 = 0 := by
    rcases hc with e | e
    · exact ⟨none, by simp [Infer.attrInt?, e], rfl⟩
    · exact ⟨some 0, by simp [Infer.attrInt?, e], rfl⟩
  obtain ⟨c, c1, c2⟩ := hcm
  refine ⟨{ a with ceilMode := c }, m, amounts, by simp [poolAttrs, h1, c1], ⟨⟨by simp [h2], fun v hv => ?_⟩, h4, h5, h6, h7, c2⟩, h8, h9, h10,
    h11, h12⟩
  have := ho.1 "kernel_shape" (by simp) _ hk (Int.ofNat v) (List.mem_map.2 ⟨v, hv, rfl⟩)
  simp only [Int.ofNat_eq_natCast] at this
  omega

theorem maxPool_code {P : Type} {d : Nat} {pc : List Int → Option P} {padding : WindowConfig P → ArgType → Option Burn.Padding}
    (kit : PadKit d pc padding fun _ => True) (hpl : ∀ {c} x y, c.autoPad.Plain → padding c x = padding c y)
    {X Y : Tensor ℝ} {b ch : Nat} {sx ks ss ds : List Nat} {ps : List (Nat × Nat)} {outs : List Nat} {a : Arg OVal}
    (ha : n.inputs[0]? = some a) (hx0 : xs[0]? = some (some (.float X))) (hX : X.shape = b :: ch :: sx)
    (hk : Onnx.HasInts n.attrs "kernel_shape" (some (ks.map Int.ofNat)))
    (hc : n.attrs.lookup "ceil_mode" = none ∨ n.attrs.lookup "ceil_mode" = some (.i64 0))
    (hw : Onnx.Windowed n.attrs d sx ks ss ds ps) (hM : Onnx.MaxPoolT (Onnx.windowAxes ps sx ks ss ds) b ch outs X Y)
    (hne : Onnx.NoEmptyWindow (Onnx.windowAxes ps sx ks ss ds) outs) (ho : WindowAttrsOk n) (hs : SameModeOk n xs) :
    ∃ wa, poolAttrs n = some wa ∧ maxPoolReal d pc padding wa a.ty X = some Y := by
  obtain ⟨wa, m, amounts, h1, h2, h8, h9, h10, h11, h12⟩ := pool_read hw hk hc ho
  refine ⟨wa, h1, type_for (P := fun t => maxPoolReal d pc padding wa t X = some Y) hs ha hx0 h12
    (fun hp t t' ht => by
      rw [← ht]
      simp only [maxPoolReal]
      rw [genMaxPool_type hpl (autoPadOf_mode h2.mode) hp]) fun t ht hm => ?_⟩
  obtain ⟨ps', y, outs', p1, p2, p3⟩ := maxPool_of_kit kit (x := X.map fun r : ℝ => (r : WithBot ℝ)) (xt := t) h2 hX hw.axes.1 hw.axes.2 h9 h10
    ht hm h11 fun qs hq => trivial
  rw [allAutoPadded_unique p1 h8] at p3
  have := maxPoolT_bot (by rw [hX, (windowAxes_maps h8).1]) hM p3 hne
  simp only [maxPoolReal, p2, Option.bind_some]
  rw [this, if_neg (by simp [Tensor.map])]
  congr 1
  apply Tensor.ext
  · rfl
  · simp [Tensor.map, Function.comp_def]

theorem works_maxPool {d : Nat} (hd : Op.axesOk (.maxPool d) = true) (hm : Onnx.Meaning erf opset (.maxPool d) n.attrs xs ys)
    (h : RunOf st n xs ys) (hs : Supported pick st opset n xs (.maxPool d)) : Works erf pick st opset n xs ys (.maxPool d) := by
  obtain ⟨X, Y, b, c, sx, ks, ss, ds, ps, outs, hx, hX, hk, hc, hw, hM, hne, hy⟩ := hm
  obtain ⟨s1, s2, s3⟩ := hs
  obtain ⟨a, hi⟩ := h.input1 hx
  have ha : n.inputs[0]? = some a := by rw [hi]; rfl
  have hx0 : xs[0]? = some (some (.float X)) := by rw [hx]; rfl
  have hXn : X.shape ≠ [] := by rw [hX]; simp
  have hYn : Y.shape ≠ [] := by rw [hM.shape]; simp
  have hra := s1 a (by simp [hi])
  simp only [Op.axesOk, Bool.or_eq_true, beq_iff_eq] at hd
  rcases hd with rfl | rfl
  · obtain ⟨wa, k1, k2⟩ := maxPool_code kit1 plain1 ha hx0 hX hk hc hw hM hne s2 s3
    exact works_dev h (by simp only [nodeCode, maxPoolCode, ha, k1]) ha hra hx0 hy hXn hYn k2
  · obtain ⟨wa, k1, k2⟩ := maxPool_code kit2 plain2 ha hx0 hX hk hc hw hM hne s2 s3
    exact works_dev h (by simp only [nodeCode, maxPoolCode, ha, k1]) ha hra hx0 hy hXn hYn k2

theorem averagePool_code {P : Type} {d : Nat} {pc : List Int → Option P} {padding : WindowConfig P → ArgType → Option Burn.Padding}
    (kit : PadKit d pc padding fun _ => True) (hpl : ∀ {c} x y, c.autoPad.Plain → padding c x = padding c y)
    {X Y : Tensor ℝ} {b ch : Nat} {sx ks ss ds : List Nat} {ps : List (Nat × Nat)} {outs : List Nat} {a : Arg OVal} {cip : Option Int}
    (ha : n.inputs[0]? = some a) (hx0 : xs[0]? = some (some (.float X))) (hX : X.shape = b :: ch :: sx)
    (hk : Onnx.HasInts n.attrs "kernel_shape" (some (ks.map Int.ofNat)))
    (hc : n.attrs.lookup "ceil_mode" = none ∨ n.attrs.lookup "ceil_mode" = some (.i64 0))
    (hw : Onnx.Windowed n.attrs d sx ks ss ds ps)
    (hM : Onnx.AveragePoolT (Onnx.windowAxes ps sx ks ss ds) (cip.getD 0 = 1) b ch outs X Y)
    (ho : WindowAttrsOk n) (hs : SameModeOk n xs) (hone : ∀ e ∈ ds, e = 1) (hsym : cip.getD 0 = 1 ∨ ∀ p ∈ ps, p.1 = p.2) :
    ∃ wa, poolAttrs n = some wa ∧ genAvgPool d pc padding wa cip a.ty X = some Y := by
  obtain ⟨wa, m, amounts, h1, h2, h8, h9, h10, h11, h12⟩ := pool_read hw hk hc ho
  refine ⟨wa, h1, type_for (P := fun t => genAvgPool d pc padding wa cip t X = some Y) hs ha hx0 h12
    (fun hp t t' ht => by
      rw [← ht]
      exact genAvgPool_type hpl (autoPadOf_mode h2.mode) hp) fun t ht hm => ?_⟩
  obtain ⟨ps', y, outs', p1, p2, p3⟩ := avgPool_of_kit kit (x := X) (xt := t) (cip := cip) h2 hone hX hw.axes.1 hw.axes.2 h9 h10
    ht hm h11 (hsym.imp id fun e qs hq => by rw [allAutoPadded_unique hq h8]; exact e) fun qs hq => trivial
  rw [allAutoPadded_unique p1 h8] at p3
  rw [p2, averagePoolT_unique p3 hM]

theorem works_averagePool {d : Nat} (hd : Op.axesOk (.averagePool d) = true) (hm : Onnx.Meaning erf opset (.averagePool d) n.attrs xs ys)
    (h : RunOf st n xs ys) (hs : Supported pick st opset n xs (.averagePool d)) : Works erf pick st opset n xs ys (.averagePool d) := by
  obtain ⟨X, Y, b, c, sx, ks, ss, ds, ps, outs, cip, hx, hX, hk, hc, hci, hw, hM, hne, hy⟩ := hm
  obtain ⟨s1, s2, s3, s4, s5⟩ := hs
  obtain ⟨a, hi⟩ := h.input1 hx
  have ha : n.inputs[0]? = some a := by rw [hi]; rfl
  have hx0 : xs[0]? = some (some (.float X)) := by rw [hx]; rfl
  have hXn : X.shape ≠ [] := by rw [hX]; simp
  have hYn : Y.shape ≠ [] := by rw [hM.shape]; simp
  have hra := s1 a (by simp [hi])
  have hone : ∀ e ∈ ds, e = 1 := by
    obtain ⟨v, v1, v2⟩ := hw.dilations
    intro e he
    cases v with
    | none =>
      have := ofNat_inj (l := List.replicate d 1) (m := ds) v2
      rw [← this] at he
      exact List.eq_of_mem_replicate he
    | some l =>
      have : Int.ofNat e ∈ l := by
        rw [show l = ds.map Int.ofNat from v2]
        exact List.mem_map.2 ⟨e, he, rfl⟩
      have := s4 l v1 _ this
      simp only [Int.ofNat_eq_natCast] at this
      omega
  have hsym : cip.getD 0 = 1 ∨ ∀ p ∈ ps, p.1 = p.2 := by
    rcases s5 with e | e
    · left
      cases cip with
      | none => simp [Onnx.HasInt, e] at hci
      | some k => simp only [Onnx.HasInt, e, Option.map_some, Option.some.injEq, AttrVal.i64.injEq] at hci; simp [← hci]
    · exact .inr (e ks hk (.float X) b c sx ss ds ps hx0 hX hw)
  simp only [Op.axesOk, Bool.or_eq_true, beq_iff_eq] at hd
  rcases hd with rfl | rfl
  · obtain ⟨wa, k1, k2⟩ := averagePool_code kit1 plain1 ha hx0 hX hk hc hw hM s2 s3 hone hsym
    exact works_dev h (by simp only [nodeCode, averagePoolCode, ha, k1, (intAttr_read hci).1]) ha hra hx0 hy hXn hYn k2
  · obtain ⟨wa, k1, k2⟩ := averagePool_code kit2 plain2 ha hx0 hX hk hc hw hM s2 s3 hone hsym
    exact works_dev h (by simp only [nodeCode, averagePoolCode, ha, k1, (intAttr_read hci).1]) ha hra hx0 hy hXn hYn k2

theorem works_globalAveragePool (hm : Onnx.Meaning erf opset .globalAveragePool n.attrs xs ys)
    (h : RunOf st n xs ys) (hs : Supported pick st opset n xs .globalAveragePool) : Works erf pick st opset n xs ys .globalAveragePool := by
  obtain ⟨X, Y, hx, hM, hy⟩ := hm
  obtain ⟨s1, s2⟩ := hs
  obtain ⟨a, hi⟩ := h.input1 hx
  have ha : n.inputs[0]? = some a := by rw [hi]; rfl
  have hx0 : xs[0]? = some (some (.float X)) := by rw [hx]; rfl
  have hra := s1 a (by simp [hi])
  have hl := s2 _ hx0
  obtain ⟨hk, hf⟩ := h.fitsIn ha hra hx0
  have hXn : X.shape ≠ [] := fun e => by simp [OVal.shape, e] at hl
  have hYn : Y.shape ≠ [] := by
    obtain ⟨_, _, _, -, e, -⟩ := hM.value
    rw [e]; simp
  cases hty : a.ty with
  | tensor t =>
    have ht : X.shape.length = t.rank := by rw [hty] at hf; exact hf
    obtain ⟨y, y1, y2⟩ := C75_globalAveragePool_partial (t := ⟨.f32, X.shape.length, none⟩) (x := X) admits_own_rank hl
    refine works_dev h (f := genGlobalAvgPool a.ty) (by simp only [nodeCode, Infer.inTy, ha, Option.map_some]) ha hra hx0 hy hXn hYn ?_
    rw [← globalAveragePoolT_unique y2 hM, ← y1, hty]
    simp only [genGlobalAvgPool, ht]
  | scalarTensor t =>
    rw [hty] at hf
    exact absurd hf hXn
  | scalarNative t =>
    rw [hty] at hf
    exact absurd hf hXn
  | shape k =>
    rw [hty] at hk
    cases hk

/-! ### Normalisation -/

theorem five_inputs (h : RunOf st n xs ys) {a b c d e : Option OVal} (hx : xs = [a, b, c, d, e]) :
    ∃ a b c d e, n.inputs = [a, b, c, d, e] := by
  have := h.ops.length
  rw [hx] at this
  match hn : n.inputs with
  | [a, b, c, d, e] => exact ⟨a, b, c, d, e, rfl⟩
  | [] | [_] | [_, _] | [_, _, _] | [_, _, _, _] | _ :: _ :: _ :: _ :: _ :: _ :: _ => rw [hn] at this; simp at this

theorem batchNormT_shape {eps : ℝ} {X s b m v : Tensor ℝ} : (batchNormT eps X s b m v).shape = X.shape := rfl

theorem instanceNormT_shape {eps : ℝ} {X s b : Tensor ℝ} : (instanceNormT eps X s b).shape = X.shape := rfl

theorem layerNormT_shape {eps : ℝ} {a : Nat} {X s : Tensor ℝ} {b : Option (Tensor ℝ)} : (layerNormT eps a X s b).shape = X.shape := rfl

theorem works_batchNorm (hm : Onnx.Meaning erf opset .batchNorm n.attrs xs ys)
    (h : RunOf st n xs ys) (hs : Supported pick st opset n xs .batchNorm) : Works erf pick st opset n xs ys .batchNorm := by
  obtain ⟨X, s, b, m, v, eps, N, c, sx, hx, he, -, hX, hp, hy⟩ := hm
  obtain ⟨s1, s2, s3⟩ := hs
  obtain ⟨a0, a1, a2, a3, a4, hi⟩ := five_inputs h hx
  have hx0 : xs[0]? = some (some (.float X)) := by rw [hx]; rfl
  have hXn : X.shape ≠ [] := by rw [hX]; simp
  have hsn := hp s (by simp)
  have hbn := hp b (by simp)
  have hmn := hp m (by simp)
  have hvn := hp v (by simp)
  have heps : ∃ e, eps = some e := by
    cases eps with
    | some e => exact ⟨e, rfl⟩
    | none =>
      obtain ⟨bits, h1, h2⟩ := he
      cases bits with
      | none => exact absurd h1 s2
      | some _ => cases h2
  obtain ⟨e, rfl⟩ := heps
  have hval : ∀ ac, genBatchNorm (some e) ac s b m v X = some (batchNormT e X s b m v) := fun ac =>
    C66_batch_norm_partial hX hsn hbn hmn hvn
  rcases s3 with hc | ⟨hr, hd⟩
  · have r1 := const_float (k := 0) (a := a1) (W := s) hc h (by simp [hi]) (by simp [hx])
    have r2 := const_float (k := 1) (a := a2) (W := b) hc h (by simp [hi]) (by simp [hx])
    have r3 := const_float (k := 2) (a := a3) (W := m) hc h (by simp [hi]) (by simp [hx])
    have r4 := const_float (k := 3) (a := a4) (W := v) hc h (by simp [hi]) (by simp [hx])
    have hst := hc.2 a1 (.float s) (by simp [hi]) (by simp [hx])
    refine works_dev h (f := fun x => genBatchNorm (some e) true s b m v x)
      (by simp [nodeCode, batchNormCode, hi, floatAttr_read he, r1, r2, r3, r4, hst, OVal.shape]) (by simp [hi])
      (s1 a0 (by simp [hi])) hx0 hy hXn hXn (hval true)
  · obtain ⟨o, ho, hof⟩ := h.output hy
    refine ⟨⟨[.arg 0, .arg 1, .arg 2, .arg 3, .arg 4], fun
      | [.float (.dev x), .float (.dev s), .float (.dev b), .float (.dev m), .float (.dev v)] =>
        (genBatchNorm (some e) false s b m v x).map fun z => [.float (.dev z)]
      | _ => none⟩, ?_, by show [0, 1, 2, 3, 4].Nodup; decide, fun u hu => ?_, fun rs hl hh => ?_⟩
    · simp only [nodeCode, batchNormCode, hi, floatAttr_read he]
      have hnone : readFloat st a1 = none ∨ readFloat st a2 = none ∨ readFloat st a3 = none ∨ readFloat st a4 = none := by
        obtain ⟨a, ha, hn⟩ := hd
        have hrn : readFloat st a = none := by simp [readFloat, hn]
        simp only [hi, List.tail_cons, List.mem_cons, List.not_mem_nil, or_false] at ha
        rcases ha with rfl | rfl | rfl | rfl <;> simp [hrn]
      split
      · rename_i e1 e2 e3 e4
        rcases hnone with e | e | e | e <;> simp_all
      · rfl
    · simp only [List.mem_cons, List.not_mem_nil, or_false] at hu
      rcases hu with rfl | rfl | rfl | rfl | rfl
      · exact ⟨a0, by simp [hi, Use.index], hr a0 (by simp [hi])⟩
      · exact ⟨a1, by simp [hi, Use.index], hr a1 (by simp [hi])⟩
      · exact ⟨a2, by simp [hi, Use.index], hr a2 (by simp [hi])⟩
      · exact ⟨a3, by simp [hi, Use.index], hr a3 (by simp [hi])⟩
      · exact ⟨a4, by simp [hi, Use.index], hr a4 (by simp [hi])⟩
    · have get : ∀ (k : Nat) (r : RustVal) (T : Tensor ℝ), k < 5 → rs[k]? = some r → xs[k]? = some (some (.float T)) → T.shape ≠ [] →
          r = .float (.dev T) := by
        intro k r T hk hrk hxk hT
        have hu : ([Use.arg 0, .arg 1, .arg 2, .arg 3, .arg 4] : List Use)[k]? = some (.arg k) := by
          match k, hk with
          | 0, _ | 1, _ | 2, _ | 3, _ | 4, _ => rfl
        obtain ⟨a, w, -, h2, h3⟩ := hh k (.arg k) r hu hrk
        rw [show (Use.arg k).index = k from rfl, hxk] at h2
        rw [← Option.some.inj (Option.some.inj h2)] at h3
        exact float_dev h3 hT
      have hl : rs.length = 5 := hl
      match rs, hl with
      | [r0, r1, r2, r3, r4], _ =>
        obtain rfl := get 0 r0 X (by decide) rfl hx0 hXn
        obtain rfl := get 1 r1 s (by decide) rfl (by simp [hx]) (by simp [hsn])
        obtain rfl := get 2 r2 b (by decide) rfl (by simp [hx]) (by simp [hbn])
        obtain rfl := get 3 r3 m (by decide) rfl (by simp [hx]) (by simp [hmn])
        obtain rfl := get 4 r4 v (by decide) rfl (by simp [hx]) (by simp [hvn])
        refine ⟨[.float (.dev (batchNormT e X s b m v))], by simp only [hval, Option.map_some], by simp [hy], fun k o' w y k1 k2 k3 => ?_⟩
        subst hy
        rw [ho] at k1
        cases k with
        | zero =>
          simp only [List.getElem?_cons_zero, Option.some.injEq] at k1 k2 k3
          subst k1 k2 k3
          exact fits_tensor hof hXn
        | succ k => simp at k1

theorem works_layerNorm (hm : Onnx.Meaning erf opset .layerNorm n.attrs xs ys)
    (h : RunOf st n xs ys) (hs : Supported pick st opset n xs .layerNorm) : Works erf pick st opset n xs ys .layerNorm := by
  obtain ⟨X, s, B, eps, axis, k, hx, he, hax, hk, hb, hy⟩ := hm
  obtain ⟨s1, s2, s3, s4⟩ := hs
  have hx0 : xs[0]? = some (some (.float X)) := by rw [hx]; rfl
  have hx1 : xs[1]? = some (some (.float s)) := by rw [hx]; rfl
  obtain ⟨a, ha⟩ := h.input (k := 0) (by rw [hx]; simp)
  obtain ⟨w, hw⟩ := h.input (k := 1) (by rw [hx]; simp)
  have r1 := const_float s2 h hw hx1
  have hst := s2.2 w _ hw hx1
  have haxis : axis = none ∨ axis = some (-1) := by
    rcases s3 with e | e
    · left
      cases axis with
      | none => rfl
      | some v => simp [HasInt, e] at hax
    · right
      cases axis with
      | none => simp [HasInt, e] at hax
      | some v => simp only [HasInt, e, Option.map_some, Option.some.injEq, AttrVal.i64.injEq] at hax; rw [hax]
  have hkk : index X.shape.length (-1) = some k := by rcases haxis with rfl | rfl <;> exact hk
  have hpos : 0 < X.shape.length ∧ k = X.shape.length - 1 := by
    unfold index at hkk
    rw [if_neg (by omega)] at hkk
    split at hkk
    · rename_i hc
      have := Option.some.inj hkk
      omega
    · cases hkk
  obtain ⟨pre, d, hXs⟩ : ∃ pre d, X.shape = pre ++ [d] := by
    have hne : X.shape ≠ [] := fun e => by simp [e] at hpos
    exact ⟨_, _, (List.dropLast_concat_getLast hne).symm⟩
  have hdrop : X.shape.drop k = [d] := by
    rw [hpos.2, hXs]; simp
  obtain ⟨hs1, hs2⟩ := s4 _ hx1
  obtain ⟨q, hq⟩ : ∃ q, s.shape = [q] := List.length_eq_one_iff.1 hs1
  have hqd : q = d ∨ q = 1 := by
    have := hb s (by simp)
    rw [hdrop, hq] at this
    by_cases e : q = d
    · exact .inl e
    · by_cases e1 : q = 1
      · exact .inr e1
      · exfalso
        by_cases ed : d = 1
        · subst ed; simp_all [bcast, bcastRev]
        · simp_all [bcast, bcastRev]
  have hB : paramIn st n.inputs[2]? = B.elim .absent .constant ∧ ∀ t ∈ B, t.shape = [q] := by
    cases B with
    | none =>
      rw [h.noInput (k := 2) (by rw [hx]; simp)]
      exact ⟨rfl, nofun⟩
    | some t =>
      have hx2 : xs[1 + 1]? = some (some (.float t)) := by rw [hx]; rfl
      obtain ⟨c, hc⟩ := h.input (k := 2) (by rw [hx]; simp)
      have := const_float s2 h hc hx2
      refine ⟨by rw [hc]; simp [paramIn, this], fun t' ht' => ?_⟩
      cases ht'
      rw [← hq]
      exact hs2 _ hx2
  have hval := C66_layer_norm_partial (eps := eps) (axis := axis) hXs hq hqd hB.2 (haxis.imp id .inl)
  have hxk : axisOf X.shape.length (axis.getD (-1)) = k := by
    have : axis.getD (-1) = -1 := by rcases haxis with rfl | rfl <;> rfl
    rw [this, hpos.2]
    simp only [axisOf]
    rw [if_pos (by decide)]
    omega
  rw [hxk] at hval
  have hXn : X.shape ≠ [] := by rw [hXs]; simp
  have hY : (layerNormT (eps.getD 0.00001) k X s B).shape ≠ [] := hXn
  refine works_dev h (f := genLayerNorm eps axis (paramIn st (some w)) (paramIn st n.inputs[2]?))
    (by simp [nodeCode, layerNormCode, hw, floatAttr_read he, (intAttr_read hax).1, r1, hst, OVal.shape]) ha
    (s1 a ha) hx0 hy hXn hY ?_
  rw [hB.1]
  simp only [paramIn, r1]
  cases B <;> exact hval

theorem works_instanceNorm (hm : Onnx.Meaning erf opset .instanceNorm n.attrs xs ys)
    (h : RunOf st n xs ys) (hs : Supported pick st opset n xs .instanceNorm) : Works erf pick st opset n xs ys .instanceNorm := by
  obtain ⟨X, s, b, eps, N, c, sx, hx, he, hX, hsc, hbc, hy⟩ := hm
  obtain ⟨s1, s2, s3⟩ := hs
  have hx0 : xs[0]? = some (some (.float X)) := by rw [hx]; rfl
  have hx1 : xs[1]? = some (some (.float s)) := by rw [hx]; rfl
  obtain ⟨a, ha⟩ := h.input (k := 0) (by rw [hx]; simp)
  obtain ⟨w, hw⟩ := h.input (k := 1) (by rw [hx]; simp)
  obtain ⟨w2, hw2⟩ := h.input (k := 2) (by rw [hx]; simp)
  have r1 := const_float s2 h hw hx1
  have r2 := const_float (W := b) s2 h hw2 (by rw [hx]; rfl)
  have hst := s2.2 w _ hw hx1
  have hXn : X.shape ≠ [] := by rw [hX]; simp
  refine works_dev h (f := genInstanceNorm eps (.constant s) (.constant b))
    (by simp [nodeCode, instanceNormCode, hw, hw2, floatAttr_read he, r1, r2, hst, OVal.shape, paramIn]) ha
    (s1 a ha) hx0 hy hXn hXn (C66_instance_norm_partial hX (s3 _ hx0) hsc hbc)

/-! ### Reductions -/

theorem Reduction.prodReal : Reduction (List.prod : List ℝ → ℝ) true := by
  have := Reduction.monoid (α := ℝ) (op := (· * ·)) (z := 1) mul_assoc mul_comm mul_one
  have e : (fun l : List ℝ => l.foldr (· * ·) 1) = List.prod := by funext l; rfl
  rwa [e] at this

theorem Reduction.minReal : Reduction (pickList (min : ℝ → ℝ → ℝ)) false :=
  Reduction.order (le := (· ≥ ·)) le_refl (fun _ _ _ h1 h2 => le_trans h2 h1) (fun _ _ h1 h2 => le_antisymm h2 h1)
    (fun a b => min_choice a b) min_le_left min_le_right

theorem Reduction.meanReal : Reduction (fun l : List ℝ => l.sum / l.length) false where
  perm h := by simp only [h.sum_eq, h.length_eq]
  single a := by simp
  join := by
    intro n ls hn hls
    have hn : 0 < n := hn.resolve_left (by simp)
    have h1 : (ls.map fun l : List ℝ => l.sum / l.length).sum = ls.flatten.sum / n := by
      induction ls with
      | nil => simp
      | cons l ls ih =>
        rw [List.map_cons, List.sum_cons, List.flatten_cons, List.sum_append, ih fun l hl => hls l (by simp [hl])]
        simp only [hls l (by simp)]
        ring
    have h2 : ls.flatten.length = ls.length * n := by
      rw [List.length_flatten]
      exact sum_map_const ls List.length n hls
    simp only [h2, List.length_map, h1]
    push_cast
    rw [div_div, mul_comm]

/-- The reductions of the generated code are those of ONNX. -/
theorem reduceCode_eq (op : Reduce) : reduceCode op = reduceFn op := by
  have hsq : (fun x : ℝ => x * x) = fun x => x ^ 2 := by funext x; ring
  cases op with
  | max =>
    simp only [reduceCode, reduceFn, Prod.mk.injEq, true_and, and_true]
    funext l
    cases l <;> rfl
  | min =>
    simp only [reduceCode, reduceFn, Prod.mk.injEq, true_and, and_true]
    funext l
    cases l <;> rfl
  | _ => simp only [reduceCode, reduceFn, hsq]

theorem reduceFn_reduction (op : Reduce) : ∃ e, Reduction (reduceFn op).2.1 e ∧ (e = true ∨ op ∈ [.mean, .max, .min]) := by
  have hm : maxList = pickList max := by funext l; cases l <;> rfl
  have hn : minList = pickList min := by funext l; cases l <;> rfl
  cases op with
  | sum | l1 | l2 | sumSquare | logSum => exact ⟨true, Reduction.sumReal, .inl rfl⟩
  | prod => exact ⟨true, Reduction.prodReal, .inl rfl⟩
  | mean => exact ⟨false, Reduction.meanReal, .inr (by simp)⟩
  | max => exact ⟨false, by simp only [reduceFn]; rw [hm]; exact Reduction.maxReal, .inr (by simp)⟩
  | min => exact ⟨false, by simp only [reduceFn]; rw [hn]; exact Reduction.minReal, .inr (by simp)⟩

theorem reduceDims_length {r : Nat} {as : List Int} {dims : List Nat} (hd : Infer.reduceDims r as = some dims) :
    dims.length = as.length := by
  unfold Infer.reduceDims at hd
  obtain ⟨l, hl1, rfl⟩ := Option.map_eq_some_iff.1 hd
  rw [(sortNat_perm l).length_eq]
  have : ∀ (m : List Int) (l : List Nat), (m.mapM fun a => if a < 0 then none else some a.toNat) = some l → l.length = m.length := by
    intro m
    induction m with
    | nil => intro l h; cases h; rfl
    | cons a m ih =>
      intro l h
      simp only [List.mapM_cons, bind, Option.bind_eq_some_iff, pure, Option.some.injEq] at h
      obtain ⟨b, _, bs, hbs, rfl⟩ := h
      simp [ih bs hbs]
  rw [this _ _ hl1]
  simp [Infer.normAxes]

/-- What the announced type of a reduction is. -/
theorem reduce_out {as : List Int} {keep : Bool} {t : TensorType} {ty : ArgType} (ht : Infer.reduce as keep (.tensor t) = some ty)
    : ∃ dims, Infer.reduceDims t.rank as = some dims ∧ (1 ≤ t.rank →
      (∃ d, ty = .scalarTensor d ∧ keep = false ∧ (as = [] ∨ as.length = t.rank)) ∨ ∃ t', ty = .tensor t' ∧ 1 ≤ t'.rank) := by
  simp only [Infer.reduce] at ht
  cases hd : Infer.reduceDims t.rank as with
  | none => simp [hd] at ht
  | some dims =>
    have hlen := reduceDims_length hd
    refine ⟨dims, rfl, fun hr => ?_⟩
    simp only [hd] at ht
    split at ht
    · rename_i hc
      left
      refine ⟨t.dtype, (Option.some.inj ht).symm, ?_⟩
      simp only [Bool.and_eq_true, Bool.not_eq_true', Bool.or_eq_true, List.isEmpty_iff, beq_iff_eq] at hc
      refine ⟨hc.1, hc.2.imp (fun e => ?_) fun e => by omega⟩
      rw [e] at hlen
      exact List.length_eq_zero_iff.1 hlen.symm
    · rename_i hc
      split at ht
      · cases ht
      · rename_i hc'
        have hrank : 1 ≤ (if keep = true then t.rank else t.rank - dims.length) := by
          split
          · exact hr
          · rename_i hk
            simp only [Bool.not_eq_true] at hk
            subst hk
            simp only [Bool.not_false, Bool.true_and, Bool.or_eq_true, List.isEmpty_iff, beq_iff_eq, not_or, true_and] at hc hc'
            omega
        right
        split at ht
        · exact ⟨_, (Option.some.inj ht).symm, hrank⟩
        · split at ht
          · exact ⟨_, (Option.some.inj ht).symm, hrank⟩
          · by_cases hk : keep = true
            all_goals
              simp only [hk, if_true, if_false] at ht hrank
              obtain ⟨q, _, hq⟩ := Option.map_eq_some_iff.1 ht
              exact ⟨_, hq.symm, hrank⟩

theorem works_reduce (hst : StoreOk st) {op : Reduce} (hm : Onnx.Meaning erf opset (.reduce op) n.attrs xs ys) (h : RunOf st n xs ys)
    (hs : Supported pick st opset n xs (.reduce op)) {prefs : OutPrefs}
    (ht : Infer.apply st opset n prefs .reduce = some (n.outputs.map Arg.ty)) : Works erf pick st opset n xs ys (.reduce op) := by
  obtain ⟨X, axes, keep, Z, hax, hk, -, hZ, hy⟩ := hm
  obtain ⟨s1, s2, s3, s4⟩ := hs
  obtain ⟨o, ho, hof⟩ := h.output hy
  have hx0 : xs[0]? = some (some (.float X)) := by
    rcases hax with ⟨e, -⟩ | ⟨t, e, -⟩ <;> rw [e] <;> rfl
  obtain ⟨a, ha⟩ := h.input (k := 0) (by rcases hax with ⟨e, -⟩ | ⟨t, e, -⟩ <;> rw [e] <;> simp)
  obtain ⟨hra, t, hta⟩ := s1 a ha
  obtain ⟨h5, h6⟩ := s4 _ axes hx0 hax
  -- the axes
  have hread : Infer.reduceAxes st n = some (axes.getD []) := by
    rcases hax with ⟨hx, hat⟩ | ⟨u, hx, hat, -, rfl⟩
    · simp [Infer.reduceAxes, h.noInput (k := 1) (by rw [hx]; simp), intsAttr_read hat]
    · obtain ⟨w, hw⟩ := h.input (k := 1) (by rw [hx]; simp)
      obtain ⟨v, hv, hd⟩ := s2 w hw
      have := h.reads 1 w v hw hv
      rw [hx] at this
      obtain rfl : OVal.int u = v := Option.some.inj (Option.some.inj this)
      simp [Infer.reduceAxes, hw, hv, hd, hst.ints]
  have hkd := (intAttr_read hk).2 1
  have hkeep : (keep.getD 1 == 1) = (keep.getD 1 != 0) := by
    cases keep with
    | none => rfl
    | some k => rcases s3 k hk with rfl | rfl <;> rfl
  have hlist : axes.getD [] = [] ∨ (keep.getD 1 == 1) = true ∨ (axes.getD []).length < X.shape.length := by
    rcases h6 with e | e | e | e
    · exact .inl e
    · right; left
      cases keep with
      | none => rfl
      | some k => simp only [HasInt] at hk e; rw [hk] at e; cases e
    · right; left
      cases keep with
      | none => rfl
      | some k => simp only [HasInt] at hk e; rw [hk] at e; cases e; rfl
    · exact .inr (.inr e)
  simp only [Infer.apply, hread, hkd, Infer.inTy, ha, Option.map_some, hta] at ht
  have hty := one_type ho ht
  have hfa := h.fitsIn ha hra hx0
  have hXl : X.shape.length = t.rank := by
    have := hfa.2
    rw [hta] at this
    exact this
  obtain ⟨dims, hd, hout⟩ := reduce_out hty
  obtain ⟨e, hr, he⟩ := reduceFn_reduction op
  refine works_one (f := onFloat fun v => match v with
      | .dev u => genReduce (reduceCode op).2.1 (reduceCode op).1 (reduceCode op).2.2 dims (keep.getD 1 == 1) o.ty u
      | _ => none) (by simp only [nodeCode, hread, hkd, ha, ho, hta, ArgType.rank, hd, Option.map_some]; rfl) ha hra hx0 ho hy fun r hr' => ?_
  have hpos : 1 ≤ t.rank := by
    obtain ⟨v, -, -, hrep⟩ := holds_float hr'
    rw [hta] at hrep
    cases v with
    | dev u => exact hrep.2.2
    | native x => exact hrep.elim
    | shape l => exact hrep.elim
  have hout := hout hpos
  have hXn : X.shape ≠ [] := fun e => by simp [e] at hXl; omega
  rw [float_dev hr' hXn, reduceCode_eq]
  rw [← hkeep] at hZ
  have hfit : OutFits o.ty Z := by
    obtain ⟨-, hrank⟩ := hof
    rcases hout with ⟨d, e1, -⟩ | ⟨t', e1, e2⟩
    · rw [e1] at hrank ⊢
      exact hrank
    · rw [e1] at hrank ⊢
      exact ⟨hrank, e2⟩
  obtain ⟨z, z1, z2⟩ := C32_reduce_values_partial hr (post := (reduceFn op).2.2) (ofInt := Int.cast) (by rw [hXl]; exact hd) hZ
    (he.imp id fun e k hk => by
      have hk' : k < X.shape.length := by
        have his : ∃ is, (if axes.getD [] = [] then some (List.range X.shape.length) else Onnx.axes X.shape.length (axes.getD [])) = some is := by
          unfold reduceT at hZ
          obtain ⟨is, h1, -⟩ := Option.map_eq_some_iff.1 hZ
          exact ⟨is, h1⟩
        obtain ⟨is, his⟩ := his
        split at his
        · rename_i e0
          have := reduceDims_length hd
          rw [e0] at this
          rw [List.length_eq_zero_iff.1 this] at hk
          cases hk
        · rw [hXl] at his
          obtain ⟨hp, -⟩ := reduceDims_spec his hd
          have := hp.mem_iff.1 hk
          rw [hXl]
          exact (axes_nodup his).2 k this
      have h0 := h5 e
      rw [List.getD_eq_getElem?_getD, List.getElem?_eq_getElem hk', Option.getD_some]
      have hmem : X.shape[k] ∈ X.shape := List.getElem_mem hk'
      rcases Nat.eq_zero_or_pos X.shape[k] with e | e
      · rw [e] at hmem; exact absurd hmem h0
      · exact e) (by omega) hfit (by
      rcases hlist with e | e
      · left
        have := reduceDims_length hd
        rw [e] at this
        exact List.length_eq_zero_iff.1 this
      · rcases hout with ⟨d, -, e2, e3⟩ | ⟨t', e1, -⟩
        · rcases e3 with e3 | e3
          · left
            have := reduceDims_length hd
            rw [e3] at this
            exact List.length_eq_zero_iff.1 this
          · rcases e with e | e
            · rw [e2] at e; cases e
            · omega
        · right
          intro d e2
          rw [e1] at e2
          cases e2)
  exact ⟨.float z, by simp [onFloat, z1], hof.1, z2⟩

/-! ### Shape, Clip, Sum and Pow -/

theorem shapeCode_eq {start stop : Option Int} {t : TensorType} {r : RustVal} {v : OVal} (h : Holds (.tensor t) r v) :
    shapeCode start stop (.tensor t) r = (genShape start stop v.shape).map fun l => .int (.shape l) := by
  cases v with
  | float X =>
    obtain ⟨g, rfl, -, hr⟩ := holds_float h
    cases g with
    | dev u => rw [← hr.1]; rfl
    | native x => exact hr.elim
    | shape l => exact hr.elim
  | int X =>
    obtain ⟨g, rfl, -, hr⟩ := holds_int h
    cases g with
    | dev u => rw [← hr.1]; rfl
    | native x => exact hr.elim
    | shape l => exact hr.elim
  | bool X =>
    obtain ⟨g, rfl, -, hr⟩ := holds_bool h
    cases g with
    | dev u => rw [← hr.1]; rfl
    | native x => exact hr.elim
    | shape l => exact hr.elim

theorem holds_shape {k : Nat} {l : List Int} {Z : Tensor Int} (hk : l.length = k) (hs : Z.shape = [Z.data.length]) (hd : Z.data = l) :
    Holds (.shape k) (.int (.shape l)) (.int Z) := by
  refine ⟨rfl, hk, ?_, ?_⟩
  · rw [hs, hd, hk]
  · rw [hd]; exact (List.map_id l).symm

theorem works_shape (hm : Onnx.Meaning erf opset .shape n.attrs xs ys) (h : RunOf st n xs ys)
    (hs : Supported pick st opset n xs .shape) {prefs : OutPrefs}
    (ht : Infer.apply st opset n prefs .shape = some (n.outputs.map Arg.ty)) : Works erf pick st opset n xs ys .shape := by
  obtain ⟨v, start, stop, Z, hx, h1, h2, hZ, hZd, hy⟩ := hm
  obtain ⟨s1, s2⟩ := hs
  obtain ⟨a, hi⟩ := h.input1 hx
  obtain ⟨o, ho, hof⟩ := h.output hy
  obtain ⟨hra, hty⟩ := s1 a (by simp [hi])
  have hx0 : xs[0]? = some (some v) := by rw [hx]; rfl
  have hfa := h.fitsIn (k := 0) (by simp [hi]) hra hx0
  have hbd := s2 v start stop hx h1 h2
  simp only [Infer.apply, (intAttr_read h1).1, (intAttr_read h2).1, Infer.inTy, hi, List.getElem?_cons_zero, Option.map_some] at ht
  have ht' := one_type ho ht
  rcases hty with ⟨t, hta⟩ | ⟨⟨k, hta⟩, e1, e2⟩
  · rw [hta] at ht'
    obtain ⟨k, hk⟩ : ∃ k, o.ty = .shape k := by
      simp only [Infer.shape] at ht'
      split at ht'
      · cases ht'
      · exact ⟨_, (Option.some.inj ht').symm⟩
    obtain ⟨l, hl⟩ := Option.isSome_iff_exists.1 (C43_defined_iff.2 hbd)
    have hlv := C43_generated_value hl
    refine works_one (f := shapeCode start stop (.tensor t))
      (by simp only [nodeCode, (intAttr_read h1).1, (intAttr_read h2).1, hi, ho, hta, hk]) (by simp [hi]) hra hx0 ho hy fun r hr => ?_
    rw [hta] at hr
    refine ⟨.int (.shape l), by rw [shapeCode_eq hr, hl]; rfl, ?_⟩
    have hrank : [Z.data.length] = [k] := by
      have := hof.2
      rw [hk] at this
      rw [← hZ]
      exact this
    rw [hk]
    exact holds_shape (by rw [hlv, ← hZd]; simpa using hrank) hZ (by rw [hZd, hlv])
  · have hst : start = none := by
      cases start with
      | none => rfl
      | some x => simp [HasInt, e1] at h1
    have hsp : stop = none := by
      cases stop with
      | none => rfl
      | some x => simp [HasInt, e2] at h2
    subst hst hsp
    rw [hta] at ht'
    have hk : o.ty = .shape 1 := (Option.some.inj ht').symm
    have hvs : v.shape = [k] := by
      have := hfa.2
      rw [hta] at this
      exact this
    refine ⟨⟨[], fun _ => some [.int (.shape (genShapeOfShape k))]⟩,
      by simp only [nodeCode, (intAttr_read h1).1, (intAttr_read h2).1, hi, ho, hta, hk], by simp, nofun, fun rs _ _ => ?_⟩
    refine ⟨_, rfl, by simp [hy], fun j o' w y k1 k2 k3 => ?_⟩
    subst hy
    rw [ho] at k1
    cases j with
    | zero =>
      simp only [List.getElem?_cons_zero, Option.some.injEq] at k1 k2 k3
      subst k1 k2 k3
      rw [hk]
      refine holds_shape (by rfl) hZ ?_
      rw [hZd, hvs, C43_shape_of_shape]
      rfl
    | succ j => simp at k1

theorem scalar_head {t : Tensor ℝ} (h : t.shape = []) : t.data.head? = some (t.get []) := by
  obtain ⟨s, d, hl⟩ := t
  subst h
  match d, hl with
  | [x], _ => rfl

theorem clip_input {key : String} {k : Nat} {l : Option (Tensor ℝ)} (h : RunOf st n xs ys) (hat : n.attrs.lookup key = none)
    (hx : xs[k + 1]? = some (l.map .float) ∨ xs[k + 1]? = none ∧ l = none) (hl : ∀ t ∈ l, t.shape = [])
    (hs : ∀ a : Arg OVal, n.inputs[k + 1]? = some a → a.src = .optional ∨ ∃ v, st.read a = some v ∧ st.dtype v ≠ .bf16) :
    clipBound st n key (k + 1) = some ((l.map (·.get [])).map .fixed) := by
  simp only [clipBound, attrFloat, hat]
  rcases hx with hx | ⟨hx, rfl⟩
  · obtain ⟨a, ha⟩ := h.input (k := k + 1) (by exact (List.getElem?_eq_some_iff.1 hx).1)
    simp only [ha]
    cases l with
    | none =>
      rcases hs a ha with e | ⟨v, e, -⟩
      · simp [e]
      · have := h.reads _ a v ha e
        rw [hx] at this
        simp at this
    | some t =>
      have hno : a.src ≠ .optional := fun e => by
        have := h.ops.absent _ a ha e
        rw [hx] at this
        simp at this
      obtain ⟨v, e, e2⟩ := (hs a ha).resolve_left hno
      have := h.reads _ a v ha e
      rw [hx] at this
      obtain rfl : OVal.float t = v := by simpa using this
      split
      · contradiction
      · simp [e, e2, scalar_head (hl t rfl)]
  · simp [List.getElem?_eq_none_iff.1 hx, h.noInput (List.getElem?_eq_none_iff.1 hx)]

theorem works_clip (hm : Onnx.Meaning erf opset .clip n.attrs xs ys) (h : RunOf st n xs ys)
    (hs : Supported pick st opset n xs .clip) {prefs : OutPrefs}
    (ht : Infer.apply st opset n prefs .same = some (n.outputs.map Arg.ty)) : Works erf pick st opset n xs ys .clip := by
  obtain ⟨X, lo, hi, hx, hb, hy⟩ := hm
  obtain ⟨s1, s2, s3⟩ := hs
  obtain ⟨o, ho, hof⟩ := h.output hy
  obtain ⟨rest, hxs⟩ : ∃ rest, xs = some (.float X) :: rest := by
    cases xs with
    | nil => cases hx
    | cons x rest => simp only [List.head?_cons, Option.some.injEq] at hx; exact ⟨rest, by rw [hx]⟩
  have hx0 : xs[0]? = some (some (.float X)) := by rw [hxs]; rfl
  obtain ⟨a, ha⟩ := h.input (k := 0) (by rw [hxs]; simp)
  obtain ⟨hra, hdev⟩ := s1 a ha
  obtain ⟨s4, s5⟩ := s3 lo hi hb
  have hbounds : clipBound st n "min" 1 = some (lo.map .fixed) ∧ clipBound st n "max" 2 = some (hi.map .fixed) := by
    rcases hb with ⟨e, h1, h2⟩ | ⟨l, g, hl, l1, g1, rfl, rfl, a1, a2⟩
    · have hlen : xs.length = 1 := by rw [hxs] at e ⊢; simpa using e
      constructor
      · simp only [clipBound, floatAttr_read h1]
        cases lo with
        | some x => rfl
        | none => simp [h.noInput (k := 1) (by omega)]
      · simp only [clipBound, floatAttr_read h2]
        cases hi with
        | some x => rfl
        | none => simp [h.noInput (k := 2) (by omega)]
    · rw [hxs, List.tail_cons] at hl
      constructor
      · refine clip_input (k := 0) h a1 ?_ l1 fun a ha => s2 0 a ha
        left
        rcases hl with ⟨e, -⟩ | e <;> simp [hxs, e]
      · refine clip_input (k := 1) h a2 ?_ g1 fun a ha => s2 1 a ha
        rcases hl with ⟨e, e'⟩ | e
        · right
          simp [hxs, e, e']
        · left
          simp [hxs, e]
  have hsame : o.ty = a.ty := by
    have hh : n.inputs.head? = some a := by rw [List.head?_eq_getElem?]; exact ha
    simp only [Infer.apply, ho, List.map_cons, List.map_nil, Infer.sameAsInput] at ht
    simpa [hh] using ht.symm
  refine works_one (f := onFloat (genClip (fun a b => decide (a ≤ b)) (lo.map .fixed) (hi.map .fixed))) ?_ ha hra hx0 ho hy fun r hr => ?_
  · simp only [nodeCode, hbounds.1, hbounds.2]
    rw [if_neg]
    rcases s4 with e | e
    · cases lo with
      | none => cases e
      | some x => simp
    · cases hi with
      | none => cases e
      | some x => simp
  · obtain ⟨g, rfl, hk, hrep⟩ := holds_float hr
    obtain ⟨z, z1, z2⟩ := C58_clip_partial (le := fun a b => decide (a ≤ b)) hdev hrep s4 fun l h' e1 e2 => by simpa using s5 l h' e1 e2
    refine ⟨.float z, by simp [onFloat, z1], ?_, ?_⟩
    · exact hof.1
    · rw [hsame]; exact z2

theorem works_sum (hm : Onnx.Meaning erf opset .sum n.attrs xs ys) (h : RunOf st n xs ys)
    (hs : Supported pick st opset n xs .sum) {prefs : OutPrefs}
    (ht : Infer.apply st opset n prefs (.broadcast none) = some (n.outputs.map Arg.ty)) : Works erf pick st opset n xs ys .sum := by
  obtain ⟨Xs, Z, hx, hZ, hy⟩ := hm
  obtain ⟨s1, r, s2⟩ := hs
  obtain ⟨o, ho, hof⟩ := h.output hy
  have hlen : Xs.length = n.inputs.length := by rw [← h.ops.length, hx]; simp
  simp only [Infer.apply] at ht
  have ht' := one_type ho ht
  refine ⟨_, rfl, ?_, fun u hu => ?_, fun rs hl hr => ?_⟩
  · simp only [List.map_map]
    rw [show Use.index ∘ Use.arg = id from rfl, List.map_id]
    exact List.nodup_range
  · obtain ⟨j, hj, rfl⟩ := List.mem_map.1 hu
    have hj := List.mem_range.1 hj
    exact ⟨n.inputs[j], List.getElem?_eq_getElem hj, s1 _ (List.getElem_mem hj)⟩
  · simp only [List.length_map, List.length_range] at hl
    obtain ⟨gs, rfl, hgs⟩ := all_hold (α := ℝ) (fun h => by
      obtain ⟨v, h1, -, h2⟩ := holds_float h
      exact ⟨v, h1, h2⟩) (n.inputs.map Arg.ty) Xs rs (by simpa using hl) (by simpa using hlen) fun k r hkr => by
        have hj : k < n.inputs.length := by rw [← hl]; exact (List.getElem?_eq_some_iff.1 hkr).1
        obtain ⟨b, v, k1, k2, k3⟩ := hr k (.arg k) r (by simp [hj]) hkr
        have k2 : xs[k]? = some (some v) := k2
        rw [hx, List.getElem?_map] at k2
        obtain ⟨X, h1, h2⟩ := Option.map_eq_some_iff.1 k2
        refine ⟨b.ty, X, ?_, h1, ?_⟩
        · rw [List.getElem?_map, show n.inputs[k]? = some b from k1]; rfl
        · rw [← Option.some.inj h2] at k3
          exact k3
    obtain ⟨z, z1, z2⟩ := C58_sum_partial hgs s2 ht' hZ
    have hfl : floats (gs.map Elem.rust) = some gs := floats_map gs
    refine ⟨[.float z], by simp only [hfl, Option.bind_some, z1, Option.map_some], by simp [hy], fun k o' w y k1 k2 k3 => ?_⟩
    subst hy
    rw [ho] at k1
    cases k with
    | zero =>
      simp only [List.getElem?_cons_zero, Option.some.injEq] at k1 k2 k3
      subst k1 k2 k3
      exact ⟨hof.1, z2⟩
    | succ k => simp at k1

theorem works_pow (hm : Onnx.Meaning erf opset .pow n.attrs xs ys) (h : RunOf st n xs ys)
    (hs : Supported pick st opset n xs .pow) {prefs : OutPrefs}
    (ht : Infer.apply st opset n prefs (.broadcast none) = some (n.outputs.map Arg.ty)) : Works erf pick st opset n xs ys .pow := by
  obtain ⟨X, Y, Z, hx, -, hZ, hy⟩ := hm
  obtain ⟨a, b, hi⟩ := h.input2 hx
  obtain ⟨o, ho, hof⟩ := h.output hy
  have htt := broadcast_type hi ho ht
  obtain ⟨ra, na⟩ := hs a (by simp [hi])
  obtain ⟨rb, nb⟩ := hs b (by simp [hi])
  refine works_two (u1 := .arg 1)
    (f := onSame (bin (powCode (fun a b => a ^ b) false true) a.ty b.ty) (fun _ _ => none) fun _ _ => none)
    (by simp [nodeCode, Infer.inTy, hi]) rfl hi ra rb hx ho hy fun r s hr hq => ?_
  obtain ⟨v, rfl, hk, hv⟩ := holds_float hr
  obtain ⟨w, rfl, hk', hw⟩ := holds_float hq
  obtain ⟨z, k1, k2⟩ := C58_pow_partial (i := false) (f := true) (toInt := Elem.toInt) hv hw na nb (.inl fun h => by cases h) hZ htt
  exact ⟨.float z, by simp only [onSame, bin]; erw [k1]; rfl, hof.1, k2⟩

/-! ### Examples -/

namespace NetExample

/-- Images with one channel. -/
def img (x : String) : Arg OVal := ⟨x, .tensor ⟨.f32, 4, none⟩, .dynamic⟩

/-- The weights: one window of two rows and two columns. -/
def kernel : Tensor ℝ := ⟨[1, 1, 2, 2], [1, 2, 3, 4], rfl⟩

/-- The embedded weights. -/
def weights : Arg OVal := ⟨"", .tensor ⟨.f32, 4, some [some 1, some 1, some 2, some 2]⟩, .static (.float kernel)⟩

/-- A convolution with a stride of two and one cell of padding on every side. -/
def conv : Node OVal :=
  ⟨.other "Conv2d", "conv1", [img "x", weights], [img "y"], [("strides", .i64s [2, 2]), ("pads", .i64s [1, 1, 1, 1])]⟩

/-- The store: embedded values only. -/
def store : Store OVal where
  value _ s := match s with
    | .static v => some v
    | _ => none
  dims := OVal.shape
  dtype v := match v.kind with
    | .float => .f32
    | .int => .i64
    | .bool => .bool
  ints v := match v with
    | .int t => some t.data
    | _ => none

theorem windowed : Onnx.Windowed conv.attrs 2 [3, 3] [2, 2] [2, 2] [1, 1] [(1, 1), (1, 1)] where
  axes := ⟨rfl, rfl⟩
  strides := ⟨some [2, 2], rfl, rfl⟩
  dilations := ⟨none, rfl, rfl⟩
  padding := ⟨.notSet, [(1, 1), (1, 1)], some [1, 1, 1, 1], .inl ⟨rfl, rfl⟩, rfl, ⟨rfl, rfl⟩, .cons rfl (.cons rfl .nil)⟩
  fits := by simp [Onnx.windowAxes, Onnx.Axis.Fits]

/-- The hypotheses are met by a convolution of any image of three rows and three columns, which therefore has code that works. -/
example (erf : ℝ → ℝ) (pick : Nat → Int → Option Nat) (X : Tensor ℝ) (hX : X.shape = [1, 1, 3, 3]) :
    ∃ Y : Tensor ℝ, Y.shape = [1, 1, 2, 2] ∧
      Onnx.Meaning erf 17 (.conv 2) conv.attrs [some (.float X), some (.float kernel)] [.float Y] ∧
      Supported pick store 17 conv [some (.float X), some (.float kernel)] (.conv 2) ∧
      RunOf store conv [some (.float X), some (.float kernel)] [.float Y] ∧
      Works erf pick store 17 conv [some (.float X), some (.float kernel)] [.float Y] (.conv 2) := by
  obtain ⟨ps, Y, outs, h1, -, h3⟩ := conv_of_kit kit2 (a := { strides := some [2, 2], pads := some [1, 1, 1, 1] }) (group := none)
    (groups := 1) (n := 1) (cg := 1) (mg := 1) (xt := .tensor ⟨.f32, 4, none⟩) (x := X) (w := kernel) (b := .absent) (m := .notSet)
    (pads := [(1, 1), (1, 1)]) (xs := [3, 3]) (ks := [2, 2]) (ss := [2, 2]) (ds := [1, 1])
    ⟨⟨rfl, by decide⟩, nofun, ⟨rfl, by decide⟩, ⟨rfl, by decide⟩, ⟨rfl, rfl⟩, rfl⟩ rfl (by decide) (by decide) hX rfl rfl rfl rfl rfl nofun nofun
    (by simp [ArgType.Admits, hX]) (by simp) ⟨by simp, by simp, by simp, fun ps hp => by
      rw [allAutoPadded_unique hp (.cons rfl (.cons rfl .nil) : AllAutoPadded .notSet [(1, 1), (1, 1)] [3, 3] [2, 2] [2, 2] [1, 1] [(1, 1), (1, 1)])]
      simp [Onnx.windowAxes, Onnx.Axis.Fits]⟩ fun _ _ => trivial
  rw [allAutoPadded_unique h1 (.cons rfl (.cons rfl .nil) : AllAutoPadded .notSet [(1, 1), (1, 1)] [3, 3] [2, 2] [2, 2] [1, 1] [(1, 1), (1, 1)])] at h3
  have houts : outs = [2, 2] := positions_all_unique h3.sizes (by
    have hpos : Axis.Positions ⟨3, 1, 1, 2, 2, 1⟩ 2 := by intro p; simp only [Axis.Fits]; omega
    exact .cons hpos (.cons hpos .nil))
  have hY : Y.shape = [1, 1, 2, 2] := by rw [h3.shape, houts]
  have hm : Onnx.Meaning erf 17 (.conv 2) conv.attrs [some (.float X), some (.float kernel)] [.float Y] :=
    ⟨X, kernel, none, Y, none, 1, 1, 1, 1, [3, 3], [2, 2], [2, 2], [1, 1], [(1, 1), (1, 1)], outs, rfl, rfl, rfl, by decide, hX, rfl, nofun,
      ⟨none, rfl, rfl⟩, windowed, h3, rfl⟩
  have hs : Supported pick store 17 conv [some (.float X), some (.float kernel)] (.conv 2) := by
    refine ⟨fun a ha => by cases ha; exact .inl rfl, ⟨fun k a ha => ?_, fun w W hw hW => by cases hw; cases hW; rfl⟩, ⟨fun key hk l hl => ?_, nofun⟩, ?_,
      fun W hW => by cases hW; decide, fun g hg => (by cases hg), nofun⟩
    · match k with
      | 0 => cases ha; exact ⟨_, rfl⟩
      | k + 1 => simp [conv] at ha
    · simp only [List.mem_cons, List.not_mem_nil, or_false] at hk
      rcases hk with rfl | rfl | rfl
      · cases hl
      · cases hl; decide
      · cases hl
    · rintro (h | h) <;> cases h
  have hr : RunOf store conv [some (.float X), some (.float kernel)] [.float Y] := by
    refine ⟨⟨rfl, fun k a v ha hsrc => ?_, fun k a ha hsrc => ?_, fun k a ha hsrc => ?_⟩, fun k a v ha hv => ?_, rfl, fun k o y ho hy => ?_⟩
    · match k with
      | 0 => cases ha; cases hsrc
      | 1 => cases ha; cases hsrc; rfl
      | k + 2 => simp [conv] at ha
    · match k with
      | 0 => cases ha; cases hsrc
      | 1 => cases ha; cases hsrc
      | k + 2 => simp [conv] at ha
    · match k with
      | 0 => cases ha; exact ⟨_, rfl, rfl, by simp [img, ArgType.HasRank, OVal.shape, hX]⟩
      | 1 => cases ha; rcases hsrc with h | h <;> cases h
      | k + 2 => simp [conv] at ha
    · match k with
      | 0 => cases ha; cases hv
      | 1 => cases ha; cases hv; rfl
      | k + 2 => simp [conv] at ha
    · match k with
      | 0 => cases ho; cases hy; exact ⟨rfl, by simp [img, ArgType.HasRank, OVal.shape, hY]⟩
      | k + 1 => simp [conv] at ho
  exact ⟨Y, hY, hm, hs, hr, works_conv rfl hm hr hs⟩

end NetExample

end OnnxIR
