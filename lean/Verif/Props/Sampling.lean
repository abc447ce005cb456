import Mathlib.Tactic.Ring
import Mathlib.Tactic.Linarith
import Mathlib.Algebra.Order.Archimedean.Basic
import Mathlib.Data.Rat.Floor
import Verif.Model.Sampling
import Verif.Props.Col2Im
import Verif.Props.WindowValues

/-!
# C76: DeformConv and GridSample
-/

namespace OnnxIR

open Infer Gen Onnx

variable {α : Type} [Inhabited α]

/-- The early exit of the interpolation changes nothing. -/
theorem deformSample_eq [Field α] [LinearOrder α] [IsStrictOrderedRing α] [FloorRing α] (x : Tensor α) (h w n c : Nat) (y z : α) :
    Burn.deformSample (plane x h w n c) h w y z = corners (plane x h w n c) y z := by
  unfold Burn.deformSample
  split
  · rename_i hc
    have out : ∀ i j : Int, (i < 0 ∨ (h : Int) ≤ i ∨ j < 0 ∨ (w : Int) ≤ j) → plane x h w n c i j = 0 := by
      intro i j hij
      exact if_neg (by omega)
    unfold corners
    rcases hc with hc | hc | hc | hc
    · rcases hc.lt_or_eq with hc | hc
      · have : ⌊y⌋ < -1 := by
          rw [Int.floor_lt]
          exact_mod_cast hc
        rw [out _ _ (.inl (by omega)), out _ _ (.inl (by omega)), out _ _ (.inl (by omega)), out _ _ (.inl (by omega))]
        simp
      · have hi : y = ((-1 : Int) : α) := by rw [hc]; simp
        have hf : Int.fract y = 0 := by rw [hi]; exact Int.fract_intCast _
        have hl : ⌊y⌋ = -1 := by rw [hi]; exact Int.floor_intCast _
        rw [out ⌊y⌋ _ (.inl (by omega)), out ⌊y⌋ _ (.inl (by omega)), hf]
        simp
    · have : (h : Int) ≤ ⌊y⌋ := by
        rw [Int.le_floor]
        exact_mod_cast hc
      rw [out _ _ (.inr (.inl (by omega))), out _ _ (.inr (.inl (by omega))), out _ _ (.inr (.inl (by omega))), out _ _ (.inr (.inl (by omega)))]
      simp
    · rcases hc.lt_or_eq with hc | hc
      · have : ⌊z⌋ < -1 := by
          rw [Int.floor_lt]
          exact_mod_cast hc
        rw [out _ _ (.inr (.inr (.inl (by omega)))), out _ _ (.inr (.inr (.inl (by omega)))), out _ _ (.inr (.inr (.inl (by omega)))),
          out _ _ (.inr (.inr (.inl (by omega))))]
        simp
      · have hi : z = ((-1 : Int) : α) := by rw [hc]; simp
        have hf : Int.fract z = 0 := by rw [hi]; exact Int.fract_intCast _
        have hl : ⌊z⌋ = -1 := by rw [hi]; exact Int.floor_intCast _
        rw [out _ ⌊z⌋ (.inr (.inr (.inl (by omega)))), out _ ⌊z⌋ (.inr (.inr (.inl (by omega)))), hf]
        simp
    · have : (w : Int) ≤ ⌊z⌋ := by
        rw [Int.le_floor]
        exact_mod_cast hc
      rw [out _ _ (.inr (.inr (.inr (by omega)))), out _ _ (.inr (.inr (.inr (by omega)))), out _ _ (.inr (.inr (.inr (by omega)))),
        out _ _ (.inr (.inr (.inr (by omega))))]
      simp
  · rfl

theorem pair_lt {g mg j groups : Nat} (hg : g < groups) (hj : j < mg) : g * mg + j < groups * mg := by
  have := Nat.mul_le_mul_right mg (Nat.succ_le_of_lt hg)
  rw [Nat.succ_mul] at this
  omega

theorem pair_div {k l n : Nat} (h : l < n) : (k * n + l) / n = k ∧ (k * n + l) % n = l := by
  constructor
  · rw [Nat.add_comm, Nat.add_mul_div_right _ _ (by omega), Nat.div_eq_of_lt h, Nat.zero_add]
  · rw [Nat.add_comm, Nat.add_mul_mod_self_right, Nat.mod_eq_of_lt h]

/-- The module for deformable convolution. -/
theorem deformConvModule_spec [Field α] [LinearOrder α] [IsStrictOrderedRing α] [FloorRing α] {a0 a1 : Axis} {groups og co n cg mg o0 o1 : Nat}
    {x w offset : Tensor α} {b mask : Option (Tensor α)} (h0 : a0.Proper) (h1 : a1.Proper) (e0 : a0.before = a0.after) (e1 : a1.before = a1.after)
    (hg : 0 < groups) (hog : 0 < og) (hc : groups * cg = og * co) (hx : x.shape = [n, groups * cg, a0.input, a1.input])
    (hw : w.shape = [groups * mg, cg, a0.kernel, a1.kernel]) (hb : ∀ t, b = some t → t.shape = [groups * mg])
    (ho0 : a0.Positions o0) (ho1 : a1.Positions o1) (hoff : offset.shape = [n, og * (2 * (a0.kernel * a1.kernel)), o0, o1])
    (hm : ∀ t, mask = some t → t.shape = [n, og * (a0.kernel * a1.kernel), o0, o1]) :
    ∃ y, Burn.deformConvModule (cg * groups) (groups * mg) [a0.kernel, a1.kernel] [a0.stride, a1.stride] [a0.dilation, a1.dilation]
      [(a0.before, a0.after), (a1.before, a1.after)] groups og x offset mask w b = some y ∧
      DeformConvT a0 a1 groups co n cg mg o0 o1 x w offset b mask y := by
  obtain ⟨p0, l0, q0⟩ := slide_length h0 (s := ⟨a0.before, a0.stride, a0.dilation⟩) (x := a0.input) (by dsimp only; omega) rfl rfl
  obtain ⟨p1, l1, q1⟩ := slide_length h1 (s := ⟨a1.before, a1.stride, a1.dilation⟩) (x := a1.input) (by dsimp only; omega) rfl rfl
  have uniq : ∀ {a : Axis} {n m : Nat}, a.Positions n → a.Positions m → n = m := by
    intro a n m hn hm
    have h1 := (hn m).trans (hm m).symm
    have h2 := (hn n).trans (hm n).symm
    omega
  cases uniq ho0 q0
  cases uniq ho1 q1
  have hcg : cg * groups / groups = cg := Nat.mul_div_cancel _ hg
  have hmg : groups * mg / groups = mg := Nat.mul_div_cancel_left _ hg
  have hco : cg * groups / og = co := by rw [Nat.mul_comm, hc, Nat.mul_div_cancel_left _ hog]
  unfold Burn.deformConvModule
  rw [hx]
  dsimp only [List.map, Burn.slides]
  rw [if_neg, l0, l1]
  · dsimp only
    rw [if_neg]
    · refine ⟨_, rfl, ⟨ho0, ho1⟩, rfl, ?_⟩
      intro i g j o p hi hgr hj ho hp
      refine (Tensor.get_ofFn (by exact ⟨hi, pair_lt hgr hj, ho, hp, trivial⟩)).trans ?_
      dsimp only
      rw [hcg, hmg, hco, (pair_div hj).1, sum_range_mul]
      congr 2
      refine List.map_congr_left fun c hc => ?_
      rw [sum_range_mul]
      congr 1
      refine List.map_congr_left fun k hk => ?_
      congr 1
      refine List.map_congr_left fun l hl => ?_
      have hk := List.mem_range.1 hk
      have hl := List.mem_range.1 hl
      obtain ⟨d1, d2⟩ := pair_div (k := c) (pair_lt hk hl)
      obtain ⟨d3, d4⟩ := pair_div (k := k) hl
      rw [d1, d2, d3, d4, deformSample_eq]
      simp only [Nat.cast_add, Nat.cast_mul]
    · rw [hoff]
      simp only [ne_eq, not_true_eq_false, false_or, not_exists, not_and]
      exact fun t ht h => h (hm t ht)
  · rw [hcg, hw]
    have : cg * groups % og = 0 := by rw [Nat.mul_comm, hc]; exact Nat.mul_mod_right _ _
    simp only [Nat.mul_mod_left, Nat.mul_mod_right, Nat.mul_comm groups cg, this, ne_eq, not_true_eq_false, false_or, not_or, not_exists, not_and,
      List.all_cons, List.all_nil, e0, e1]
    refine ⟨by omega, by omega, fun t ht h => h (hb t ht), by simp⟩

theorem deformConfig_total {a : WindowAttrs} {wt : ArgType} {ws ss ds : List Nat} {pads : List (Nat × Nat)} (hw : ws.length = 4)
    (hk : SizesAttr a.kernelShape ((ws.drop 2).map Int.ofNat) (ws.drop 2)) (hkn : a.kernelShape ≠ some [])
    (hs : SizesAttr a.strides (List.replicate 2 1) ss) (hd : SizesAttr a.dilations (List.replicate 2 1) ds) (hls : ss.length = 2) (hld : ds.length = 2)
    (hp : PadsAttr 2 (a.pads.getD (List.replicate (2 * 2) 0)) pads) :
    ∃ c p, deformConfig a (some ws) wt = some ⟨ws.drop 2, ss, ds, c, .notSet, false⟩ ∧ tokens2d c = some p ∧ p.amounts 2 = pads := by
  have hl : (a.pads.getD (List.replicate (2 * 2) 0)).length = 4 := by rw [hp.2]; simp [hp.1]
  obtain ⟨c, hc⟩ := (C42_two_axes_partial hl).1.2 (padsAttr_nonneg hp)
  have ht : ∃ p, tokens2d c = some p := by cases c <;> exact ⟨_, rfl⟩
  obtain ⟨p, ht⟩ := ht
  refine ⟨c, p, ?_, ht, by rw [tokens2d_amounts ht]; exact config2d_pairs hp hc⟩
  have hker : deformKernel a (some ws) wt = some (ws.drop 2) := by
    unfold deformKernel
    cases e : a.kernelShape with
    | none => simp [hw]
    | some l =>
      have hl : l ≠ [] := fun h => hkn (by rw [e, h])
      simp only [SizesAttr, e, Option.getD_some] at hk
      rw [hk.1] at hl
      simp only [Option.getD_some, hk.1, if_neg hl]
      have := firstN_sizes hk.2
      rwa [show (ws.drop 2).length = 2 by simp [hw]] at this
  have h1 := firstN_sizes hs.2
  have h2 := firstN_sizes hd.2
  rw [hls] at h1
  rw [hld] at h2
  have h3 : firstN 2 (a.strides.getD [1, 1]) = some ss := by
    rw [show [1, 1] = List.replicate 2 (1 : Int) from rfl, hs.1, h1]
  have h4 : firstN 2 (a.dilations.getD [1, 1]) = some ds := by
    rw [show [1, 1] = List.replicate 2 (1 : Int) from rfl, hd.1, h2]
  have hc' : paddingConfig2d (a.pads.getD [0, 0, 0, 0]) = some c := hc
  simp only [deformConfig, hc', hker, h3, h4, Option.bind_eq_bind, Option.bind_some]

/-- The attributes of DeformConv, whose axes are `a0` and `a1`. -/
structure DeformAttrs (a : WindowAttrs) (a0 a1 : Axis) : Prop where
  kernel : SizesAttr a.kernelShape [(a0.kernel : Int), (a1.kernel : Int)] [a0.kernel, a1.kernel]
  kernelNonempty : a.kernelShape ≠ some []
  strides : SizesAttr a.strides [1, 1] [a0.stride, a1.stride]
  dilations : SizesAttr a.dilations [1, 1] [a0.dilation, a1.dilation]
  pads : PadsAttr 2 (a.pads.getD [0, 0, 0, 0]) [(a0.before, a0.after), (a1.before, a1.after)]

/-- C76: DeformConv, for padding that is the same at both ends of each axis. The bias and the mask may be left out in both ways. -/
theorem C76_deformConv_partial [Field α] [LinearOrder α] [IsStrictOrderedRing α] [FloorRing α] {a : WindowAttrs} {group offsetGroup : Option Int}
    {wt : ArgType} {a0 a1 : Axis} {groups og co n cg mg o0 o1 : Nat} {x w offset : Tensor α} {b : ConvBias α} {mask : Option (Tensor α)}
    (ha : DeformAttrs a a0 a1) (h0 : 0 < a0.kernel ∧ 0 < a0.stride ∧ a0.Fits 0) (h1 : 0 < a1.kernel ∧ 0 < a1.stride ∧ a1.Fits 0)
    (e0 : a0.before = a0.after) (e1 : a1.before = a1.after) (hg : group.getD 1 = (groups : Int)) (hg0 : 0 < groups) (hg63 : groups < 2 ^ 63)
    (hog : offsetGroup.getD 1 = (og : Int)) (hog0 : 0 < og) (hog63 : og < 2 ^ 63) (hc : groups * cg = og * co)
    (hx : x.shape = [n, groups * cg, a0.input, a1.input]) (hw : w.shape = [groups * mg, cg, a0.kernel, a1.kernel])
    (hb : ∀ t, b = .const t → t.shape = [groups * mg]) (ho0 : a0.Positions o0) (ho1 : a1.Positions o1)
    (hoff : offset.shape = [n, og * (2 * (a0.kernel * a1.kernel)), o0, o1])
    (hm : ∀ t, mask = some t → t.shape = [n, og * (a0.kernel * a1.kernel), o0, o1]) :
    ∃ y, genDeformConv a group offsetGroup wt x w offset b mask = some y ∧
      DeformConvT a0 a1 groups co n cg mg o0 o1 x w offset b.value mask y := by
  obtain ⟨c, p, hcfg, ht, hpads⟩ := deformConfig_total (a := a) (wt := wt) (ws := w.shape) (by rw [hw]; rfl) (by rw [hw]; exact ha.kernel)
    ha.kernelNonempty ha.strides ha.dilations rfl rfl ha.pads
  have hbv : ∀ t, b.value = some t → t.shape = [groups * mg] := by
    intro t h
    cases b with
    | const u => cases h; exact hb t rfl
    | _ => cases h
  obtain ⟨y, hy, hv⟩ := deformConvModule_spec (b := b.value) ⟨h0.1, h0.2.1, h0.2.2⟩ ⟨h1.1, h1.2.1, h1.2.2⟩ e0 e1 hg0 hog0 hc hx hw hbv ho0 ho1
    hoff hm
  refine ⟨y, ?_, hv⟩
  have hgr : asUsize (group.getD 1) = groups := by rw [hg]; exact asUsize_nat hg63
  have hogr : asUsize (offsetGroup.getD 1) = og := by rw [hog]; exact asUsize_nat hog63
  simp only [genDeformConv, hcfg, ht, hpads, hgr, hogr, Option.bind_eq_bind, Option.bind_some]
  rw [hw]
  cases b <;> exact hy

/-- The hypotheses of `C76_deformConv_partial` hold for a 1×2 window moved by half a cell; the value. -/
example :
    let x : Tensor ℚ := ⟨[1, 1, 1, 3], [1, 2, 4], rfl⟩
    let w : Tensor ℚ := ⟨[1, 1, 1, 2], [1, 10], rfl⟩
    let off : Tensor ℚ := ⟨[1, 4, 1, 2], [0, 0, 1 / 2, 0, 0, 0, 0, 1 / 2], rfl⟩
    let a : WindowAttrs := {}
    DeformAttrs a ⟨1, 0, 0, 1, 1, 1⟩ ⟨3, 0, 0, 2, 1, 1⟩ ∧ Axis.Positions ⟨3, 0, 0, 2, 1, 1⟩ 2 ∧
      genDeformConv a none none (.tensor ⟨.f32, 4, none⟩) x w off .omitted none = some ⟨[1, 1, 1, 2], [43 / 2, 22], rfl⟩ := by
  refine ⟨⟨by simp [SizesAttr], by simp, by simp [SizesAttr], by simp [SizesAttr], by simp [PadsAttr]⟩, ?_, by decide +kernel⟩
  intro p
  simp only [Axis.Fits]
  omega

/-! ### GridSample -/

/-- C76: GridSample with two spatial axes uses the operator's mode, padding and alignment, whatever they mean. -/
theorem C76_gridSample_partial (f : SampleMode → SamplePadding → Bool → Tensor α → Tensor α → Tensor α) {opset : Nat} {a : GridAttrs}
    {m : SampleMode} {p : SamplePadding} {c : Bool} {t u : TensorType} {x grid : Tensor α}
    (hm : a.mode.getD (SampleMode.linear.text opset) = m.text opset) (hp : a.paddingMode.getD "zeros" = p.text)
    (hc : a.alignCorners.getD 0 = if c then 1 else 0) (ht : t.rank = 4) (hu : u.rank = 4) :
    gridSample opset a (.tensor t) (.tensor u) = some (.tensor ⟨t.dtype, 4, none⟩) ∧
      genGridSample f opset a (.tensor t) (.tensor u) x grid = some (f m p c x grid) := by
  have h1 : ∃ m', (a.mode.map gridMode).getD (some .bilinear) = some m' ∧ m'.meaning = m := by
    by_cases ho : opset < 20
    · cases e : a.mode with
      | none =>
        rw [e] at hm
        cases m <;> simp [SampleMode.text, ho] at hm
        exact ⟨.bilinear, rfl, rfl⟩
      | some s =>
        rw [e] at hm
        simp only [Option.getD_some] at hm
        subst hm
        cases m <;> simp only [SampleMode.text, ho, if_true, Option.map_some, Option.getD_some]
        · exact ⟨.bilinear, by decide +kernel, rfl⟩
        · exact ⟨.nearest, by decide +kernel, rfl⟩
        · exact ⟨.bicubic, by decide +kernel, rfl⟩
    · cases e : a.mode with
      | none =>
        rw [e] at hm
        cases m <;> simp [SampleMode.text, ho] at hm
        exact ⟨.bilinear, rfl, rfl⟩
      | some s =>
        rw [e] at hm
        simp only [Option.getD_some] at hm
        subst hm
        cases m <;> simp only [SampleMode.text, ho, if_false, Option.map_some, Option.getD_some]
        · exact ⟨.bilinear, by decide +kernel, rfl⟩
        · exact ⟨.nearest, by decide +kernel, rfl⟩
        · exact ⟨.bicubic, by decide +kernel, rfl⟩
  have h2 : ∃ p', (a.paddingMode.map gridPadding).getD (some .zeros) = some p' ∧ p'.meaning = p := by
    cases e : a.paddingMode with
    | none =>
      rw [e] at hp
      cases p <;> simp [SamplePadding.text] at hp
      exact ⟨.zeros, rfl, rfl⟩
    | some s =>
      rw [e] at hp
      simp only [Option.getD_some] at hp
      subst hp
      cases p <;> simp only [SamplePadding.text, Option.map_some, Option.getD_some]
      · exact ⟨.zeros, by decide +kernel, rfl⟩
      · exact ⟨.border, by decide +kernel, rfl⟩
      · exact ⟨.reflection, by decide +kernel, rfl⟩
  obtain ⟨m', h1, rfl⟩ := h1
  obtain ⟨p', h2, rfl⟩ := h2
  have h3 : gridConfig a = some (m', p', c) := by
    simp only [gridConfig, h1, h2, hc, Option.bind_eq_bind, Option.bind_some]
    cases c <;> rfl
  have h4 : gridSample opset a (.tensor t) (.tensor u) = some (.tensor ⟨t.dtype, 4, none⟩) := by
    simp [gridSample, ht, hu, h3]
  refine ⟨h4, ?_⟩
  simp only [genGridSample, h4, h3, Option.bind_eq_bind, Option.bind_some, Burn.gridSample2d, ht, if_true]

/-- The inputs of `C76_gridSample_partial` exist for both families of names. -/
example : ({ mode := some "bicubic", alignCorners := some 1 } : GridAttrs).mode.getD (SampleMode.linear.text 16) = SampleMode.cubic.text 16 ∧
    ({} : GridAttrs).mode.getD (SampleMode.linear.text 20) = SampleMode.linear.text 20 := by decide

/-- C76: from version 20 on the operator also has three or more spatial axes. The import accepts them, but the code does not compile. -/
theorem C76_gridSample_rank_fails (f : SampleMode → SamplePadding → Bool → Tensor α → Tensor α → Tensor α) (dt du : DType) (r : Nat) (hr : r ≠ 4)
    (x grid : Tensor α) :
    gridSample 20 {} (.tensor ⟨dt, r, none⟩) (.tensor ⟨du, r, none⟩) = some (.tensor ⟨dt, r, none⟩) ∧
      genGridSample f 20 {} (.tensor ⟨dt, r, none⟩) (.tensor ⟨du, r, none⟩) x grid = none := by
  have h3 : gridConfig {} = some (.bilinear, .zeros, false) := by decide
  have h4 : gridSample 20 {} (.tensor ⟨dt, r, none⟩) (.tensor ⟨du, r, none⟩) = some (.tensor ⟨dt, r, none⟩) := by
    simp [gridSample, h3]
  refine ⟨h4, ?_⟩
  simp [genGridSample, h4, h3, Burn.gridSample2d, hr]

end OnnxIR
