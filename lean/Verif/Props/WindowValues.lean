import Verif.Props.WindowOps

/-!
# C75: values of the generated convolution and pooling
-/

namespace OnnxIR

open Gen Infer Onnx

/-! ### Padding of a node -/

/-- What a node with one, two or three axes needs of its padding: it is read, and the module gets the amounts ONNX prescribes. `Ok` says which
amounts the module can express. -/
structure PadKit {P : Type} (n : Nat) (pc : List Int → Option P) (padding : WindowConfig P → ArgType → Option Burn.Padding)
    (Ok : List (Nat × Nat) → Prop) : Prop where
  intro ::
  works : ∀ {pads : List Int} {amounts : List (Nat × Nat)}, PadsAttr n pads amounts → ∃ c, pc pads = some c ∧
    ∀ {kernel stride dilation : List Nat} {m : AutoPad} {ceil : Bool} {xt : ArgType} {b ch : Nat} {xs : List Nat},
      kernel.length = n → stride.length = n → dilation.length = n → xs.length = n → xt.Admits (b :: ch :: xs) →
      (∀ x ∈ xs, 0 < x) → (∀ k ∈ kernel, 0 < k) → (∀ s ∈ stride, 0 < s) →
      (m = .sameUpper ∨ m = .sameLower → xt.staticShapeKnown ≠ none) →
      (∀ ps, AllAutoPadded m.mode amounts xs kernel stride dilation ps → Ok ps) →
      ∃ p, padding ⟨kernel, stride, dilation, c, m, ceil⟩ xt = some p ∧
        AllAutoPadded m.mode amounts xs kernel stride dilation (p.amounts n)

theorem padsAttr_nonneg {n : Nat} {pads : List Int} {amounts : List (Nat × Nat)} (h : PadsAttr n pads amounts) : ∀ x ∈ pads, 0 ≤ x := by
  intro x hx
  rw [h.2, List.mem_append] at hx
  rcases hx with hx | hx <;> obtain ⟨a, _, rfl⟩ := List.mem_map.1 hx <;> omega

theorem known_spatial {xt : ArgType} {b ch : Nat} {xs : List Nat} (h : xt.Admits (b :: ch :: xs)) (hk : xt.staticShapeKnown ≠ none) :
    inputSpatial xt = some xs := by
  cases e : xt.staticShapeKnown with
  | none => exact absurd e hk
  | some s =>
    have := ArgType.admits_known h e
    subst this
    simp [inputSpatial, e]

theorem kit1 : PadKit 1 paddingConfig1d padding1 fun _ => True := by
  constructor
  intro pads amounts hp
  have hl : pads.length = 2 := by rw [hp.2]; simp [hp.1]
  obtain ⟨c, hc⟩ := (C42_one_axis_partial hl).1.2 (padsAttr_nonneg hp)
  refine ⟨c, hc, ?_⟩
  have hpr := config1d_pairs hp hc
  intro kernel stride dilation m ceil xt b ch xs h1 h2 h3 h4 ha hx hk hs hm _
  obtain ⟨k0, rfl⟩ := List.length_eq_one_iff.1 h1
  obtain ⟨s0, rfl⟩ := List.length_eq_one_iff.1 h2
  obtain ⟨d0, rfl⟩ := List.length_eq_one_iff.1 h3
  obtain ⟨x0, rfl⟩ := List.length_eq_one_iff.1 h4
  simp only [List.mem_singleton, forall_eq] at hx hk hs
  have ht : ∀ q : PaddingConfig1d, ∃ p, tokens1d q = some p := by intro q; cases q <;> exact ⟨_, rfl⟩
  have : ∃ p, padding1 ⟨[k0], [s0], [d0], c, m, ceil⟩ xt = some p := by
    unfold padding1
    have hr : ∃ q, resolveAutoPad1d m c (inputSpatial xt) k0 s0 d0 = some q := by
      cases m with
      | notSet => exact ⟨_, rfl⟩
      | valid => exact ⟨_, rfl⟩
      | sameUpper =>
        obtain ⟨p, e⟩ := C20_one_dim_total (m := .sameUpper) (d := d0) (by simp) hx hk hs
        simp [resolveAutoPad1d, known_spatial ha (hm (by simp)), e]
      | sameLower =>
        obtain ⟨p, e⟩ := C20_one_dim_total (m := .sameLower) (d := d0) (by simp) hx hk hs
        simp [resolveAutoPad1d, known_spatial ha (hm (by simp)), e]
    obtain ⟨q, hq⟩ := hr
    obtain ⟨p, hp⟩ := ht q
    refine ⟨p, ?_⟩
    simp only [List.getD_cons_zero, hq]
    exact hp
  obtain ⟨p, hp'⟩ := this
  refine ⟨p, hp', ?_⟩
  rw [← hpr]
  exact C20_module_1d (c := ⟨[k0], [s0], [d0], c, m, ceil⟩) ha hx rfl rfl rfl hp'

theorem length_eq_two {l : List Nat} (h : l.length = 2) : ∃ a b, l = [a, b] := by
  rcases l with _ | ⟨a, _ | ⟨b, _ | ⟨_, _⟩⟩⟩ <;> simp at h
  exact ⟨a, b, rfl⟩

theorem length_eq_three {l : List Nat} (h : l.length = 3) : ∃ a b c, l = [a, b, c] := by
  rcases l with _ | ⟨a, _ | ⟨b, _ | ⟨c, _ | ⟨_, _⟩⟩⟩⟩ <;> simp at h
  exact ⟨a, b, c, rfl⟩

theorem kit2 : PadKit 2 paddingConfig2d padding2 fun _ => True := by
  constructor
  intro pads amounts hp
  have hl : pads.length = 4 := by rw [hp.2]; simp [hp.1]
  obtain ⟨c, hc⟩ := (C42_two_axes_partial hl).1.2 (padsAttr_nonneg hp)
  refine ⟨c, hc, ?_⟩
  have hpr := config2d_pairs hp hc
  intro kernel stride dilation m ceil xt b ch xs h1 h2 h3 h4 ha hx hk hs hm _
  obtain ⟨k0, k1, rfl⟩ := length_eq_two h1
  obtain ⟨s0, s1, rfl⟩ := length_eq_two h2
  obtain ⟨d0, d1, rfl⟩ := length_eq_two h3
  obtain ⟨x0, x1, rfl⟩ := length_eq_two h4
  simp only [List.mem_cons, List.not_mem_nil, or_false, forall_eq_or_imp, forall_eq] at hx hk hs
  have ht : ∀ q : PaddingConfig2d, ∃ p, tokens2d q = some p := by intro q; cases q <;> exact ⟨_, rfl⟩
  have : ∃ p, padding2 ⟨[k0, k1], [s0, s1], [d0, d1], c, m, ceil⟩ xt = some p := by
    unfold padding2
    have hr : ∃ q, resolveAutoPad2d m c (inputSpatial xt) (k0, k1) (s0, s1) (d0, d1) = some q := by
      cases m with
      | notSet => exact ⟨_, rfl⟩
      | valid => exact ⟨_, rfl⟩
      | sameUpper =>
        obtain ⟨p, e⟩ := C20_one_dim_total (m := .sameUpper) (d := d0) (by simp) hx.1 hk.1 hs.1
        obtain ⟨q, e'⟩ := C20_one_dim_total (m := .sameUpper) (d := d1) (by simp) hx.2 hk.2 hs.2
        simp [resolveAutoPad2d, known_spatial ha (hm (by simp)), e, e']
      | sameLower =>
        obtain ⟨p, e⟩ := C20_one_dim_total (m := .sameLower) (d := d0) (by simp) hx.1 hk.1 hs.1
        obtain ⟨q, e'⟩ := C20_one_dim_total (m := .sameLower) (d := d1) (by simp) hx.2 hk.2 hs.2
        simp [resolveAutoPad2d, known_spatial ha (hm (by simp)), e, e']
    obtain ⟨q, hq⟩ := hr
    obtain ⟨p, hp⟩ := ht q
    refine ⟨p, ?_⟩
    simp only [List.getD_cons_zero, List.getD_cons_succ, hq]
    exact hp
  obtain ⟨p, hp'⟩ := this
  refine ⟨p, hp', ?_⟩
  rw [← hpr]
  exact C20_module_2d (c := ⟨[k0, k1], [s0, s1], [d0, d1], c, m, ceil⟩) ha hx.1 hx.2 rfl rfl rfl hp'

theorem tokens3d_total {q : PaddingConfig3d} (h : ∀ p ∈ q.pairs, p.1 = p.2) : ∃ p, tokens3d q = some p := by
  cases q with
  | valid => exact ⟨_, rfl⟩
  | explicit f t l k b r =>
    simp only [PaddingConfig3d.pairs, PaddingConfig3d.asTuple, List.mem_cons, List.not_mem_nil, or_false, forall_eq_or_imp, forall_eq] at h
    obtain ⟨rfl, rfl, rfl⟩ := h
    exact ⟨.explicit3 f t l, by simp [tokens3d, PaddingConfig3d.isAsymmetric]⟩

theorem kit3 : PadKit 3 paddingConfig3d padding3 fun ps => ∀ p ∈ ps, p.1 = p.2 := by
  constructor
  intro pads amounts hp
  have hl : pads.length = 6 := by rw [hp.2]; simp [hp.1]
  obtain ⟨c, hc⟩ := (C42_three_axes_partial hl).1.2 (padsAttr_nonneg hp)
  refine ⟨c, hc, ?_⟩
  have hpr := config3d_pairs hp hc
  intro kernel stride dilation m ceil xt b ch xs h1 h2 h3 h4 ha hx hk hs hm hok
  obtain ⟨k0, k1, k2, rfl⟩ := length_eq_three h1
  obtain ⟨s0, s1, s2, rfl⟩ := length_eq_three h2
  obtain ⟨d0, d1, d2, rfl⟩ := length_eq_three h3
  obtain ⟨x0, x1, x2, rfl⟩ := length_eq_three h4
  simp only [List.mem_cons, List.not_mem_nil, or_false, forall_eq_or_imp, forall_eq] at hx hk hs
  obtain ⟨a0, a1, a2, ham⟩ : ∃ a0 a1 a2, amounts = [a0, a1, a2] := by
    have := hp.1
    rcases amounts with _ | ⟨a, _ | ⟨b, _ | ⟨c, _ | ⟨_, _⟩⟩⟩⟩ <;> simp at this
    exact ⟨_, _, _, rfl⟩
  have : ∃ p, padding3 ⟨[k0, k1, k2], [s0, s1, s2], [d0, d1, d2], c, m, ceil⟩ xt = some p := by
    unfold padding3
    have hr : ∃ q, resolveAutoPad3d m c (inputSpatial xt) (k0, k1, k2) (s0, s1, s2) (d0, d1, d2) = some q ∧
        AllAutoPadded m.mode amounts [x0, x1, x2] [k0, k1, k2] [s0, s1, s2] [d0, d1, d2] q.pairs := by
      cases m with
      | notSet => exact ⟨c, rfl, by rw [hpr, ham]; exact .cons rfl (.cons rfl (.cons rfl .nil))⟩
      | valid => exact ⟨_, rfl, by rw [ham]; exact .cons rfl (.cons rfl (.cons rfl .nil))⟩
      | sameUpper =>
        obtain ⟨p, e⟩ := C20_one_dim_total (m := .sameUpper) (d := d0) (by simp) hx.1 hk.1 hs.1
        obtain ⟨q, e'⟩ := C20_one_dim_total (m := .sameUpper) (d := d1) (by simp) hx.2.1 hk.2.1 hs.2.1
        obtain ⟨r, e''⟩ := C20_one_dim_total (m := .sameUpper) (d := d2) (by simp) hx.2.2 hk.2.2 hs.2.2
        refine ⟨.explicit p.1 q.1 r.1 p.2 q.2 r.2, by simp [resolveAutoPad3d, known_spatial ha (hm (by simp)), e, e', e''], ?_⟩
        rw [ham]
        exact .cons (C20_one_dim hx.1 e) (.cons (C20_one_dim hx.2.1 e') (.cons (C20_one_dim hx.2.2 e'') .nil))
      | sameLower =>
        obtain ⟨p, e⟩ := C20_one_dim_total (m := .sameLower) (d := d0) (by simp) hx.1 hk.1 hs.1
        obtain ⟨q, e'⟩ := C20_one_dim_total (m := .sameLower) (d := d1) (by simp) hx.2.1 hk.2.1 hs.2.1
        obtain ⟨r, e''⟩ := C20_one_dim_total (m := .sameLower) (d := d2) (by simp) hx.2.2 hk.2.2 hs.2.2
        refine ⟨.explicit p.1 q.1 r.1 p.2 q.2 r.2, by simp [resolveAutoPad3d, known_spatial ha (hm (by simp)), e, e', e''], ?_⟩
        rw [ham]
        exact .cons (C20_one_dim hx.1 e) (.cons (C20_one_dim hx.2.1 e') (.cons (C20_one_dim hx.2.2 e'') .nil))
    obtain ⟨q, hq, hall⟩ := hr
    obtain ⟨p, hp⟩ := tokens3d_total (hok _ hall)
    refine ⟨p, ?_⟩
    simp only [List.getD_cons_zero, List.getD_cons_succ, hq]
    exact hp
  obtain ⟨p, hp'⟩ := this
  refine ⟨p, hp', ?_⟩
  rw [← hpr]
  exact C20_module_3d (c := ⟨[k0, k1, k2], [s0, s1, s2], [d0, d1, d2], c, m, ceil⟩) ha hx.1 hx.2.1 hx.2.2 rfl rfl rfl hp'

/-! ### Attributes -/

theorem autoPadOf_mode {a : WindowAttrs} {m : AutoPad} (h : a.autoPad.getD "NOTSET" = m.mode.text) : autoPadOf a = some m := by
  unfold autoPadOf
  cases ha : a.autoPad with
  | none =>
    rw [ha] at h
    cases m
    · rfl
    all_goals exact absurd h (by decide)
  | some s =>
    rw [ha, Option.getD_some] at h
    subst h
    cases m <;> decide

theorem convConfig_total {P : Type} {n : Nat} {pc : List Int → Option P} {a : WindowAttrs} {ws ss ds : List Nat} {m : AutoPad}
    {pads : List (Nat × Nat)} {c : P} (ha : ConvAttrs n a ws m pads ss ds) (hw : ws.length = n + 2) (hs : ss.length = n) (hd : ds.length = n)
    (hc : pc (a.pads.getD (List.replicate (2 * n) 0)) = some c) :
    convConfig n pc a (some ws) = some ⟨ws.drop 2, ss, ds, c, m, false⟩ := by
  have hk : kernelOf n a ws = some (ws.drop 2) := by
    unfold kernelOf
    cases e : a.kernelShape with
    | none => simp [hw]
    | some l =>
      have hl : l ≠ [] := fun h => ha.kernelNonempty (by rw [e, h])
      have h1 := ha.kernel
      simp only [SizesAttr, e, Option.getD_some] at h1
      rw [h1.1] at hl
      simp only [Option.getD_some, h1.1, if_neg hl]
      have := firstN_sizes h1.2
      rwa [show (ws.drop 2).length = n by simp [hw]] at this
  have h1 := firstN_sizes ha.strides.2
  have h2 := firstN_sizes ha.dilations.2
  rw [hs] at h1
  rw [hd] at h2
  simp only [convConfig, autoPadOf_mode ha.mode, hc, hk, ha.strides.1, ha.dilations.1, h1, h2, Option.bind_eq_bind, Option.bind_some]

/-- The attributes of a pooling. -/
structure PoolAttrs (n : Nat) (a : WindowAttrs) (m : AutoPad) (pads : List (Nat × Nat)) (ks ss ds : List Nat) : Prop where
  kernel : SizesAttr a.kernelShape [] ks
  strides : SizesAttr a.strides (List.replicate n 1) ss
  dilations : SizesAttr a.dilations (List.replicate n 1) ds
  pads : PadsAttr n (a.pads.getD (List.replicate (2 * n) 0)) pads
  mode : a.autoPad.getD "NOTSET" = m.mode.text
  floor : a.ceilMode.getD 0 = 0

theorem poolConfig_total {P : Type} {n : Nat} {pc : List Int → Option P} {a : WindowAttrs} {ks ss ds : List Nat} {m : AutoPad}
    {pads : List (Nat × Nat)} {c : P} (ha : PoolAttrs n a m pads ks ss ds) (hk : ks.length = n) (hs : ss.length = n) (hd : ds.length = n)
    (hc : pc (a.pads.getD (List.replicate (2 * n) 0)) = some c) :
    poolConfig n pc a = some ⟨ks, ss, ds, c, m, false⟩ := by
  have h0 := firstN_sizes ha.kernel.2
  have h1 := firstN_sizes ha.strides.2
  have h2 := firstN_sizes ha.dilations.2
  rw [hk] at h0
  rw [hs] at h1
  rw [hd] at h2
  simp only [poolConfig, autoPadOf_mode ha.mode, hc, ha.kernel.1, ha.strides.1, ha.dilations.1, h0, h1, h2, ha.floor, Option.bind_eq_bind,
    Option.bind_some]
  simp

theorem windowAxes_maps {m : PadMode} {pads ps : List (Nat × Nat)} {xs ks ss ds : List Nat} (h : AllAutoPadded m pads xs ks ss ds ps) :
    (windowAxes ps xs ks ss ds).map (·.input) = xs ∧ (windowAxes ps xs ks ss ds).map (·.kernel) = ks ∧
    (windowAxes ps xs ks ss ds).map (·.stride) = ss ∧ (windowAxes ps xs ks ss ds).map (·.dilation) = ds ∧
    (windowAxes ps xs ks ss ds).map (fun a => (a.before, a.after)) = ps := by
  induction h with
  | nil => exact ⟨rfl, rfl, rfl, rfl, rfl⟩
  | cons _ _ ih =>
    obtain ⟨h1, h2, h3, h4, h5⟩ := ih
    simp only [windowAxes, List.map_cons, h1, h2, h3, h4, h5, Prod.mk.eta, and_self]

/-- What has to hold of the sizes for a window operator to have a result: nothing is empty and the window fits into the padded input. -/
structure Sized (m : PadMode) (pads : List (Nat × Nat)) (xs ks ss ds : List Nat) : Prop where
  input : ∀ x ∈ xs, 0 < x
  kernel : ∀ k ∈ ks, 0 < k
  stride : ∀ s ∈ ss, 0 < s
  fits : ∀ ps, AllAutoPadded m pads xs ks ss ds ps → ∀ a ∈ windowAxes ps xs ks ss ds, a.Fits 0

theorem Sized.proper {m : PadMode} {pads ps : List (Nat × Nat)} {xs ks ss ds : List Nat} (h : Sized m pads xs ks ss ds)
    (hp : AllAutoPadded m pads xs ks ss ds ps) : ∀ a ∈ windowAxes ps xs ks ss ds, a.Proper := by
  obtain ⟨-, h2, h3, -, -⟩ := windowAxes_maps hp
  intro a ha
  refine ⟨h.kernel _ ?_, h.stride _ ?_, h.fits ps hp a ha⟩
  · rw [← h2]
    exact List.mem_map.2 ⟨a, ha, rfl⟩
  · rw [← h3]
    exact List.mem_map.2 ⟨a, ha, rfl⟩

variable {α : Type} [Inhabited α]

/-- The bias a node has. -/
def ConvBias.value : ConvBias α → Option (Tensor α)
  | .const t => some t
  | _ => none

/-! ### Convolution -/

theorem conv_of_kit [AddCommMonoid α] [Mul α] {P : Type} {d : Nat} {pc : List Int → Option P}
    {padding : WindowConfig P → ArgType → Option Burn.Padding} {Ok : List (Nat × Nat) → Prop} (kit : PadKit d pc padding Ok)
    {a : WindowAttrs} {group : Option Int} {groups n cg mg : Nat} {xt : ArgType} {x w : Tensor α} {b : ConvBias α} {m : AutoPad}
    {pads : List (Nat × Nat)} {xs ks ss ds : List Nat}
    (ha : ConvAttrs d a w.shape m pads ss ds) (hg : group.getD 1 = (groups : Int)) (hg0 : 0 < groups) (hg63 : groups < 2 ^ 63)
    (hx : x.shape = n :: groups * cg :: xs) (hw : w.shape = groups * mg :: cg :: ks) (hlx : xs.length = d) (hlk : ks.length = d)
    (hls : ss.length = d) (hld : ds.length = d) (hb : ∀ t, b = .const t → t.shape = [groups * mg]) (hb' : b ≠ .omitted)
    (ht : xt.Admits x.shape) (hm : m = .sameUpper ∨ m = .sameLower → xt.staticShapeKnown ≠ none) (hs : Sized m.mode pads xs ks ss ds)
    (hok : ∀ ps, AllAutoPadded m.mode pads xs ks ss ds ps → Ok ps) :
    ∃ ps y outs, AllAutoPadded m.mode pads xs ks ss ds ps ∧ genConv d pc padding a group xt x w b = some y ∧
      ConvT (windowAxes ps xs ks ss ds) groups n cg mg outs x w b.value y := by
  obtain ⟨c, hc, hk⟩ := kit.works ha.pads
  obtain ⟨p, hp, hall⟩ := hk (ceil := false) hlk hls hld hlx (by rw [← hx]; exact ht) hs.input hs.kernel hs.stride hm hok
  obtain ⟨m1, m2, m3, m4, m5⟩ := windowAxes_maps hall
  have hb2 : biasField b = some b.value := by cases b <;> first | rfl | exact absurd rfl hb'
  obtain ⟨y, outs, hy, hv⟩ := convModule_spec (as := windowAxes (p.amounts d) xs ks ss ds) (groups := groups) (n := n) (cg := cg) (mg := mg)
    (x := x) (w := w) (b := b.value) (hs.proper hall) hg0 (by rw [m1]; exact hx) (by rw [m2]; exact hw) (by
      intro t h
      cases b with
      | const u => cases h; exact hb _ rfl
      | absent => cases h
      | omitted => cases h)
  refine ⟨p.amounts d, y, outs, hall, ?_, hv⟩
  have hu : asUsize (group.getD 1) = groups := by rw [hg]; exact asUsize_nat hg63
  rw [m2, m3, m4, m5] at hy
  have hcfg := convConfig_total (pc := pc) ha (by rw [hw]; simp [hlk]) hls hld hc
  have hdrop : w.shape.drop 2 = ks := by rw [hw]; rfl
  simp only [genConv, hcfg, hdrop, windowModule, hp, hb2, hu, Option.bind_eq_bind, Option.bind_some, Option.map_some, Option.getD_some]
  rw [hw]
  exact hy

/-- C75: Conv with one axis. The input's shape has to be known for the two SAME modes. -/
theorem C75_conv1d_partial [AddCommMonoid α] [Mul α] {a : WindowAttrs} {group : Option Int} {groups n cg mg x0 k0 s0 d0 : Nat} {xt : ArgType}
    {x w : Tensor α} {b : ConvBias α} {m : AutoPad} {pads : List (Nat × Nat)}
    (ha : ConvAttrs 1 a w.shape m pads [s0] [d0]) (hg : group.getD 1 = (groups : Int)) (hg0 : 0 < groups) (hg63 : groups < 2 ^ 63)
    (hx : x.shape = [n, groups * cg, x0]) (hw : w.shape = [groups * mg, cg, k0]) (hb : ∀ t, b = .const t → t.shape = [groups * mg])
    (hb' : b ≠ .omitted) (ht : xt.Admits x.shape) (hm : m = .sameUpper ∨ m = .sameLower → xt.staticShapeKnown ≠ none)
    (hs : Sized m.mode pads [x0] [k0] [s0] [d0]) :
    ∃ ps y outs, AllAutoPadded m.mode pads [x0] [k0] [s0] [d0] ps ∧ genConv 1 paddingConfig1d padding1 a group xt x w b = some y ∧
      ConvT (windowAxes ps [x0] [k0] [s0] [d0]) groups n cg mg outs x w b.value y :=
  conv_of_kit kit1 ha hg hg0 hg63 hx hw rfl rfl rfl rfl hb hb' ht hm hs fun _ _ => trivial

/-- C75: Conv with two axes. -/
theorem C75_conv2d_partial [AddCommMonoid α] [Mul α] {a : WindowAttrs} {group : Option Int} {groups n cg mg x0 x1 k0 k1 s0 s1 d0 d1 : Nat}
    {xt : ArgType} {x w : Tensor α} {b : ConvBias α} {m : AutoPad} {pads : List (Nat × Nat)}
    (ha : ConvAttrs 2 a w.shape m pads [s0, s1] [d0, d1]) (hg : group.getD 1 = (groups : Int)) (hg0 : 0 < groups) (hg63 : groups < 2 ^ 63)
    (hx : x.shape = [n, groups * cg, x0, x1]) (hw : w.shape = [groups * mg, cg, k0, k1]) (hb : ∀ t, b = .const t → t.shape = [groups * mg])
    (hb' : b ≠ .omitted) (ht : xt.Admits x.shape) (hm : m = .sameUpper ∨ m = .sameLower → xt.staticShapeKnown ≠ none)
    (hs : Sized m.mode pads [x0, x1] [k0, k1] [s0, s1] [d0, d1]) :
    ∃ ps y outs, AllAutoPadded m.mode pads [x0, x1] [k0, k1] [s0, s1] [d0, d1] ps ∧
      genConv 2 paddingConfig2d padding2 a group xt x w b = some y ∧
      ConvT (windowAxes ps [x0, x1] [k0, k1] [s0, s1] [d0, d1]) groups n cg mg outs x w b.value y :=
  conv_of_kit kit2 ha hg hg0 hg63 hx hw rfl rfl rfl rfl hb hb' ht hm hs fun _ _ => trivial

/-- C75: Conv with three axes, for padding that is the same on both sides of each. -/
theorem C75_conv3d_partial [AddCommMonoid α] [Mul α] {a : WindowAttrs} {group : Option Int} {groups n cg mg x0 x1 x2 k0 k1 k2 s0 s1 s2 d0 d1 d2 : Nat}
    {xt : ArgType} {x w : Tensor α} {b : ConvBias α} {m : AutoPad} {pads : List (Nat × Nat)}
    (ha : ConvAttrs 3 a w.shape m pads [s0, s1, s2] [d0, d1, d2]) (hg : group.getD 1 = (groups : Int)) (hg0 : 0 < groups) (hg63 : groups < 2 ^ 63)
    (hx : x.shape = [n, groups * cg, x0, x1, x2]) (hw : w.shape = [groups * mg, cg, k0, k1, k2])
    (hb : ∀ t, b = .const t → t.shape = [groups * mg])
    (hb' : b ≠ .omitted) (ht : xt.Admits x.shape) (hm : m = .sameUpper ∨ m = .sameLower → xt.staticShapeKnown ≠ none)
    (hs : Sized m.mode pads [x0, x1, x2] [k0, k1, k2] [s0, s1, s2] [d0, d1, d2])
    (hsym : ∀ ps, AllAutoPadded m.mode pads [x0, x1, x2] [k0, k1, k2] [s0, s1, s2] [d0, d1, d2] ps → ∀ p ∈ ps, p.1 = p.2) :
    ∃ ps y outs, AllAutoPadded m.mode pads [x0, x1, x2] [k0, k1, k2] [s0, s1, s2] [d0, d1, d2] ps ∧
      genConv 3 paddingConfig3d padding3 a group xt x w b = some y ∧
      ConvT (windowAxes ps [x0, x1, x2] [k0, k1, k2] [s0, s1, s2] [d0, d1, d2]) groups n cg mg outs x w b.value y :=
  conv_of_kit kit3 ha hg hg0 hg63 hx hw rfl rfl rfl rfl hb hb' ht hm hs hsym

/-- C75: a bias whose name is empty, which is how ONNX writes that there is none, makes the import fail. -/
theorem C75_empty_bias_fails [AddCommMonoid α] [Mul α] {P : Type} (d : Nat) (pc : List Int → Option P)
    (padding : WindowConfig P → ArgType → Option Burn.Padding) (a : WindowAttrs) (group : Option Int) (xt : ArgType) (x w : Tensor α) :
    genConv d pc padding a group xt x w .omitted = none := by
  unfold genConv
  cases convConfig d pc a (some w.shape) with
  | none => rfl
  | some c =>
    simp only [Option.bind_eq_bind, Option.bind_some, biasField, Option.bind_none]
    cases windowModule padding c xt <;> rfl

/-! ### Pooling -/

theorem maxPool_of_kit [LinearOrder α] [OrderBot α] {P : Type} {d : Nat} {pc : List Int → Option P}
    {padding : WindowConfig P → ArgType → Option Burn.Padding} {Ok : List (Nat × Nat) → Prop} (kit : PadKit d pc padding Ok)
    {a : WindowAttrs} {n ch : Nat} {xt : ArgType} {x : Tensor α} {m : AutoPad} {pads : List (Nat × Nat)} {xs ks ss ds : List Nat}
    (ha : PoolAttrs d a m pads ks ss ds) (hx : x.shape = n :: ch :: xs) (hlx : xs.length = d) (hlk : ks.length = d)
    (hls : ss.length = d) (hld : ds.length = d)
    (ht : xt.Admits x.shape) (hm : m = .sameUpper ∨ m = .sameLower → xt.staticShapeKnown ≠ none) (hs : Sized m.mode pads xs ks ss ds)
    (hok : ∀ ps, AllAutoPadded m.mode pads xs ks ss ds ps → Ok ps) :
    ∃ ps y outs, AllAutoPadded m.mode pads xs ks ss ds ps ∧ genMaxPool d pc padding a xt x = some y ∧
      MaxPoolT (windowAxes ps xs ks ss ds) n ch outs x y := by
  obtain ⟨c, hc, hk⟩ := kit.works ha.pads
  obtain ⟨p, hp, hall⟩ := hk (ceil := false) hlk hls hld hlx (by rw [← hx]; exact ht) hs.input hs.kernel hs.stride hm hok
  obtain ⟨m1, m2, m3, m4, m5⟩ := windowAxes_maps hall
  obtain ⟨y, outs, hy, hv⟩ := maxPoolModule_spec (as := windowAxes (p.amounts d) xs ks ss ds) (n := n) (c := ch) (x := x) (hs.proper hall)
    (by rw [m1]; exact hx)
  refine ⟨p.amounts d, y, outs, hall, ?_, hv⟩
  rw [m2, m3, m4, m5] at hy
  have hcfg := poolConfig_total (pc := pc) ha hlk hls hld hc
  simp only [genMaxPool, hcfg, windowModule, hp, Option.bind_eq_bind, Option.bind_some, Option.map_some, Option.getD_some, Bool.false_eq_true, if_false]
  exact hy

/-- C75: MaxPool with one axis, without `ceil_mode`. -/
theorem C75_maxPool1d_partial [LinearOrder α] [OrderBot α] {a : WindowAttrs} {n ch x0 k0 s0 d0 : Nat} {xt : ArgType} {x : Tensor α} {m : AutoPad}
    {pads : List (Nat × Nat)} (ha : PoolAttrs 1 a m pads [k0] [s0] [d0]) (hx : x.shape = [n, ch, x0]) (ht : xt.Admits x.shape)
    (hm : m = .sameUpper ∨ m = .sameLower → xt.staticShapeKnown ≠ none) (hs : Sized m.mode pads [x0] [k0] [s0] [d0]) :
    ∃ ps y outs, AllAutoPadded m.mode pads [x0] [k0] [s0] [d0] ps ∧ genMaxPool 1 paddingConfig1d padding1 a xt x = some y ∧
      MaxPoolT (windowAxes ps [x0] [k0] [s0] [d0]) n ch outs x y :=
  maxPool_of_kit kit1 ha hx rfl rfl rfl rfl ht hm hs fun _ _ => trivial

/-- C75: MaxPool with two axes, without `ceil_mode`. -/
theorem C75_maxPool2d_partial [LinearOrder α] [OrderBot α] {a : WindowAttrs} {n ch x0 x1 k0 k1 s0 s1 d0 d1 : Nat} {xt : ArgType} {x : Tensor α}
    {m : AutoPad} {pads : List (Nat × Nat)} (ha : PoolAttrs 2 a m pads [k0, k1] [s0, s1] [d0, d1]) (hx : x.shape = [n, ch, x0, x1])
    (ht : xt.Admits x.shape) (hm : m = .sameUpper ∨ m = .sameLower → xt.staticShapeKnown ≠ none)
    (hs : Sized m.mode pads [x0, x1] [k0, k1] [s0, s1] [d0, d1]) :
    ∃ ps y outs, AllAutoPadded m.mode pads [x0, x1] [k0, k1] [s0, s1] [d0, d1] ps ∧ genMaxPool 2 paddingConfig2d padding2 a xt x = some y ∧
      MaxPoolT (windowAxes ps [x0, x1] [k0, k1] [s0, s1] [d0, d1]) n ch outs x y :=
  maxPool_of_kit kit2 ha hx rfl rfl rfl rfl ht hm hs fun _ _ => trivial

theorem avgPool_of_kit [Field α] {P : Type} {d : Nat} {pc : List Int → Option P}
    {padding : WindowConfig P → ArgType → Option Burn.Padding} {Ok : List (Nat × Nat) → Prop} (kit : PadKit d pc padding Ok)
    {a : WindowAttrs} {cip : Option Int} {n ch : Nat} {xt : ArgType} {x : Tensor α} {m : AutoPad} {pads : List (Nat × Nat)} {xs ks ss ds : List Nat}
    (ha : PoolAttrs d a m pads ks ss ds) (hone : ∀ e ∈ ds, e = 1) (hx : x.shape = n :: ch :: xs) (hlx : xs.length = d) (hlk : ks.length = d)
    (hls : ss.length = d) (hld : ds.length = d)
    (ht : xt.Admits x.shape) (hm : m = .sameUpper ∨ m = .sameLower → xt.staticShapeKnown ≠ none) (hs : Sized m.mode pads xs ks ss ds)
    (hsym : cip.getD 0 = 1 ∨ ∀ ps, AllAutoPadded m.mode pads xs ks ss ds ps → ∀ p ∈ ps, p.1 = p.2)
    (hok : ∀ ps, AllAutoPadded m.mode pads xs ks ss ds ps → Ok ps) :
    ∃ ps y outs, AllAutoPadded m.mode pads xs ks ss ds ps ∧ genAvgPool d pc padding a cip xt x = some y ∧
      AveragePoolT (windowAxes ps xs ks ss ds) (cip.getD 0 = 1) n ch outs x y := by
  obtain ⟨c, hc, hk⟩ := kit.works ha.pads
  obtain ⟨p, hp, hall⟩ := hk (ceil := false) hlk hls hld hlx (by rw [← hx]; exact ht) hs.input hs.kernel hs.stride hm hok
  obtain ⟨m1, m2, m3, m4, m5⟩ := windowAxes_maps hall
  obtain ⟨y, outs, hy, hv⟩ := avgPoolModule_spec (as := windowAxes (p.amounts d) xs ks ss ds) (n := n) (c := ch) (x := x)
    (count := (cip.getD 0 = 1)) (hs.proper hall)
    (by
      intro e he
      refine hone _ ?_
      rw [← m4]
      exact List.mem_map.2 ⟨e, he, rfl⟩) (by rw [m1]; exact hx)
    (by
      rcases hsym with h | h
      · exact .inl (by simpa using h)
      · refine .inr fun e he => h _ hall (e.before, e.after) ?_
        have : (e.before, e.after) ∈ (windowAxes (p.amounts d) xs ks ss ds).map (fun a => (a.before, a.after)) := List.mem_map.2 ⟨e, he, rfl⟩
        rwa [m5] at this)
  refine ⟨p.amounts d, y, outs, hall, ?_, hv⟩
  rw [m2, m3, m5] at hy
  have hcfg := poolConfig_total (pc := pc) ha hlk hls hld hc
  simp only [genAvgPool, hcfg, avgPoolModule, hp, Option.bind_eq_bind, Option.bind_some, Option.map_some, Bool.false_eq_true, if_false]
  exact hy

/-- C75: AveragePool with one axis, without `ceil_mode` and dilation; either the padding is counted or it is the same on both sides. -/
theorem C75_avgPool1d_partial [Field α] {a : WindowAttrs} {cip : Option Int} {n ch x0 k0 s0 : Nat} {xt : ArgType} {x : Tensor α} {m : AutoPad}
    {pads : List (Nat × Nat)} (ha : PoolAttrs 1 a m pads [k0] [s0] [1]) (hx : x.shape = [n, ch, x0]) (ht : xt.Admits x.shape)
    (hm : m = .sameUpper ∨ m = .sameLower → xt.staticShapeKnown ≠ none) (hs : Sized m.mode pads [x0] [k0] [s0] [1])
    (hsym : cip.getD 0 = 1 ∨ ∀ ps, AllAutoPadded m.mode pads [x0] [k0] [s0] [1] ps → ∀ p ∈ ps, p.1 = p.2) :
    ∃ ps y outs, AllAutoPadded m.mode pads [x0] [k0] [s0] [1] ps ∧ genAvgPool 1 paddingConfig1d padding1 a cip xt x = some y ∧
      AveragePoolT (windowAxes ps [x0] [k0] [s0] [1]) (cip.getD 0 = 1) n ch outs x y :=
  avgPool_of_kit kit1 ha (by simp) hx rfl rfl rfl rfl ht hm hs hsym fun _ _ => trivial

/-- C75: AveragePool with two axes. -/
theorem C75_avgPool2d_partial [Field α] {a : WindowAttrs} {cip : Option Int} {n ch x0 x1 k0 k1 s0 s1 : Nat} {xt : ArgType} {x : Tensor α}
    {m : AutoPad} {pads : List (Nat × Nat)} (ha : PoolAttrs 2 a m pads [k0, k1] [s0, s1] [1, 1]) (hx : x.shape = [n, ch, x0, x1])
    (ht : xt.Admits x.shape) (hm : m = .sameUpper ∨ m = .sameLower → xt.staticShapeKnown ≠ none)
    (hs : Sized m.mode pads [x0, x1] [k0, k1] [s0, s1] [1, 1])
    (hsym : cip.getD 0 = 1 ∨ ∀ ps, AllAutoPadded m.mode pads [x0, x1] [k0, k1] [s0, s1] [1, 1] ps → ∀ p ∈ ps, p.1 = p.2) :
    ∃ ps y outs, AllAutoPadded m.mode pads [x0, x1] [k0, k1] [s0, s1] [1, 1] ps ∧ genAvgPool 2 paddingConfig2d padding2 a cip xt x = some y ∧
      AveragePoolT (windowAxes ps [x0, x1] [k0, k1] [s0, s1] [1, 1]) (cip.getD 0 = 1) n ch outs x y :=
  avgPool_of_kit kit2 ha (by simp) hx rfl rfl rfl rfl ht hm hs hsym fun _ _ => trivial

/-- C75: GlobalAveragePool, for tensors with one or two spatial axes. -/
theorem C75_globalAveragePool_partial [Field α] {t : TensorType} {x : Tensor α} (ht : (ArgType.tensor t).Admits x.shape)
    (hr : x.shape.length = 3 ∨ x.shape.length = 4) : ∃ y, genGlobalAvgPool (.tensor t) x = some y ∧ GlobalAveragePoolT x y := by
  have h1 : x.shape.length = t.rank := ht.1
  simp only [genGlobalAvgPool]
  rcases hs : x.shape with _ | ⟨n, _ | ⟨c, _ | ⟨x0, _ | ⟨x1, _ | ⟨_, _⟩⟩⟩⟩⟩ <;> rw [hs] at h1 hr <;> simp at hr
  · rw [← h1]
    exact adaptive_spec hs
  · rw [← h1]
    exact adaptive_spec hs

/-- C75: with more spatial axes, which ONNX allows, the import fails. -/
theorem C75_globalAveragePool_refused [Field α] (t : TensorType) (x : Tensor α) (hr : t.rank ≠ 3 ∧ t.rank ≠ 4) :
    genGlobalAvgPool (.tensor t) x = none := by
  simp only [genGlobalAvgPool]
  split
  · rename_i e
    exact absurd e hr.1
  · rename_i e
    exact absurd e hr.2
  · rfl

/-! ### Transposed convolution -/

/-- The attributes of a transposed convolution over the axes `as`. -/
structure TransposeOk (a : TransposeAttrs) (as : List TAxis) : Prop where
  kernel : SizesAttr a.kernelShape ((as.map (·.kernel)).map Int.ofNat) (as.map (·.kernel))
  kernelNonempty : a.kernelShape ≠ some []
  strides : SizesAttr a.strides (List.replicate as.length 1) (as.map (·.stride))
  dilations : SizesAttr a.dilations (List.replicate as.length 1) (as.map (·.dilation))
  outputPadding : SizesAttr a.outputPadding (List.replicate as.length 0) (as.map (·.outPad))
  pads : PadsAttr as.length (a.pads.getD (List.replicate (2 * as.length) 0)) (as.map (·.pad))
  small : ∀ e ∈ as, e.pad.1 < 2 ^ 63
  symmetric : ∀ e ∈ as, e.pad.1 = e.pad.2
  mode : a.autoPad.getD "NOTSET" = "NOTSET"

theorem transposePads_ok {as : List TAxis} {pads : List Int} (hn : as.length = 1 ∨ as.length = 2 ∨ as.length = 3)
    (hp : PadsAttr as.length pads (as.map (·.pad))) (hb : ∀ e ∈ as, e.pad.1 < 2 ^ 63) (hs : ∀ e ∈ as, e.pad.1 = e.pad.2) :
    transposePads as.length pads = some (as.map (·.pad.1)) := by
  obtain ⟨-, rfl⟩ := hp
  rcases as with _ | ⟨e, _ | ⟨f, _ | ⟨g, _ | ⟨_, _⟩⟩⟩⟩ <;> simp at hn
  · have h1 := hs e (by simp)
    have h2 := asUsize_nat (hb e (by simp))
    simp only [Int.ofNat_eq_natCast] at h2
    simp [transposePads, transposePads1d, ← h1, h2]
  · have h1 := hs e (by simp)
    have h2 := asUsize_nat (hb e (by simp))
    have h3 := hs f (by simp)
    have h4 := asUsize_nat (hb f (by simp))
    simp only [Int.ofNat_eq_natCast] at h2 h4
    simp [transposePads, transposePads2d, ← h1, h2, ← h3, h4]
  · have h1 := hs e (by simp)
    have h2 := asUsize_nat (hb e (by simp))
    have h3 := hs f (by simp)
    have h4 := asUsize_nat (hb f (by simp))
    have h5 := hs g (by simp)
    have h6 := asUsize_nat (hb g (by simp))
    simp only [Int.ofNat_eq_natCast] at h2 h4 h6
    simp [transposePads, transposePads3d, ← h1, h2, ← h3, h4, ← h5, h6]

/-- C75: ConvTranspose with one to three axes, for padding that is the same on both sides of each. -/
theorem C75_convTranspose_partial [AddCommMonoid α] [Mul α] {a : TransposeAttrs} {as : List TAxis} {groups n cg mg : Nat}
    {x w : Tensor α} {b : ConvBias α} (hn : as.length = 1 ∨ as.length = 2 ∨ as.length = 3) (ha : TransposeOk a as)
    (hk : ∀ e ∈ as, 0 < e.kernel ∧ 0 < e.stride ∧ 0 < e.input)
    (hl : ∀ e ∈ as, 0 ≤ transposedLength e.input e.pad.1 e.pad.2 e.kernel e.stride e.dilation e.outPad)
    (hg : a.group.getD 1 = (groups : Int)) (hg0 : 0 < groups) (hg63 : groups < 2 ^ 63)
    (hx : x.shape = n :: groups * cg :: as.map (·.input)) (hw : w.shape = groups * cg :: mg :: as.map (·.kernel))
    (hb : ∀ t, b = .const t → t.shape = [groups * mg]) (hb' : b ≠ .omitted) :
    ∃ y outs, genConvTranspose as.length a x w b = some y ∧ ConvTransposeT as groups n cg mg outs x w b.value y := by
  have hbv : ∀ t, b.value = some t → t.shape = [groups * mg] := by
    intro t h
    cases b with
    | const u => cases h; exact hb t rfl
    | _ => cases h
  obtain ⟨y, outs, hy, hv⟩ := convTransposeModule_spec ha.symmetric hk hl hg0 hx hw hbv
  refine ⟨y, outs, ?_, hv⟩
  have hf : biasField b = some b.value := by
    cases b with
    | omitted => exact absurd rfl hb'
    | _ => rfl
  have hgr : asUsize (a.group.getD 1) = groups := by rw [hg]; exact asUsize_nat hg63
  have hker : kernelOf as.length { kernelShape := a.kernelShape } w.shape = some (as.map (·.kernel)) := by
    unfold kernelOf
    cases e : a.kernelShape with
    | none => simp [hw]
    | some l =>
      have hl : l ≠ [] := fun h => ha.kernelNonempty (by rw [e, h])
      have h1 := ha.kernel
      simp only [SizesAttr, e, Option.getD_some] at h1
      rw [h1.1] at hl
      simp only [Option.getD_some, h1.1, if_neg hl]
      have := firstN_sizes h1.2
      rwa [List.length_map] at this
  have h1 := firstN_sizes ha.strides.2
  have h2 := firstN_sizes ha.dilations.2
  have h3 := firstN_sizes ha.outputPadding.2
  rw [List.length_map] at h1 h2 h3
  have h0 : w.shape.getD 0 0 = groups * cg := by rw [hw]; rfl
  have h0' : w.shape.getD 1 0 = mg := by rw [hw]; rfl
  simp only [genConvTranspose, ha.mode, transposePads_ok hn ha.pads ha.small ha.symmetric, hker, ha.strides.1, ha.dilations.1,
    ha.outputPadding.1, h1, h2, h3, hf, hgr, h0, h0', Option.bind_eq_bind, Option.bind_some, ne_eq, not_true_eq_false, if_false]
  exact hy

/-- C75: any other `auto_pad` is refused. -/
theorem C75_convTranspose_refused [AddCommMonoid α] [Mul α] (n : Nat) (a : TransposeAttrs) (x w : Tensor α) (b : ConvBias α)
    (h : a.autoPad.getD "NOTSET" ≠ "NOTSET") : genConvTranspose n a x w b = none := by
  simp [genConvTranspose, h]

/-! ### Concrete cases -/

/-- C75: AveragePool drops `dilations`: with window 2 and dilation 2 over [1, 2, 3] the operator has one output, 2, the generated code two. -/
theorem C75_avgPool_dilation_wrong :
    let x : Tensor ℚ := ⟨[1, 1, 3], [1, 2, 3], rfl⟩
    let a : WindowAttrs := { kernelShape := some [2], dilations := some [2] }
    ∃ y, genAvgPool 1 paddingConfig1d padding1 a none (.tensor ⟨.f32, 3, some [some 1, some 1, some 3]⟩) x = some y ∧ y.shape = [1, 1, 2] ∧
      ∀ outs, ¬ AveragePoolT [⟨3, 0, 0, 2, 1, 2⟩] False 1 1 outs x y := by
  refine ⟨⟨[1, 1, 2], [3 / 2, 5 / 2], rfl⟩, by decide +kernel, rfl, fun outs h => ?_⟩
  have h1 := h.sizes
  have h2 := h.shape
  cases h1 with
  | cons h3 h4 =>
    cases h4
    rename_i l
    have hl : l = 2 := by simpa using h2.symm
    subst hl
    have := (h3 1).1 (by decide)
    simp [Axis.Fits] at this

/-- C75: Conv with three axes and different padding at the two ends of one panics while the code is generated. -/
theorem C75_conv3d_asymmetric_panics :
    let x : Tensor Int := ⟨[1, 1, 1, 1, 1], [5], rfl⟩
    let a : WindowAttrs := { pads := some [1, 0, 0, 0, 0, 0] }
    genConv 3 paddingConfig3d padding3 a none (.tensor ⟨.f32, 5, some [some 1, some 1, some 1, some 1, some 1]⟩) x x .absent = none := by
  decide +kernel

/-- The hypotheses of `C75_conv1d_partial` hold for two groups, padding on one side only, stride 2 and a bias; the values. -/
example :
    let x : Tensor Int := ⟨[1, 2, 3], [1, 2, 3, 4, 5, 6], rfl⟩
    let w : Tensor Int := ⟨[2, 1, 2], [1, 10, 100, 1000], rfl⟩
    let b : Tensor Int := ⟨[2], [7, 8], rfl⟩
    let a : WindowAttrs := { strides := some [2], pads := some [1, 0] }
    let xt : ArgType := .tensor ⟨.f32, 3, none⟩
    ConvAttrs 1 a w.shape .notSet [(1, 0)] [2] [1] ∧ xt.Admits x.shape ∧ Sized AutoPad.notSet.mode [(1, 0)] [3] [2] [2] [1] ∧
      genConv 1 paddingConfig1d padding1 a (some 2) xt x w (.const b) = some ⟨[1, 2, 2], [17, 39, 4008, 6508], rfl⟩ := by
  refine ⟨⟨by simp [SizesAttr], by simp, by simp [SizesAttr], by simp [SizesAttr], by simp [PadsAttr], rfl⟩, by simp [ArgType.Admits],
    ⟨by simp, by simp, by simp, ?_⟩, by decide +kernel⟩
  intro ps h
  cases h with
  | cons h1 h2 =>
    cases h2
    cases h1
    simp [windowAxes, Axis.Fits]

/-- The hypotheses of `C75_convTranspose_partial` hold for stride 2 and output padding 1; the values. -/
example :
    let x : Tensor Int := ⟨[1, 1, 2], [1, 2], rfl⟩
    let w : Tensor Int := ⟨[1, 1, 3], [1, 10, 100], rfl⟩
    let a : TransposeAttrs := { strides := some [2], pads := some [1, 1], outputPadding := some [1] }
    let as : List TAxis := [⟨2, (1, 1), 3, 2, 1, 1⟩]
    TransposeOk a as ∧ (∀ e ∈ as, 0 ≤ transposedLength e.input e.pad.1 e.pad.2 e.kernel e.stride e.dilation e.outPad) ∧
      genConvTranspose 1 a x w .absent = some ⟨[1, 1, 4], [10, 102, 20, 200], rfl⟩ := by
  refine ⟨⟨by simp [SizesAttr], by simp, by simp [SizesAttr], by simp [SizesAttr], by simp [SizesAttr], by simp [PadsAttr], by simp, by simp, rfl⟩,
    by simp [transposedLength], by decide +kernel⟩

/-- In the two SAME modes a window always fits. -/
theorem sized_same {m : PadMode} (hm : m = .sameUpper ∨ m = .sameLower) {pads : List (Nat × Nat)} {xs ks ss ds : List Nat}
    (hx : ∀ x ∈ xs, 0 < x) (hk : ∀ k ∈ ks, 0 < k) (hs : ∀ s ∈ ss, 0 < s) : Sized m pads xs ks ss ds := by
  refine ⟨hx, hk, hs, fun ps h => ?_⟩
  induction h with
  | nil => simp [windowAxes]
  | @cons pad x k s d p pads xs ks ss ds ps h _ ih =>
    intro a ha
    rcases List.mem_cons.1 ha with rfl | ha
    · have h0 := hx x (by simp)
      obtain ⟨n, hc, hp⟩ : ∃ n, IsCeilDiv x s n ∧ Axis.Positions ⟨x, p.1, p.2, k, s, d⟩ n := by
        rcases hm with rfl | rfl
        · obtain ⟨⟨n, h1, h2, -⟩, -⟩ := h
          exact ⟨n, h1, h2⟩
        · obtain ⟨⟨n, h1, h2, -⟩, -⟩ := h
          exact ⟨n, h1, h2⟩
      have := hc 0
      exact (hp 0).1 (by omega)
    · exact ih (fun x h => hx x (List.mem_cons_of_mem _ h)) (fun x h => hk x (List.mem_cons_of_mem _ h))
        (fun x h => hs x (List.mem_cons_of_mem _ h)) a ha

/-- The hypotheses of `C75_maxPool1d_partial` hold for SAME_UPPER; the values, with elements that are all negative. -/
example :
    let x : Tensor (WithBot Int) := ⟨[1, 1, 3], [(-5 : Int), (-2 : Int), (-3 : Int)], rfl⟩
    let a : WindowAttrs := { kernelShape := some [2], autoPad := some "SAME_UPPER" }
    let xt : ArgType := .tensor ⟨.f32, 3, some [some 1, some 1, some 3]⟩
    PoolAttrs 1 a .sameUpper [(0, 0)] [2] [1] [1] ∧ xt.Admits x.shape ∧ xt.staticShapeKnown ≠ none ∧
      Sized AutoPad.sameUpper.mode [(0, 0)] [3] [2] [1] [1] ∧
      genMaxPool 1 paddingConfig1d padding1 a xt x = some ⟨[1, 1, 3], [(-2 : Int), (-2 : Int), (-3 : Int)], rfl⟩ := by
  refine ⟨⟨by simp [SizesAttr], by simp [SizesAttr], by simp [SizesAttr], by simp [PadsAttr], rfl, rfl⟩, by simp [ArgType.Admits, PShape.Describes],
    by decide, sized_same (.inl rfl) (by simp) (by simp) (by simp), by decide +kernel⟩

/-- The hypotheses of `C75_avgPool1d_partial` hold for padding that is not counted; the values. -/
example :
    let x : Tensor ℚ := ⟨[1, 1, 3], [1, 2, 4], rfl⟩
    let a : WindowAttrs := { kernelShape := some [3], pads := some [1, 1] }
    let xt : ArgType := .tensor ⟨.f32, 3, none⟩
    PoolAttrs 1 a .notSet [(1, 1)] [3] [1] [1] ∧ xt.Admits x.shape ∧
      (∀ ps, AllAutoPadded AutoPad.notSet.mode [(1, 1)] [3] [3] [1] [1] ps → ∀ p ∈ ps, p.1 = p.2) ∧
      genAvgPool 1 paddingConfig1d padding1 a none xt x = some ⟨[1, 1, 3], [3 / 2, 7 / 3, 3], rfl⟩ ∧
      genAvgPool 1 paddingConfig1d padding1 a (some 1) xt x = some ⟨[1, 1, 3], [1, 7 / 3, 2], rfl⟩ := by
  refine ⟨⟨by simp [SizesAttr], by simp [SizesAttr], by simp [SizesAttr], by simp [PadsAttr], rfl, rfl⟩, by simp [ArgType.Admits], ?_,
    by decide +kernel, by decide +kernel⟩
  intro ps h
  cases h with
  | cons h1 h2 =>
    cases h2
    cases h1
    simp

/-- `C75_globalAveragePool_partial`: the averages of two channels. -/
example :
    let x : Tensor ℚ := ⟨[1, 2, 2], [1, 2, 4, 8], rfl⟩
    genGlobalAvgPool (.tensor ⟨.f32, 3, none⟩) x = some ⟨[1, 2, 1], [3 / 2, 6], rfl⟩ := by decide +kernel

end OnnxIR
