import Verif.Props.Padding
import Verif.Lemmas.Shapes

/-!
# C21: output sizes of convolutions and pooling
-/

namespace OnnxIR

open Gen Infer Onnx

theorem positions_unique {a : Axis} {n m : Nat} (hn : a.Positions n) (hm : a.Positions m) : n = m := by
  apply Nat.le_antisymm
  · apply Nat.le_of_not_lt
    intro h
    exact Nat.lt_irrefl _ ((hm m).2 ((hn m).1 h))
  · apply Nat.le_of_not_lt
    intro h
    exact Nat.lt_irrefl _ ((hn n).2 ((hm n).1 h))

/-- The formula of the code counts the windows that fit. -/
theorem formula_positions {x b a k s d : Nat} (hk : 0 < k) (hs : s ≠ 0)
    (h : ¬ (x : Int) + ((b + a : Nat) : Int) - (d : Int) * ((k : Int) - 1) - 1 < 0) :
    Axis.Positions ⟨x, b, a, k, s, d⟩
      (((x : Int) + ((b + a : Nat) : Int) - (d : Int) * ((k : Int) - 1) - 1).toNat / s + 1) := by
  obtain ⟨k, rfl⟩ : ∃ j, k = j + 1 := ⟨k - 1, by omega⟩
  have he : (d : Int) * (((k + 1 : Nat) : Int) - 1) = ((k * d : Nat) : Int) := by
    rw [Int.natCast_add, Int.natCast_one, Int.add_sub_cancel, Int.natCast_mul, Int.mul_comm]
  rw [he] at h ⊢
  intro p
  simp only [Axis.Fits, Nat.add_sub_cancel]
  rw [Nat.lt_succ_iff, Nat.le_div_iff_mul_le (Nat.pos_of_ne_zero hs)]
  omega

theorem computeSpatial_sound {o : Option PShape} {xs : List Nat} {i x k s d b a n v : Nat}
    (hsh : ∀ p, o = some p → p.Describes xs) (hx : xs[i]? = some x) (hk : 0 < k)
    (hn : Axis.Positions ⟨x, b, a, k, s, d⟩ n) (h : computeSpatial o i k s d b a = some v) :
    v = n := by
  unfold computeSpatial at h
  split at h
  · rename_i y hy
    simp only [Option.bind_eq_some_iff] at hy
    obtain ⟨p, hp, hy⟩ := hy
    have : y = x := by
      have hd := hsh p hp
      clear hp hsh h hn
      induction p generalizing xs i with
      | nil => simp at hy
      | cons q ps ih =>
        cases xs with
        | nil => simp at hx
        | cons z zs =>
          cases i with
          | zero =>
            simp only [List.getElem?_cons_zero, Option.some.injEq] at hx hy
            exact (hd.1 y hy).trans hx
          | succ i => exact ih (i := i) (by simpa using hx) (by simpa using hy) hd.2
    subst this
    dsimp only at h
    split at h
    · cases h
    · rename_i hc
      cases h
      exact positions_unique (formula_positions hk (fun h => hc (Or.inr h)) fun h => hc (Or.inl h)) hn
  · cases h

theorem padsAttr_unique {n : Nat} {pads : List Int} {a b : List (Nat × Nat)}
    (ha : PadsAttr n pads a) (hb : PadsAttr n pads b) : a = b := by
  have h := ha.2.symm.trans hb.2
  have hl : (a.map fun q => (q.1 : Int)).length = (b.map fun q => (q.1 : Int)).length := by
    rw [List.length_map, List.length_map, ha.1, hb.1]
  obtain ⟨h1, h2⟩ := List.append_inj h hl
  have hlen : a.length = b.length := ha.1.trans hb.1.symm
  clear h hl ha hb
  induction a generalizing b with
  | nil =>
    cases b with
    | nil => rfl
    | cons q qs => simp at hlen
  | cons p ps ih =>
    cases b with
    | nil => simp at hlen
    | cons q qs =>
      simp only [List.map_cons, List.cons.injEq, List.length_cons, Nat.add_right_cancel_iff] at h1 h2 hlen
      rw [ih h1.2 h2.2 hlen]
      congr 1
      exact Prod.ext (by omega) (by omega)

theorem config1d_pairs {pads : List Int} {a : List (Nat × Nat)} {c : PaddingConfig1d}
    (hp : PadsAttr 1 pads a) (h : paddingConfig1d pads = some c) : c.pairs = a := by
  have hl : pads.length = 2 := by rw [hp.2]; simp [hp.1]
  obtain ⟨p, hp1, hp2, -⟩ := (C42_one_axis_partial hl).2 c h
  rw [← tokens1d_amounts hp1]
  exact padsAttr_unique hp2 hp

theorem config2d_pairs {pads : List Int} {a : List (Nat × Nat)} {c : PaddingConfig2d}
    (hp : PadsAttr 2 pads a) (h : paddingConfig2d pads = some c) : c.pairs = a := by
  have hl : pads.length = 4 := by rw [hp.2]; simp [hp.1]
  obtain ⟨p, hp1, hp2, -⟩ := (C42_two_axes_partial hl).2 c h
  rw [← tokens2d_amounts hp1]
  exact padsAttr_unique hp2 hp

theorem config3d_pairs {pads : List Int} {a : List (Nat × Nat)} {c : PaddingConfig3d}
    (hp : PadsAttr 3 pads a) (h : paddingConfig3d pads = some c) : c.pairs = a := by
  rcases hp with ⟨ha, he⟩
  rcases a with _ | ⟨⟨a1, a2⟩, _ | ⟨⟨b1, b2⟩, _ | ⟨⟨c1, c2⟩, _ | ⟨_, _⟩⟩⟩⟩ <;> simp at ha
  simp only [List.map_cons, List.map_nil, List.cons_append, List.nil_append] at he
  subst he
  have hc : paddingConfig3d [(a1 : Int), b1, c1, a2, b2, c2] =
      if (c1 : Int) < 0 ∨ (c2 : Int) < 0 ∨ (b1 : Int) < 0 ∨ (b2 : Int) < 0 ∨ (a1 : Int) < 0 ∨
        (a2 : Int) < 0 then none
      else if (c1 : Int) = 0 ∧ (c2 : Int) = 0 ∧ (b1 : Int) = 0 ∧ (b2 : Int) = 0 ∧ (a1 : Int) = 0 ∧
        (a2 : Int) = 0 then some .valid
      else some (.explicit a1 b1 c1 a2 b2 c2) := rfl
  rw [hc] at h
  split at h
  · cases h
  · split at h <;> cases h
    · rename_i hz
      simp only [PaddingConfig3d.pairs, PaddingConfig3d.asTuple, List.cons.injEq, Prod.mk.injEq, and_true]
      omega
    · rfl

/-- An attribute of positive sizes: given, or absent and then the default. -/
def SizesAttr (attr : Option (List Int)) (default : List Int) (vals : List Nat) : Prop :=
  attr.getD default = vals.map Int.ofNat ∧ ∀ v ∈ vals, v < 2 ^ 63

theorem asUsize_nat {v : Nat} (h : v < 2 ^ 63) : asUsize (Int.ofNat v) = v := by
  have := asUsize_nonneg (x := Int.ofNat v) (by simp) (by simp; omega)
  simp only [Int.ofNat_eq_natCast] at this ⊢
  omega

theorem firstN_sizes {vals : List Nat} (h : ∀ v ∈ vals, v < 2 ^ 63) :
    firstN vals.length (vals.map Int.ofNat) = some vals := by
  induction vals with
  | nil => rfl
  | cons v vs ih =>
    simp only [List.length_cons, List.map_cons, firstN]
    rw [ih fun w hw => h w (List.mem_cons_of_mem _ hw), asUsize_nat (h v List.mem_cons_self)]
    rfl

/-- The modes for which the inference uses the right amounts: explicit padding, and no padding written
both ways. -/
def SizesFromPads (m : AutoPad) (pads : List (Nat × Nat)) : Prop :=
  m = .notSet ∨ m = .valid ∧ ∀ p ∈ pads, p = (0, 0)

theorem autoPadded_pads {m : AutoPad} {pads : List (Nat × Nat)} {pad p : Nat × Nat} {x k s d : Nat}
    (hm : SizesFromPads m pads) (hp : pad ∈ pads) (h : AutoPadded m.mode pad x k s d p) : p = pad := by
  rcases hm with rfl | ⟨rfl, h0⟩
  · exact h
  · rw [h0 _ hp]; exact h

/-- What the code computes is what it was asked to: a configuration it extracts has the sizes of the
attributes. -/
theorem convConfig_some {P : Type} {n : Nat} {pc : List Int → Option P} {a : WindowAttrs}
    {weight : Option (List Nat)} {c : WindowConfig P} {ws ss ds : List Nat}
    (hw : ∀ s, weight = some s → s = ws) (hlw : ws.length = n + 2)
    (hk : SizesAttr a.kernelShape ((ws.drop 2).map Int.ofNat) (ws.drop 2))
    (hkn : a.kernelShape ≠ some [])
    (hs : SizesAttr a.strides (List.replicate n 1) ss)
    (hd : SizesAttr a.dilations (List.replicate n 1) ds) (hls : ss.length = n) (hld : ds.length = n)
    (h : convConfig n pc a weight = some c) :
    pc (a.pads.getD (List.replicate (2 * n) 0)) = some c.padding ∧ c.kernel = ws.drop 2 ∧
      c.stride = ss ∧ c.dilation = ds := by
  simp only [convConfig, Option.bind_eq_bind, Option.bind_eq_some_iff, Option.some.injEq] at h
  obtain ⟨w, hw', m, hm, p, hp, k, hk', s, hs', d, hd', rfl⟩ := h
  rw [hw w hw'] at hk'
  refine ⟨hp, ?_, ?_, ?_⟩
  · simp only [kernelOf] at hk'
    cases hks : a.kernelShape with
    | none =>
      simp only [hks, Option.getD_none, if_true, hlw, ne_eq, not_true_eq_false, if_false,
        Option.some.injEq] at hk'
      exact hk'.symm
    | some l =>
      have hl : l ≠ [] := fun h => hkn (by rw [hks, h])
      simp only [SizesAttr, hks, Option.getD_some] at hk hk'
      rw [if_neg hl, hk.1] at hk'
      have hlen : (ws.drop 2).length = n := by simp [hlw]
      have := firstN_sizes hk.2
      rw [hlen] at this
      rw [this] at hk'
      exact (Option.some.inj hk').symm
  · rw [hs.1, ← hls, firstN_sizes hs.2] at hs'
    exact (Option.some.inj hs').symm
  · rw [hd.1, ← hld, firstN_sizes hd.2] at hd'
    exact (Option.some.inj hd').symm

theorem batchOf_sound {t : TensorType} {s : List Nat} {n b : Nat} (h : (ArgType.tensor t).Admits (n :: s))
    (hb : batchOf t = some b) : b = n := by
  simp only [batchOf, Option.bind_eq_some_iff] at hb
  obtain ⟨p, hp, hb⟩ := hb
  have hd := h.2 p hp
  cases p with
  | nil => simp at hb
  | cons q ps =>
    simp only [List.head?_cons, Option.join_some] at hb
    exact hd.1 b hb

theorem outChannels_sound {weight : Option (List Nat)} {wt : TensorType} {m b : Nat} {ws : List Nat}
    (hw : (ArgType.tensor wt).Admits (m :: ws)) (hv : ∀ s, weight = some s → s = m :: ws)
    (hb : outChannels weight wt = some b) : b = m := by
  simp only [outChannels] at hb
  cases weight with
  | none => exact batchOf_sound hw (by simpa using hb)
  | some s =>
    rw [hv s rfl] at hb
    simpa using hb.symm

theorem describes_nil : PShape.Describes [] [] := trivial

theorem describes_cons {o : Option Nat} {d : Nat} {ps : PShape} {ds : List Nat}
    (h : ∀ k, o = some k → k = d) (hs : PShape.Describes ps ds) : PShape.Describes (o :: ps) (d :: ds) :=
  ⟨h, hs⟩

/-- The attributes of a convolution with `n` axes and weight shape `ws`: stride, dilation and `pads`
as given, `kernel_shape` absent or the size of the weight. -/
structure ConvAttrs (n : Nat) (a : WindowAttrs) (ws : List Nat) (m : AutoPad)
    (pads : List (Nat × Nat)) (ss ds : List Nat) : Prop where
  kernel : SizesAttr a.kernelShape ((ws.drop 2).map Int.ofNat) (ws.drop 2)
  kernelNonempty : a.kernelShape ≠ some []
  strides : SizesAttr a.strides (List.replicate n 1) ss
  dilations : SizesAttr a.dilations (List.replicate n 1) ds
  pads : PadsAttr n (a.pads.getD (List.replicate (2 * n) 0)) pads
  mode : a.autoPad.getD "NOTSET" = m.mode.text

/-- **C21**, one axis: for explicit padding the inferred shape of a convolution is right wherever it is
known. -/
theorem C21_conv1d_partial {a : WindowAttrs} {x w t : ArgType} {weight : Option (List Nat)}
    {xs ws out ss ds : List Nat} {m : AutoPad} {pads : List (Nat × Nat)}
    (hx : x.Admits xs) (hw : w.Admits ws) (hweight : ∀ s, weight = some s → s = ws)
    (ha : ConvAttrs 1 a ws m pads ss ds) (hm : SizesFromPads m pads)
    (hout : ConvShape m.mode pads ss ds xs ws out) (h : conv1d a x w weight = some t) :
    t.Admits out := by
  unfold conv1d at h
  split at h
  · rename_i tx tw
    dsimp only at h
    split at h; · cases h
    split at h; · cases h
    split at h; · cases h
    rename_i hr1 hr2 _
    have hlx : xs.length = 3 := hx.1.trans (Decidable.not_not.1 hr1)
    have hlw : ws.length = 3 := hw.1.trans (Decidable.not_not.1 hr2)
    rcases xs with _ | ⟨n, _ | ⟨c, _ | ⟨x0, _ | ⟨_, _⟩⟩⟩⟩ <;> simp at hlx
    rcases ws with _ | ⟨mm, _ | ⟨cg, _ | ⟨k0, _ | ⟨_, _⟩⟩⟩⟩ <;> simp at hlw
    obtain ⟨ns, hns, rfl⟩ := hout
    cases hns with
    | cons hk hap hpos hrest =>
      cases hrest
      rename_i s0 d0 n0 pad p
      have hpp := autoPadded_pads hm List.mem_cons_self hap
      cases h
      refine ⟨by simpa using (Decidable.not_not.1 hr1).symm, ?_⟩
      rintro _ ⟨rfl⟩
      refine describes_cons (fun k hk => batchOf_sound hx hk) <|
        describes_cons (fun k hk => outChannels_sound hw hweight hk) <|
        describes_cons ?_ describes_nil
      intro v hv
      split at hv
      · rename_i cfg hcfg
        obtain ⟨h1, h2, h3, h4⟩ := convConfig_some hweight rfl ha.kernel ha.kernelNonempty ha.strides
          ha.dilations rfl rfl hcfg
        have hpr := config1d_pairs ha.pads h1
        simp only [PaddingConfig1d.pairs, List.cons.injEq, and_true] at hpr
        simp only [h2, h3, h4, hpr] at hv
        subst hpp
        exact computeSpatial_sound hx.2 rfl hk hpos hv
      · cases hv
  · cases h

/-- **C21**, two axes, as in `C21_conv1d_partial`. -/
theorem C21_conv2d_partial {a : WindowAttrs} {x w t : ArgType} {weight : Option (List Nat)}
    {xs ws out ss ds : List Nat} {m : AutoPad} {pads : List (Nat × Nat)}
    (hx : x.Admits xs) (hw : w.Admits ws) (hweight : ∀ s, weight = some s → s = ws)
    (ha : ConvAttrs 2 a ws m pads ss ds) (hm : SizesFromPads m pads)
    (hout : ConvShape m.mode pads ss ds xs ws out) (h : conv2d a x w weight = some t) :
    t.Admits out := by
  unfold conv2d at h
  split at h
  · rename_i tx tw
    dsimp only at h
    split at h; · cases h
    split at h; · cases h
    split at h; · cases h
    rename_i hr1 hr2 _
    have hlx : xs.length = 4 := hx.1.trans (Decidable.not_not.1 hr1)
    have hlw : ws.length = 4 := hw.1.trans (Decidable.not_not.1 hr2)
    rcases xs with _ | ⟨n, _ | ⟨c, _ | ⟨x0, _ | ⟨x1, _ | ⟨_, _⟩⟩⟩⟩⟩ <;> simp at hlx
    rcases ws with _ | ⟨mm, _ | ⟨cg, _ | ⟨k0, _ | ⟨k1, _ | ⟨_, _⟩⟩⟩⟩⟩ <;> simp at hlw
    obtain ⟨ns, hns, rfl⟩ := hout
    cases hns with
    | cons hk hap hpos hrest =>
    cases hrest with
    | cons hk' hap' hpos' hrest' =>
      cases hrest'
      have hpp := autoPadded_pads hm List.mem_cons_self hap
      have hpp' := autoPadded_pads hm (List.mem_cons_of_mem _ List.mem_cons_self) hap'
      subst hpp
      subst hpp'
      cases h
      refine ⟨by simpa using (Decidable.not_not.1 hr1).symm, ?_⟩
      rintro _ ⟨rfl⟩
      cases hcfg : convConfig 2 paddingConfig2d a weight with
      | none =>
        exact describes_cons (fun k hk => batchOf_sound hx hk) <|
          describes_cons (fun k hk => outChannels_sound hw hweight hk) <|
          describes_cons (by simp) <| describes_cons (by simp) describes_nil
      | some cfg =>
        obtain ⟨h1, h2, h3, h4⟩ := convConfig_some hweight rfl ha.kernel ha.kernelNonempty ha.strides
          ha.dilations rfl rfl hcfg
        have hpr := config2d_pairs ha.pads h1
        obtain ⟨tt, l, b, r, htup⟩ : ∃ t l b r, cfg.padding.asTuple = (t, l, b, r) := ⟨_, _, _, _, rfl⟩
        simp only [PaddingConfig2d.pairs, htup, List.cons.injEq, and_true] at hpr
        simp only [htup, h2, h3, h4]
        refine describes_cons (fun k hk => batchOf_sound hx hk) <|
          describes_cons (fun k hk => outChannels_sound hw hweight hk) <|
          describes_cons ?_ <| describes_cons ?_ describes_nil
        · intro v hv
          rw [← hpr.1] at hpos
          exact computeSpatial_sound hx.2 rfl hk hpos hv
        · intro v hv
          rw [← hpr.2] at hpos'
          exact computeSpatial_sound hx.2 rfl hk' hpos' hv
  · cases h

theorem deformConfig_some {a : WindowAttrs} {w : ArgType}
    {weight : Option (List Nat)} {c : WindowConfig PaddingConfig2d} {ws ss ds : List Nat}
    (hty : w.Admits ws) (hw : ∀ s, weight = some s → s = ws) (hlw : ws.length = 4)
    (hk : SizesAttr a.kernelShape ((ws.drop 2).map Int.ofNat) (ws.drop 2))
    (hkn : a.kernelShape ≠ some [])
    (hs : SizesAttr a.strides (List.replicate 2 1) ss)
    (hd : SizesAttr a.dilations (List.replicate 2 1) ds) (hls : ss.length = 2) (hld : ds.length = 2)
    (h : deformConfig a weight w = some c) :
    paddingConfig2d (a.pads.getD (List.replicate (2 * 2) 0)) = some c.padding ∧
      c.kernel = ws.drop 2 ∧ c.stride = ss ∧ c.dilation = ds := by
  simp only [deformConfig, Option.bind_eq_bind, Option.bind_eq_some_iff, Option.some.injEq] at h
  obtain ⟨p, hp, k, hk', s, hs', d, hd', rfl⟩ := h
  refine ⟨hp, ?_, ?_, ?_⟩
  · simp only [deformKernel] at hk'
    cases hks : a.kernelShape with
    | none =>
      simp only [hks, Option.getD_none, if_true, Option.bind_eq_some_iff] at hk'
      obtain ⟨w', hw', hk'⟩ := hk'
      have : w' = ws := by
        rw [Option.or_eq_some_iff] at hw'
        rcases hw' with h | ⟨-, h⟩
        · exact hw w' h
        · exact (ArgType.admits_known hty h).symm
      rw [this, if_neg (by omega)] at hk'
      exact (Option.some.inj hk').symm
    | some l =>
      have hl : l ≠ [] := fun h => hkn (by rw [hks, h])
      simp only [SizesAttr, hks, Option.getD_some] at hk hk'
      rw [if_neg hl, hk.1] at hk'
      have hlen : (ws.drop 2).length = 2 := by simp [hlw]
      have := firstN_sizes hk.2
      rw [hlen] at this
      rw [this] at hk'
      exact (Option.some.inj hk').symm
  · rw [show [1, 1] = List.replicate 2 (1 : Int) from rfl, hs.1, ← hls, firstN_sizes hs.2] at hs'
    exact (Option.some.inj hs').symm
  · rw [show [1, 1] = List.replicate 2 (1 : Int) from rfl, hd.1, ← hld, firstN_sizes hd.2] at hd'
    exact (Option.some.inj hd').symm

/-- **C21** for deformable convolutions, as in `C21_conv1d_partial`; they have no `auto_pad`. -/
theorem C21_deformConv_partial {a : WindowAttrs} {x w t : ArgType} {weight : Option (List Nat)}
    {xs ws out ss ds : List Nat} {pads : List (Nat × Nat)}
    (hx : x.Admits xs) (hw : w.Admits ws) (hweight : ∀ s, weight = some s → s = ws)
    (ha : ConvAttrs 2 a ws .notSet pads ss ds)
    (hout : ConvShape .notSet pads ss ds xs ws out) (h : deformConv a x w weight = some t) :
    t.Admits out := by
  unfold deformConv at h
  split at h
  · rename_i tx tw
    dsimp only at h
    split at h; · cases h
    split at h; · cases h
    split at h; · cases h
    rename_i hr1 hr2 _
    have hlx : xs.length = 4 := hx.1.trans (Decidable.not_not.1 hr1)
    have hlw : ws.length = 4 := hw.1.trans (Decidable.not_not.1 hr2)
    rcases xs with _ | ⟨n, _ | ⟨c, _ | ⟨x0, _ | ⟨x1, _ | ⟨_, _⟩⟩⟩⟩⟩ <;> simp at hlx
    rcases ws with _ | ⟨mm, _ | ⟨cg, _ | ⟨k0, _ | ⟨k1, _ | ⟨_, _⟩⟩⟩⟩⟩ <;> simp at hlw
    obtain ⟨ns, hns, rfl⟩ := hout
    cases hns with
    | cons hk hap hpos hrest =>
    cases hrest with
    | cons hk' hap' hpos' hrest' =>
      cases hrest'
      have hpp : _ = _ := hap
      have hpp' : _ = _ := hap'
      subst hpp
      subst hpp'
      cases h
      refine ⟨rfl, ?_⟩
      rintro _ ⟨rfl⟩
      cases hcfg : deformConfig a weight (.tensor tw) with
      | none =>
        exact describes_cons (fun k hk => batchOf_sound hx hk) <|
          describes_cons (fun k hk => outChannels_sound hw hweight hk) <|
          describes_cons (by simp) <| describes_cons (by simp) describes_nil
      | some cfg =>
        obtain ⟨h1, h2, h3, h4⟩ := deformConfig_some hw hweight rfl ha.kernel ha.kernelNonempty
          ha.strides ha.dilations rfl rfl hcfg
        have hpr := config2d_pairs ha.pads h1
        obtain ⟨tt, l, b, r, htup⟩ : ∃ t l b r, cfg.padding.asTuple = (t, l, b, r) := ⟨_, _, _, _, rfl⟩
        simp only [PaddingConfig2d.pairs, htup, List.cons.injEq, and_true] at hpr
        simp only [htup, h2, h3, h4]
        refine describes_cons (fun k hk => batchOf_sound hx hk) <|
          describes_cons (fun k hk => outChannels_sound hw hweight hk) <|
          describes_cons ?_ <| describes_cons ?_ describes_nil
        · intro v hv
          rw [← hpr.1] at hpos
          exact computeSpatial_sound hx.2 rfl hk hpos hv
        · intro v hv
          rw [← hpr.2] at hpos'
          exact computeSpatial_sound hx.2 rfl hk' hpos' hv
  · cases h

/-- **C21**, three axes, as in `C21_conv1d_partial`. -/
theorem C21_conv3d_partial {a : WindowAttrs} {x w t : ArgType} {weight : Option (List Nat)}
    {xs ws out ss ds : List Nat} {m : AutoPad} {pads : List (Nat × Nat)}
    (hx : x.Admits xs) (hw : w.Admits ws) (hweight : ∀ s, weight = some s → s = ws)
    (ha : ConvAttrs 3 a ws m pads ss ds) (hm : SizesFromPads m pads)
    (hout : ConvShape m.mode pads ss ds xs ws out) (h : conv3d a x w weight = some t) :
    t.Admits out := by
  unfold conv3d at h
  split at h
  · rename_i tx tw
    dsimp only at h
    split at h; · cases h
    rename_i hr1
    have hlx : xs.length = 5 := hx.1.trans (Decidable.not_not.1 hr1)
    rcases xs with _ | ⟨n, _ | ⟨c, _ | ⟨x0, _ | ⟨x1, _ | ⟨x2, _ | ⟨_, _⟩⟩⟩⟩⟩⟩ <;> simp at hlx
    rcases ws with _ | ⟨mm, _ | ⟨cg, ks⟩⟩
    · exact absurd hout (by simp [ConvShape])
    · exact absurd hout (by simp [ConvShape])
    obtain ⟨ns, hns, rfl⟩ := hout
    cases hns with
    | cons hk hap hpos hrest =>
    cases hrest with
    | cons hk' hap' hpos' hrest' =>
    cases hrest' with
    | cons hk'' hap'' hpos'' hrest'' =>
      cases hrest''
      rename_i k2 _ _ _ _ _
      have hpp := autoPadded_pads hm List.mem_cons_self hap
      have hpp' := autoPadded_pads hm (List.mem_cons_of_mem _ List.mem_cons_self) hap'
      have hpp'' := autoPadded_pads hm
        (List.mem_cons_of_mem _ (List.mem_cons_of_mem _ List.mem_cons_self)) hap''
      subst hpp
      subst hpp'
      subst hpp''
      cases h
      refine ⟨by simpa using (Decidable.not_not.1 hr1).symm, ?_⟩
      rintro _ ⟨rfl⟩
      cases hcfg : convConfig 3 paddingConfig3d a weight with
      | none =>
        exact describes_cons (fun k hk => batchOf_sound hx hk) <|
          describes_cons (fun k hk => outChannels_sound hw hweight hk) <|
          describes_cons (by simp) <| describes_cons (by simp) <| describes_cons (by simp) describes_nil
      | some cfg =>
        obtain ⟨h1, h2, h3, h4⟩ := convConfig_some hweight rfl ha.kernel ha.kernelNonempty ha.strides
          ha.dilations rfl rfl hcfg
        have hpr := config3d_pairs ha.pads h1
        obtain ⟨f, tt, l, kk, b, r, htup⟩ :
          ∃ f t l k b r, cfg.padding.asTuple = (f, t, l, k, b, r) := ⟨_, _, _, _, _, _, rfl⟩
        simp only [PaddingConfig3d.pairs, htup, List.cons.injEq, and_true] at hpr
        simp only [htup, h2, h3, h4]
        refine describes_cons (fun k hk => batchOf_sound hx hk) <|
          describes_cons (fun k hk => outChannels_sound hw hweight hk) <|
          describes_cons ?_ <| describes_cons ?_ <| describes_cons ?_ describes_nil
        · intro v hv
          rw [← hpr.1] at hpos
          exact computeSpatial_sound hx.2 rfl hk hpos hv
        · intro v hv
          rw [← hpr.2.1] at hpos'
          exact computeSpatial_sound hx.2 rfl hk' hpos' hv
        · intro v hv
          rw [← hpr.2.2] at hpos''
          exact computeSpatial_sound hx.2 rfl hk'' hpos'' hv
  · cases h

/-- The hypotheses are met by a 7 × 9 image, window 3 × 3, stride 2, padding 1 above and 2 to the
right; the inferred shape is complete. -/
example :
    let a : WindowAttrs := { strides := some [2, 2], pads := some [1, 0, 0, 2] }
    let x : ArgType := .tensor ⟨.f32, 4, some [some 1, some 3, some 7, some 9]⟩
    let w : ArgType := .tensor ⟨.f32, 4, some [some 8, some 3, some 3, some 3]⟩
    ConvAttrs 2 a [8, 3, 3, 3] .notSet [(1, 0), (0, 2)] [2, 2] [1, 1] ∧
    ConvShape .notSet [(1, 0), (0, 2)] [2, 2] [1, 1] [1, 3, 7, 9] [8, 3, 3, 3] [1, 8, 3, 5] ∧
    conv2d a x w (some [8, 3, 3, 3]) =
      some (.tensor ⟨.f32, 4, some [some 1, some 8, some 3, some 5]⟩) := by
  refine ⟨⟨⟨rfl, by decide⟩, by decide, ⟨rfl, by decide⟩, ⟨rfl, by decide⟩, ⟨rfl, rfl⟩, rfl⟩, ?_,
    by decide⟩
  refine ⟨_, .cons (by decide) rfl ?_ (.cons (by decide) rfl ?_ .nil), rfl⟩ <;> intro p <;>
    simp only [Axis.Fits] <;> omega

/-- **C21** fails for `SAME_UPPER`: the inference reads only the attribute `pads`. A window of 3 over 5
cells gives 5 outputs; the inferred type says 3. The generated module does produce 5. -/
theorem C21_same_wrong :
    let a : WindowAttrs := { autoPad := some "SAME_UPPER" }
    let x : ArgType := .tensor ⟨.f32, 3, some [some 1, some 1, some 5]⟩
    let w : ArgType := .tensor ⟨.f32, 3, some [some 1, some 1, some 3]⟩
    ConvAttrs 1 a [1, 1, 3] .sameUpper [(0, 0)] [1] [1] ∧ x.Admits [1, 1, 5] ∧ w.Admits [1, 1, 3] ∧
    ConvShape .sameUpper [(0, 0)] [1] [1] [1, 1, 5] [1, 1, 3] [1, 1, 5] ∧
    (∃ t, conv1d a x w (some [1, 1, 3]) = some t ∧ ¬ t.Admits [1, 1, 5]) ∧
    (∃ c p, convConfig 1 paddingConfig1d a (some [1, 1, 3]) = some c ∧ padding1 c x = some p ∧
      p.amounts 1 = [(1, 1)]) := by
  refine ⟨⟨⟨rfl, by decide⟩, by decide, ⟨rfl, by decide⟩, ⟨rfl, by decide⟩, ⟨rfl, rfl⟩,
    by decide +kernel⟩, ?_, ?_, ?_, ?_, ?_⟩
  · exact ⟨rfl, by rintro _ ⟨rfl⟩; simp [PShape.Describes]⟩
  · exact ⟨rfl, by rintro _ ⟨rfl⟩; simp [PShape.Describes]⟩
  · refine ⟨_, .cons (by decide) (p := (1, 1)) ⟨⟨5, ?_, ?_, ?_⟩, by decide, by decide⟩ ?_ .nil, rfl⟩
    · intro m; omega
    · intro p; simp only [Axis.Fits]; omega
    · intro t ht
      have := (ht 4).1 (by decide)
      simp only [Axis.Fits] at this
      dsimp only; omega
    · intro p; simp only [Axis.Fits]; omega
  · refine ⟨.tensor ⟨.f32, 3, some [some 1, some 1, some 3]⟩, by decide +kernel, ?_⟩
    rintro ⟨-, h⟩
    have := h _ rfl
    simp [PShape.Describes] at this
  · refine ⟨⟨[3], [1], [1], .valid, .sameUpper, false⟩, .explicit1 1 1, ?_, by decide, rfl⟩
    decide +kernel

/-- **C21** for average pooling: only the rank is claimed, and it is right. -/
theorem C21_avgPool {x t : ArgType} {xs out kernel ss ds : List Nat} {m : PadMode}
    {pads : List (Nat × Nat)} (hx : x.Admits xs) (hout : PoolShape m pads kernel ss ds xs out)
    (h : avgPool x = some t) : t.Admits out := by
  have hw : ∀ {pads xs ks ss ds ns}, WindowOut m pads xs ks ss ds ns → ns.length = xs.length := by
    intro _ _ _ _ _ _ h
    induction h with
    | nil => rfl
    | cons _ _ _ _ ih => simp [ih]
  cases x with
  | tensor tx =>
    cases h
    rcases xs with _ | ⟨n, _ | ⟨c, xs⟩⟩
    · exact absurd hout (by simp [PoolShape])
    · exact absurd hout (by simp [PoolShape])
    · obtain ⟨ns, hns, rfl⟩ := hout
      refine ⟨?_, by rintro _ ⟨⟩⟩
      have := hx.1
      simp only [List.length_cons, hw hns] at this ⊢
      exact this
  | _ => cases h

/-- **C21** for max pooling, when the static shape of the input is unknown. -/
theorem C21_maxPool_partial {x t : ArgType} {xs out kernel ss ds : List Nat} {m : PadMode}
    {pads : List (Nat × Nat)} (hx : x.Admits xs) (hs : x.staticShape = none)
    (hout : PoolShape m pads kernel ss ds xs out) (h : maxPool x = some t)
    (hten : ∃ tx, x = .tensor tx) : t.Admits out := by
  obtain ⟨tx, rfl⟩ := hten
  have : avgPool (.tensor tx) = some t := by
    cases h
    cases tx
    simp only [ArgType.staticShape] at hs
    subst hs
    rfl
  exact C21_avgPool hx hout this

example : PoolShape .notSet [(0, 0)] [2] [2] [1] [1, 1, 4] [1, 1, 2] := by
  refine ⟨_, .cons (by decide) rfl ?_ .nil, rfl⟩
  intro p; simp only [Axis.Fits]; omega

/-- **C21** fails for max pooling: the static shape of the input is repeated. Halving 4 cells gives 2,
the inferred type says 4. A later operator with `SAME_UPPER` padding is then generated for 4 cells, with one cell of padding too many. -/
theorem C21_maxPool_wrong :
    let x : ArgType := .tensor ⟨.f32, 3, some [some 1, some 1, some 4]⟩
    x.Admits [1, 1, 4] ∧ PoolShape .notSet [(0, 0)] [2] [2] [1] [1, 1, 4] [1, 1, 2] ∧
    ∃ t, maxPool x = some t ∧ ¬ t.Admits [1, 1, 2] ∧
      padding1 ⟨[3], [3], [1], .valid, .sameUpper, false⟩ t = some (.explicit1 1 1) ∧
      ¬ AutoPadded .sameUpper (0, 0) 2 3 3 1 (1, 1) := by
  refine ⟨⟨rfl, by rintro _ ⟨rfl⟩; simp [PShape.Describes]⟩, ?_, _, rfl, ?_, by decide, ?_⟩
  · refine ⟨_, .cons (by decide) rfl ?_ .nil, rfl⟩
    intro p; simp only [Axis.Fits]; omega
  · rintro ⟨-, h⟩
    have := h _ rfl
    simp [PShape.Describes] at this
  · rintro ⟨⟨n, h1, h2, h3⟩, -⟩
    have h4 : n = 1 := by
      have := (h1 n).1 (Nat.le_refl _)
      have := (h1 1).2 (by decide)
      omega
    subst h4
    have := h3 1 (by intro p; simp only [Axis.Fits]; omega)
    simp at this

/-- **C21** fails for transposed convolution: the type of the input is repeated, although the number of
channels and the lengths change. -/
theorem C21_convTranspose_wrong :
    let x : ArgType := .tensor ⟨.f32, 3, some [some 1, some 3, some 4]⟩
    let w : ArgType := .tensor ⟨.f32, 3, some [some 3, some 5, some 2]⟩
    ∃ t, convTranspose x w = some t ∧ transposedLength 4 0 0 2 2 1 0 = 8 ∧ ¬ t.Admits [1, 5, 8] := by
  refine ⟨_, rfl, by decide, ?_⟩
  rintro ⟨-, h⟩
  have := h _ rfl
  simp [PShape.Describes] at this

/-! ## C51: generated window modules carry the attributes of the node -/

/-- **C51** for convolution: window (that of the weight), stride and dilation of the generated module are
those of the node, for any number of axes. Together with C20 and C42 for the padding. -/
theorem C51_conv {P : Type} {n : Nat} {pc : List Int → Option P} {a : WindowAttrs}
    {padding : WindowConfig P → ArgType → Option Burn.Padding} {x : ArgType} {ws ss ds : List Nat}
    {weight : Option (List Nat)} {c : WindowConfig P} {g : WindowModule}
    (hw : ∀ s, weight = some s → s = ws) (hlw : ws.length = n + 2)
    (hk : SizesAttr a.kernelShape ((ws.drop 2).map Int.ofNat) (ws.drop 2))
    (hkn : a.kernelShape ≠ some [])
    (hs : SizesAttr a.strides (List.replicate n 1) ss)
    (hd : SizesAttr a.dilations (List.replicate n 1) ds) (hls : ss.length = n) (hld : ds.length = n)
    (h : convConfig n pc a weight = some c) (hg : windowModule padding c x = some g) :
    g.kernel = ws.drop 2 ∧ g.stride = ss ∧ g.dilation = some ds := by
  obtain ⟨-, h1, h2, h3⟩ := convConfig_some hw hlw hk hkn hs hd hls hld h
  simp only [windowModule, Option.map_eq_some_iff] at hg
  obtain ⟨q, hq, rfl⟩ := hg
  exact ⟨h1, h2, by rw [h3]⟩

example : ∃ c g, convConfig 2 paddingConfig2d { strides := some [2, 1], dilations := some [1, 3] }
      (some [8, 3, 3, 2]) = some c ∧
    windowModule padding2 c (.tensor ⟨.f32, 4, none⟩) = some g ∧
    g = ⟨[3, 2], [2, 1], some [1, 3], .valid, false⟩ :=
  ⟨⟨[3, 2], [2, 1], [1, 3], .valid, .notSet, false⟩, _, by decide, by decide, rfl⟩

/-- **C51** for max pooling: window, stride, dilation and rounding of the generated module are those of
the node, for any number of axes. Together with C20 and C42 for the padding. -/
theorem C51_maxPool {P : Type} {n : Nat} {pc : List Int → Option P} {a : WindowAttrs}
    {padding : WindowConfig P → ArgType → Option Burn.Padding} {x : ArgType} {ks ss ds : List Nat}
    {c : WindowConfig P} {g : WindowModule} (hk : SizesAttr a.kernelShape [] ks)
    (hs : SizesAttr a.strides (List.replicate n 1) ss)
    (hd : SizesAttr a.dilations (List.replicate n 1) ds)
    (hlk : ks.length = n) (hls : ss.length = n) (hld : ds.length = n)
    (h : poolConfig n pc a = some c) (hg : windowModule padding c x = some g) :
    g.kernel = ks ∧ g.stride = ss ∧ g.dilation = some ds ∧ (g.ceilMode = true ↔ a.ceilMode = some 1) := by
  simp only [poolConfig, Option.bind_eq_bind, Option.bind_eq_some_iff, Option.some.injEq] at h
  obtain ⟨m, hm, p, hp, k, hk', s, hs', d, hd', rfl⟩ := h
  simp only [windowModule, Option.map_eq_some_iff] at hg
  obtain ⟨q, hq, rfl⟩ := hg
  rw [hk.1, ← hlk, firstN_sizes hk.2] at hk'
  rw [hs.1, ← hls, firstN_sizes hs.2] at hs'
  rw [hd.1, ← hld, firstN_sizes hd.2] at hd'
  cases hk'
  cases hs'
  cases hd'
  refine ⟨rfl, rfl, rfl, ?_⟩
  cases hc : a.ceilMode <;> simp

/-- **C51** for average pooling: window and stride are those of the node. The dilation is lost, so this
needs dilation one. -/
theorem C51_avgPool_partial {P : Type} {n : Nat} {pc : List Int → Option P} {a : WindowAttrs}
    {padding : WindowConfig P → ArgType → Option Burn.Padding} {x : ArgType} {ks ss : List Nat}
    {c : WindowConfig P} {g : WindowModule} (hk : SizesAttr a.kernelShape [] ks)
    (hs : SizesAttr a.strides (List.replicate n 1) ss)
    (hd : SizesAttr a.dilations (List.replicate n 1) (List.replicate n 1))
    (hlk : ks.length = n) (hls : ss.length = n)
    (h : poolConfig n pc a = some c) (hg : avgPoolModule padding c x = some g) :
    g.kernel = ks ∧ g.stride = ss ∧ g.dilation.getD (List.replicate n 1) = List.replicate n 1 ∧
      (g.ceilMode = true ↔ a.ceilMode = some 1) := by
  have hg' : ∃ g', windowModule padding c x = some g' ∧ g = { g' with dilation := none } := by
    simp only [avgPoolModule, windowModule, Option.map_eq_some_iff] at hg ⊢
    obtain ⟨q, hq, rfl⟩ := hg
    exact ⟨_, ⟨q, hq, rfl⟩, rfl⟩
  obtain ⟨g', h1, rfl⟩ := hg'
  obtain ⟨r1, r2, r3, r4⟩ := C51_maxPool hk hs hd hlk hls (by simp) h h1
  exact ⟨r1, r2, rfl, r4⟩

/-- **C51** fails for dilated average pooling: the generated module slides an undilated window. Over 5
cells a window of 2 with dilation 3 has 2 positions, the generated one 4. -/
theorem C51_avgPool_dilation_wrong :
    let a : WindowAttrs := { kernelShape := some [2], dilations := some [3] }
    let x : ArgType := .tensor ⟨.f32, 3, some [some 1, some 1, some 5]⟩
    (∃ c g, poolConfig 1 paddingConfig1d a = some c ∧ avgPoolModule padding1 c x = some g ∧
      g.dilation.getD [1] = [1] ∧ g.kernel = [2] ∧ g.stride = [1] ∧ g.padding = .valid) ∧
    Axis.Positions ⟨5, 0, 0, 2, 1, 3⟩ 2 ∧ Axis.Positions ⟨5, 0, 0, 2, 1, 1⟩ 4 := by
  refine ⟨⟨⟨[2], [1], [3], .valid, .notSet, false⟩, ⟨[2], [1], none, .valid, false⟩, by decide, by decide,
    rfl, rfl, rfl, rfl⟩, ?_, ?_⟩ <;> intro p <;> simp only [Axis.Fits] <;> omega

example : ∃ c g, poolConfig 2 paddingConfig2d
      { kernelShape := some [3, 2], strides := some [2, 1], ceilMode := some 1 } = some c ∧
    windowModule padding2 c (.tensor ⟨.f32, 4, none⟩) = some g ∧
    g = ⟨[3, 2], [2, 1], some [1, 1], .valid, true⟩ :=
  ⟨⟨[3, 2], [2, 1], [1, 1], .valid, .notSet, true⟩, _, by decide, by decide, rfl⟩

/-! ### The mode is the one of the attribute -/

theorem autoPadOf_text {a : WindowAttrs} {m : AutoPad} (h : autoPadOf a = some m) :
    a.autoPad.getD "NOTSET" = m.mode.text := by
  unfold autoPadOf at h
  cases ha : a.autoPad with
  | none => rw [ha] at h; cases h; rfl
  | some s =>
    rw [ha] at h
    simp only [AutoPad.parse] at h
    repeat' (split at h)
    all_goals first | (cases h; simp_all [AutoPad.mode, PadMode.text]) | cases h

/-- **C20**: the mode of an extracted convolution is the one its attribute names, `NOTSET` if it is absent. -/
theorem C20_conv_attribute {P : Type} {n : Nat} {pc : List Int → Option P} {a : WindowAttrs}
    {weight : Option (List Nat)} {c : WindowConfig P} (h : convConfig n pc a weight = some c) :
    a.autoPad.getD "NOTSET" = c.autoPad.mode.text := by
  simp only [convConfig, Option.bind_eq_bind, Option.bind_eq_some_iff, Option.some.injEq] at h
  obtain ⟨w, _, m, hm, p, _, k, _, s, _, d, _, rfl⟩ := h
  exact autoPadOf_text hm

/-- **C20**: the same for pooling. -/
theorem C20_pool_attribute {P : Type} {n : Nat} {pc : List Int → Option P} {a : WindowAttrs}
    {c : WindowConfig P} (h : poolConfig n pc a = some c) : a.autoPad.getD "NOTSET" = c.autoPad.mode.text := by
  simp only [poolConfig, Option.bind_eq_bind, Option.bind_eq_some_iff, Option.some.injEq] at h
  obtain ⟨m, hm, p, _, k, _, s, _, d, _, rfl⟩ := h
  exact autoPadOf_text hm

/-- Every mode of ONNX is understood. -/
theorem C20_modes_known (m : PadMode) : ∃ q, AutoPad.parse m.text = some q ∧ q.mode = m := by
  cases m
  · exact ⟨.notSet, by decide, rfl⟩
  · exact ⟨.sameUpper, by decide, rfl⟩
  · exact ⟨.sameLower, by decide, rfl⟩
  · exact ⟨.valid, by decide, rfl⟩

example : (convConfig 1 paddingConfig1d { autoPad := some "SAME_LOWER" } (some [1, 1, 3])).map (·.autoPad.mode) =
    some .sameLower := by decide

end OnnxIR
