import Verif.Props.WindowValues

/-!
# Convolution and pooling: results are unique

ONNX's description of a window operator leaves no choice, so that code that meets it computes the same as anything else that does.
-/

namespace OnnxIR

open Gen Infer Onnx

/-! ### Padding -/

theorem positions_sum {x b a t k s d n : Nat} (h : Axis.Positions ⟨x, b, a, k, s, d⟩ n) (ht : t = b + a) :
    Axis.Positions ⟨x, 0, t, k, s, d⟩ n := by
  subst ht
  intro p
  rw [h p]
  simp only [Axis.Fits]
  omega

theorem ceilDiv_unique {x s n m : Nat} (h : IsCeilDiv x s n) (h' : IsCeilDiv x s m) : n = m :=
  Nat.le_antisymm ((h m).2 ((h' m).1 (Nat.le_refl m))) ((h' n).2 ((h n).1 (Nat.le_refl n)))

theorem autoPadded_unique {m : PadMode} {pads p q : Nat × Nat} {x k s d : Nat} (hp : AutoPadded m pads x k s d p)
    (hq : AutoPadded m pads x k s d q) : p = q := by
  cases m with
  | notSet => exact Eq.trans hp hq.symm
  | valid => exact Eq.trans hp hq.symm
  | sameUpper =>
    obtain ⟨⟨n, h1, h2, h3⟩, h4, h5⟩ := hp
    obtain ⟨⟨n', g1, g2, g3⟩, g4, g5⟩ := hq
    obtain rfl := ceilDiv_unique h1 g1
    have e1 := h3 _ (positions_sum g2 rfl)
    have e2 := g3 _ (positions_sum h2 rfl)
    exact Prod.ext (by omega) (by omega)
  | sameLower =>
    obtain ⟨⟨n, h1, h2, h3⟩, h4, h5⟩ := hp
    obtain ⟨⟨n', g1, g2, g3⟩, g4, g5⟩ := hq
    obtain rfl := ceilDiv_unique h1 g1
    have e1 := h3 _ (positions_sum g2 rfl)
    have e2 := g3 _ (positions_sum h2 rfl)
    exact Prod.ext (by omega) (by omega)

/-- The amounts of padding are determined by the attributes and the sizes. -/
theorem allAutoPadded_unique {m : PadMode} {pads ps qs : List (Nat × Nat)} {xs ks ss ds : List Nat}
    (hp : AllAutoPadded m pads xs ks ss ds ps) (hq : AllAutoPadded m pads xs ks ss ds qs) : ps = qs := by
  induction hp generalizing qs with
  | nil => cases hq; rfl
  | cons h _ ih =>
    cases hq with
    | cons g hq => rw [autoPadded_unique h g, ih hq]

theorem allAutoPadded_lengths {m : PadMode} {pads ps : List (Nat × Nat)} {xs ks ss ds : List Nat}
    (hp : AllAutoPadded m pads xs ks ss ds ps) : ss.length = xs.length ∧ ds.length = xs.length := by
  induction hp with
  | nil => exact ⟨rfl, rfl⟩
  | cons _ _ ih => simp [ih.1, ih.2]

theorem positions_all_unique {as : List Axis} {o o' : List Nat} (h : List.Forall₂ Axis.Positions as o)
    (h' : List.Forall₂ Axis.Positions as o') : o = o' := by
  induction h generalizing o' with
  | nil => cases h'; rfl
  | cons h _ ih =>
    cases h' with
    | cons g h' => rw [positions_unique h g, ih h']

/-! ### Values -/

variable {α : Type} [Inhabited α]

theorem inRange_two {n c : Nat} {s i : List Nat} (h : InRange (n :: c :: s) i) : ∃ a b o, i = a :: b :: o ∧ a < n ∧ b < c ∧ InRange s o := by
  match i, h with
  | a :: b :: o, h => exact ⟨a, b, o, rfl, h.1, h.2.1, h.2.2⟩

theorem convT_unique [AddCommMonoid α] [Mul α] {as : List Axis} {groups n cg mg : Nat} {outs outs' : List Nat} {x w : Tensor α}
    {b : Option (Tensor α)} {y y' : Tensor α} (h : ConvT as groups n cg mg outs x w b y) (h' : ConvT as groups n cg mg outs' x w b y') :
    y = y' := by
  obtain rfl := positions_all_unique h.sizes h'.sizes
  refine Tensor.eq_of_get (h.shape.trans h'.shape.symm) fun i hi => ?_
  rw [h.shape] at hi
  obtain ⟨a, c, o, rfl, h1, h2, h3⟩ := inRange_two hi
  have hmg : 0 < mg := Nat.pos_of_ne_zero (by rintro rfl; simp at h2)
  have hg : c / mg < groups := Nat.div_lt_of_lt_mul (by rw [Nat.mul_comm]; exact h2)
  have hc : c / mg * mg + c % mg = c := by rw [Nat.mul_comm]; exact Nat.div_add_mod c mg
  have e := h.value a (c / mg) (c % mg) o h1 hg (Nat.mod_lt _ hmg) h3
  have e' := h'.value a (c / mg) (c % mg) o h1 hg (Nat.mod_lt _ hmg) h3
  rw [hc] at e e'
  rw [e, e']

theorem averagePoolT_unique [Field α] {as : List Axis} {count : Bool} {n c : Nat} {outs outs' : List Nat} {x y y' : Tensor α}
    (h : AveragePoolT as count n c outs x y) (h' : AveragePoolT as count n c outs' x y') : y = y' := by
  obtain rfl := positions_all_unique h.sizes h'.sizes
  refine Tensor.eq_of_get (h.shape.trans h'.shape.symm) fun i hi => ?_
  rw [h.shape] at hi
  obtain ⟨a, c, o, rfl, h1, h2, h3⟩ := inRange_two hi
  exact (h.value a c o h1 h2 h3).trans (h'.value a c o h1 h2 h3).symm

theorem inRange_ones {s o : List Nat} (h : InRange (s.map fun _ => 1) o) : o = s.map fun _ => 0 := by
  induction s generalizing o with
  | nil => cases o with
    | nil => rfl
    | cons => exact h.elim
  | cons a s ih =>
    match o, h with
    | b :: o, h =>
      obtain ⟨h1, h2⟩ := h
      have h1 : b < 1 := h1
      rw [ih h2]
      simp only [List.map_cons, List.cons.injEq, and_true]
      omega

theorem globalAveragePoolT_unique [Field α] {x y y' : Tensor α} (h : GlobalAveragePoolT x y) (h' : GlobalAveragePoolT x y') : y = y' := by
  obtain ⟨n, c, xs, h1, h2, h3⟩ := h.value
  obtain ⟨n', c', xs', g1, g2, g3⟩ := h'.value
  rw [h1] at g1
  obtain ⟨rfl, rfl, rfl⟩ : n = n' ∧ c = c' ∧ xs = xs' := by simpa using g1
  refine Tensor.eq_of_get (h2.trans g2.symm) fun i hi => ?_
  rw [h2] at hi
  obtain ⟨a, b, o, rfl, k1, k2, k3⟩ := inRange_two hi
  rw [inRange_ones k3]
  exact (h3 a b k1 k2).trans (g3 a b k1 k2).symm

theorem cells_inRange : ∀ {as : List Axis} {o k r : List Nat}, o.length = as.length → k.length = as.length → cells as o k = some r →
    InRange (as.map (·.input)) r
  | [], o, k, r, _, _, h => by
    simp only [cells, Option.some.injEq] at h
    subst h
    trivial
  | a :: as, o :: os, k :: ks, r, h1, h2, h => by
    simp only [cells] at h
    split at h
    · rename_i i is hi his
      cases h
      refine ⟨?_, cells_inRange (by simpa using h1) (by simpa using h2) his⟩
      unfold Axis.cell at hi
      dsimp only at hi
      split at hi
      · rename_i hc
        cases hi
        show _ < a.input
        omega
      · cases hi
    · cases h

theorem inRange_length : ∀ {s i : List Nat}, InRange s i → i.length = s.length
  | [], [], _ => rfl
  | _ :: _, _ :: _, h => by simp [inRange_length h.2]
  | [], _ :: _, h => h.elim
  | _ :: _, [], h => h.elim

/-- The greatest elements of windows that are not in the padding as a whole are the same in an order to which an element has been added
below all others. -/
theorem maxPoolT_bot {as : List Axis} {n c : Nat} {outs outs' : List Nat} {x y : Tensor ℝ} {y' : Tensor (WithBot ℝ)}
    (hx : x.shape = n :: c :: as.map (·.input))
    (h : MaxPoolT as n c outs x y) (h' : MaxPoolT as n c outs' (x.map fun r : ℝ => (r : WithBot ℝ)) y')
    (hne : ∀ o, InRange outs o → ∃ k r, InRange (as.map (·.kernel)) k ∧ cells as o k = some r) :
    y' = y.map fun r : ℝ => (r : WithBot ℝ) := by
  obtain rfl := positions_all_unique h.sizes h'.sizes
  have hlen := positions_length h.sizes
  refine Tensor.eq_of_get (h'.shape.trans h.shape.symm) fun i hi => ?_
  rw [h'.shape] at hi
  rw [Tensor.get_map (by rw [h.shape]; exact hi)]
  obtain ⟨a, b, o, rfl, k1, k2, k3⟩ := inRange_two hi
  have hget : ∀ k r, InRange (as.map (·.kernel)) k → cells as o k = some r →
      (x.map fun r : ℝ => (r : WithBot ℝ)).get (a :: b :: r) = ((x.get (a :: b :: r) : ℝ) : WithBot ℝ) := fun k r hk hr =>
    Tensor.get_map (by
      rw [hx]
      refine ⟨k1, k2, cells_inRange ?_ ?_ hr⟩
      · rw [inRange_length k3, hlen]
      · rw [inRange_length hk, List.length_map])
  obtain ⟨k, r, e1, e2, e3⟩ := h.attained a b o k1 k2 k3 (hne o k3)
  obtain ⟨k', r', g1, g2, g3⟩ := h'.attained a b o k1 k2 k3 (hne o k3)
  apply le_antisymm
  · rw [g3, hget k' r' g1 g2]
    exact WithBot.coe_le_coe.2 (h.upper a b o k' r' k1 k2 k3 g1 g2)
  · rw [e3, ← hget k r e1 e2]
    exact h'.upper a b o k r k1 k2 k3 e1 e2

/-! ### The type of the input is only looked at for padding that depends on its size -/

/-- Explicit padding. -/
def AutoPad.Plain (m : AutoPad) : Prop := m = .notSet ∨ m = .valid

theorem plain1 {c : WindowConfig PaddingConfig1d} (x y : ArgType) (h : c.autoPad.Plain) : padding1 c x = padding1 c y := by
  rcases h with h | h <;> simp [padding1, h, resolveAutoPad1d]

theorem plain2 {c : WindowConfig PaddingConfig2d} (x y : ArgType) (h : c.autoPad.Plain) : padding2 c x = padding2 c y := by
  rcases h with h | h <;> simp [padding2, h, resolveAutoPad2d]

theorem plain3 {c : WindowConfig PaddingConfig3d} (x y : ArgType) (h : c.autoPad.Plain) : padding3 c x = padding3 c y := by
  rcases h with h | h <;> simp [padding3, h, resolveAutoPad3d]

theorem convConfig_mode {P : Type} {d : Nat} {pc : List Int → Option P} {a : WindowAttrs} {w : List Nat} {c : WindowConfig P} {m : AutoPad}
    (hm : autoPadOf a = some m) (h : convConfig d pc a (some w) = some c) : c.autoPad = m := by
  simp only [convConfig, Option.bind_eq_bind, Option.bind_eq_some_iff, Option.some.injEq] at h
  obtain ⟨_, _, auto, h1, _, _, _, _, _, _, _, _, rfl⟩ := h
  exact Option.some.inj (h1.symm.trans hm)

theorem poolConfig_mode {P : Type} {d : Nat} {pc : List Int → Option P} {a : WindowAttrs} {c : WindowConfig P} {m : AutoPad}
    (hm : autoPadOf a = some m) (h : poolConfig d pc a = some c) : c.autoPad = m := by
  simp only [poolConfig, Option.bind_eq_bind, Option.bind_eq_some_iff, Option.some.injEq] at h
  obtain ⟨auto, h1, _, _, _, _, _, _, _, _, rfl⟩ := h
  exact Option.some.inj (h1.symm.trans hm)

theorem genConv_type [AddCommMonoid α] [Mul α] {P : Type} {d : Nat} {pc : List Int → Option P}
    {padding : WindowConfig P → ArgType → Option Burn.Padding} (hp : ∀ {c} x y, c.autoPad.Plain → padding c x = padding c y)
    {a : WindowAttrs} {m : AutoPad} (hm : autoPadOf a = some m) (hpl : m.Plain) {g : Option Int} {xt yt : ArgType} {x w : Tensor α}
    {b : ConvBias α} : genConv d pc padding a g xt x w b = genConv d pc padding a g yt x w b := by
  cases hc : convConfig d pc a (some w.shape) with
  | none => simp [genConv, hc]
  | some c =>
    have : c.autoPad.Plain := by rw [convConfig_mode hm hc]; exact hpl
    simp only [genConv, hc, windowModule, Option.bind_eq_bind, Option.bind_some, hp xt yt this]

theorem genMaxPool_type [LinearOrder α] [OrderBot α] {P : Type} {d : Nat} {pc : List Int → Option P}
    {padding : WindowConfig P → ArgType → Option Burn.Padding} (hp : ∀ {c} x y, c.autoPad.Plain → padding c x = padding c y)
    {a : WindowAttrs} {m : AutoPad} (hm : autoPadOf a = some m) (hpl : m.Plain) {xt yt : ArgType} {x : Tensor α} :
    genMaxPool d pc padding a xt x = genMaxPool d pc padding a yt x := by
  cases hc : poolConfig d pc a with
  | none => simp [genMaxPool, hc]
  | some c =>
    have : c.autoPad.Plain := by rw [poolConfig_mode hm hc]; exact hpl
    simp only [genMaxPool, hc, windowModule, Option.bind_eq_bind, Option.bind_some, hp xt yt this]

theorem genAvgPool_type [Field α] {P : Type} {d : Nat} {pc : List Int → Option P}
    {padding : WindowConfig P → ArgType → Option Burn.Padding} (hp : ∀ {c} x y, c.autoPad.Plain → padding c x = padding c y)
    {a : WindowAttrs} {m : AutoPad} (hm : autoPadOf a = some m) (hpl : m.Plain) {cip : Option Int} {xt yt : ArgType} {x : Tensor α} :
    genAvgPool d pc padding a cip xt x = genAvgPool d pc padding a cip yt x := by
  cases hc : poolConfig d pc a with
  | none => simp [genAvgPool, hc]
  | some c =>
    have : c.autoPad.Plain := by rw [poolConfig_mode hm hc]; exact hpl
    simp only [genAvgPool, hc, avgPoolModule, Option.bind_eq_bind, Option.bind_some, hp xt yt this]

end OnnxIR
