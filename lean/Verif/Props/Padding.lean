import Verif.Model.Conv
import Verif.Spec.Typing

/-!
# C42 and C20: explicit and automatic padding
-/

namespace OnnxIR

open Gen Infer Onnx

/-! ## C42: the attribute `pads` -/

theorem PadsAttr_one (l r : Nat) : PadsAttr 1 [(l : Int), r] [(l, r)] := ⟨rfl, rfl⟩

/-- **C42**, one axis. A list of two amounts is accepted exactly if none is negative, and then the
generated padding has these amounts. The configuration counts as asymmetric exactly if the two sides
differ. -/
theorem C42_one_axis_partial {pads : List Int} (hl : pads.length = 2) :
    ((∃ c, paddingConfig1d pads = some c) ↔ ∀ x ∈ pads, 0 ≤ x) ∧
    ∀ c, paddingConfig1d pads = some c → ∃ p, tokens1d c = some p ∧ PadsAttr 1 pads (p.amounts 1) ∧
      (c.isAsymmetric = true ↔ ∃ a ∈ p.amounts 1, a.1 ≠ a.2) := by
  obtain ⟨l, r, rfl⟩ : ∃ l r, pads = [l, r] := by
    rcases pads with _ | ⟨l, _ | ⟨r, _ | ⟨_, _⟩⟩⟩ <;> simp at hl
    exact ⟨l, r, rfl⟩
  have hc : paddingConfig1d [l, r] = if l < 0 ∨ r < 0 then none
      else if l = 0 ∧ r = 0 then some .valid else some (.explicit l.toNat r.toNat) := rfl
  rw [hc]
  constructor
  · constructor
    · rintro ⟨c, h⟩
      split at h
      · cases h
      · rename_i hn; simp only [List.mem_cons, List.not_mem_nil, or_false, forall_eq_or_imp, forall_eq]
        omega
    · intro h
      simp only [List.mem_cons, List.not_mem_nil, or_false, forall_eq_or_imp, forall_eq] at h
      rw [if_neg (by omega)]
      split <;> exact ⟨_, rfl⟩
  · intro c h
    split at h
    · cases h
    · rename_i hn
      split at h <;> cases h
      · rename_i hz
        obtain ⟨rfl, rfl⟩ := hz
        exact ⟨_, rfl, ⟨rfl, rfl⟩, by simp [PaddingConfig1d.isAsymmetric, Burn.Padding.amounts]⟩
      · refine ⟨_, rfl, ⟨rfl, ?_⟩, by simp [PaddingConfig1d.isAsymmetric, Burn.Padding.amounts]⟩
        simp only [Burn.Padding.amounts, List.map_cons, List.map_nil, List.cons_append, List.nil_append,
          List.cons.injEq, and_true]
        omega

/-- **C42**, two axes, as in `C42_one_axis_partial`. -/
theorem C42_two_axes_partial {pads : List Int} (hl : pads.length = 4) :
    ((∃ c, paddingConfig2d pads = some c) ↔ ∀ x ∈ pads, 0 ≤ x) ∧
    ∀ c, paddingConfig2d pads = some c → ∃ p, tokens2d c = some p ∧ PadsAttr 2 pads (p.amounts 2) ∧
      (c.isAsymmetric = true ↔ ∃ a ∈ p.amounts 2, a.1 ≠ a.2) := by
  obtain ⟨t, l, b, r, rfl⟩ : ∃ t l b r, pads = [t, l, b, r] := by
    rcases pads with _ | ⟨t, _ | ⟨l, _ | ⟨b, _ | ⟨r, _ | ⟨_, _⟩⟩⟩⟩⟩ <;> simp at hl
    exact ⟨t, l, b, r, rfl⟩
  have hc : paddingConfig2d [t, l, b, r] = if l < 0 ∨ r < 0 ∨ t < 0 ∨ b < 0 then none
      else if l = 0 ∧ r = 0 ∧ t = 0 ∧ b = 0 then some .valid
      else some (.explicit t.toNat l.toNat b.toNat r.toNat) := rfl
  rw [hc]
  constructor
  · constructor
    · rintro ⟨c, h⟩
      split at h
      · cases h
      · rename_i hn; simp only [List.mem_cons, List.not_mem_nil, or_false, forall_eq_or_imp, forall_eq]
        omega
    · intro h
      simp only [List.mem_cons, List.not_mem_nil, or_false, forall_eq_or_imp, forall_eq] at h
      rw [if_neg (by omega)]
      split <;> exact ⟨_, rfl⟩
  · intro c h
    split at h
    · cases h
    · rename_i hn
      split at h <;> cases h
      · rename_i hz
        obtain ⟨rfl, rfl, rfl, rfl⟩ := hz
        exact ⟨_, rfl, ⟨rfl, rfl⟩, by simp [PaddingConfig2d.isAsymmetric, Burn.Padding.amounts]⟩
      · refine ⟨_, rfl, ⟨rfl, ?_⟩, by simp [PaddingConfig2d.isAsymmetric, Burn.Padding.amounts]⟩
        simp only [Burn.Padding.amounts, List.map_cons, List.map_nil, List.cons_append, List.nil_append,
          List.cons.injEq, and_true]
        omega

/-- **C42**, three axes. Asymmetric padding is rejected when the code is generated; everything else as
in `C42_one_axis_partial`. -/
theorem C42_three_axes_partial {pads : List Int} (hl : pads.length = 6) :
    ((∃ c, paddingConfig3d pads = some c) ↔ ∀ x ∈ pads, 0 ≤ x) ∧
    ∀ c, paddingConfig3d pads = some c →
      (∀ p, tokens3d c = some p → PadsAttr 3 pads (p.amounts 3)) ∧
      (c.isAsymmetric = true ↔ ∃ a, PadsAttr 3 pads a ∧ ∃ q ∈ a, q.1 ≠ q.2) ∧
      (c.isAsymmetric = true ↔ tokens3d c = none) := by
  obtain ⟨f, t, l, k, b, r, rfl⟩ : ∃ f t l k b r, pads = [f, t, l, k, b, r] := by
    rcases pads with _ | ⟨f, _ | ⟨t, _ | ⟨l, _ | ⟨k, _ | ⟨b, _ | ⟨r, _ | ⟨_, _⟩⟩⟩⟩⟩⟩⟩ <;> simp at hl
    exact ⟨f, t, l, k, b, r, rfl⟩
  have hc : paddingConfig3d [f, t, l, k, b, r] =
      if l < 0 ∨ r < 0 ∨ t < 0 ∨ b < 0 ∨ f < 0 ∨ k < 0 then none
      else if l = 0 ∧ r = 0 ∧ t = 0 ∧ b = 0 ∧ f = 0 ∧ k = 0 then some .valid
      else some (.explicit f.toNat t.toNat l.toNat k.toNat b.toNat r.toNat) := rfl
  rw [hc]
  constructor
  · constructor
    · rintro ⟨c, h⟩
      split at h
      · cases h
      · rename_i hn; simp only [List.mem_cons, List.not_mem_nil, or_false, forall_eq_or_imp, forall_eq]
        omega
    · intro h
      simp only [List.mem_cons, List.not_mem_nil, or_false, forall_eq_or_imp, forall_eq] at h
      rw [if_neg (by omega)]
      split <;> exact ⟨_, rfl⟩
  · intro c h
    have huniq : ∀ a : List (Nat × Nat), PadsAttr 3 [f, t, l, k, b, r] a →
        a = [(f.toNat, k.toNat), (t.toNat, b.toNat), (l.toNat, r.toNat)] := by
      rintro a ⟨ha, he⟩
      rcases a with _ | ⟨⟨a1, a2⟩, _ | ⟨⟨b1, b2⟩, _ | ⟨⟨c1, c2⟩, _ | ⟨_, _⟩⟩⟩⟩ <;> simp at ha
      simp only [List.map_cons, List.map_nil, List.cons_append, List.nil_append, List.cons.injEq,
        and_true] at he
      simp only [List.cons.injEq, Prod.mk.injEq, and_true]
      omega
    split at h
    · cases h
    · rename_i hn
      have hok : PadsAttr 3 [f, t, l, k, b, r]
          [(f.toNat, k.toNat), (t.toNat, b.toNat), (l.toNat, r.toNat)] := by
        refine ⟨rfl, ?_⟩
        simp only [List.map_cons, List.map_nil, List.cons_append, List.nil_append, List.cons.injEq,
          and_true]
        omega
      have hex : (∃ a, PadsAttr 3 [f, t, l, k, b, r] a ∧ ∃ q ∈ a, q.1 ≠ q.2) ↔
          (f.toNat ≠ k.toNat ∨ t.toNat ≠ b.toNat ∨ l.toNat ≠ r.toNat) := by
        constructor
        · rintro ⟨a, ha, q, hq, hne⟩
          rw [huniq a ha] at hq
          simp only [List.mem_cons, List.not_mem_nil, or_false] at hq
          rcases hq with rfl | rfl | rfl
          · exact Or.inl hne
          · exact Or.inr (Or.inl hne)
          · exact Or.inr (Or.inr hne)
        · intro h
          refine ⟨_, hok, ?_⟩
          simpa using h
      rw [hex]
      split at h <;> cases h
      · rename_i hz
        obtain ⟨rfl, rfl, rfl, rfl, rfl, rfl⟩ := hz
        refine ⟨?_, by simp [PaddingConfig3d.isAsymmetric], by
          simp [PaddingConfig3d.isAsymmetric, tokens3d]⟩
        intro p hp
        cases hp
        exact ⟨rfl, rfl⟩
      · refine ⟨?_, ?_, ?_⟩
        · intro p hp
          simp only [tokens3d] at hp
          split at hp
          · cases hp
          · rename_i ha
            cases hp
            simp only [PaddingConfig3d.isAsymmetric, Bool.or_eq_true, bne_iff_ne, ne_eq, not_or,
              Decidable.not_not] at ha
            refine ⟨rfl, ?_⟩
            simp only [Burn.Padding.amounts, List.map_cons, List.map_nil, List.cons_append,
              List.nil_append, List.cons.injEq, and_true]
            omega
        · simp [PaddingConfig3d.isAsymmetric, or_assoc]
        · simp only [tokens3d]
          split <;> simp_all

example : ((paddingConfig2d [1, 2, 3, 4]).bind tokens2d).map (·.amounts 2) = some [(1, 3), (2, 4)] ∧
    (paddingConfig1d [-1, 2]) = none ∧ ((paddingConfig3d [1, 1, 1, 2, 1, 1]).bind tokens3d) = none := by
  decide

theorem asUsize_nonneg {x : Int} (h0 : 0 ≤ x) (h1 : x < 2 ^ 63) : (asUsize x : Int) = x := by
  unfold asUsize
  omega

/-- **C42** for transposed convolutions with one, two and three axes, for lists of the right length
whose amounts are not negative: they are accepted exactly if every axis is symmetric, and then the
configured amount is the one of both sides. -/
theorem C42_transpose_partial :
    (∀ pads : List Int, pads.length = 2 → (∀ x ∈ pads, 0 ≤ x ∧ x < 2 ^ 63) →
      (∀ p, transposePads1d pads = some p → PadsAttr 1 pads [(p, p)]) ∧
      (transposePads1d pads = none → ¬ ∃ p, PadsAttr 1 pads [(p, p)])) ∧
    (∀ pads : List Int, pads.length = 4 → (∀ x ∈ pads, 0 ≤ x ∧ x < 2 ^ 63) →
      (∀ p, transposePads2d pads = some p → PadsAttr 2 pads [(p.1, p.1), (p.2, p.2)]) ∧
      (transposePads2d pads = none → ¬ ∃ p q, PadsAttr 2 pads [(p, p), (q, q)])) ∧
    (∀ pads : List Int, pads.length = 6 → (∀ x ∈ pads, 0 ≤ x ∧ x < 2 ^ 63) →
      (∀ p, transposePads3d pads = some p →
        PadsAttr 3 pads [(p.1, p.1), (p.2.1, p.2.1), (p.2.2, p.2.2)]) ∧
      (transposePads3d pads = none → ¬ ∃ p q r, PadsAttr 3 pads [(p, p), (q, q), (r, r)])) := by
  refine ⟨?_, ?_, ?_⟩
  · intro pads hl hp
    obtain ⟨l, r, rfl⟩ : ∃ l r, pads = [l, r] := by
      rcases pads with _ | ⟨l, _ | ⟨r, _ | ⟨_, _⟩⟩⟩ <;> simp at hl
      exact ⟨l, r, rfl⟩
    simp only [List.mem_cons, List.not_mem_nil, or_false, forall_eq_or_imp, forall_eq] at hp
    obtain ⟨h1, h2⟩ := hp
    simp only [transposePads1d]
    constructor
    · intro p h
      split at h
      · cases h
      · cases h
        refine ⟨rfl, ?_⟩
        have := asUsize_nonneg h1.1 h1.2
        simp only [List.map_cons, List.map_nil, List.cons_append, List.nil_append, List.cons.injEq,
          and_true]
        omega
    · rintro h ⟨p, -, he⟩
      simp only [List.map_cons, List.map_nil, List.cons_append, List.nil_append, List.cons.injEq,
        and_true] at he
      rw [if_neg (by omega)] at h
      cases h
  · intro pads hl hp
    obtain ⟨a, b, c, d, rfl⟩ : ∃ a b c d, pads = [a, b, c, d] := by
      rcases pads with _ | ⟨t, _ | ⟨l, _ | ⟨b, _ | ⟨r, _ | ⟨_, _⟩⟩⟩⟩⟩ <;> simp at hl
      exact ⟨t, l, b, r, rfl⟩
    simp only [List.mem_cons, List.not_mem_nil, or_false, forall_eq_or_imp, forall_eq] at hp
    obtain ⟨h1, h2, h3, h4⟩ := hp
    have hc : transposePads2d [a, b, c, d] = if a < 0 ∨ b < 0 ∨ c < 0 ∨ d < 0 then none
        else if a ≠ c ∨ b ≠ d then none else some (asUsize a, asUsize b) := rfl
    rw [hc, if_neg (by omega)]
    constructor
    · intro p h
      split at h
      · cases h
      · cases h
        refine ⟨rfl, ?_⟩
        have := asUsize_nonneg h1.1 h1.2
        have := asUsize_nonneg h2.1 h2.2
        simp only [List.map_cons, List.map_nil, List.cons_append, List.nil_append, List.cons.injEq,
          and_true]
        omega
    · rintro h ⟨p, q, -, he⟩
      simp only [List.map_cons, List.map_nil, List.cons_append, List.nil_append, List.cons.injEq,
        and_true] at he
      rw [if_neg (by omega)] at h
      cases h
  · intro pads hl hp
    obtain ⟨a, b, c, d, e, f, rfl⟩ : ∃ a b c d e f, pads = [a, b, c, d, e, f] := by
      rcases pads with _ | ⟨f, _ | ⟨t, _ | ⟨l, _ | ⟨k, _ | ⟨b, _ | ⟨r, _ | ⟨_, _⟩⟩⟩⟩⟩⟩⟩ <;> simp at hl
      exact ⟨f, t, l, k, b, r, rfl⟩
    simp only [List.mem_cons, List.not_mem_nil, or_false, forall_eq_or_imp, forall_eq] at hp
    obtain ⟨h1, h2, h3, h4, h5, h6⟩ := hp
    have hc : transposePads3d [a, b, c, d, e, f] =
        if a < 0 ∨ b < 0 ∨ c < 0 ∨ d < 0 ∨ e < 0 ∨ f < 0 then none
        else if a ≠ d ∨ b ≠ e ∨ c ≠ f then none else some (asUsize a, asUsize b, asUsize c) := rfl
    rw [hc, if_neg (by omega)]
    constructor
    · intro p h
      split at h
      · cases h
      · cases h
        refine ⟨rfl, ?_⟩
        have := asUsize_nonneg h1.1 h1.2
        have := asUsize_nonneg h2.1 h2.2
        have := asUsize_nonneg h3.1 h3.2
        simp only [List.map_cons, List.map_nil, List.cons_append, List.nil_append, List.cons.injEq,
          and_true]
        omega
    · rintro h ⟨p, q, r, -, he⟩
      simp only [List.map_cons, List.map_nil, List.cons_append, List.nil_append, List.cons.injEq,
        and_true] at he
      rw [if_neg (by omega)] at h
      cases h

example : transposePads2d [1, 2, 1, 2] = some (1, 2) ∧ transposePads2d [1, 2, 2, 1] = none ∧
    transposePads3d [1, 2, 3, 1, 2, 3] = some (1, 2, 3) := by decide

/-- **C42** fails on malformed lists: a list that is too long is accepted and its tail ignored, and a
one-axis transposed convolution accepts negative amounts, which become a huge padding. -/
theorem C42_malformed_wrong :
    (∃ c, paddingConfig1d [1, 2, 3, 4] = some c) ∧ (∃ c, paddingConfig2d [0, 0, 0, 0, 7, 7] = some c) ∧
    transposePads1d [-1, -1] = some (2 ^ 64 - 1) := by
  refine ⟨⟨_, rfl⟩, ⟨_, rfl⟩, by decide⟩

/-! ## C20: the attribute `auto_pad` -/

/-- The mode a parsed attribute stands for. -/
def AutoPad.mode : AutoPad → PadMode
  | .notSet => .notSet
  | .sameUpper => .sameUpper
  | .sameLower => .sameLower
  | .valid => .valid

theorem isCeilDiv {x s : Nat} (hs : 0 < s) : IsCeilDiv x s ((x + s - 1) / s) := by
  intro m
  rw [← Nat.lt_succ_iff, Nat.div_lt_iff_lt_mul hs, Nat.succ_mul]
  omega

/-- The cells added by the code make exactly `output` windows fit. -/
theorem same_positions {x k s d : Nat} (hx : 0 < x) (hs : 0 < s) (hk : 0 < k) {b a : Nat}
    (hsum : b + a = ((x + s - 1) / s - 1) * s + ((k - 1) * d + 1) - x) :
    Axis.Positions ⟨x, b, a, k, s, d⟩ ((x + s - 1) / s) := by
  generalize ho : (x + s - 1) / s = o at hsum
  have hc := isCeilDiv (x := x) hs
  rw [ho] at hc
  have h1 : x ≤ o * s := (hc o).1 (Nat.le_refl _)
  have ho1 : 0 < o := by
    apply Nat.pos_of_ne_zero
    intro h0
    rw [h0] at h1; omega
  obtain ⟨o, rfl⟩ : ∃ m, o = m + 1 := ⟨o - 1, by omega⟩
  have h2 : ¬ x ≤ o * s := fun h => by have := (hc o).2 h; omega
  simp only [Nat.add_sub_cancel] at hsum
  rw [Nat.succ_mul] at h1
  intro p
  simp only [Axis.Fits]
  constructor
  · intro hp
    have : p * s ≤ o * s := Nat.mul_le_mul_right _ (by omega)
    omega
  · intro hp
    apply Nat.lt_of_not_le
    intro hle
    have : (o + 1) * s ≤ p * s := Nat.mul_le_mul_right _ hle
    rw [Nat.succ_mul] at this
    omega

/-- With fewer cells not all of them fit. -/
theorem same_least {x k s d : Nat} (hx : 0 < x) (hs : 0 < s) {t : Nat}
    (ht : Axis.Positions ⟨x, 0, t, k, s, d⟩ ((x + s - 1) / s)) :
    ((x + s - 1) / s - 1) * s + ((k - 1) * d + 1) - x ≤ t := by
  have h0 : 0 < (x + s - 1) / s := Nat.div_pos (by omega) hs
  have := (ht ((x + s - 1) / s - 1)).1 (by omega)
  simp only [Axis.Fits] at this
  omega

/-- **C20**, one axis of any length, with any window, stride and dilation: the computed amounts are the
ones ONNX prescribes. They are natural numbers, so never negative. -/
theorem C20_one_dim {m : AutoPad} {x k s d : Nat} {pads p : Nat × Nat} (hx : 0 < x)
    (h : computeAutoPad1dim m x k s d = some p) : AutoPadded m.mode pads x k s d p := by
  cases m with
  | notSet => cases h
  | valid => cases h; rfl
  | sameUpper =>
    simp only [computeAutoPad1dim] at h
    split at h
    · cases h
    · split at h
      · cases h
      · simp only [if_true, Option.some.injEq] at h
        rename_i h1 h2
        subst h
        refine ⟨⟨_, isCeilDiv (by omega), same_positions hx (by omega) (by omega) ?_, fun t ht => ?_⟩, ?_, ?_⟩
        · dsimp only; omega
        · have := same_least hx (by omega) ht
          dsimp only; omega
        · dsimp only; omega
        · dsimp only; omega
  | sameLower =>
    simp only [computeAutoPad1dim] at h
    split at h
    · cases h
    · split at h
      · cases h
      · simp only [reduceCtorEq, if_false, Option.some.injEq] at h
        rename_i h1 h2
        subst h
        refine ⟨⟨_, isCeilDiv (by omega), same_positions hx (by omega) (by omega) ?_, fun t ht => ?_⟩, ?_, ?_⟩
        · dsimp only; omega
        · have := same_least hx (by omega) ht
          dsimp only; omega
        · dsimp only; omega
        · dsimp only; omega

/-- The computation succeeds for every non-empty axis, window and stride. -/
theorem C20_one_dim_total {m : AutoPad} {x k s d : Nat} (hm : m ≠ .notSet) (hx : 0 < x) (hk : 0 < k)
    (hs : 0 < s) : ∃ p, computeAutoPad1dim m x k s d = some p := by
  have ho : (x + s - 1) / s ≠ 0 := by
    intro h
    rw [Nat.div_eq_zero_iff] at h
    omega
  cases m with
  | notSet => exact absurd rfl hm
  | valid => exact ⟨_, rfl⟩
  | sameUpper =>
    simp only [computeAutoPad1dim]
    rw [if_neg (by omega), if_neg ho]
    exact ⟨_, rfl⟩
  | sameLower =>
    simp only [computeAutoPad1dim]
    rw [if_neg (by omega), if_neg ho]
    exact ⟨_, rfl⟩

/-- Window 4 over 7 cells: three cells are needed, the odd one goes where the name says; and a window
shorter than the stride needs none. -/
example : computeAutoPad1dim .sameUpper 7 4 1 1 = some (1, 2) ∧
    computeAutoPad1dim .sameLower 7 4 1 1 = some (2, 1) ∧
    computeAutoPad1dim .sameUpper 5 1 3 1 = some (0, 0) := by decide

/-- The amounts of a one-axis configuration. -/
def PaddingConfig1d.pairs (c : PaddingConfig1d) : List (Nat × Nat) := [c.asTuple]

/-- The amounts of a two-axis configuration. -/
def PaddingConfig2d.pairs (c : PaddingConfig2d) : List (Nat × Nat) :=
  let (t, l, b, r) := c.asTuple
  [(t, b), (l, r)]

/-- The amounts of a three-axis configuration. -/
def PaddingConfig3d.pairs (c : PaddingConfig3d) : List (Nat × Nat) :=
  let (f, t, l, k, b, r) := c.asTuple
  [(f, k), (t, b), (l, r)]

theorem tokens1d_amounts {c : PaddingConfig1d} {p : Burn.Padding} (h : tokens1d c = some p) :
    p.amounts 1 = c.pairs := by
  cases c <;> cases h <;> rfl

theorem tokens2d_amounts {c : PaddingConfig2d} {p : Burn.Padding} (h : tokens2d c = some p) :
    p.amounts 2 = c.pairs := by
  cases c <;> cases h <;> rfl

theorem tokens3d_amounts {c : PaddingConfig3d} {p : Burn.Padding} (h : tokens3d c = some p) :
    p.amounts 3 = c.pairs := by
  cases c with
  | valid => cases h; rfl
  | explicit f t l k b r =>
    simp only [tokens3d] at h
    split at h
    · cases h
    · rename_i ha
      cases h
      simp only [PaddingConfig3d.isAsymmetric, Bool.or_eq_true, bne_iff_ne, ne_eq, not_or, Decidable.not_not] at ha
      obtain ⟨⟨rfl, rfl⟩, rfl⟩ := ha
      rfl

/-- **C20** for generated modules with one axis: whatever the mode, every axis of the generated module
is padded as ONNX prescribes, provided the type of the input is right and its axes are not empty. -/
theorem C20_module_1d {c : WindowConfig PaddingConfig1d} {x : ArgType} {n ch x0 k0 s0 d0 : Nat}
    {p : Burn.Padding} (hx : x.Admits [n, ch, x0]) (h0 : 0 < x0) (hk : c.kernel = [k0])
    (hs : c.stride = [s0]) (hd : c.dilation = [d0]) (h : padding1 c x = some p) :
    AllAutoPadded c.autoPad.mode c.padding.pairs [x0] [k0] [s0] [d0] (p.amounts 1) := by
  simp only [padding1, hk, hs, hd, Option.bind_eq_bind, Option.bind_eq_some_iff] at h
  obtain ⟨q, hq, hp⟩ := h
  rw [tokens1d_amounts hp]
  cases hm : c.autoPad <;> rw [hm] at hq <;> simp only [resolveAutoPad1d] at hq
  · cases hq
    exact .cons rfl .nil
  · simp only [Option.bind_eq_bind, Option.bind_eq_some_iff, Option.some.injEq] at hq
    obtain ⟨sh, hsh, y, hy, p0, hp0, rfl⟩ := hq
    simp only [inputSpatial, Option.map_eq_some_iff] at hsh
    obtain ⟨dims, hdims, rfl⟩ := hsh
    rw [← ArgType.admits_known hx hdims] at hy
    cases hy
    exact .cons (C20_one_dim h0 hp0) .nil
  · simp only [Option.bind_eq_bind, Option.bind_eq_some_iff, Option.some.injEq] at hq
    obtain ⟨sh, hsh, y, hy, p0, hp0, rfl⟩ := hq
    simp only [inputSpatial, Option.map_eq_some_iff] at hsh
    obtain ⟨dims, hdims, rfl⟩ := hsh
    rw [← ArgType.admits_known hx hdims] at hy
    cases hy
    exact .cons (C20_one_dim h0 hp0) .nil
  · cases hq
    exact .cons rfl .nil

/-- **C20** for generated modules with two axes, as in `C20_module_1d`. -/
theorem C20_module_2d {c : WindowConfig PaddingConfig2d} {x : ArgType}
    {n ch x0 x1 k0 k1 s0 s1 d0 d1 : Nat} {p : Burn.Padding} (hx : x.Admits [n, ch, x0, x1])
    (h0 : 0 < x0) (h1 : 0 < x1) (hk : c.kernel = [k0, k1]) (hs : c.stride = [s0, s1])
    (hd : c.dilation = [d0, d1]) (h : padding2 c x = some p) :
    AllAutoPadded c.autoPad.mode c.padding.pairs [x0, x1] [k0, k1] [s0, s1] [d0, d1]
      (p.amounts 2) := by
  simp only [padding2, hk, hs, hd, Option.bind_eq_bind, Option.bind_eq_some_iff] at h
  obtain ⟨q, hq, hp⟩ := h
  rw [tokens2d_amounts hp]
  have hsame : ∀ m : AutoPad, (do
      let shape ← inputSpatial x
      let p ← computeAutoPad1dim m (← shape[0]?) k0 s0 d0
      let q ← computeAutoPad1dim m (← shape[1]?) k1 s1 d1
      some (PaddingConfig2d.explicit p.1 q.1 p.2 q.2)) = some q →
      AllAutoPadded m.mode c.padding.pairs [x0, x1] [k0, k1] [s0, s1] [d0, d1] q.pairs := by
    intro m hq
    simp only [Option.bind_eq_bind, Option.bind_eq_some_iff, Option.some.injEq] at hq
    obtain ⟨sh, hsh, y, hy, p0, hp0, z, hz, p1, hp1, rfl⟩ := hq
    simp only [inputSpatial, Option.map_eq_some_iff] at hsh
    obtain ⟨dims, hdims, rfl⟩ := hsh
    rw [← ArgType.admits_known hx hdims] at hy hz
    cases hy
    cases hz
    exact .cons (C20_one_dim h0 hp0) (.cons (C20_one_dim h1 hp1) .nil)
  cases hm : c.autoPad <;> rw [hm] at hq <;> simp only [resolveAutoPad2d] at hq
  · cases hq
    exact .cons rfl (.cons rfl .nil)
  · exact hsame .sameUpper hq
  · exact hsame .sameLower hq
  · cases hq
    exact .cons rfl (.cons rfl .nil)

/-- **C20** for generated modules with three axes, as in `C20_module_1d`. Asymmetric results stop the
generation of code, since Burn has no such padding. -/
theorem C20_module_3d {c : WindowConfig PaddingConfig3d} {x : ArgType}
    {n ch x0 x1 x2 k0 k1 k2 s0 s1 s2 d0 d1 d2 : Nat} {p : Burn.Padding}
    (hx : x.Admits [n, ch, x0, x1, x2]) (h0 : 0 < x0) (h1 : 0 < x1) (h2 : 0 < x2)
    (hk : c.kernel = [k0, k1, k2]) (hs : c.stride = [s0, s1, s2]) (hd : c.dilation = [d0, d1, d2])
    (h : padding3 c x = some p) :
    AllAutoPadded c.autoPad.mode c.padding.pairs [x0, x1, x2] [k0, k1, k2] [s0, s1, s2] [d0, d1, d2]
      (p.amounts 3) := by
  simp only [padding3, hk, hs, hd, Option.bind_eq_bind, Option.bind_eq_some_iff] at h
  obtain ⟨q, hq, hp⟩ := h
  rw [tokens3d_amounts hp]
  have hsame : ∀ m : AutoPad, (do
      let shape ← inputSpatial x
      let p ← computeAutoPad1dim m (← shape[0]?) k0 s0 d0
      let q ← computeAutoPad1dim m (← shape[1]?) k1 s1 d1
      let r ← computeAutoPad1dim m (← shape[2]?) k2 s2 d2
      some (PaddingConfig3d.explicit p.1 q.1 r.1 p.2 q.2 r.2)) = some q →
      AllAutoPadded m.mode c.padding.pairs [x0, x1, x2] [k0, k1, k2] [s0, s1, s2] [d0, d1, d2]
        q.pairs := by
    intro m hq
    simp only [Option.bind_eq_bind, Option.bind_eq_some_iff, Option.some.injEq] at hq
    obtain ⟨sh, hsh, y, hy, p0, hp0, z, hz, p1, hp1, w, hw, p2, hp2, rfl⟩ := hq
    simp only [inputSpatial, Option.map_eq_some_iff] at hsh
    obtain ⟨dims, hdims, rfl⟩ := hsh
    rw [← ArgType.admits_known hx hdims] at hy hz hw
    cases hy
    cases hz
    cases hw
    exact .cons (C20_one_dim h0 hp0) (.cons (C20_one_dim h1 hp1) (.cons (C20_one_dim h2 hp2) .nil))
  cases hm : c.autoPad <;> rw [hm] at hq <;> simp only [resolveAutoPad3d] at hq
  · cases hq
    exact .cons rfl (.cons rfl (.cons rfl .nil))
  · exact hsame .sameUpper hq
  · exact hsame .sameLower hq
  · cases hq
    exact .cons rfl (.cons rfl (.cons rfl .nil))

/-- The hypotheses are met: a 5 × 6 image, window 3 × 2, SAME_UPPER. -/
example : padding2 ⟨[3, 2], [1, 2], [1, 1], .valid, .sameUpper, false⟩
    (.tensor ⟨.f32, 4, some [some 1, some 3, some 5, some 6]⟩) = some (.explicit2 1 0 1 0) := by decide

end OnnxIR
