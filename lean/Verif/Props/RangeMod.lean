import Verif.Model.RangeMod

/-!
# C33: Range and Mod
-/

namespace OnnxIR

open Onnx

/-! ### Range -/

/-- The values of `(s..e).step_by(step)` are the terms of the arithmetic sequence below `e`. -/
theorem stepFrom_spec (e : Int) (step : Nat) (hstep : 0 < step) : ∀ (fuel : Nat) (s : Int),
    (e - s).toNat ≤ fuel → ∃ n : Nat,
      Burn.stepFrom s e step fuel = (List.range n).map (fun i : Nat => s + (i : Int) * step) ∧
      (∀ i : Nat, i < n → s + (i : Int) * step < e) ∧ ¬ s + (n : Int) * step < e := by
  intro fuel
  induction fuel with
  | zero =>
    intro s hs
    exact ⟨0, rfl, by omega, by simp; omega⟩
  | succ fuel ih =>
    intro s hs
    unfold Burn.stepFrom
    split
    · next h =>
      obtain ⟨n, h1, h2, h3⟩ := ih (s + step) (by omega)
      refine ⟨n + 1, ?_, ?_, ?_⟩
      · rw [h1, List.range_succ_eq_map, List.map_cons, List.map_map]
        congr 1
        · simp
        · refine List.map_congr_left fun i _ => ?_
          simp only [Function.comp_apply, Nat.cast_succ]
          ring
      · intro i hi
        cases i with
        | zero => simpa using h
        | succ i =>
          have := h2 i (by omega)
          have e : s + ((i + 1 : Nat) : Int) * step = s + step + (i : Int) * step := by
            push_cast; ring
          rw [e]; exact this
      · have e : s + ((n + 1 : Nat) : Int) * step = s + step + (n : Int) * step := by
          push_cast; ring
        rw [e]; exact h3
    · next h =>
      exact ⟨0, rfl, by omega, by simpa using h⟩

/-- The terms of a Range are determined. -/
theorem IsRange.unique {start limit delta : Rat} {a b : List Rat} (ha : IsRange start limit delta a)
    (hb : IsRange start limit delta b) : a = b := by
  obtain ⟨_, n, rfl, h1, h2⟩ := ha
  obtain ⟨_, m, rfl, h3, h4⟩ := hb
  have : n = m := by
    rcases Nat.lt_trichotomy n m with h | h | h
    · exact absurd (h3 n h) h2
    · exact h
    · exact absurd (h1 m h) h4
  rw [this]

/-- **C33 (partial): Range.** For integer operands and a positive step, the generated code yields
exactly the ONNX Range, empty ranges included. Missing: negative steps and floating-point constants,
for which the generated code is wrong, see `C33_range_negative_wrong` and `C33_range_float_wrong`. -/
theorem C33_range_partial (start limit delta : Int) (h : 0 < delta) (hmax : delta < 2 ^ 63) :
    ∃ out, Gen.range (.runtimeInt start) (.runtimeInt limit) (.runtimeInt delta) = some out ∧
      Gen.range (.constInt start) (.constInt limit) (.constInt delta) = some out ∧
      IsRange start limit delta (out.map fun v : Int => (v : Rat)) := by
  have hu : Gen.i64AsUsize delta = delta.toNat := by
    unfold Gen.i64AsUsize; rw [Int.emod_eq_of_lt (by omega) (by omega)]
  obtain ⟨n, h1, h2, h3⟩ := stepFrom_spec limit delta.toNat (by omega) _ start (Nat.le_refl _)
  have hd : ((delta.toNat : Nat) : Int) = delta := by omega
  have hpos : (0 : Rat) < (delta : Rat) := by exact_mod_cast h
  have hout : Burn.arangeStep start limit (Gen.i64AsUsize delta)
      = some ((List.range n).map fun i : Nat => start + (i : Int) * delta) := by
    unfold Burn.arangeStep
    rw [hu, if_neg (by omega), h1, hd]
  rw [hd] at h2 h3
  refine ⟨_, hout, hout, ne_of_gt hpos, n, ?_, ?_, ?_⟩
  · rw [List.map_map]
    refine List.map_congr_left fun i _ => ?_
    simp
  · intro i hi
    simp only [BeforeLimit, hpos, if_true]
    exact_mod_cast h2 i hi
  · simp only [BeforeLimit, hpos, if_true]
    exact_mod_cast h3

/-- **C33, disagreement.** For every negative step the generated code is wrong unless `start = limit`:
counting down gives an empty tensor (the step becomes a huge positive number), and a range that should
be empty yields one element. -/
theorem C33_range_negative_wrong (start limit delta : Int) (h : delta < 0) (hmin : -(2 ^ 62) ≤ delta)
    (hs : -(2 ^ 61) ≤ start ∧ start ≤ 2 ^ 61) (hl : -(2 ^ 61) ≤ limit ∧ limit ≤ 2 ^ 61)
    (hne : start ≠ limit) :
    ∃ out, Gen.range (.runtimeInt start) (.runtimeInt limit) (.runtimeInt delta) = some out ∧
      ¬ IsRange start limit delta (out.map fun v : Int => (v : Rat)) := by
  have hu : Gen.i64AsUsize delta = (delta + 2 ^ 64).toNat := by
    unfold Gen.i64AsUsize; omega
  have hneg : ¬ (0 : Rat) < (delta : Rat) := by
    intro hc; have : (0 : Int) < delta := by exact_mod_cast hc
    omega
  refine ⟨_, if_neg ?_, ?_⟩
  · show ¬ Gen.i64AsUsize delta = 0
    rw [hu]; omega
  · show ¬ IsRange _ _ _ (List.map _ (Burn.stepFrom start limit (Gen.i64AsUsize delta)
      (limit - start).toNat))
    obtain ⟨n, h1, h2, h3⟩ := stepFrom_spec limit (Gen.i64AsUsize delta) (by rw [hu]; omega) _ start
      (Nat.le_refl _)
    rintro ⟨_, m, e1, e2, e3⟩
    have hlen := congrArg List.length e1
    have e1' := e1
    rw [h1] at hlen
    simp only [List.length_map, List.length_range] at hlen
    subst hlen
    simp only [BeforeLimit, hneg, if_false] at e2 e3
    rcases Int.lt_or_gt_of_ne hne with hlt | hgt
    · have hn : 0 < n := by
        rcases Nat.eq_zero_or_pos n with h0 | h0
        · subst h0; simp at h3; omega
        · exact h0
      have := e2 0 hn
      simp at this
      omega
    · have hn : n = 0 := by
        rcases Nat.eq_zero_or_pos n with h0 | h0
        · exact h0
        · have := h2 0 h0
          simp at this
          omega
      subst hn
      simp at e3
      omega

/-- **C33, disagreement.** Floating-point constants are truncated: Range(0.0, 3.0, 1.5) should be
`[0, 1.5]` and yields `[0, 1, 2]`; a fractional step below one makes the generated code panic. -/
theorem C33_range_float_wrong :
    Gen.range (.constFloat 0) (.constFloat 3) (.constFloat (3 / 2)) = some [0, 1, 2] ∧
    IsRange 0 3 (3 / 2) [0, 3 / 2] ∧
    Gen.range (.constFloat 0) (.constFloat 1) (.constFloat (1 / 4)) = none := by
  refine ⟨by decide +kernel, ⟨by norm_num, 2, ?_, ?_, ?_⟩, by decide +kernel⟩
  · simp [List.range_succ]
  · intro i hi
    have : i = 0 ∨ i = 1 := by omega
    rcases this with rfl | rfl <;> norm_num [BeforeLimit]
  · norm_num [BeforeLimit]

/-! ### Mod -/

/-- The remainder is determined. -/
theorem IsMod.unique {fmod : Bool} {a b r s : Int} (hr : IsMod fmod a b r) (hs : IsMod fmod a b s) :
    r = s := by
  obtain ⟨⟨q, e1⟩, l1, g1⟩ := hr
  obtain ⟨⟨p, e2⟩, l2, g2⟩ := hs
  have hd : r - s = (p - q) * b := by
    have : q * b + r = p * b + s := by rw [← e1, ← e2]
    linarith [this, mul_comm (p - q) b, sub_mul p q b]
  have hsgn : ∀ x y c : Int, (x = 0 ∨ x.sign = c.sign) → (y = 0 ∨ y.sign = c.sign) →
      (0 ≤ x ∧ 0 ≤ y) ∨ (x ≤ 0 ∧ y ≤ 0) := by
    intro x y c hx hy
    rcases Int.lt_trichotomy c 0 with hc | hc | hc
    · rw [Int.sign_eq_neg_one_of_neg hc] at hx hy
      refine .inr ⟨?_, ?_⟩
      · rcases hx with h | h
        · omega
        · exact le_of_lt (Int.sign_eq_neg_one_iff_neg.1 h)
      · rcases hy with h | h
        · omega
        · exact le_of_lt (Int.sign_eq_neg_one_iff_neg.1 h)
    · subst hc
      simp only [Int.sign_zero, Int.sign_eq_zero_iff_zero, or_self] at hx hy
      omega
    · rw [Int.sign_eq_one_of_pos hc] at hx hy
      refine .inl ⟨?_, ?_⟩
      · rcases hx with h | h
        · omega
        · exact le_of_lt (Int.sign_eq_one_iff_pos.1 h)
      · rcases hy with h | h
        · omega
        · exact le_of_lt (Int.sign_eq_one_iff_pos.1 h)
  have hb := hsgn r s _ g1 g2
  have habs : (r - s).natAbs < b.natAbs := by omega
  rw [hd, Int.natAbs_mul] at habs
  have : (p - q).natAbs = 0 := by
    rcases Nat.eq_zero_or_pos (p - q).natAbs with h | h
    · exact h
    · have := Nat.le_mul_of_pos_left b.natAbs h
      omega
  have h0 : p - q = 0 := Int.natAbs_eq_zero.1 this
  rw [h0, zero_mul] at hd
  omega

theorem tmod_isMod {a b : Int} (hb : b ≠ 0) : IsMod true a b (a.tmod b) := by
  refine ⟨⟨a.tdiv b, (Int.tdiv_mul_add_tmod a b).symm⟩, ?_, ?_⟩
  · rw [Int.natAbs_tmod]
    exact Nat.mod_lt _ (Int.natAbs_pos.2 hb)
  · simp only [if_true]
    by_cases h : a.tmod b = 0
    · exact .inl h
    · refine .inr ?_
      rcases Int.lt_trichotomy a 0 with ha | ha | ha
      · have h1 : a.tmod b ≤ 0 := by
          have := Int.tmod_nonneg b (a := -a) (by omega)
          rw [Int.neg_tmod] at this; omega
        rw [Int.sign_eq_neg_one_of_neg ha, Int.sign_eq_neg_one_of_neg (by omega)]
      · subst ha; simp at h
      · have h1 := Int.tmod_nonneg b (a := a) (by omega)
        rw [Int.sign_eq_one_of_pos ha, Int.sign_eq_one_of_pos (by omega)]

theorem fmod_isMod {a b : Int} (hb : b ≠ 0) : IsMod false a b (a.fmod b) := by
  refine ⟨⟨a.fdiv b, by rw [mul_comm]; exact (Int.mul_fdiv_add_fmod a b).symm⟩, ?_, ?_⟩
  · rcases Int.lt_or_gt_of_ne hb with h | h
    · have h1 := Int.fmod_nonneg_of_pos (-a) (b := -b) (by omega)
      have h2 := Int.fmod_lt_of_pos (-a) (b := -b) (by omega)
      rw [Int.neg_fmod_neg] at h1 h2
      omega
    · have h1 := Int.fmod_nonneg_of_pos a h
      have h2 := Int.fmod_lt_of_pos a h
      omega
  · simp only [Bool.false_eq_true, if_false]
    by_cases h0 : a.fmod b = 0
    · exact .inl h0
    · refine .inr ?_
      rcases Int.lt_or_gt_of_ne hb with h | h
      · have h1 := Int.fmod_nonneg_of_pos (-a) (b := -b) (by omega)
        rw [Int.neg_fmod_neg] at h1
        rw [Int.sign_eq_neg_one_of_neg h, Int.sign_eq_neg_one_of_neg (by omega)]
      · have h1 := Int.fmod_nonneg_of_pos a h
        rw [Int.sign_eq_one_of_pos h, Int.sign_eq_one_of_pos (by omega)]

/-- **C33: Mod on tensors.** Element by element, with at least one operand on the device, the generated
code computes the ONNX remainder for both settings of `fmod` and all signs; a zero divisor is the only
failure. -/
theorem C33_mod_tensor (attr : Option Int) (lhs rhs : Gen.Held) (a b : Int)
    (hk : lhs = .onDevice ∨ rhs = .onDevice) (r : Int) :
    Gen.modElem (Gen.modFlag attr) lhs rhs a b = some r ↔ IsMod (attr.getD 0 != 0) a b r := by
  have hflag : Gen.modFlag attr = (attr.getD 0 != 0) := by
    cases attr <;> simp [Gen.modFlag]
  rw [hflag]
  generalize (attr.getD 0 != 0) = f
  by_cases hb : b = 0
  · subst hb
    simp [Gen.modElem, IsMod]
  · have hval : Gen.modElem f lhs rhs a b = some (if f then a.tmod b else a.fmod b) := by
      cases lhs <;> cases rhs <;> simp_all [Gen.modElem]
    have hspec : IsMod f a b (if f then a.tmod b else a.fmod b) := by
      cases f
      · simpa using fmod_isMod hb
      · simpa using tmod_isMod hb
    rw [hval]
    constructor
    · intro h; cases h; exact hspec
    · intro h; rw [IsMod.unique hspec h]

/-- **C33 (partial): Mod on native scalars.** Right when `fmod` is set, when the division is exact, or
when dividend and divisor have the same sign. Missing: the default `fmod = 0` with different signs, for
which the generated code is always wrong, see `C33_mod_scalar_wrong`. -/
theorem C33_mod_scalar_partial (fmod : Bool) (a b : Int) (hb : b ≠ 0)
    (h : fmod = true ∨ b ∣ a ∨ a.sign = b.sign) :
    ∃ r, Gen.modElem fmod .native .native a b = some r ∧ IsMod fmod a b r := by
  refine ⟨a.tmod b, by simp [Gen.modElem, hb], ?_⟩
  obtain ⟨h1, h2, h3⟩ := tmod_isMod (a := a) hb
  cases fmod
  · refine ⟨h1, h2, ?_⟩
    simp only [Bool.false_eq_true, false_or] at h
    rcases h with h | h
    · exact .inl (Int.tmod_eq_zero_of_dvd h)
    · simpa [h] using h3
  · exact ⟨h1, h2, h3⟩

/-- **C33, disagreement.** With the default `fmod = 0`, two native scalars of different signs and an
inexact division always give the wrong remainder: `-7 mod 3` is `2`, the generated code returns `-1`. -/
theorem C33_mod_scalar_wrong (a b : Int) (hb : b ≠ 0) (hd : ¬ b ∣ a) (hs : a.sign ≠ b.sign) :
    ∃ r, Gen.modElem false .native .native a b = some r ∧ ¬ IsMod false a b r := by
  refine ⟨a.tmod b, by simp [Gen.modElem, hb], ?_⟩
  rintro ⟨_, _, h⟩
  obtain ⟨_, _, h3⟩ := tmod_isMod (a := a) hb
  have h0 : a.tmod b ≠ 0 := fun e => hd (Int.dvd_of_tmod_eq_zero e)
  simp only [h0, false_or, Bool.false_eq_true, if_false, if_true] at h h3
  exact hs (h3.symm.trans h)

/-! Concrete cases. -/

example : Gen.range (.constInt 3) (.constInt 12) (.constInt 4) = some [3, 7, 11] := by decide +kernel
example : Gen.range (.runtimeInt 5) (.runtimeInt 0) (.runtimeInt (-2)) = some [] := by decide +kernel
example : Gen.modElem false .onDevice .native (-7) 3 = some 2 ∧
    Gen.modElem true .onDevice .native (-7) 3 = some (-1) ∧
    Gen.modElem false .native .native (-7) 3 = some (-1) ∧ IsMod false (-7) 3 2 :=
  ⟨by decide, by decide, by decide, ⟨-3, by decide⟩, by decide, by decide⟩
example : ¬ (3 : Int) ∣ -7 ∧ (-7 : Int).sign ≠ (3 : Int).sign := by decide

end OnnxIR
