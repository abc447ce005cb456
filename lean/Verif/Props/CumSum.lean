import Verif.Model.CumSum
import Verif.Spec.CumSum

/-!
# C31: cumulative sums
-/

namespace OnnxIR

variable {α : Type} [Inhabited α] [AddCommMonoid α]

/-! ### The positions added up -/

theorem filter_perm_of {l p : List Nat} (hl : l.Nodup) (hp : p.Nodup) {q : Nat → Bool}
    (h : ∀ j, (j ∈ l ∧ q j = true) ↔ j ∈ p) : (l.filter q).Perm p := by
  rw [List.perm_ext_iff_of_nodup (hl.filter _) hp]
  intro j
  rw [List.mem_filter, h]

/-- Forward: positions `0, …, k` (or `0, …, k-1`). -/
theorem positions_forward {n k : Nat} (h : k < n) (e : Bool) :
    (Onnx.cumSumPositions n k e false).Perm (List.range (if e then k else k + 1)) := by
  refine filter_perm_of List.nodup_range List.nodup_range fun j => ?_
  cases e <;> simp <;> omega

theorem nodup_mirror (n m : Nat) (h : m ≤ n) :
    ((List.range m).map fun j => n - 1 - j).Nodup := by
  rw [List.nodup_iff_pairwise_ne, List.pairwise_map]
  refine List.Pairwise.imp_of_mem ?_ (List.nodup_iff_pairwise_ne.1 (List.nodup_range (n := m)))
  intro a b ha hb hab
  simp only [List.mem_range] at ha hb
  omega

/-- Reverse: positions `n-1, …, k` (or `n-1, …, k+1`). -/
theorem positions_reverse {n k : Nat} (h : k < n) (e : Bool) :
    (Onnx.cumSumPositions n k e true).Perm
      ((List.range (if e then n - 1 - k else n - 1 - k + 1)).map fun j => n - 1 - j) := by
  refine filter_perm_of List.nodup_range (nodup_mirror _ _ (by split <;> omega)) fun j => ?_
  simp only [List.mem_range, List.mem_map]
  constructor
  · rintro ⟨h1, h2⟩
    refine ⟨n - 1 - j, ?_, by omega⟩
    cases e <;> simp at h2 ⊢ <;> omega
  · rintro ⟨a, h1, rfl⟩
    cases e <;> simp at h1 ⊢ <;> omega

/-! ### Running totals -/

/-- The running total from the front, or from the back, up to and including the current position. -/
theorem cumsum_forward {x : Tensor α} {axis : Nat} (ha : axis < x.shape.length) :
    Burn.cumsum x axis = some (Onnx.cumSumAt x axis false false) := by
  unfold Burn.cumsum
  rw [if_pos ha]
  congr 1
  refine Tensor.eq_of_get rfl fun i hi => ?_
  have hi : InRange x.shape i := hi
  rw [Onnx.cumSumAt, Tensor.get_ofFn hi, Tensor.get_ofFn hi]
  exact (((positions_forward (hi.axis_lt ha) false).map _).sum_eq).symm

theorem flip_get {x y : Tensor α} {axis : Nat} (h : Burn.flip x axis = some y) :
    y.shape = x.shape ∧ ∀ i, InRange x.shape i →
      y.get i = x.get (i.set axis (x.shape.getD axis 0 - 1 - i.getD axis 0)) := by
  unfold Burn.flip at h
  split at h
  · cases h
    exact ⟨rfl, fun i hi => Tensor.get_ofFn hi⟩
  · cases h

theorem set_set_axis (i : List Nat) (a u v : Nat) : (i.set a u).set a v = i.set a v := by
  simp [List.set_set]

theorem getD_set_self {i : List Nat} {a v : Nat} (h : a < i.length) : (i.set a v).getD a 0 = v := by
  simp [getD_set, h]

theorem cumsum_reverse {x : Tensor α} {axis : Nat} (ha : axis < x.shape.length) :
    (do let a ← Burn.flip x axis
        let b ← Burn.cumsum a axis
        Burn.flip b axis) = some (Onnx.cumSumAt x axis false true) := by
  obtain ⟨f, hf⟩ : ∃ f, Burn.flip x axis = some f := by simp [Burn.flip, ha]
  obtain ⟨hs, hg⟩ := flip_get hf
  have hc := cumsum_forward (x := f) (by rw [hs]; exact ha)
  have hsc : (Onnx.cumSumAt f axis false false).shape = x.shape := hs
  obtain ⟨g, hgg⟩ : ∃ g, Burn.flip (Onnx.cumSumAt f axis false false) axis = some g := by
    simp [Burn.flip, hsc, ha]
  obtain ⟨hs2, hg2⟩ := flip_get hgg
  simp only [hf, hc, Option.bind_eq_bind, Option.bind_some, hgg]
  congr 1
  refine Tensor.eq_of_get (by rw [hs2, hsc]; rfl) fun i hi => ?_
  rw [hs2, hsc] at hi
  have hk := hi.axis_lt ha
  have hl : axis < i.length := by rw [hi.length]; exact ha
  have hm : x.shape.getD axis 0 - 1 - i.getD axis 0 < x.shape.getD axis 0 := by omega
  rw [hg2 i (by rw [hsc]; exact hi), hsc, Onnx.cumSumAt, Onnx.cumSumAt, Tensor.get_ofFn hi,
    Tensor.get_ofFn (by rw [hs]; exact hi.set hm), getD_set_self hl, hs]
  rw [((positions_forward hm false).map _).sum_eq, ((positions_reverse hk false).map _).sum_eq]
  simp only [Bool.false_eq_true, if_false, List.map_map, set_set_axis]
  congr 1
  refine List.map_congr_left fun j hj => ?_
  simp only [List.mem_range] at hj
  simp only [Function.comp_apply]
  rw [hg _ (hi.set (by omega)), set_set_axis, getD_set_self hl]

/-! ### Shifting by one position -/

omit [AddCommMonoid α] in
theorem narrow_get {x y : Tensor α} {axis st len : Nat} (h : Burn.narrow x axis st len = some y) :
    y.shape = x.shape.set axis len ∧ ∀ i, InRange (x.shape.set axis len) i →
      y.get i = x.get (i.set axis (i.getD axis 0 + st)) := by
  unfold Burn.narrow at h
  split at h
  · cases h
    exact ⟨rfl, fun i hi => Tensor.get_ofFn hi⟩
  · cases h

omit [AddCommMonoid α] in
theorem narrow_isSome {x : Tensor α} {axis st len : Nat} (h : axis < x.shape.length)
    (h1 : 0 < len) (h2 : st + len ≤ x.shape.getD axis 0) : ∃ y, Burn.narrow x axis st len = some y :=
  ⟨_, if_pos ⟨h, h1, h2⟩⟩

/-- Exclusive from the front: a zero, then the inclusive totals but the last. -/
theorem shift_forward {c x : Tensor α} {axis : Nat} (ha : axis < x.shape.length)
    (hs : c.shape = x.shape)
    (hc : ∀ i, InRange x.shape i → c.get i = (Onnx.cumSumAt x axis false false).get i) :
    (if c.shape.getD axis 0 ≤ 1 then some (Burn.zerosLike c)
     else do
      let sliced ← Burn.narrow c axis 0 (c.shape.getD axis 0 - 1)
      let zeros ← Burn.narrow (Burn.zerosLike sliced) axis 0 1
      Burn.cat2 zeros sliced axis) = some (Onnx.cumSumAt x axis true false) := by
  split
  · next h1 =>
    congr 1
    refine Tensor.eq_of_get hs fun i hi => ?_
    have hi' : InRange c.shape i := hi
    have hi2 : InRange x.shape i := by rw [← hs]; exact hi'
    rw [Burn.zerosLike, Tensor.get_ofFn hi', Onnx.cumSumAt, Tensor.get_ofFn hi2,
      ((positions_forward (hi2.axis_lt ha) true).map _).sum_eq]
    have := hi'.axis_lt (a := axis) (by rw [hs]; exact ha)
    have h0 : i.getD axis 0 = 0 := by omega
    rw [h0]
    simp
  · next h1 =>
    rw [hs] at h1 ⊢
    obtain ⟨sl, hsl⟩ := narrow_isSome (x := c) (axis := axis) (st := 0)
      (len := x.shape.getD axis 0 - 1) (by rw [hs]; exact ha) (by omega) (by rw [hs]; omega)
    obtain ⟨hs1, hg1⟩ := narrow_get hsl
    have hz : (Burn.zerosLike sl).shape = x.shape.set axis (x.shape.getD axis 0 - 1) := by
      show sl.shape = _
      rw [hs1, hs]
    have hal : axis < (x.shape.set axis (x.shape.getD axis 0 - 1)).length := by simpa using ha
    obtain ⟨ze, hze⟩ := narrow_isSome (x := Burn.zerosLike sl) (axis := axis) (st := 0)
      (len := 1) (by rw [hz]; exact hal) (by omega) (by rw [hz, getD_set_self ha]; omega)
    obtain ⟨hs2, hg2⟩ := narrow_get hze
    have hs2' : ze.shape = x.shape.set axis 1 := by rw [hs2, hz, List.set_set]
    simp only [hsl, hze, Option.bind_eq_bind, Option.bind_some]
    unfold Burn.cat2
    have hs1' : sl.shape = x.shape.set axis (x.shape.getD axis 0 - 1) := by rw [hs1, hs]
    rw [if_pos (by rw [hs2', hs1']; simp [List.set_set, ha])]
    congr 1
    have hsh : (ze.shape.set axis (ze.shape.getD axis 0 + sl.shape.getD axis 0)) = x.shape := by
      rw [hs2', hs1', getD_set_self ha, getD_set_self ha, List.set_set,
        show 1 + (x.shape.getD axis 0 - 1) = x.shape.getD axis 0 by omega, set_getD_self]
    refine Tensor.eq_of_get hsh fun i hi => ?_
    have hi1 : InRange (ze.shape.set axis (ze.shape.getD axis 0 + sl.shape.getD axis 0)) i := hi
    rw [Tensor.get_ofFn hi1]
    rw [hsh] at hi1
    have hk := hi1.axis_lt ha
    have hl : axis < i.length := by rw [hi1.length]; exact ha
    have hi3 := inRange_iff_get.1 hi1
    rw [Onnx.cumSumAt, Tensor.get_ofFn hi1, ((positions_forward hk true).map _).sum_eq,
      hs2', getD_set_self ha]
    simp only [if_true]
    split
    · next h0 =>
      have h0' : i.getD axis 0 = 0 := by omega
      have hr : InRange (x.shape.set axis 1) i :=
        (inRange_set ha).2 ⟨hi3.1, h0, fun k hk _ => hi3.2 k hk⟩
      rw [hg2 i (by rw [hz, List.set_set]; exact hr), h0']
      have hr2 : InRange sl.shape (i.set axis (0 + 0)) := by
        rw [hs1']
        refine (inRange_set ha).2 ⟨by simpa using hi3.1, ?_, fun k hk hne => ?_⟩
        · rw [getD_set_self hl]; omega
        · rw [getD_set, if_neg (fun e => hne e.1.symm)]; exact hi3.2 k hk
      rw [Burn.zerosLike, Tensor.get_ofFn hr2]
      simp
    · next h0 =>
      have hr2 : InRange (c.shape.set axis (x.shape.getD axis 0 - 1)) (i.set axis (i.getD axis 0 - 1)) := by
        rw [hs]
        refine (inRange_set ha).2 ⟨by simpa using hi3.1, ?_, fun k hk hne => ?_⟩
        · rw [getD_set_self hl]; omega
        · rw [getD_set, if_neg (fun e => hne e.1.symm)]; exact hi3.2 k hk
      rw [hg1 _ hr2, set_set_axis, getD_set_self hl]
      have hr3 : InRange x.shape (i.set axis (i.getD axis 0 - 1 + 0)) := hi1.set (by omega)
      rw [hc _ hr3, Onnx.cumSumAt, Tensor.get_ofFn hr3, getD_set_self hl,
        ((positions_forward (by omega) false).map _).sum_eq]
      simp only [Bool.false_eq_true, if_false, set_set_axis]
      rw [show i.getD axis 0 - 1 + 0 + 1 = i.getD axis 0 by omega]

/-- Exclusive from the back: the inclusive totals but the first, then a zero. -/
theorem shift_reverse {c x : Tensor α} {axis : Nat} (ha : axis < x.shape.length)
    (hs : c.shape = x.shape)
    (hc : ∀ i, InRange x.shape i → c.get i = (Onnx.cumSumAt x axis false true).get i) :
    (if c.shape.getD axis 0 ≤ 1 then some (Burn.zerosLike c)
     else do
      let sliced ← Burn.narrow c axis 1 (c.shape.getD axis 0 - 1)
      let zeros ← Burn.narrow (Burn.zerosLike sliced) axis 0 1
      Burn.cat2 sliced zeros axis) = some (Onnx.cumSumAt x axis true true) := by
  split
  · next h1 =>
    congr 1
    refine Tensor.eq_of_get hs fun i hi => ?_
    have hi' : InRange c.shape i := hi
    have hi2 : InRange x.shape i := by rw [← hs]; exact hi'
    rw [Burn.zerosLike, Tensor.get_ofFn hi', Onnx.cumSumAt, Tensor.get_ofFn hi2,
      ((positions_reverse (hi2.axis_lt ha) true).map _).sum_eq]
    rw [hs] at h1
    have h0 : x.shape.getD axis 0 - 1 - i.getD axis 0 = 0 := by omega
    simp only [if_true, h0]
    simp
  · next h1 =>
    rw [hs] at h1 ⊢
    obtain ⟨sl, hsl⟩ := narrow_isSome (x := c) (axis := axis) (st := 1)
      (len := x.shape.getD axis 0 - 1) (by rw [hs]; exact ha) (by omega) (by rw [hs]; omega)
    obtain ⟨hs1, hg1⟩ := narrow_get hsl
    have hz : (Burn.zerosLike sl).shape = x.shape.set axis (x.shape.getD axis 0 - 1) := by
      show sl.shape = _
      rw [hs1, hs]
    have hal : axis < (x.shape.set axis (x.shape.getD axis 0 - 1)).length := by simpa using ha
    obtain ⟨ze, hze⟩ := narrow_isSome (x := Burn.zerosLike sl) (axis := axis) (st := 0)
      (len := 1) (by rw [hz]; exact hal) (by omega) (by rw [hz, getD_set_self ha]; omega)
    obtain ⟨hs2, hg2⟩ := narrow_get hze
    have hs2' : ze.shape = x.shape.set axis 1 := by rw [hs2, hz, List.set_set]
    simp only [hsl, hze, Option.bind_eq_bind, Option.bind_some]
    unfold Burn.cat2
    have hs1' : sl.shape = x.shape.set axis (x.shape.getD axis 0 - 1) := by rw [hs1, hs]
    rw [if_pos (by rw [hs2', hs1']; simp [List.set_set, ha])]
    congr 1
    have hsh : (sl.shape.set axis (sl.shape.getD axis 0 + ze.shape.getD axis 0)) = x.shape := by
      rw [hs2', hs1', getD_set_self ha, getD_set_self ha, List.set_set,
        show x.shape.getD axis 0 - 1 + 1 = x.shape.getD axis 0 by omega, set_getD_self]
    refine Tensor.eq_of_get hsh fun i hi => ?_
    have hi1 : InRange (sl.shape.set axis (sl.shape.getD axis 0 + ze.shape.getD axis 0)) i := hi
    rw [Tensor.get_ofFn hi1]
    rw [hsh] at hi1
    have hk := hi1.axis_lt ha
    have hl : axis < i.length := by rw [hi1.length]; exact ha
    have hi3 := inRange_iff_get.1 hi1
    rw [Onnx.cumSumAt, Tensor.get_ofFn hi1, ((positions_reverse hk true).map _).sum_eq,
      hs1', getD_set_self ha]
    simp only [if_true]
    split
    · next h0 =>
      have hr : InRange (c.shape.set axis (x.shape.getD axis 0 - 1)) i := by
        rw [hs]
        exact (inRange_set ha).2 ⟨hi3.1, h0, fun k hk _ => hi3.2 k hk⟩
      rw [hg1 i hr]
      have hr3 : InRange x.shape (i.set axis (i.getD axis 0 + 1)) := hi1.set (by omega)
      rw [hc _ hr3, Onnx.cumSumAt, Tensor.get_ofFn hr3, getD_set_self hl,
        ((positions_reverse (by omega) false).map _).sum_eq]
      simp only [Bool.false_eq_true, if_false, set_set_axis]
      rw [show x.shape.getD axis 0 - 1 - (i.getD axis 0 + 1) + 1
        = x.shape.getD axis 0 - 1 - i.getD axis 0 by omega]
    · next h0 =>
      have h0' : x.shape.getD axis 0 - 1 - i.getD axis 0 = 0 := by omega
      rw [show i.getD axis 0 - (x.shape.getD axis 0 - 1) = 0 by omega, h0']
      have hr : InRange (x.shape.set axis 1) (i.set axis 0) := by
        refine (inRange_set ha).2 ⟨by simpa using hi3.1, ?_, fun k hk hne => ?_⟩
        · rw [getD_set_self hl]; omega
        · rw [getD_set, if_neg (fun e => hne e.1.symm)]; exact hi3.2 k hk
      rw [hg2 _ (by rw [hz, List.set_set]; exact hr), set_set_axis, getD_set_self hl]
      have hr2 : InRange sl.shape (i.set axis (0 + 0)) := by
        rw [hs1']
        refine (inRange_set ha).2 ⟨by simpa using hi3.1, ?_, fun k hk hne => ?_⟩
        · rw [getD_set_self hl]; omega
        · rw [getD_set, if_neg (fun e => hne e.1.symm)]; exact hi3.2 k hk
      rw [Burn.zerosLike, Tensor.get_ofFn hr2]
      simp

/-- The generated expressions compute CumSum in all four modes. -/
theorem cumSum_eq {x : Tensor α} {axis : Nat} (ha : axis < x.shape.length) (e r : Bool) :
    Gen.cumSum x axis e r = some (Onnx.cumSumAt x axis e r) := by
  match e, r with
  | false, false => exact cumsum_forward ha
  | false, true => exact cumsum_reverse ha
  | true, false =>
    simp only [Gen.cumSum, cumsum_forward ha, Option.bind_eq_bind, Option.bind_some]
    exact shift_forward ha rfl fun _ _ => rfl
  | true, true =>
    have h := cumsum_reverse ha
    simp only [Option.bind_eq_bind] at h
    rw [Option.bind_eq_some_iff] at h
    obtain ⟨a, h1, h⟩ := h
    rw [Option.bind_eq_some_iff] at h
    obtain ⟨b, h2, h3⟩ := h
    simp only [Gen.cumSum, h1, h2, h3, Option.bind_eq_bind, Option.bind_some]
    exact shift_reverse ha rfl fun _ _ => rfl

/-! ### The theorems -/

/-- **C31.** For an axis given as a constant, every attribute combination, every shape (including empty
and one-element axes) and every addition that is associative and commutative (integers, reals; not
floating-point rounding): a valid axis, counted from either end, gives exactly the ONNX CumSum, and an
axis out of range is reported at conversion. -/
theorem C31_cumsum (x : Tensor α) (axis : Int) (exclusive reverse : Option Int)
    (hrank : x.shape.length < 2 ^ 62) (haxis : -(2 ^ 62 : Int) < axis ∧ axis < 2 ^ 62) :
    (∀ y, Gen.cumSumStatic x axis exclusive reverse = some y ↔
      Onnx.IsCumSum x axis (exclusive.getD 0 != 0) (reverse.getD 0 != 0) y) ∧
    (Gen.cumSumStatic x axis exclusive reverse = none ↔
      axis < -(x.shape.length : Int) ∨ (x.shape.length : Int) ≤ axis) := by
  have hflag : ∀ o : Option Int, Gen.cumSumFlag o = (o.getD 0 != 0) := by
    intro o; cases o <;> simp [Gen.cumSumFlag]
  by_cases hin : -(x.shape.length : Int) ≤ axis ∧ axis < x.shape.length
  · obtain ⟨a, ha, hax, hst⟩ : ∃ a : Nat, a < x.shape.length ∧
        (axis = a ∨ axis = (a : Int) - x.shape.length) ∧
        Gen.cumSumStaticAxis x.shape.length axis = some a := by
      by_cases hneg : axis < 0
      · refine ⟨((x.shape.length : Int) + axis).toNat, by omega, .inr (by omega), ?_⟩
        have : Gen.i64AsUsize ((x.shape.length : Int) + axis)
            = ((x.shape.length : Int) + axis).toNat := by
          unfold Gen.i64AsUsize; rw [Int.emod_eq_of_lt (by omega) (by omega)]
        simp only [Gen.cumSumStaticAxis, hneg, if_true, this]
        rw [if_neg (by omega)]
      · refine ⟨axis.toNat, by omega, .inl (by omega), ?_⟩
        have : Gen.i64AsUsize axis = axis.toNat := by
          unfold Gen.i64AsUsize; rw [Int.emod_eq_of_lt (by omega) (by omega)]
        simp only [Gen.cumSumStaticAxis, hneg, if_false, this]
        rw [if_neg (by omega)]
    have hval : Gen.cumSumStatic x axis exclusive reverse
        = some (Onnx.cumSumAt x a (exclusive.getD 0 != 0) (reverse.getD 0 != 0)) := by
      simp only [Gen.cumSumStatic, hst, Option.bind_eq_bind, Option.bind_some, hflag]
      exact cumSum_eq ha _ _
    refine ⟨fun y => ?_, ?_⟩
    · rw [hval]
      constructor
      · intro h; cases h; exact ⟨a, ha, hax, rfl⟩
      · rintro ⟨b, hb, hbx, rfl⟩
        have : a = b := by omega
        rw [this]
    · rw [hval]
      constructor
      · intro h; cases h
      · intro h; omega
  · have hnone : Gen.cumSumStaticAxis x.shape.length axis = none := by
      by_cases hneg : axis < 0
      · have : x.shape.length ≤ Gen.i64AsUsize ((x.shape.length : Int) + axis) := by
          unfold Gen.i64AsUsize
          omega
        simp only [Gen.cumSumStaticAxis, hneg, if_true]
        rw [if_pos this]
      · have : Gen.i64AsUsize axis = axis.toNat := by
          unfold Gen.i64AsUsize; rw [Int.emod_eq_of_lt (by omega) (by omega)]
        simp only [Gen.cumSumStaticAxis, hneg, if_false, this]
        rw [if_pos (by omega)]
    have hval : Gen.cumSumStatic x axis exclusive reverse = none := by
      simp [Gen.cumSumStatic, hnone]
    refine ⟨fun y => ?_, ?_⟩
    · rw [hval]
      constructor
      · intro h; cases h
      · rintro ⟨b, hb, hbx, rfl⟩; omega
    · rw [hval]
      exact ⟨fun _ => by omega, fun _ => rfl⟩

/-- **C31 (partial): run-time axis.** When the axis is a run-time value the generated code computes the
ONNX CumSum for every non-negative axis. Missing: negative axes, see
`C31_negative_runtime_axis_panics`. -/
theorem C31_runtime_axis_partial (x : Tensor α) (axis : Int) (exclusive reverse : Bool)
    (h0 : 0 ≤ axis) (h1 : axis < x.shape.length) (hrank : x.shape.length < 2 ^ 62) :
    ∃ y, Gen.cumSumRuntime x axis exclusive reverse = some y ∧
      Onnx.IsCumSum x axis exclusive reverse y := by
  have : Gen.i64AsUsize axis = axis.toNat := by
    unfold Gen.i64AsUsize; rw [Int.emod_eq_of_lt (by omega) (by omega)]
  exact ⟨_, by rw [Gen.cumSumRuntime, this, cumSum_eq (by omega)], axis.toNat, by omega,
    .inl (by omega), rfl⟩

/-- **C31, disagreement.** ONNX accepts negative axes; a negative axis arriving at run time makes the
generated code panic, for every tensor and mode. -/
theorem C31_negative_runtime_axis_panics (x : Tensor α) (axis : Int) (exclusive reverse : Bool)
    (h0 : axis < 0) (hr : -(x.shape.length : Int) ≤ axis) (hrank : x.shape.length < 2 ^ 62) :
    Gen.cumSumRuntime x axis exclusive reverse = none := by
  have : ¬ Gen.i64AsUsize axis < x.shape.length := by
    unfold Gen.i64AsUsize; omega
  cases exclusive <;> cases reverse <;>
    simp [Gen.cumSumRuntime, Gen.cumSum, Burn.cumsum, Burn.flip, this]

/-! A 2×3 matrix, summed along its rows in each of the four modes. -/

example : Gen.cumSumStatic (α := Int) ⟨[2, 3], [1, 2, 3, 4, 5, 6], rfl⟩ (-1) none none
    = some ⟨[2, 3], [1, 3, 6, 4, 9, 15], rfl⟩ := by decide +kernel
example : Gen.cumSumStatic (α := Int) ⟨[2, 3], [1, 2, 3, 4, 5, 6], rfl⟩ 1 (some 1) none
    = some ⟨[2, 3], [0, 1, 3, 0, 4, 9], rfl⟩ := by decide +kernel
example : Gen.cumSumStatic (α := Int) ⟨[2, 3], [1, 2, 3, 4, 5, 6], rfl⟩ (-1) none (some 1)
    = some ⟨[2, 3], [6, 5, 3, 15, 11, 6], rfl⟩ := by decide +kernel
example : Gen.cumSumStatic (α := Int) ⟨[2, 3], [1, 2, 3, 4, 5, 6], rfl⟩ 1 (some 1) (some 1)
    = some ⟨[2, 3], [5, 3, 0, 11, 6, 0], rfl⟩ := by decide +kernel

end OnnxIR
