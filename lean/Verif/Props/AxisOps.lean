import Verif.Model.AxisOps
import Verif.Props.Gather
import Verif.Props.Reduce
import Verif.Props.Slice

/-!
# C61: generated code of the operators along one axis
-/

namespace OnnxIR

open Gen

variable {α : Type} [Inhabited α]

/-! ### Axes and lines -/

theorem axisUsize_index {r a : Nat} {axis : Int} (h : Onnx.index r axis = some a) : axisUsize r axis = some a ∧ a < r := by
  unfold Onnx.index at h
  unfold axisUsize
  split at h
  · cases h
    rw [show (if axis < 0 then axis + (r : Int) else axis) = axis from if_neg (by omega)]
    simp only
    rw [if_pos (by omega)]; exact ⟨rfl, by omega⟩
  · split at h
    · cases h
      rw [show (if axis < 0 then axis + (r : Int) else axis) = axis + r from if_pos (by omega)]
      simp only
      rw [if_pos (by omega)]; exact ⟨rfl, by omega⟩
    · cases h

theorem line_set (X : Tensor α) (a : Nat) (i : List Nat) (k : Nat) : X.line a (i.set a k) = X.line a i := by
  unfold Tensor.line
  simp

theorem line_length (X : Tensor α) (a : Nat) (i : List Nat) : (X.line a i).length = X.shape.getD a 0 := by
  simp [Tensor.line]

theorem inRange_of_set_one {s i : List Nat} {a : Nat} (ha : a < s.length) (hd : 0 < s.getD a 0) (hi : InRange (s.set a 1) i) :
    InRange s i ∧ i.set a 0 = i := by
  obtain ⟨h1, h2, h3⟩ := (inRange_set ha).1 hi
  have h0 : i.getD a 0 = 0 := by omega
  constructor
  · rw [inRange_iff_get]
    refine ⟨h1, fun k hk => ?_⟩
    by_cases e : k = a
    · subst e; omega
    · exact h3 k hk e
  · conv => lhs; rw [← h0]
    exact set_getD_self

omit [Inhabited α] in
theorem firstMax_unique {lt : α → α → Prop} {l : List α} {j k : Nat} (hj : Onnx.FirstMax lt l j) (hk : Onnx.FirstMax lt l k) :
    j = k := by
  obtain ⟨x, x1, x2, x3⟩ := hj
  obtain ⟨y, y1, y2, y3⟩ := hk
  rcases Nat.lt_trichotomy j k with h | h | h
  · obtain ⟨z, z1, z2⟩ := y3 j h
    rw [x1] at z1; cases z1
    exact absurd z2 (x2 y (List.mem_of_getElem? y1))
  · exact h
  · obtain ⟨z, z1, z2⟩ := x3 k h
    rw [y1] at z1; cases z1
    exact absurd z2 (y2 x (List.mem_of_getElem? x1))

/-! ### ArgMax and ArgMin -/

/-- Inserting a coordinate undoes removing it. -/
theorem eraseIdx_inRange {s i : List Nat} {a : Nat} (hi : InRange (s.set a 1) i) :
    InRange (s.eraseIdx a) (i.eraseIdx a) ∧ (a < s.length → flatIdx (s.set a 1) i = flatIdx (s.eraseIdx a) (i.eraseIdx a)) := by
  induction s generalizing i a with
  | nil => cases i <;> simp_all [InRange]
  | cons d s ih =>
    cases i with
    | nil => cases a <;> simp [InRange] at hi
    | cons k i =>
      cases a with
      | zero =>
        simp only [List.set_cons_zero, InRange] at hi
        simp only [List.eraseIdx_cons_zero, List.set_cons_zero, flatIdx]
        refine ⟨hi.2, fun _ => ?_⟩
        have : k = 0 := by omega
        simp [this]
      | succ a =>
        simp only [List.set_cons_succ, InRange] at hi
        obtain ⟨h1, h2⟩ := ih hi.2
        simp only [List.eraseIdx_cons_succ, List.set_cons_succ, InRange, flatIdx]
        refine ⟨⟨hi.1, h1⟩, fun ha => ?_⟩
        have ha' : a < s.length := by simpa using ha
        rw [h2 ha']
        congr 2
        have : ∀ (s : List Nat) (a : Nat), a < s.length → prodShape (s.set a 1) = prodShape (s.eraseIdx a) := by
          intro s
          induction s with
          | nil => intro a h; simp at h
          | cons d s ih =>
            intro a h
            cases a with
            | zero => simp [prodShape]
            | succ a => simp only [List.set_cons_succ, List.eraseIdx_cons_succ, prodShape]; rw [ih a (by simpa using h)]
        exact this s a ha'

theorem prod_set_one {s : List Nat} {a : Nat} (ha : a < s.length) : prodShape (s.set a 1) = prodShape (s.eraseIdx a) := by
  induction s generalizing a with
  | nil => simp at ha
  | cons d s ih =>
    cases a with
    | zero => simp [prodShape]
    | succ a => simp only [List.set_cons_succ, List.eraseIdx_cons_succ, prodShape]; rw [ih (by simpa using ha)]

/-- An index of the squeezed tensor comes from one of the tensor. -/
theorem exists_insert {s j : List Nat} {a : Nat} (ha : a < s.length) (hj : InRange (s.eraseIdx a) j) :
    ∃ i, InRange (s.set a 1) i ∧ i.eraseIdx a = j := by
  induction s generalizing j a with
  | nil => simp at ha
  | cons d s ih =>
    cases a with
    | zero => exact ⟨0 :: j, ⟨by omega, hj⟩, rfl⟩
    | succ a =>
      cases j with
      | nil => simp [InRange] at hj
      | cons k j =>
        simp only [List.eraseIdx_cons_succ, InRange] at hj
        obtain ⟨i, h1, h2⟩ := ih (by simpa using ha) hj.2
        exact ⟨k :: i, ⟨hj.1, h1⟩, by simp [h2]⟩

/-- Squeezing an axis of size one. -/
theorem squeezeDim_get {u : Tensor α} {s : List Nat} {a : Nat} (hu : u.shape = s.set a 1) (ha : a < s.length) :
    ∃ v, Burn.squeezeDim u a = some v ∧ v.shape = s.eraseIdx a ∧
      ∀ i, InRange (s.set a 1) i → v.get (i.eraseIdx a) = u.get i := by
  have he : u.shape.eraseIdx a = s.eraseIdx a := by rw [hu, List.eraseIdx_set_eq]
  have h1 : u.shape[a]? = some 1 := by rw [hu]; simp [ha]
  unfold Burn.squeezeDim
  rw [if_pos h1, he]
  have hp : prodShape (s.eraseIdx a) = prodShape u.shape := by rw [hu, prod_set_one ha]
  unfold Burn.reshape
  rw [dif_pos hp]
  refine ⟨_, rfl, rfl, fun i hi => ?_⟩
  simp only [Tensor.get]
  rw [← (eraseIdx_inRange hi).2 ha, hu]

/-- **C61, ArgMax and ArgMin** (with `lt` turned round). Burn's choice `arg` has to be the first of the greatest elements.
The result has the inferred type, or is a native number where a scalar is read as one. -/
theorem C61_argmax {lt : α → α → Prop} {arg : List α → Nat} {axis : Option Int} {a : Nat} {keep : Bool} {xt ot : ArgType}
    {x : GVal α} {X : Tensor α} {Z : Tensor Int} {ofInt : Int → α} (harg : ∀ l : List α, l ≠ [] → Onnx.FirstMax lt l (arg l))
    (hx : Reps ofInt xt x X) (ha : Onnx.index X.shape.length (axis.getD 0) = some a)
    (ho : Infer.argmax keep xt = some ot ∨ (Infer.argmax keep xt = some (.scalarTensor .i64) ∧ ot = .scalarNative .i64))
    (hZ : Onnx.ArgMaxT lt a keep X Z) :
    ∃ u z, x = .dev u ∧ genArgMax arg axis keep ot u = some z ∧ Reps id ot z Z := by
  cases xt with
  | tensor t =>
    cases x with
    | dev u =>
      obtain ⟨rfl, hr, _⟩ := hx
      obtain ⟨a1, a2⟩ := axisUsize_index ha
      have hd := hZ.nonempty
      let w : Tensor Int := Tensor.ofFn (u.shape.set a 1) fun i => (arg (u.line a i) : Int)
      have hw : Burn.argmax arg u a = some w := by unfold Burn.argmax; rw [if_pos a2]
      have hwg : ∀ i, InRange (u.shape.set a 1) i → w.get i = (arg (u.line a i) : Int) := fun i hi => Tensor.get_ofFn hi
      have hel : ∀ i, InRange (u.shape.set a 1) i →
          Z.get (if keep then i else i.eraseIdx a) = w.get i := by
        intro i hi
        obtain ⟨i1, i2⟩ := inRange_of_set_one a2 hd hi
        obtain ⟨k, k1, k2⟩ := hZ.elems i i1
        rw [hwg i hi]
        have hne : u.line a i ≠ [] := by
          intro c
          have := line_length u a i
          rw [c, List.length_nil] at this; omega
        rw [← firstMax_unique (harg _ hne) k1] at k2
        rw [← k2, i2]
      refine ⟨u, ?_⟩
      cases keep with
      | true =>
        have hot : ot = .tensor ⟨.i64, t.rank, none⟩ := by
          rcases ho with h | ⟨h, _⟩
          · simp only [Infer.argmax, if_true, Option.some.injEq] at h; exact h.symm
          · simp [Infer.argmax] at h
        subst hot
        have hs : Z.shape = u.shape.set a 1 := by simpa using hZ.shape
        refine ⟨.dev w, rfl, ?_, ?_, ?_, ?_⟩
        · simp [genArgMax, a1, hw]
        · refine Tensor.eq_of_get hs.symm fun i hi => ?_
          have hi : InRange (u.shape.set a 1) i := hi
          exact (hel i hi).symm
        · rw [hs]; simpa using hr
        · show 1 ≤ t.rank; omega
      | false =>
        have hs : Z.shape = u.shape.eraseIdx a := by simpa using hZ.shape
        simp only [Bool.false_eq_true, if_false] at hel
        by_cases h1 : t.rank = 1
        · have hlen : u.shape.length = 1 := by omega
          have ha0 : a = 0 := by omega
          obtain ⟨n, hn⟩ := List.length_eq_one_iff.1 hlen
          have hi0 : InRange (u.shape.set a 1) [0] := by rw [hn, ha0]; exact ⟨by omega, trivial⟩
          have hz := hel [0] hi0
          have hwd : w.data = [w.get [0]] := by
            rw [w.data_eq]
            show (indices (u.shape.set a 1)).map w.get = _
            rw [hn, ha0]; rfl
          have hZs : Z.shape = [] := by rw [hs, hn, ha0]; rfl
          have hZd : Z.data = [Z.get []] := by rw [Z.data_eq, hZs]; rfl
          have hwsh : w.shape = [1] := by show u.shape.set a 1 = _; rw [hn, ha0]; rfl
          rw [ha0] at hz
          have hz : Z.get [] = w.get [0] := hz
          rcases ho with h | ⟨_, rfl⟩
          · simp only [Infer.argmax, Bool.false_eq_true, if_false, if_pos h1, Option.some.injEq] at h
            subst h
            refine ⟨.dev ⟨[1], w.data, by rw [hwd]; rfl⟩, rfl, ?_, rfl, hZs, ?_⟩
            · simp only [genArgMax, a1, hw, Option.bind_some]
              unfold Burn.reshape
              rw [dif_pos (by rw [hwsh])]
              rfl
            · show w.data = Z.data
              rw [hwd, hZd, hz]
          · refine ⟨.native (w.get [0]), rfl, ?_, hZs, by rw [hZd, hz]⟩
            simp only [genArgMax, a1, hw, Option.bind_some, Burn.intoScalar, hwd, Option.map_some]
        · have hot : ot = .tensor ⟨.i64, t.rank - 1, none⟩ := by
            rcases ho with h | ⟨h, _⟩ <;>
              simp only [Infer.argmax, Bool.false_eq_true, if_false, if_neg h1, Option.some.injEq] at h
            · exact h.symm
            · cases h
          subst hot
          obtain ⟨v, v1, v2, v3⟩ := squeezeDim_get (u := w) (s := u.shape) (a := a) rfl a2
          have hvl : v.shape.length = t.rank - 1 := by rw [v2, List.length_eraseIdx_of_lt a2]; omega
          refine ⟨.dev v, rfl, ?_, ?_, ?_, ?_⟩
          · simp only [genArgMax, a1, hw, Option.bind_some, Bool.false_eq_true, if_false, v1, if_pos hvl]
          · refine Tensor.eq_of_get (v2.trans hs.symm) fun j hj => ?_
            rw [v2] at hj
            obtain ⟨i, i1, i2⟩ := exists_insert a2 hj
            rw [← i2, v3 i i1, hel i i1]
          · show Z.shape.length = t.rank - 1
            rw [hs, ← v2, hvl]
          · show 1 ≤ t.rank - 1; omega
    | native _ => exact hx.elim
    | shape _ => exact hx.elim
  | _ => rcases ho with h | ⟨h, _⟩ <;> cases h

/-! ### TopK -/

/-- **C61, TopK** (partial: `k` known at import time, greatest elements, sorted). Burn's order of a line has to be the descending
one with equal elements from left to right. -/
theorem C61_topk_partial {lt : α → α → Prop} {order : List α → List Nat} {axis : Option Int} {a k : Nat} {X : Tensor α}
    (hord : ∀ l : List α, (order l).Perm (List.range l.length) ∧ (order l).Pairwise (Onnx.Before lt l))
    (ha : Onnx.index X.shape.length (axis.getD (-1)) = some a) (hk : k ≤ X.shape.getD a 0) :
    ∃ V I, genTopK order axis (.static k) 1 1 X = some (V, I) ∧ Onnx.TopKT lt a k X V I := by
  obtain ⟨a1, a2⟩ := axisUsize_index ha
  refine ⟨Tensor.ofFn (X.shape.set a k) fun i => X.get (i.set a ((order (X.line a i)).getD (i.getD a 0) 0)),
    Tensor.ofFn (X.shape.set a k) fun i => ((order (X.line a i)).getD (i.getD a 0) 0 : Nat), ?_,
    ⟨a2, hk, rfl, rfl, fun i hi => ?_⟩⟩
  · simp only [genTopK, a1, Option.bind_some, Burn.topk, if_pos (And.intro a2 hk)]
    rfl
  · obtain ⟨hp, hs⟩ := hord (X.line a i)
    have hlen : (order (X.line a i)).length = X.shape.getD a 0 := by
      rw [hp.length_eq, List.length_range, line_length]
    have hia : i.getD a 0 < k := ((inRange_set a2).1 hi).2.1
    refine ⟨(order (X.line a i)).take k, ⟨?_, ?_, ?_, ?_⟩, ?_⟩
    · rw [List.length_take, hlen]; omega
    · intro p hp'
      have := hp.mem_iff.1 (List.mem_of_mem_take hp')
      simpa using this
    · exact hs.sublist (List.take_sublist _ _)
    · intro q hq hnq p hp'
      have hm : q ∈ order (X.line a i) := hp.mem_iff.2 (List.mem_range.2 hq)
      rw [← List.take_append_drop k (order (X.line a i))] at hm hs
      rcases List.mem_append.1 hm with h | h
      · exact absurd h hnq
      · exact (List.pairwise_append.1 hs).2.2 p hp' q h
    · have hget : ((order (X.line a i)).take k)[i.getD a 0]? = some ((order (X.line a i)).getD (i.getD a 0) 0) := by
        have hlt : i.getD a 0 < (order (X.line a i)).length := by omega
        rw [List.getElem?_take_of_lt hia, List.getElem?_eq_getElem hlt]
        generalize i.getD a 0 = q at hlt
        simp [List.getD_eq_getElem?_getD, hlt]
      exact ⟨_, hget, Tensor.get_ofFn hi, Tensor.get_ofFn hi⟩

/-! ### Softmax and LogSoftmax -/

/-- If all dimensions behind the axis have size one, flattening changes nothing. -/
theorem alongFlat_eq (f : List α → List α) {a : Nat} {X : Tensor α} (ha : a < X.shape.length)
    (h1 : prodShape (X.shape.drop (a + 1)) = 1) : Onnx.alongFlat f a X = Onnx.alongAxis f a X := by
  refine Tensor.eq_of_get (by rfl) fun i hi => ?_
  have hi : InRange X.shape i := hi
  rw [Onnx.alongFlat, Onnx.alongAxis, Tensor.get_ofFn hi, Tensor.get_ofFn hi]
  have hs : X.shape = X.shape.take a ++ (X.shape.getD a 0 :: X.shape.drop (a + 1)) := by
    conv => lhs; rw [← List.take_append_drop a X.shape]
    congr 1
    rw [List.drop_eq_getElem_cons ha, List.getD_eq_getElem?_getD, List.getElem?_eq_getElem ha]
    rfl
  have hil := hi.length
  have hdrop : X.shape.drop a = X.shape.getD a 0 :: X.shape.drop (a + 1) := by
    rw [List.drop_eq_getElem_cons ha, List.getD_eq_getElem?_getD, List.getElem?_eq_getElem ha]
    rfl
  have hm : prodShape (X.shape.drop a) = X.shape.getD a 0 := by rw [hdrop, prodShape, h1, Nat.mul_one]
  have hflat : ∀ c, c < X.shape.getD a 0 →
      flatIdx X.shape (i.set a c) = flatIdx (X.shape.take a) (i.take a) * X.shape.getD a 0 + c := by
    intro c hc
    have hr : InRange X.shape (i.set a c) := hi.set hc
    have hset : i.set a c = i.take a ++ (c :: i.drop (a + 1)) := by
      rw [List.set_eq_take_append_cons_drop, if_pos (by omega)]
    have hr' : InRange (X.shape.drop (a + 1)) (i.drop (a + 1)) := by
      rw [inRange_iff_get] at hi ⊢
      refine ⟨by simp [hil], fun k hk => ?_⟩
      have := hi.2 (a + 1 + k) (by simp at hk; omega)
      simpa [List.getD_eq_getElem?_getD, List.getElem?_drop] using this
    have h0 : flatIdx (X.shape.drop (a + 1)) (i.drop (a + 1)) = 0 := by
      have := flatIdx_lt hr'; omega
    have htl : (i.take a).length = (X.shape.take a).length := by simp; omega
    conv => lhs; rw [hs, hset]
    rw [flatIdx_append htl]
    simp only [prodShape, flatIdx, h1, h0, Nat.mul_one, Nat.add_zero]
  have hlast : flatIdx (X.shape.drop a) (i.drop a) = i.getD a 0 := by
    have hr' : InRange (X.shape.drop (a + 1)) (i.drop (a + 1)) := by
      rw [inRange_iff_get] at hi ⊢
      refine ⟨by simp [hil], fun k hk => ?_⟩
      have := hi.2 (a + 1 + k) (by simp at hk; omega)
      simpa [List.getD_eq_getElem?_getD, List.getElem?_drop] using this
    have h0 : flatIdx (X.shape.drop (a + 1)) (i.drop (a + 1)) = 0 := by
      have := flatIdx_lt hr'; omega
    have hid : i.drop a = i.getD a 0 :: i.drop (a + 1) := by
      rw [List.drop_eq_getElem_cons (by omega), List.getD_eq_getElem?_getD, List.getElem?_eq_getElem (by omega)]
      rfl
    rw [hdrop, hid, flatIdx, h1, h0]; omega
  simp only [hm, hlast]
  congr 2
  unfold Tensor.line
  refine List.map_congr_left fun c hc => ?_
  rw [Tensor.get, hflat c (List.mem_range.1 hc)]

/-- **C61, Softmax and LogSoftmax** (partial: models of operator set 13 or later; earlier ones if nothing follows the axis but
dimensions of size one). -/
theorem C61_softmax_partial (f : List α → List α) {opset a : Nat} {axis : Option Int} {X : Tensor α}
    (ha : Onnx.index X.shape.length (axis.getD (if opset < 13 then 1 else -1)) = some a)
    (hold : opset < 13 → prodShape (X.shape.drop (a + 1)) = 1) : genAlong f opset axis X = some (Onnx.alongT f opset a X) := by
  obtain ⟨a1, a2⟩ := axisUsize_index ha
  simp only [genAlong, alongAxisOf, a1, Option.bind_some, Burn.along, if_pos a2, Onnx.alongT]
  split
  next h => rw [alongFlat_eq f a2 (hold h)]
  next => rfl

/-! ### Hardmax -/

theorem filter_unique {β : Type} {p : β → Bool} {x : β} : ∀ {l : List β}, l.Nodup → x ∈ l → (∀ y ∈ l, p y = true ↔ y = x) →
    l.filter p = [x] := by
  intro l
  induction l with
  | nil => intro _ h; simp at h
  | cons b l ih =>
    intro hn hm hp
    rw [List.nodup_cons] at hn
    rw [List.filter_cons]
    by_cases hb : b = x
    · subst hb
      rw [if_pos ((hp b (by simp)).2 rfl)]
      congr 1
      rw [List.filter_eq_nil_iff]
      intro y hy c
      have := (hp y (by simp [hy])).1 c
      subst this
      exact hn.1 hy
    · rw [if_neg (fun c => hb ((hp b (by simp)).1 c))]
      refine ih hn.2 ?_ fun y hy => hp y (by simp [hy])
      rcases List.mem_cons.1 hm with h | h
      · exact absurd h.symm hb
      · exact h

/-- **C61, Hardmax** (partial as above; the axis is not empty). -/
theorem C61_hardmax_partial [Add α] [Zero α] {lt : α → α → Prop} {arg : List α → Nat} {one : α} {opset a : Nat}
    {axis : Option Int} {X : Tensor α} (h01 : (0 : α) + one = one)
    (harg : ∀ l : List α, l ≠ [] → Onnx.FirstMax lt l (arg l))
    (ha : Onnx.index X.shape.length (axis.getD (if opset < 13 then 1 else -1)) = some a) (hd : 0 < X.shape.getD a 0)
    (hold : opset < 13 → prodShape (X.shape.drop (a + 1)) = 1) :
    genHardmax one arg opset axis X = some (Onnx.alongT (Onnx.hardmaxList 0 one arg) opset a X) := by
  obtain ⟨a1, a2⟩ := axisUsize_index ha
  have hT : Onnx.alongT (Onnx.hardmaxList 0 one arg) opset a X = Onnx.alongAxis (Onnx.hardmaxList 0 one arg) a X := by
    unfold Onnx.alongT
    split
    next h => rw [alongFlat_eq _ a2 (hold h)]
    next => rfl
  rw [hT]
  have hargl : ∀ i, arg (X.line a i) < X.shape.getD a 0 := by
    intro i
    have hne : X.line a i ≠ [] := by
      intro c
      have := line_length X a i
      rw [c, List.length_nil] at this; omega
    obtain ⟨x, x1, _⟩ := harg _ hne
    have := (List.getElem?_eq_some_iff.1 x1).1
    rwa [line_length] at this
  simp only [genHardmax, alongAxisOf, a1, Option.bind_some, Burn.argmax, if_pos a2]
  generalize hI : (Tensor.ofFn (X.shape.set a 1) fun i => ((arg (X.line a i) : Nat) : Int)) = I
  have hIs : I.shape = X.shape.set a 1 := by rw [← hI]; rfl
  have hIg : ∀ j, InRange (X.shape.set a 1) j → I.get j = (arg (X.line a j) : Nat) := by
    intro j hj; rw [← hI]; exact Tensor.get_ofFn hj
  unfold Burn.scatterAdd
  rw [if_pos]
  · congr 1
    refine Tensor.eq_of_get (by rfl) fun i hi => ?_
    have hi : InRange X.shape i := hi
    have hil := hi.length
    have hia := hi.axis_lt a2
    rw [Tensor.get_ofFn (by exact hi), Onnx.alongAxis, Tensor.get_ofFn hi]
    have hz : (Burn.zerosLike X).get i = (0 : α) := Tensor.get_ofFn hi
    have hh : (Onnx.hardmaxList 0 one arg (X.line a i)).getD (i.getD a 0) default =
        if i.getD a 0 = arg (X.line a i) then one else 0 := by
      unfold Onnx.hardmaxList
      rw [List.getD_eq_getElem?_getD, List.getElem?_map, List.getElem?_range (by rw [line_length]; exact hia)]
      rfl
    rw [hz, hh, hIs]
    have hj0 : InRange (X.shape.set a 1) (i.set a 0) := by
      rw [inRange_set a2]
      refine ⟨by simp [hil], by rw [getD_set, if_pos ⟨rfl, by omega⟩]; omega, fun k hk hne => ?_⟩
      rw [getD_set, if_neg (fun c => hne c.1.symm)]
      exact (inRange_iff_get.1 hi).2 k hk
    by_cases hc : i.getD a 0 = arg (X.line a i)
    · rw [filter_unique (x := i.set a 0) (indices_nodup _) (mem_indices.2 hj0), if_pos hc]
      · simp only [List.map_cons, List.map_nil, List.foldl_cons, List.foldl_nil]
        rw [Tensor.get_ofFn hj0, h01]
      · intro j hj
        have hj := mem_indices.1 hj
        rw [hIg j hj, Int.toNat_natCast, decide_eq_true_eq]
        constructor
        · intro e
          rw [← e, List.set_set]
          exact ((inRange_of_set_one a2 hd hj).2).symm
        · intro e
          rw [e, line_set, List.set_set, ← hc]
          exact set_getD_self
    · rw [if_neg hc, show (indices (X.shape.set a 1)).filter (fun j => decide (j.set a (I.get j).toNat = i)) = [] from ?_]
      · rfl
      · rw [List.filter_eq_nil_iff]
        intro j hj
        have hj := mem_indices.1 hj
        rw [hIg j hj, Int.toNat_natCast, decide_eq_true_eq]
        intro e
        apply hc
        have hjl : j.length = X.shape.length := by simpa using hj.length
        have hl : X.line a i = X.line a j := by rw [← e, line_set]
        rw [hl]
        conv => lhs; rw [← e]
        rw [getD_set, if_pos ⟨rfl, by omega⟩]
  · refine ⟨a2, by rw [hIs]; rfl, fun j hj => ?_⟩
    rw [hIs] at hj
    have hj := mem_indices.1 hj
    rw [hIg j hj, Int.toNat_natCast]
    refine ⟨by omega, mem_indices.2 ?_⟩
    exact ((inRange_of_set_one a2 hd hj).1).set (hargl j)

/-! ### Cases -/

/-- The position of the first greatest element of a list of numbers. -/
def firstMax : List Int → Nat
  | [] => 0
  | x :: xs => match xs[firstMax xs]? with
    | some y => if x < y then firstMax xs + 1 else 0
    | none => 0

theorem firstMax_spec : ∀ l : List Int, l ≠ [] → Onnx.FirstMax (· < ·) l (firstMax l) := by
  intro l
  induction l with
  | nil => intro h; exact absurd rfl h
  | cons x xs ih =>
    intro _
    by_cases hx : xs = []
    · subst hx
      exact ⟨x, rfl, by simp, by intro j hj; simp [firstMax] at hj⟩
    · obtain ⟨y, y1, y2, y3⟩ := ih hx
      rw [firstMax, y1]
      simp only
      split
      next h =>
        refine ⟨y, by simpa using y1, ?_, ?_⟩
        · intro z hz
          rcases List.mem_cons.1 hz with rfl | hz
          · show ¬ y < z; omega
          · exact y2 z hz
        · intro j hj
          cases j with
          | zero => exact ⟨x, rfl, h⟩
          | succ j => simpa using y3 j (by omega)
      next h =>
        refine ⟨x, rfl, ?_, by intro j hj; omega⟩
        intro z hz
        rcases List.mem_cons.1 hz with rfl | hz
        · show ¬ z < z; omega
        · have := y2 z hz
          show ¬ x < z
          omega

/-- Two rows with equal greatest elements. -/
def axisX : Tensor Int := ⟨[2, 3], [1, 5, 5, 7, 2, 7], rfl⟩

theorem axisX_argmax (keep : Bool) (Z : Tensor Int) (hs : Z.shape = if keep then [2, 1] else [2]) (hz : Z.data = [1, 0]) :
    Onnx.ArgMaxT (· < ·) 1 keep axisX Z := by
  refine ⟨by decide, by decide, by rw [hs]; rfl, fun i hi => ⟨firstMax (axisX.line 1 i), firstMax_spec _ ?_, ?_⟩⟩
  · intro c
    have := line_length axisX 1 i
    rw [c] at this; cases this
  · replace hi := mem_indices.2 hi
    cases keep with
    | true =>
      have : Z = ⟨[2, 1], [1, 0], rfl⟩ := Tensor.ext hs hz
      subst this
      clear hs hz
      revert i
      decide +kernel
    | false =>
      have : Z = ⟨[2], [1, 0], rfl⟩ := Tensor.ext hs hz
      subst this
      clear hs hz
      revert i
      decide +kernel

/-- The first of two equal elements, without and with the axis kept. -/
example : ∃ u z, GVal.dev axisX = .dev u ∧ genArgMax firstMax (some (-1)) false (.tensor ⟨.i64, 1, none⟩) u = some z ∧
    Reps id (.tensor ⟨.i64, 1, none⟩) z ⟨[2], [1, 0], rfl⟩ :=
  C61_argmax (ofInt := id) (xt := .tensor ⟨.f32, 2, none⟩) (X := axisX) (lt := fun x y : Int => x < y) firstMax_spec
    ⟨rfl, rfl, by decide⟩ (a := 1) (by decide) (.inl (by decide)) (axisX_argmax false _ rfl rfl)

/-- ArgMin is the same with the order turned round. -/
example : ∃ u z, GVal.dev (⟨[3], [4, 2, 2], rfl⟩ : Tensor Int) = .dev u ∧
    genArgMax (fun l => firstMax (l.map (- ·))) none false (.scalarNative .i64) u = some z ∧
    Reps id (.scalarNative .i64) z ⟨[], [1], rfl⟩ :=
  ⟨_, _, rfl, rfl, rfl, rfl⟩

/-- Softmax of a model of operator set 13 along the default axis, with any function of lists. -/
example (f : List Int → List Int) : genAlong f 13 none axisX = some (Onnx.alongT f 13 1 axisX) :=
  C61_softmax_partial f (a := 1) (by decide) (by decide)

example : genHardmax 1 firstMax 13 none axisX = some ⟨[2, 3], [0, 1, 0, 1, 0, 0], rfl⟩ := by
  rw [C61_hardmax_partial (lt := fun x y : Int => x < y) (a := 1) (by decide) firstMax_spec (by decide) (by decide) (by decide)]
  decide +kernel

/-- Positions of a list of numbers in descending order, equal ones from left to right. -/
def descending (l : List Int) : List Nat :=
  (List.range l.length).mergeSort fun p q => decide (l.getD q 0 < l.getD p 0 ∨ (l.getD q 0 = l.getD p 0 ∧ p ≤ q))

theorem descending_spec (l : List Int) :
    (descending l).Perm (List.range l.length) ∧ (descending l).Pairwise (Onnx.Before (· < ·) l) := by
  have hp : (descending l).Perm (List.range l.length) := List.mergeSort_perm _ _
  refine ⟨hp, ?_⟩
  have hs : (descending l).Pairwise fun p q => decide (l.getD q 0 < l.getD p 0 ∨ (l.getD q 0 = l.getD p 0 ∧ p ≤ q)) = true := by
    refine List.pairwise_mergeSort ?_ ?_ _
    · intro a b c h1 h2
      simp only [decide_eq_true_eq] at *
      omega
    · intro a b
      simp only [Bool.or_eq_true, decide_eq_true_eq]
      omega
  have hn : (descending l).Nodup := hp.nodup_iff.2 List.nodup_range
  have hm : ∀ p ∈ descending l, p < l.length := fun p h => List.mem_range.1 (hp.mem_iff.1 h)
  refine (hs.and hn).imp_of_mem fun {p q} h1 h2 h => ?_
  obtain ⟨h3, h4⟩ := h
  have hpl := hm p h1
  have hql := hm q h2
  simp only [decide_eq_true_eq, List.getD_eq_getElem?_getD, List.getElem?_eq_getElem hpl, List.getElem?_eq_getElem hql,
    Option.getD_some] at h3
  refine ⟨l[p], l[q], List.getElem?_eq_getElem hpl, List.getElem?_eq_getElem hql, ?_⟩
  show l[q] < l[p] ∨ ¬ l[p] < l[q] ∧ p < q
  omega

example : ∃ V I, genTopK descending none (.static 2) 1 1 axisX = some (V, I) ∧ Onnx.TopKT (fun x y : Int => x < y) 1 2 axisX V I :=
  C61_topk_partial descending_spec (by decide) (by decide)

/-- Before operator set 13 Softmax, LogSoftmax and Hardmax work on all dimensions from the axis on, by default from dimension 1;
the generated code uses one dimension only. Witness: the greatest of four elements. -/
theorem C61_hardmax_old_opset_wrong :
    parts (some (Onnx.alongT (Onnx.hardmaxList 0 1 firstMax) 12 1 (⟨[1, 2, 2], [1, 2, 3, 4], rfl⟩ : Tensor Int))) =
      some ([1, 2, 2], [0, 0, 0, 1]) ∧
    parts (genHardmax 1 firstMax 12 none (⟨[1, 2, 2], [1, 2, 3, 4], rfl⟩ : Tensor Int)) = some ([1, 2, 2], [0, 0, 1, 1]) := by
  constructor <;> decide +kernel

/-- The same for Softmax, with shares of the total in place of exponentials. -/
theorem C61_softmax_old_opset_wrong :
    ∃ f : List Int → List Int, ∃ X : Tensor Int, genAlong f 12 none X ≠ some (Onnx.alongT f 12 1 X) := by
  refine ⟨fun l => l.map fun x => 12 * x / l.sum, ⟨[1, 2, 2], [1, 1, 1, 1], rfl⟩, ?_⟩
  intro h
  have := congrArg parts h
  revert this
  decide +kernel

/-- TopK of the smallest elements, legal in ONNX, is refused. -/
theorem C61_topk_smallest_refused (order : List α → List Nat) (axis : Option Int) (k : TopKIn) (X : Tensor α) :
    genTopK order axis k 0 1 X = none := rfl

/-- TopK with `k` known at run time only: the generator panics. -/
theorem C61_topk_runtime_panics (order : List α → List Nat) (axis : Option Int) (X : Tensor α) :
    genTopK order axis .runtime 1 1 X = none := rfl

end OnnxIR
