import Verif.Model.Select
import Verif.Props.Concat

/-!
# C58: generated code of Where, Clip, Sum, Mean and Pow
-/

namespace OnnxIR

open Gen

variable {α : Type} [Inhabited α]

/-! ### Padding three operands -/

/-- A shape with dimensions of size one in front, up to rank `r`. -/
def padTo (r : Nat) (s : List Nat) : List Nat := List.replicate (r - s.length) 1 ++ s

theorem padTo_length {r : Nat} {s : List Nat} (h : s.length ≤ r) : (padTo r s).length = r := by
  simp [padTo]; omega

theorem padTo_self (s : List Nat) : padTo s.length s = s := by simp [padTo]

theorem bcast_padTo {a b s : List Nat} {r : Nat} (h : bcast a b = some s) (ha : a.length ≤ r) (hb : b.length ≤ r) :
    bcast (padTo r a) (padTo r b) = some (padTo r s) := by
  have hsl := bcast_length h
  have e1 := bcast_pad h (r - a.length) (by omega)
  rw [bcast_comm] at e1
  have e2 := bcast_pad e1 (r - b.length) (by simp; omega)
  rw [bcast_comm] at e2
  unfold padTo
  rw [e2]
  have : b.length + (r - b.length) - (List.replicate (a.length + (r - a.length) - s.length) 1 ++ s).length = 0 := by
    simp; omega
  rw [this]
  simp only [List.replicate_zero, List.nil_append]
  congr 3
  omega

theorem PadOf.proj {T u : Tensor α} {r : Nat} {s j : List Nat} (h : PadOf T u r) (hl : T.shape.length ≤ s.length) (hsr : s.length ≤ r)
    (hj : InRange s j) : u.get (proj u.shape (List.replicate (r - s.length) 0 ++ j)) = T.get (OnnxIR.proj T.shape j) := by
  have hle := h.le
  have hjl := hj.length
  rw [h.shape, proj_ones (by simp; omega), h.get, proj_drop_pad _ (by omega)]

theorem bcastAll_three {a b c s : List Nat} (h : bcastAll [a, b, c] = some s) :
    ∃ t, bcast a b = some t ∧ bcast t c = some s := by
  simp only [bcastAll, bcastOnto, bcast_nil_left, Option.bind_some] at h
  cases e : bcast a b with
  | none => rw [e] at h; simp at h
  | some t =>
    rw [e] at h
    simp only [Option.bind_some] at h
    cases e2 : bcast t c with
    | none => rw [e2] at h; simp at h
    | some s' => rw [e2] at h; simp at h; exact ⟨t, rfl, by rw [e2, h]⟩

theorem bcastAll_three' {a b c t s : List Nat} (h1 : bcast a b = some t) (h2 : bcast t c = some s) :
    bcastAll [a, b, c] = some s := by
  simp only [bcastAll, bcastOnto, bcast_nil_left, Option.bind_some, h1, h2]

/-- Operands with dimensions of size one in front give the result with dimensions of size one in front. -/
theorem where_padded {C m : Tensor Bool} {X Y x y Z : Tensor α} {r : Nat} (hc : PadOf C m r) (hx : PadOf X x r) (hy : PadOf Y y r)
    (hZ : Onnx.whereT C X Y = some Z) : ∃ z, Burn.maskWhere y m x = some z ∧ PadOf Z z r := by
  obtain ⟨s, hs, rfl⟩ := Option.map_eq_some_iff.1 hZ
  obtain ⟨t, h1, h2⟩ := bcastAll_three hs
  have l1 := bcast_length h1
  have l2 := bcast_length h2
  have hcl := hc.le
  have hxl := hx.le
  have hyl := hy.le
  have p1 := bcast_padTo (r := r) h1 hcl hxl
  have p2 := bcast_padTo (r := r) h2 (by omega) hyl
  have hb : bcastAll [m.shape, x.shape, y.shape] = some (padTo r s) := by
    rw [hc.shape, hx.shape, hy.shape]
    exact bcastAll_three' p1 p2
  unfold Burn.maskWhere
  rw [if_pos ⟨by rw [hc.length, hy.length], by rw [hx.length, hy.length]⟩, hb]
  refine ⟨_, rfl, by simp only [Tensor.ofFn]; omega, rfl, ?_⟩
  simp only [Tensor.ofFn, padTo, indices_pad, List.map_map]
  apply List.map_congr_left
  intro j hj
  have hjr := mem_indices.1 hj
  simp only [Function.comp]
  rw [hc.proj (by omega) (by omega) hjr, hx.proj (by omega) (by omega) hjr, hy.proj (by omega) (by omega) hjr]

/-! ### Arguments as tensors of the result's rank -/

theorem pad_scalar {T : Tensor α} {x : α} (h : T.shape = [] ∧ T.data = [x]) {r : Nat} {u : Tensor α}
    (hs : u.shape = List.replicate r 1) (hd : u.data = [x]) : PadOf T u r :=
  ⟨by simp [h.1], by simp [h.1, hs], by rw [hd, h.2]⟩

theorem whereAsTensor_ok {ofInt : Int → α} {arrays : Bool} {r : Nat} {ty : ArgType} {v : GVal α} {T : Tensor α}
    (h : Reps ofInt ty v T) (hr : ty.rank ≤ r) (ha : ∀ n, ty = .shape n → arrays = true) :
    ∃ u, whereAsTensor ofInt arrays r ty v = some u ∧ PadOf T u r := by
  cases v with
  | dev u =>
    have hp := h.pad
    cases ty with
    | tensor t =>
      simp only [whereAsTensor, ArgType.isScalar, Bool.false_eq_true, if_false]
      split
      · obtain ⟨w, h1, h2⟩ := hp.more (n := r - t.rank)
        have hrt : t.rank ≤ r := hr
        refine ⟨w, h1, ?_⟩
        rw [show (ArgType.tensor t).rank + (r - t.rank) = r by simp only [ArgType.rank]; omega] at h2
        exact h2
      · refine ⟨u, rfl, ?_⟩
        have : (ArgType.tensor t).rank = r := by omega
        rw [← this]; exact hp
    | scalarTensor d =>
      simp only [whereAsTensor, ArgType.isScalar, if_true]
      have hr1 : 1 ≤ r := hr
      split
      · obtain ⟨w, h1, h2⟩ := hp.more (n := r - 1)
        refine ⟨w, h1, ?_⟩
        rw [show (ArgType.scalarTensor d).rank + (r - 1) = r by simp only [ArgType.rank]; omega] at h2
        exact h2
      · refine ⟨u, rfl, ?_⟩
        have : (ArgType.scalarTensor d).rank = r := by simp only [ArgType.rank]; omega
        rw [← this]; exact hp
    | scalarNative d => exact h.elim
    | shape n => exact h.elim
  | native x =>
    have hs : T.shape = [] ∧ T.data = [x] := by
      cases ty <;> first | exact h.elim | exact h
    simp only [whereAsTensor, Burn.reshape]
    rw [dif_pos (by rw [prodShape_replicate_one]; rfl)]
    exact ⟨_, rfl, pad_scalar hs rfl rfl⟩
  | shape l =>
    cases ty with
    | shape n =>
      have e := ofShape_eq h
      have hp : PadOf T (Burn.ofShape ofInt l) 1 := by
        rw [e]
        have := PadOf.refl T
        rwa [h.2.1] at this
      have hr1 : 1 ≤ r := hr
      simp only [whereAsTensor, ha n rfl, if_true]
      split
      · obtain ⟨w, h1, h2⟩ := hp.more (n := r - 1)
        refine ⟨w, h1, ?_⟩
        rwa [show 1 + (r - 1) = r by omega] at h2
      · refine ⟨_, rfl, ?_⟩
        have : r = 1 := by omega
        rw [this]; exact hp
    | _ => exact h.elim

theorem whereNative_ok {ofInt : Int → α} {ty : ArgType} {v : GVal α} {T : Tensor α} (h : Reps ofInt ty v T)
    (hs : ty.isScalar = true) : ∃ x, whereNative v = some x ∧ T.shape = [] ∧ T.data = [x] := by
  cases ty with
  | scalarTensor d =>
    cases v with
    | dev u =>
      obtain ⟨x, h1, h2, h3, _⟩ := intoScalar_ok h
      exact ⟨x, h3, h1, h2⟩
    | native x => exact h.elim
    | shape l => exact h.elim
  | scalarNative d =>
    cases v with
    | native x => exact ⟨x, rfl, h.1, h.2⟩
    | dev u => exact h.elim
    | shape l => exact h.elim
  | tensor t => simp [ArgType.isScalar] at hs
  | shape n => simp [ArgType.isScalar] at hs

/-- The mask with a number, when only the mask has to be broadcast. -/
theorem fill_padded {C m : Tensor Bool} {X Y y Z : Tensor α} {k : α} {r : Nat} (hc : PadOf C m r) (hy : PadOf Y y r)
    (hX : X.shape = [] ∧ X.data = [k]) (hZ : Onnx.whereT C X Y = some Z) (hZy : Z.shape = padTo Z.shape.length Y.shape) :
    ∃ z, Burn.maskFill y m k = some z ∧ PadOf Z z r := by
  obtain ⟨s, hs, rfl⟩ := Option.map_eq_some_iff.1 hZ
  obtain ⟨t, h1, h2⟩ := bcastAll_three hs
  rw [hX.1, bcast_nil_right] at h1
  cases h1
  have l2 := bcast_length h2
  have hcl := hc.le
  have hyl := hy.le
  have hsY : s = padTo s.length Y.shape := hZy
  have hsp : padTo r s = y.shape := by
    rw [hy.shape, hsY]
    simp only [padTo, List.length_append, List.length_replicate, ← List.append_assoc, List.replicate_append_replicate]
    congr 2
    omega
  have p2 := bcast_padTo (r := r) h2 hcl hyl
  rw [hsp] at p2
  have hb : bcast m.shape y.shape = some y.shape := by
    rw [hc.shape]; rw [hy.shape] at p2 ⊢; exact p2
  unfold Burn.maskFill
  rw [if_pos ⟨by rw [hc.length, hy.length], hb⟩]
  refine ⟨_, rfl, by simp only [Tensor.ofFn]; omega, hsp.symm, ?_⟩
  simp only [Tensor.ofFn]
  rw [← hsp]
  simp only [padTo, indices_pad, List.map_map]
  apply List.map_congr_left
  intro j hj
  have hjr := mem_indices.1 hj
  simp only [Function.comp]
  rw [hc.proj (by omega) (by omega) hjr, get_scalar hX.1 hX.2]
  have hjy : InRange y.shape (List.replicate (r - s.length) 0 ++ j) := by
    rw [← hsp, ← mem_indices, padTo, indices_pad]
    exact List.mem_map.2 ⟨j, hj, rfl⟩
  have := hy.proj (s := s) (by omega) (by omega) hjr
  rw [proj_self hjy] at this
  rw [this]

/-- Two numbers: the second one is repeated to the shape of the mask. -/
theorem fill_expanded {C m : Tensor Bool} {X Y y Z : Tensor α} {k l : α} {r : Nat} (hc : PadOf C m r) (hy : PadOf Y y r)
    (hX : X.shape = [] ∧ X.data = [k]) (hY : Y.shape = [] ∧ Y.data = [l]) (hZ : Onnx.whereT C X Y = some Z) :
    ∃ z, (Burn.expand y m.shape).bind (Burn.maskFill · m k) = some z ∧ PadOf Z z r := by
  obtain ⟨s, hs, rfl⟩ := Option.map_eq_some_iff.1 hZ
  obtain ⟨t, h1, h2⟩ := bcastAll_three hs
  rw [hX.1, bcast_nil_right] at h1
  cases h1
  rw [hY.1, bcast_nil_right] at h2
  cases h2
  have hcl := hc.le
  have hb : bcast y.shape m.shape = some m.shape := by
    have := bcast_padTo (r := r) (show bcast [] C.shape = some C.shape from bcast_nil_left _) (by simp) hcl
    rw [hc.shape, hy.shape, hY.1]
    exact this
  have hm : bcast m.shape m.shape = some m.shape := by simp [bcast, bcastRev_self]
  unfold Burn.expand
  rw [if_pos hb]
  have hE : ∀ i, InRange m.shape i → (Tensor.ofFn m.shape fun i => y.get (proj y.shape i)).get i = l := by
    intro i hi
    rw [Tensor.get_ofFn hi]
    rw [hc.shape] at hi
    obtain ⟨j, rfl, hj⟩ := pad_zero _ _ _ hi
    rw [hy.proj (s := C.shape) (by simp [hY.1]) hcl hj, get_scalar hY.1 hY.2]
  generalize hEd : (Tensor.ofFn m.shape fun i => y.get (proj y.shape i)) = E at hE
  have hEs : E.shape = m.shape := by rw [← hEd]; rfl
  simp only [Option.bind_some, Burn.maskFill, hEs, hm, and_self, if_true]
  refine ⟨_, rfl, by simp only [Tensor.ofFn]; exact hcl, hc.shape, ?_⟩
  have hmi : indices m.shape = (indices C.shape).map (List.replicate (r - C.shape.length) 0 ++ ·) := by
    rw [hc.shape, indices_pad]
  simp only [Tensor.ofFn]
  rw [hmi, List.map_map]
  apply List.map_congr_left
  intro j hj
  have hjr := mem_indices.1 hj
  have hjm : InRange m.shape (List.replicate (r - C.shape.length) 0 ++ j) := by
    rw [← mem_indices, hmi]
    exact List.mem_map.2 ⟨j, hj, rfl⟩
  simp only [Function.comp]
  rw [hc.proj (s := C.shape) (Nat.le_refl _) hcl hjr, hE _ hjm, get_scalar hX.1 hX.2, get_scalar hY.1 hY.2]

/-! ### Where -/

theorem Reps.len {ofInt : Int → α} {ty : ArgType} {v : GVal α} {T : Tensor α} (h : Reps ofInt ty v T) :
    (ty.isScalar = false ∧ T.shape.length = ty.rank ∧ 1 ≤ ty.rank) ∨ (ty.isScalar = true ∧ T.shape = [] ∧ ty.rank ≤ 1) := by
  cases ty with
  | tensor t =>
    cases v with
    | dev u => exact .inl ⟨rfl, h.2.1, h.2.2⟩
    | native x => exact h.elim
    | shape l => exact h.elim
  | scalarTensor d =>
    cases v with
    | dev u => exact .inr ⟨rfl, h.2.1, Nat.le_refl _⟩
    | native x => exact h.elim
    | shape l => exact h.elim
  | scalarNative d =>
    cases v with
    | native x => exact .inr ⟨rfl, h.1, Nat.zero_le _⟩
    | dev u => exact h.elim
    | shape l => exact h.elim
  | shape n =>
    cases v with
    | shape l => exact .inl ⟨rfl, by rw [h.2.1]; rfl, Nat.le_refl _⟩
    | dev u => exact h.elim
    | native x => exact h.elim

theorem rank_three (a b c : ArgType) : computeBroadcastRank [a, b, c] = max a.rank (max b.rank c.rank) := by
  cases a <;> cases b <;> cases c <;> simp [computeBroadcastRank, ArgType.rank] <;> omega

/-- The combinations of types for which the generated code is right. `Z` is the ONNX result, `Y` the value chosen where the
condition is false. -/
structure WhereOk (ct xt yt : ArgType) (Y Z : Tensor α) : Prop where
  /-- either all three are native scalars, or one is neither -/
  scalars : (ct.rank = 0 ∧ xt.rank = 0 ∧ yt.rank = 0) ∨ ct.isScalar = false ∨ xt.isScalar = false ∨ yt.isScalar = false
  /-- the branches have one element type -/
  elems : Infer.whereElem xt = Infer.whereElem yt
  /-- an array as condition only chooses between arrays -/
  cond : (∀ n, ct ≠ .shape n) ∨ (Infer.isShape xt = true ∧ Infer.isShape yt = true)
  /-- a number where the condition is true: the other branch already has the shape of the result, up to leading ones, or is
  a number, too -/
  fill : xt.isScalar = true → yt.isScalar = false → Z.shape = padTo Z.shape.length Y.shape
  /-- arrays have one length; the condition is a scalar or an array of that length, unless the result has a higher rank -/
  arrays : ∀ m n, xt = .shape m → yt = .shape n → ct.rank ≤ 1 → m = n ∧ (ct.isScalar = true ∨ ct = .shape m)

theorem whereInto_eq : ∀ {lc lx ly : List Int}, lc.length = ly.length → lx.length = ly.length →
    whereInto lc lx ly = some ((lc.zip (lx.zip ly)).map fun p => if p.1 ≠ 0 then p.2.1 else p.2.2)
  | [], [], [], _, _ => rfl
  | c :: lc, x :: lx, y :: ly, h1, h2 => by
    simp only [whereInto]
    rw [whereInto_eq (by simpa using h1) (by simpa using h2)]
    rfl
  | [], _ :: _, [], _, h => by simp at h
  | [], _, _ :: _, h, _ => by simp at h
  | _ :: _, _, [], h, _ => by simp at h
  | _ :: _, [], _ :: _, _, h => by simp at h

/-- Where on vectors of one length. -/
theorem where_vectors {C : Tensor Bool} {X Y Z : Tensor α} {n : Nat} (hc : C.shape = [n]) (hx : X.shape = [n]) (hy : Y.shape = [n])
    (hZ : Onnx.whereT C X Y = some Z) : Z.shape = [n] ∧
      Z.data = (C.data.zip (X.data.zip Y.data)).map fun p => if p.1 then p.2.1 else p.2.2 := by
  unfold Onnx.whereT at hZ
  have hb : bcastAll [C.shape, X.shape, Y.shape] = some [n] := by
    have e : bcast [n] [n] = some [n] := by simp [bcast, bcastRev]
    rw [hc, hx, hy]; exact bcastAll_three' e e
  rw [hb] at hZ
  cases hZ
  refine ⟨rfl, ?_⟩
  rw [C.data_eq, X.data_eq, Y.data_eq, hc, hx, hy, List.zip_map', List.zip_map', List.map_map]
  simp only [Tensor.ofFn]
  apply List.map_congr_left
  intro i hi
  have hi := mem_indices.1 hi
  simp only [Function.comp]
  rw [proj_self hi]

/-- Where with a scalar condition. -/
theorem where_scalar {C : Tensor Bool} {X Y Z : Tensor α} {s : List Nat} {b : Bool} (hc : C.shape = [] ∧ C.data = [b]) (hx : X.shape = s)
    (hy : Y.shape = s) (hZ : Onnx.whereT C X Y = some Z) : Z = if b then X else Y := by
  unfold Onnx.whereT at hZ
  have hb : bcastAll [C.shape, X.shape, Y.shape] = some s := by
    have e : bcast s s = some s := by simp [bcast, bcastRev_self]
    rw [hc.1, hx, hy]; exact bcastAll_three' (bcast_nil_left _) e
  rw [hb] at hZ
  cases hZ
  refine Tensor.eq_of_get ?_ ?_
  · show s = _
    cases b
    · exact hy.symm
    · exact hx.symm
  · intro i hi
    have hi : InRange s i := hi
    rw [Tensor.get_ofFn hi, get_scalar hc.1 hc.2, hx, hy, proj_self hi]
    cases b <;> rfl

/-- Where, for all types in `WhereOk`, all shapes and values: if ONNX's result is defined, the generated code runs and holds
it as the inferred type says. -/
theorem C58_where_partial {ofInt : Int → α} {ct xt yt ot : ArgType} {c : GVal Bool} {x y : GVal α} {C : Tensor Bool}
    {X Y Z : Tensor α} (hc : Reps (· != 0) ct c C) (hx : Reps ofInt xt x X) (hy : Reps ofInt yt y Y)
    (ht : Infer.where_ ct xt yt = some ot) (hZ : Onnx.whereT C X Y = some Z) (hok : WhereOk ct xt yt Y Z) :
    ∃ z, genWhere ofInt ot ct xt yt c x y = some z ∧ Reps ofInt ot z Z := by
  obtain ⟨s, hs, hZe⟩ := Option.map_eq_some_iff.1 hZ
  obtain ⟨t, b1, b2⟩ := bcastAll_three hs
  have hZl : Z.shape.length = max C.shape.length (max X.shape.length Y.shape.length) := by
    have l1 := bcast_length b1
    have l2 := bcast_length b2
    rw [← hZe]; show s.length = _; omega
  have hcl := hc.len
  have hxl := hx.len
  have hyl := hy.len
  unfold Infer.where_ at ht
  split at ht
  · cases ht
  · have hdt : Infer.whereDtype xt yt = some (Infer.whereElem xt) := by
      unfold Infer.whereDtype; rw [if_pos hok.elems]
    rw [hdt] at ht
    simp only [rank_three] at ht
    by_cases hr0 : max ct.rank (max xt.rank yt.rank) = 0
    · rw [if_pos hr0] at ht
      cases ht
      have nat : ∀ {β : Type} {f : Int → β} {ty : ArgType} {v : GVal β} {T : Tensor β}, Reps f ty v T → ty.rank = 0 →
          ∃ k, v = .native k ∧ T.shape = [] ∧ T.data = [k] := by
        intro β f ty v T h h0
        cases ty with
        | tensor t =>
          cases v with
          | dev u => have := h.2.2; simp only [ArgType.rank] at h0; omega
          | native k => exact h.elim
          | shape l => exact h.elim
        | scalarTensor d => simp [ArgType.rank] at h0
        | shape n => simp [ArgType.rank] at h0
        | scalarNative d =>
          cases v with
          | native k => exact ⟨k, rfl, h.1, h.2⟩
          | dev u => exact h.elim
          | shape l => exact h.elim
      obtain ⟨b, rfl, e1, e2⟩ := nat hc (by omega)
      obtain ⟨k, rfl, e3, e4⟩ := nat hx (by omega)
      obtain ⟨l, rfl, e5, e6⟩ := nat hy (by omega)
      refine ⟨.native (if b then k else l), rfl, ?_⟩
      have := where_scalar ⟨e1, e2⟩ e3 e5 hZ
      subst this
      cases b
      · exact ⟨e5, e6⟩
      · exact ⟨e3, e4⟩
    · rw [if_neg hr0] at ht
      split at ht
      · next hsh =>
        simp only [Bool.and_eq_true, beq_iff_eq] at hsh
        cases ht
        obtain ⟨⟨⟨h1, h2⟩, h3⟩, _⟩ := hsh
        obtain ⟨m, rfl⟩ : ∃ m, xt = .shape m := by cases xt <;> simp_all [Infer.isShape]
        obtain ⟨n, rfl⟩ : ∃ n, yt = .shape n := by cases yt <;> simp_all [Infer.isShape]
        obtain ⟨rfl, hcs⟩ := hok.arrays m n rfl rfl (by omega)
        obtain ⟨lx, rfl⟩ : ∃ l, x = .shape l := by cases x <;> first | exact hx.elim | exact ⟨_, rfl⟩
        obtain ⟨ly, rfl⟩ : ∃ l, y = .shape l := by cases y <;> first | exact hy.elim | exact ⟨_, rfl⟩
        simp only [Infer.whereSize, Nat.max_self]
        rcases hcs with hcs | rfl
        · obtain ⟨b, e1, e2⟩ := whereNative_ok hc hcs
          have hZ' := where_scalar e2 hx.2.1 hy.2.1 hZ
          refine ⟨.shape (if b then lx else ly), ?_, ?_⟩
          · have hll : lx.length = ly.length := by rw [hx.1, hy.1]
            cases c with
            | shape l => cases ct <;> first | exact hc.elim | simp [ArgType.isScalar] at hcs
            | dev u => simp only [genWhere, hcs, if_true, e1, Option.bind_some, hll]
            | native u => simp only [genWhere, hcs, if_true, e1, Option.bind_some, hll]
          · subst hZ'
            cases b
            · exact hy
            · exact hx
        · obtain ⟨lc, rfl⟩ : ∃ l, c = .shape l := by cases c <;> first | exact hc.elim | exact ⟨_, rfl⟩
          obtain ⟨v1, v2⟩ := where_vectors hc.2.1 hx.2.1 hy.2.1 hZ
          have hlc : lc.length = ly.length := by rw [hc.1, hy.1]
          have hlx : lx.length = ly.length := by rw [hx.1, hy.1]
          refine ⟨.shape ((lc.zip (lx.zip ly)).map fun p => if p.1 ≠ 0 then p.2.1 else p.2.2), ?_, ?_⟩
          · simp only [genWhere, whereInto_eq hlc hlx, Option.map_some]
          · refine ⟨by simp [hc.1, hx.1, hy.1], v1, ?_⟩
            rw [v2, hc.2.2, hx.2.2, hy.2.2, List.zip_map, List.zip_map, List.map_map, List.map_map]
            apply List.map_congr_left
            rintro ⟨a, b, d⟩ _
            simp only [Function.comp, Prod.map]
            by_cases ha : a = 0 <;> simp [ha]
      · next hsh =>
        cases ht
        have hns : ¬ (Infer.isShape xt = true ∧ Infer.isShape yt = true) ∨ 1 < ct.rank := by
          by_cases hb : Infer.isShape xt = true ∧ Infer.isShape yt = true
          · right
            obtain ⟨m, rfl⟩ : ∃ m, xt = .shape m := by cases xt <;> simp_all [Infer.isShape]
            obtain ⟨n, rfl⟩ : ∃ n, yt = .shape n := by cases yt <;> simp_all [Infer.isShape]
            have e1 : (ArgType.shape m).rank = 1 := rfl
            have e2 : (ArgType.shape n).rank = 1 := rfl
            apply Decidable.byContradiction
            intro hle
            apply hsh
            have e3 : max ct.rank (max (ArgType.shape m).rank (ArgType.shape n).rank) = 1 := by omega
            rw [e3]
            rfl
          · exact .inl hb
        have hcs : ∀ n, ct ≠ .shape n := by
          rcases hok.cond with h | h
          · exact h
          · rcases hns with hn | hn
            · exact absurd h hn
            · intro n e; rw [e] at hn; simp [ArgType.rank] at hn
        have hreal : ct.isScalar = false ∨ xt.isScalar = false ∨ yt.isScalar = false := by
          rcases hok.scalars with h | h
          · omega
          · exact h
        have hrank : Z.shape.length = max ct.rank (max xt.rank yt.rank) := by
          rw [hZl]
          rcases hcl with ⟨a1, a2, a3⟩ | ⟨a1, a2, a3⟩ <;> rcases hxl with ⟨a4, a5, a6⟩ | ⟨a4, a5, a6⟩ <;>
            rcases hyl with ⟨a7, a8, a9⟩ | ⟨a7, a8, a9⟩ <;> simp_all <;> omega
        have ints : ∀ ty, (ty = xt ∨ ty = yt) → ∀ n, ty = .shape n → intKind (Infer.whereElem xt) = true := by
          rintro ty (rfl | rfl) n rfl
          · rfl
          · rw [hok.elems]; rfl
        obtain ⟨m, m1, m2⟩ := whereAsTensor_ok (arrays := false) (r := max ct.rank (max xt.rank yt.rank)) hc (by omega)
          fun n e => absurd e (hcs n)
        obtain ⟨v, v1, v2⟩ := whereAsTensor_ok (arrays := intKind (Infer.whereElem xt)) (r := max ct.rank (max xt.rank yt.rank)) hy
          (by omega) (ints yt (.inr rfl))
        have fin : ∀ {z : Tensor α}, PadOf Z z (max ct.rank (max xt.rank yt.rank)) → Reps ofInt
            (.tensor ⟨Infer.whereElem xt, max ct.rank (max xt.rank yt.rank), computeBroadcastStaticShape [ct, xt, yt]⟩) (.dev z) Z := by
          intro z hz
          exact ⟨hz.eq hrank, hrank, by show 1 ≤ max ct.rank (max xt.rank yt.rank); omega⟩
        by_cases hxs : xt.isScalar = true
        · obtain ⟨k, k1, k2⟩ := whereNative_ok hx hxs
          by_cases hys : yt.isScalar = true
          · obtain ⟨l, _, l2⟩ := whereNative_ok hy hys
            obtain ⟨z, z1, z2⟩ := fill_expanded m2 v2 k2 l2 hZ
            exact ⟨.dev z, by simp only [genWhere, m1, v1, Option.bind_some, hxs, hys, if_true, k1, z1, Option.map_some], fin z2⟩
          · obtain ⟨z, z1, z2⟩ := fill_padded m2 v2 k2 hZ (hok.fill hxs (by simpa using hys))
            exact ⟨.dev z, by simp only [genWhere, m1, v1, Option.bind_some, hxs, hys, if_true, k1, z1, Option.map_some]; rfl, fin z2⟩
        · obtain ⟨u, u1, u2⟩ := whereAsTensor_ok (arrays := intKind (Infer.whereElem xt)) (r := max ct.rank (max xt.rank yt.rank)) hx
            (by omega) (ints xt (.inl rfl))
          obtain ⟨z, z1, z2⟩ := where_padded m2 u2 v2 hZ
          exact ⟨.dev z, by simp only [genWhere, m1, v1, Option.bind_some, hxs, u1, z1, Option.map_some]; rfl, fin z2⟩

/-- A mask of shape `[2, 1]`, a row where it is true and a native number elsewhere. -/
example : ∃ z Z, genWhere (α := Int) id (.tensor ⟨.f32, 2, none⟩) (.tensor ⟨.bool, 2, none⟩) (.tensor ⟨.f32, 1, none⟩) (.scalarNative .f32)
      (.dev ⟨[2, 1], [true, false], rfl⟩) (.dev ⟨[3], [1, 2, 3], rfl⟩) (.native 9) = some z ∧
    Reps id (.tensor ⟨.f32, 2, none⟩) z Z ∧ Z.shape = [2, 3] ∧ Z.data = [1, 2, 3, 9, 9, 9] := by
  obtain ⟨z, h1, h2⟩ := C58_where_partial (ofInt := id) (ct := .tensor ⟨.bool, 2, none⟩) (xt := .tensor ⟨.f32, 1, none⟩)
    (yt := .scalarNative .f32) (ot := .tensor ⟨.f32, 2, none⟩) (c := .dev ⟨[2, 1], [true, false], rfl⟩)
    (x := .dev (⟨[3], [1, 2, 3], rfl⟩ : Tensor Int)) (y := .native 9) (C := ⟨[2, 1], [true, false], rfl⟩) (X := ⟨[3], [1, 2, 3], rfl⟩)
    (Y := ⟨[], [9], rfl⟩) (Z := ⟨[2, 3], [1, 2, 3, 9, 9, 9], rfl⟩) ⟨rfl, rfl, by decide⟩ ⟨rfl, rfl, by decide⟩ ⟨rfl, rfl⟩
    (by decide +kernel) (by decide +kernel)
    ⟨.inr (.inl rfl), rfl, .inl (by simp), by simp [ArgType.isScalar], by simp⟩
  exact ⟨z, _, h1, h2, rfl, rfl⟩

/-- Masked attention scores: a native number where the mask is true, a tensor elsewhere, and the mask is the smaller one. -/
example : WhereOk (α := Int) (.tensor ⟨.bool, 1, none⟩) (.scalarNative .f32) (.tensor ⟨.f32, 2, none⟩) ⟨[2, 2], [1, 2, 3, 4], rfl⟩
    ⟨[2, 2], [7, 2, 7, 4], rfl⟩ ∧
    Onnx.whereT ⟨[2], [true, false], rfl⟩ (⟨[], [7], rfl⟩ : Tensor Int) ⟨[2, 2], [1, 2, 3, 4], rfl⟩ = some ⟨[2, 2], [7, 2, 7, 4], rfl⟩ := by
  exact ⟨⟨.inr (.inl rfl), rfl, .inl (by simp), fun _ _ => rfl, by simp⟩, by decide +kernel⟩

/-- Arrays of dimensions. -/
example : WhereOk (α := Int) (.shape 2) (.shape 2) (.shape 2) ⟨[2], [1, 2], rfl⟩ ⟨[2], [3, 2], rfl⟩ := by
  refine ⟨.inr (.inl rfl), rfl, .inr ⟨rfl, rfl⟩, by simp [ArgType.isScalar], ?_⟩
  intro m n h1 h2 _
  cases h1; cases h2
  exact ⟨rfl, .inr rfl⟩

/-- A number where the mask is true and a smaller tensor elsewhere: `mask_fill` does not enlarge the tensor, the generated
code panics although ONNX broadcasts. -/
theorem C58_where_fill_panics :
    let c : Tensor Bool := ⟨[3], [true, false, true], rfl⟩
    let y : Tensor Int := ⟨[1], [5], rfl⟩
    Infer.where_ (.tensor ⟨.bool, 1, none⟩) (.scalarNative .f32) (.tensor ⟨.f32, 1, none⟩) = some (.tensor ⟨.f32, 1, none⟩) ∧
    (Onnx.whereT c ⟨[], [9], rfl⟩ y).map (·.data) = some [9, 5, 9] ∧
    (genWhere id (.tensor ⟨.f32, 1, none⟩) (.tensor ⟨.bool, 1, none⟩) (.scalarNative .f32) (.tensor ⟨.f32, 1, none⟩)
      (.dev c) (.native 9) (.dev y)).isNone := by
  decide +kernel

/-- An array as condition and tensors as branches: the array is written as an integer tensor, which does not compile as a mask. -/
theorem C58_where_array_condition_fails :
    (Infer.where_ (.shape 2) (.tensor ⟨.i64, 1, none⟩) (.tensor ⟨.i64, 1, none⟩)).isSome ∧
    ∀ (l : List Int) (x y : GVal Int), (genWhere id (.tensor ⟨.i64, 1, none⟩) (.shape 2) (.tensor ⟨.i64, 1, none⟩)
      (.tensor ⟨.i64, 1, none⟩) (.shape l) x y).isNone := by
  exact ⟨by decide, fun l x y => rfl⟩

/-- A vector of booleans chooses between two arrays: the generator panics. -/
theorem C58_where_vector_arrays_panics :
    Infer.where_ (.tensor ⟨.bool, 1, none⟩) (.shape 2) (.shape 2) = some (.shape 2) ∧
    ∀ (c : Tensor Bool) (lx ly : List Int), (genWhere (α := Int) id (.shape 2) (.tensor ⟨.bool, 1, none⟩) (.shape 2) (.shape 2)
      (.dev c) (.shape lx) (.shape ly)).isNone := by
  exact ⟨by decide, fun _ _ _ => rfl⟩

/-- Arrays of different lengths, which ONNX broadcasts: a whole one is chosen, which does not compile. -/
theorem C58_where_lengths_fails :
    Infer.where_ (.scalarNative .bool) (.shape 3) (.shape 1) = some (.shape 3) ∧
    (Onnx.whereT ⟨[], [false], rfl⟩ (⟨[3], [1, 2, 3], rfl⟩ : Tensor Int) ⟨[1], [7], rfl⟩).map (·.data) = some [7, 7, 7] ∧
    (genWhere (α := Int) id (.shape 3) (.scalarNative .bool) (.shape 3) (.shape 1) (.native false) (.shape [1, 2, 3])
      (.shape [7])).isNone := by
  exact ⟨by decide, by decide +kernel, by decide +kernel⟩

/-- Three scalars, the condition on the device: the inferred type is a vector, ONNX's result is a scalar, and the generated
code gives a vector of one element. -/
theorem C58_where_device_condition_wrong :
    Infer.where_ (.scalarTensor .bool) (.scalarNative .f32) (.scalarNative .f32) = some (.tensor ⟨.f32, 1, none⟩) ∧
    ∀ (x y : Int) (b : Bool) (Z : Tensor Int), Onnx.whereT ⟨[], [b], rfl⟩ ⟨[], [x], rfl⟩ ⟨[], [y], rfl⟩ = some Z →
      ∀ z, ¬ Reps id (.tensor ⟨.f32, 1, none⟩) z Z := by
  refine ⟨by decide, ?_⟩
  intro x y b Z hZ z hr
  obtain ⟨s, hs, rfl⟩ := Option.map_eq_some_iff.1 hZ
  have e : s = [] := by
    simp [bcastAll, bcastOnto, bcast_nil_left] at hs
    exact hs
  subst e
  cases z with
  | dev u => exact absurd hr.2.1 (by simp [Tensor.ofFn])
  | native k => exact hr.elim
  | shape l => exact hr.elim

/-! ### Sum and Mean -/

/-- No arrays, and all tensors (and scalars on the device) of one rank `r`. -/
structure SumOk (r : Nat) (tys : List ArgType) : Prop where
  shapes : ∀ n, ArgType.shape n ∉ tys
  ranks : ∀ ty ∈ tys, ty.isOnDevice = true → ty.rank = r

/-- What is known of a partial sum: a native number so far, or a tensor with dimensions of size one in front up to rank `r`. -/
inductive Partial (r : Nat) (tensors : Bool) : Bool → GVal α → Tensor α → Prop
  | native {x : α} {A : Tensor α} : A.shape = [] → A.data = [x] → tensors = false → Partial r tensors false (.native x) A
  | dev {u A : Tensor α} : PadOf A u r → (tensors = true → A.shape.length = r) → (tensors = false → A.shape = []) →
      Partial r tensors true (.dev u) A

theorem Partial.start {ofInt : Int → α} {r : Nat} {ty : ArgType} {v : GVal α} {T : Tensor α} (h : Reps ofInt ty v T)
    (hs : ∀ n, ty ≠ .shape n) (hr : ty.isOnDevice = true → ty.rank = r) : Partial r ty.isTensor ty.isOnDevice v T := by
  cases ty with
  | tensor t =>
    cases v with
    | dev u =>
      have hp := h.pad
      have hr := hr rfl
      exact .dev (by rw [← hr]; exact hp) (fun _ => by rw [h.2.1]; exact hr) (by simp [ArgType.isTensor])
    | native x => exact h.elim
    | shape l => exact h.elim
  | scalarTensor d =>
    cases v with
    | dev u =>
      have hp := h.pad
      have hr := hr rfl
      exact .dev (by rw [← hr]; exact hp) (by simp [ArgType.isTensor]) (fun _ => h.2.1)
    | native x => exact h.elim
    | shape l => exact h.elim
  | scalarNative d =>
    cases v with
    | native x => exact .native h.1 h.2 rfl
    | dev u => exact h.elim
    | shape l => exact h.elim
  | shape n => exact absurd rfl (hs n)

theorem Partial.plus {add : α → α → α} {r : Nat} {s t d e : Bool} {v w : GVal α} {A B Z : Tensor α} (hv : Partial r s d v A)
    (hw : Partial r t e w B) (hZ : Tensor.zipBcast add A B = some Z) : ∃ z, genPlus add v w = some z ∧
      Partial r (s || t) (d || e) z Z := by
  obtain ⟨o, ho, hZe⟩ := Option.map_eq_some_iff.1 hZ
  have hol := bcast_length ho
  have hZl : Z.shape.length = max A.shape.length B.shape.length := by rw [← hZe]; exact hol
  cases hv with
  | native a1 a2 a3 =>
    cases hw with
    | native b1 b2 b3 =>
      have := zip_scalar_left a1 a2 hZ
      subst this
      exact ⟨_, rfl, .native b1 (by show B.data.map _ = _; rw [b2]; rfl) (by simp [a3, b3])⟩
    | dev b1 b2 b3 =>
      have := zip_scalar_left a1 a2 hZ
      subst this
      exact ⟨_, rfl, .dev (b1.map _) (by rw [a3]; exact b2) (by rw [a3]; exact b3)⟩
  | dev a1 a2 a3 =>
    cases hw with
    | native b1 b2 b3 =>
      have := zip_scalar_right b1 b2 hZ
      subst this
      exact ⟨_, rfl, .dev (a1.map _) (by rw [b3, Bool.or_false]; exact a2) (by rw [b3, Bool.or_false]; exact a3)⟩
    | dev b1 b2 b3 =>
      obtain ⟨z, h1, h2⟩ := zip_padded a1 b1 hZ
      refine ⟨.dev z, by simp only [genPlus, h1, Option.map_some], .dev h2 ?_ ?_⟩
      · intro hst
        have l1 := a1.le
        have l2 := b1.le
        rw [hZl]
        cases s with
        | true => rw [a2 rfl]; omega
        | false =>
          rw [Bool.false_or] at hst
          rw [b2 hst]; omega
      · intro hst
        rw [Bool.or_eq_false_iff] at hst
        apply List.length_eq_zero_iff.1
        rw [hZl, a3 hst.1, b3 hst.2]; rfl

theorem Partial.fold {add : α → α → α} {ofInt : Int → α} {r : Nat} {tys : List ArgType} {vs : List (GVal α)} {Xs : List (Tensor α)}
    (h : RepsAll ofInt tys vs Xs) (hok : SumOk r tys) {s d : Bool} {v : GVal α} {A Z : Tensor α} (hv : Partial r s d v A)
    (hZ : Xs.foldlM (fun a b => Tensor.zipBcast add a b) A = some Z) :
    ∃ z, vs.foldlM (genPlus add) v = some z ∧ Partial r (s || tys.any (·.isTensor)) (d || tys.any (·.isOnDevice)) z Z := by
  induction h generalizing v A s d with
  | nil =>
    cases hZ
    exact ⟨v, rfl, by simpa using hv⟩
  | @cons ty tys w vs T Ts hr _ ih =>
    simp only [List.foldlM_cons] at hZ
    cases e : Tensor.zipBcast add A T with
    | none => rw [e] at hZ; cases hZ
    | some B =>
      rw [e] at hZ
      have hZ : Ts.foldlM (fun a b => Tensor.zipBcast add a b) B = some Z := hZ
      obtain ⟨u, h1, h2⟩ := hv.plus (Partial.start hr (fun n hn => hok.shapes n (by rw [hn]; simp)) (hok.ranks ty (by simp))) e
      obtain ⟨z, h3, h4⟩ := ih ⟨fun n hn => hok.shapes n (List.mem_cons_of_mem _ hn), fun t ht => hok.ranks t (List.mem_cons_of_mem _ ht)⟩
        h2 hZ
      refine ⟨z, ?_, by simpa [Bool.or_assoc] using h4⟩
      simp only [List.foldlM_cons, h1]
      exact h3

theorem Partial.all {add : α → α → α} {ofInt : Int → α} {r : Nat} {tys : List ArgType} {vs : List (GVal α)} {Xs : List (Tensor α)}
    {Z : Tensor α} (h : RepsAll ofInt tys vs Xs) (hok : SumOk r tys) (hZ : Onnx.sumT add Xs = some Z) :
    ∃ z, genSum add vs = some z ∧ Partial r (tys.any (·.isTensor)) (tys.any (·.isOnDevice)) z Z := by
  cases h with
  | nil => cases hZ
  | @cons ty tys w vs T Ts hr hrest =>
    obtain ⟨z, h1, h2⟩ := Partial.fold hrest
      ⟨fun n hn => hok.shapes n (List.mem_cons_of_mem _ hn), fun t ht => hok.ranks t (List.mem_cons_of_mem _ ht)⟩
      (Partial.start hr (fun n hn => hok.shapes n (by rw [hn]; simp)) (hok.ranks ty (by simp))) hZ
    exact ⟨z, h1, by simpa using h2⟩

theorem rank_le_broadcast {ty : ArgType} : ∀ {tys : List ArgType}, ty ∈ tys → ty.rank ≤ computeBroadcastRank tys := by
  have mono : ∀ (tys : List ArgType) (acc : Nat), acc ≤ tys.foldl (fun acc ty => match ty with
    | .tensor t => max acc t.rank
    | .scalarTensor _ => max acc 1
    | .scalarNative _ => acc
    | .shape _ => max acc 1) acc := by
    intro tys
    induction tys with
    | nil => intro acc; exact Nat.le_refl _
    | cons t tys ih =>
      intro acc
      refine Nat.le_trans ?_ (ih _)
      cases t <;> simp only <;> omega
  have key : ∀ (tys : List ArgType) (acc : Nat), ty ∈ tys → ty.rank ≤ tys.foldl (fun acc ty => match ty with
    | .tensor t => max acc t.rank
    | .scalarTensor _ => max acc 1
    | .scalarNative _ => acc
    | .shape _ => max acc 1) acc := by
    intro tys
    induction tys with
    | nil => intro acc h; simp at h
    | cons t tys ih =>
      intro acc h
      rcases List.mem_cons.1 h with rfl | h
      · refine Nat.le_trans ?_ (mono tys _)
        cases ty <;> simp only [ArgType.rank] <;> omega
      · exact ih _ h
  intro tys h
  exact key tys 0 h

theorem broadcast_rank_le {r : Nat} {tys : List ArgType} (h : ∀ ty ∈ tys, ty.rank ≤ r) : computeBroadcastRank tys ≤ r := by
  have key : ∀ (tys : List ArgType) (acc : Nat), acc ≤ r → (∀ ty ∈ tys, ty.rank ≤ r) → tys.foldl (fun acc ty => match ty with
    | .tensor t => max acc t.rank
    | .scalarTensor _ => max acc 1
    | .scalarNative _ => acc
    | .shape _ => max acc 1) acc ≤ r := by
    intro tys
    induction tys with
    | nil => intro acc ha _; exact ha
    | cons t tys ih =>
      intro acc ha h
      refine ih _ ?_ fun ty hty => h ty (List.mem_cons_of_mem _ hty)
      have ht := h t (by simp)
      cases t <;> simp only [ArgType.rank] at ht ⊢ <;> omega
  exact key tys 0 (Nat.zero_le _) h

/-- The result type of Sum and Mean. -/
theorem sum_out {r : Nat} {tys : List ArgType} {ot : ArgType} (hok : SumOk r tys)
    (hp : ∀ t, ArgType.tensor t ∈ tys → 1 ≤ t.rank) (h : broadcastOutputType tys none = some ot) :
    (tys.any (·.isTensor) = true ∧ 1 ≤ r ∧ ∃ t, ot = .tensor t ∧ t.rank = r) ∨
    (tys.any (·.isTensor) = false ∧ tys.any (·.isOnDevice) = true ∧ r = 1 ∧ ∃ d, ot = .scalarTensor d) ∨
    (tys.any (·.isOnDevice) = false ∧ ∃ d, ot = .scalarNative d) := by
  have hns : tys.findSome? ArgType.shapeLen? = none := by
    rw [List.findSome?_eq_none_iff]
    intro ty hty
    cases ty with
    | shape n => exact absurd hty (hok.shapes n)
    | _ => rfl
  have hle : ∀ {r' : Nat}, r ≤ r' → computeBroadcastRank tys ≤ r' := by
    intro r' hr'
    refine broadcast_rank_le fun ty hty => ?_
    cases e : ty.isOnDevice with
    | true => rw [hok.ranks ty hty e]; exact hr'
    | false => cases ty <;> simp_all [ArgType.isOnDevice, ArgType.rank, hok.shapes]
  unfold broadcastOutputType at h
  simp only [hns, Option.isSome_none, Bool.and_false, Bool.false_eq_true, if_false] at h
  obtain ⟨d, _, rfl⟩ := Option.map_eq_some_iff.1 h
  have hrank : tys.any (·.isOnDevice) = true → computeBroadcastRank tys = r := by
    intro hd
    obtain ⟨ty, h1, h2⟩ := List.any_eq_true.1 hd
    have := rank_le_broadcast h1
    rw [hok.ranks ty h1 h2] at this
    have := hle (Nat.le_refl r)
    omega
  cases ht : tys.any (·.isTensor) with
  | true =>
    obtain ⟨ty, h1, h2⟩ := List.any_eq_true.1 ht
    cases ty with
    | tensor t =>
      have hr := hok.ranks _ h1 rfl
      have h1p := hp t h1
      have hr' : t.rank = r := hr
      rw [hrank (List.any_eq_true.2 ⟨_, h1, rfl⟩), if_neg (by omega), if_neg (by simp)]
      exact .inl ⟨rfl, by omega, _, rfl, rfl⟩
    | _ => simp [ArgType.isTensor] at h2
  | false =>
    right
    cases hd : tys.any (·.isOnDevice) with
    | true =>
      left
      obtain ⟨ty, h1, h2⟩ := List.any_eq_true.1 hd
      have hr := hok.ranks _ h1 h2
      cases ty with
      | tensor t =>
        have : tys.any (·.isTensor) = true := List.any_eq_true.2 ⟨_, h1, rfl⟩
        rw [this] at ht; cases ht
      | scalarTensor e =>
        have hr' : 1 = r := hr
        rw [hrank hd, ← hr']
        exact ⟨rfl, rfl, rfl, d, by simp⟩
      | scalarNative e => simp [ArgType.isOnDevice] at h2
      | shape n => simp [ArgType.isOnDevice] at h2
    | false =>
      right
      have h0 : computeBroadcastRank tys ≤ 0 := by
        refine broadcast_rank_le fun ty hty => ?_
        have := List.any_eq_false.1 hd ty hty
        cases ty with
        | shape n => exact absurd hty (hok.shapes n)
        | scalarNative e => simp [ArgType.rank]
        | _ => simp [ArgType.isOnDevice] at this
      rw [if_pos (by omega)]
      exact ⟨rfl, d, rfl⟩

theorem RepsAll.rank_pos {ofInt : Int → α} {tys : List ArgType} {vs : List (GVal α)} {Xs : List (Tensor α)}
    (h : RepsAll ofInt tys vs Xs) : ∀ t, ArgType.tensor t ∈ tys → 1 ≤ t.rank := by
  induction h with
  | nil => simp
  | cons hr _ ih =>
    intro t ht
    rcases List.mem_cons.1 ht with e | ht
    · exact hr.rank_pos t e.symm
    · exact ih t ht

theorem Partial.reps {ofInt : Int → α} {r : Nat} {tys : List ArgType} {ot : ArgType} {z : GVal α} {Z : Tensor α} (hok : SumOk r tys)
    (hp : ∀ t, ArgType.tensor t ∈ tys → 1 ≤ t.rank) (ho : broadcastOutputType tys none = some ot)
    (h : Partial r (tys.any (·.isTensor)) (tys.any (·.isOnDevice)) z Z) : Reps ofInt ot z Z := by
  have hto : tys.any (·.isTensor) = true → tys.any (·.isOnDevice) = true := by
    intro ht
    obtain ⟨ty, h1, h2⟩ := List.any_eq_true.1 ht
    refine List.any_eq_true.2 ⟨ty, h1, ?_⟩
    cases ty <;> simp_all [ArgType.isTensor, ArgType.isOnDevice]
  rcases sum_out hok hp ho with ⟨h1, h2, t, rfl, h3⟩ | ⟨h1, h2, rfl, d, rfl⟩ | ⟨h1, d, rfl⟩
  · rw [hto h1, h1] at h
    cases h with
    | dev a1 a2 a3 => exact ⟨a1.eq (a2 rfl), by rw [a2 rfl, h3], by omega⟩
  · rw [h1, h2] at h
    cases h with
    | dev a1 a2 a3 =>
      have := a3 rfl
      exact ⟨by rw [a1.shape, this]; rfl, this, a1.data⟩
  · rw [h1] at h
    cases h with
    | native a1 a2 a3 => exact ⟨a1, a2⟩

/-- Sum of any number of inputs of one rank (native scalars may be among them): the generated code computes the broadcast sum
at the inferred type. -/
theorem C58_sum_partial {add : α → α → α} {ofInt : Int → α} {r : Nat} {tys : List ArgType} {ot : ArgType} {vs : List (GVal α)}
    {Xs : List (Tensor α)} {Z : Tensor α} (h : RepsAll ofInt tys vs Xs) (hok : SumOk r tys)
    (ho : broadcastOutputType tys none = some ot) (hZ : Onnx.sumT add Xs = some Z) :
    ∃ z, genSum add vs = some z ∧ Reps ofInt ot z Z := by
  obtain ⟨z, h1, h2⟩ := Partial.all h hok hZ
  exact ⟨z, h1, h2.reps hok h.rank_pos ho⟩

/-- Mean, likewise, with at least one input on the device. -/
theorem C58_mean_partial {add : α → α → α} {divCount : α → Nat → α} {ofInt : Int → α} {r : Nat} {tys : List ArgType} {ot : ArgType}
    {vs : List (GVal α)} {Xs : List (Tensor α)} {Z : Tensor α} (h : RepsAll ofInt tys vs Xs) (hok : SumOk r tys)
    (hd : tys.any (·.isOnDevice) = true) (ho : broadcastOutputType tys none = some ot) (hZ : Onnx.sumT add Xs = some Z) :
    ∃ z, genMean add divCount vs = some z ∧ Reps ofInt ot z (Z.map (divCount · Xs.length)) := by
  obtain ⟨z, h1, h2⟩ := Partial.all h hok hZ
  have hl := h.length.2
  rw [hd] at h2
  cases h2 with
  | @dev u _ a1 a2 a3 =>
    refine ⟨.dev (u.map (divCount · vs.length)), by simp only [genMean, h1, Option.bind_some], ?_⟩
    rw [hl]
    refine Partial.reps hok h.rank_pos ho ?_
    rw [hd]
    exact .dev (a1.map _) a2 a3

/-- A matrix, a row of shape `[1, 2]` and a native number. -/
example : ∃ z, genMean (· + ·) (fun (a : Int) n => a / n) [.dev (⟨[2, 2], [1, 2, 3, 4], rfl⟩ : Tensor Int), .dev ⟨[1, 2], [6, 7], rfl⟩, .native 2] = some z ∧
    Reps id (.tensor ⟨.f32, 2, none⟩) z ⟨[2, 2], [3, 3, 3, 4], rfl⟩ :=
  C58_mean_partial (ofInt := id) (ot := .tensor ⟨.f32, 2, none⟩) (add := (· + ·)) (r := 2)
    (vs := [.dev ⟨[2, 2], [1, 2, 3, 4], rfl⟩, .dev ⟨[1, 2], [6, 7], rfl⟩, .native 2]) (tys := [.tensor ⟨.f32, 2, none⟩, .tensor ⟨.f32, 2, none⟩, .scalarNative .f32])
    (Xs := [⟨[2, 2], [1, 2, 3, 4], rfl⟩, ⟨[1, 2], [6, 7], rfl⟩, ⟨[], [2], rfl⟩]) (Z := ⟨[2, 2], [9, 11, 11, 13], rfl⟩)
    (.cons ⟨rfl, rfl, by decide⟩ (.cons ⟨rfl, rfl, by decide⟩ (.cons ⟨rfl, rfl⟩ .nil)))
    ⟨by simp, by simp [ArgType.isOnDevice, ArgType.rank]⟩ (by decide) (by decide +kernel) (by decide +kernel)

/-- Tensors of different ranks are added without alignment, which does not compile although Sum broadcasts. -/
theorem C58_sum_ranks_fails :
    (broadcastOutputType [.tensor ⟨.f32, 2, none⟩, .tensor ⟨.f32, 1, none⟩] none).isSome ∧
    (Onnx.sumT (· + ·) [(⟨[2, 2], [1, 2, 3, 4], rfl⟩ : Tensor Int), ⟨[2], [5, 6], rfl⟩]).map (·.data) = some [6, 8, 8, 10] ∧
    (genSum (· + ·) [.dev (⟨[2, 2], [1, 2, 3, 4], rfl⟩ : Tensor Int), .dev ⟨[2], [5, 6], rfl⟩]).isNone := by
  exact ⟨by decide, by decide +kernel, by decide +kernel⟩

/-- The mean of native numbers divides by a `u32`, which does not compile. -/
theorem C58_mean_natives_fails : ∀ x y : Int,
    broadcastOutputType [.scalarNative .f32, .scalarNative .f32] none = some (.scalarNative .f32) ∧
    (genMean (· + ·) (fun (a : Int) n => a / n) [.native x, .native y]).isNone := fun _ _ => ⟨by decide, rfl⟩

/-! ### Clip -/

/-- The bound of a Clip node, as ONNX sees it. -/
def Gen.ClipBound.val : ClipBound α → Option α
  | .fixed x => some x
  | .runtime => none

/-- Clip of a tensor or scalar on the device with constant bounds in order, at least one given: every element is clipped, the
type stays. `le` is any total order. -/
theorem C58_clip_partial {le : α → α → Bool} {ofInt : Int → α} {ty : ArgType} {v : GVal α} {X : Tensor α} {lo hi : Option α}
    (hd : ty.isOnDevice = true) (h : Reps ofInt ty v X) (hsome : lo.isSome ∨ hi.isSome)
    (hord : ∀ l h, lo = some l → hi = some h → le l h = true) :
    ∃ z, genClip le (lo.map .fixed) (hi.map .fixed) v = some z ∧ Reps ofInt ty z (X.map (Onnx.clipElem le lo hi)) := by
  have key : ∃ u, v = .dev u := by
    cases v with
    | dev u => exact ⟨u, rfl⟩
    | native x => cases ty <;> first | exact h.elim | simp [ArgType.isOnDevice] at hd
    | shape l => cases ty <;> first | exact h.elim | simp [ArgType.isOnDevice] at hd
  obtain ⟨u, rfl⟩ := key
  have fin : ∀ f : α → α, Reps ofInt ty (.dev (u.map f)) (X.map f) := by
    intro f
    cases ty with
    | tensor t => obtain ⟨rfl, h1, h2⟩ := h; exact ⟨rfl, h1, h2⟩
    | scalarTensor d =>
      obtain ⟨h1, h2, h3⟩ := h
      exact ⟨h1, h2, by show u.data.map f = X.data.map f; rw [h3]⟩
    | scalarNative d => exact h.elim
    | shape n => exact h.elim
  have eq : ∀ f g : α → α, (∀ x, f x = g x) → Reps ofInt ty (.dev (u.map f)) (X.map g) := by
    intro f g hfg
    have : f = g := funext hfg
    rw [this]; exact fin g
  cases lo with
  | some l =>
    cases hi with
    | some b =>
      refine ⟨_, rfl, eq _ _ fun x => ?_⟩
      have hlb := hord l b rfl rfl
      simp only [Onnx.clipElem]
      by_cases h1 : le l x = true
      · simp [h1]
      · simp [h1, hlb]
    | none => exact ⟨_, rfl, eq _ _ fun x => rfl⟩
  | none =>
    cases hi with
    | some b => exact ⟨_, rfl, eq _ _ fun x => rfl⟩
    | none => simp at hsome

example : ∃ z, genClip (fun a b => decide (a ≤ b)) (some (.fixed 0)) (some (.fixed 6)) (.dev (⟨[3], [-1, 4, 9], rfl⟩ : Tensor Int)) = some z ∧
    Reps id (.tensor ⟨.f32, 1, none⟩) z ⟨[3], [0, 4, 6], rfl⟩ :=
  C58_clip_partial (ofInt := id) (le := fun a b => decide (a ≤ b)) (ty := .tensor ⟨.f32, 1, none⟩) (v := .dev ⟨[3], [-1, 4, 9], rfl⟩)
    (lo := some 0) (hi := some 6) (X := ⟨[3], [-1, 4, 9], rfl⟩) rfl ⟨rfl, rfl, by decide⟩ (.inl rfl)
    (by intro l h h1 h2; cases h1; cases h2; decide)

/-- A bound that is not a constant panics, and so does Clip without bounds, which ONNX allows (the identity). -/
theorem C58_clip_panics (le : α → α → Bool) (v : GVal α) (b : Option (ClipBound α)) :
    (genClip le (some .runtime) b v).isNone ∧ (genClip le b (some .runtime) v).isNone ∧ (genClip le none none v).isNone := by
  refine ⟨?_, ?_, ?_⟩
  · cases v <;> cases b <;> rfl
  · cases v <;> rcases b with _ | ⟨x | _⟩ <;> rfl
  · cases v <;> rfl

/-- A native scalar cannot be clipped: the type inference passes it on, the generated call does not compile. -/
theorem C58_clip_native_fails (le : α → α → Bool) (x : α) (lo hi : Option (ClipBound α)) :
    (genClip le lo hi (.native x)).isNone := rfl

/-! ### Pow -/

theorem powCode_computes {pow : α → α → α} {ofInt : Int → α} (i f : Bool) :
    (powCode pow i f).Computes pow ofInt ofInt fun _ _ => True where
  method _ _ := rfl
  devNative := by simp [powCode]
  nativeDev := by simp only [powCode]; intro g hg a b; split at hg <;> simp_all
  natives := by simp only [powCode]; intro g hg a b; split at hg <;> simp_all
  shapes := by simp [powCode]
  shapeScalar := by simp [powCode]
  scalarShape := by simp [powCode]

/-- Pow on tensors and scalars of any shapes: ONNX's broadcast power at the inferred type. A native base with an integer
exponent has to be a float; arrays are not supported. -/
theorem C58_pow_partial {pow : α → α → α} {ofInt : Int → α} {toInt : α → Int} {i f : Bool} {lt rt ot : ArgType} {x y : GVal α}
    {X Y Z : Tensor α} (hx : Reps ofInt lt x X) (hy : Reps ofInt rt y Y) (hl : ∀ n, lt ≠ .shape n) (hr : ∀ n, rt ≠ .shape n)
    (hb : (i = true → f = true) ∨ lt.isOnDevice = true)
    (hZ : Tensor.zipBcast pow X Y = some Z) (ho : broadcastOutputType [lt, rt] none = some ot) :
    ∃ z, genBinary ofInt toInt (powCode pow i f) lt rt x y = some z ∧ Reps ofInt ot z Z := by
  refine C55_binary_partial (powCode_computes i f) hx hy ?_ ?_ hZ ho ?_
  · rintro ⟨l, rfl | rfl⟩
    · cases lt <;> first | exact hx.elim | exact absurd rfl (hl _)
    · cases rt <;> first | exact hy.elim | exact absurd rfl (hr _)
  · cases x with
    | shape l => cases lt <;> first | exact hx.elim | exact absurd rfl (hl _)
    | dev u =>
      cases y with
      | shape l => cases rt <;> first | exact hy.elim | exact absurd rfl (hr _)
      | _ => trivial
    | native u =>
      cases y with
      | shape l => cases rt <;> first | exact hy.elim | exact absurd rfl (hr _)
      | _ => trivial
  · cases lt <;> cases rt <;> first | exact absurd rfl (hl _) | exact absurd rfl (hr _) | skip
    all_goals first
      | trivial
      | exact .inl rfl
      | (simp only [BinCode.Handles, powCode]
         rcases hb with hb | hb
         · cases i <;> simp_all
         · simp [ArgType.isOnDevice] at hb)

end OnnxIR
