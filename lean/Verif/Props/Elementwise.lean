import Verif.Model.Elementwise
import Verif.Props.MatMul
import Verif.Props.Broadcast

/-!
# C55: generated code of binary element-wise operators computes ONNX's broadcast operator
-/

namespace OnnxIR

open Gen

variable {α β : Type} [Inhabited α]

/-! ### Padding with dimensions of size one -/

theorem indices_pad (n : Nat) (s : List Nat) :
    indices (List.replicate n 1 ++ s) = (indices s).map (List.replicate n 0 ++ ·) := by
  induction n with
  | zero => simp
  | succ n ih =>
    simp only [List.replicate_succ, List.cons_append, indices, ih, List.range_one, List.flatMap_cons,
      List.flatMap_nil, List.append_nil, List.map_map]
    rfl

/-- `u` is `T` with dimensions of size one in front, up to rank `r`. -/
structure PadOf (T u : Tensor α) (r : Nat) : Prop where
  le : T.shape.length ≤ r
  shape : u.shape = List.replicate (r - T.shape.length) 1 ++ T.shape
  data : u.data = T.data

theorem PadOf.refl (T : Tensor α) : PadOf T T T.shape.length := ⟨Nat.le_refl _, by simp, rfl⟩

theorem PadOf.length {T u : Tensor α} {r : Nat} (h : PadOf T u r) : u.shape.length = r := by
  rw [h.shape]; simp; have := h.le; omega

theorem PadOf.get {T u : Tensor α} {r : Nat} (h : PadOf T u r) (i : List Nat) :
    u.get (List.replicate (r - T.shape.length) 0 ++ i) = T.get i := by
  unfold Tensor.get
  rw [h.shape, h.data, flatIdx_pad]

theorem PadOf.more {T u : Tensor α} {r n : Nat} (h : PadOf T u r) :
    ∃ v, Burn.unsqueezeFront u n = some v ∧ PadOf T v (r + n) := by
  have hs := h.shape
  have hd := h.data
  have hl := h.le
  unfold Burn.unsqueezeFront Burn.reshape
  rw [dif_pos (by rw [prodShape_append, prodShape_replicate_one, Nat.one_mul])]
  refine ⟨_, rfl, by omega, ?_, hd⟩
  simp only [hs, ← List.append_assoc, List.replicate_append_replicate]
  congr 2
  omega

theorem proj_drop_pad {s j : List Nat} (n : Nat) (h : s.length ≤ j.length) :
    proj s (List.replicate n 0 ++ j) = proj s j := by
  unfold proj
  congr 1
  rw [List.reverse_append]
  have e : j.reverse = j.reverse.take s.length ++ j.reverse.drop s.length := (List.take_append_drop _ _).symm
  have hl : (j.reverse.take s.length).length = s.reverse.length := by simp; omega
  rw [e, List.append_assoc, projRev_append hl, projRev_append hl]

theorem pad_zero (n : Nat) (s i : List Nat) (h : InRange (List.replicate n 1 ++ s) i) :
    ∃ j, i = List.replicate n 0 ++ j ∧ InRange s j := by
  have hm := mem_indices.2 h
  rw [indices_pad] at hm
  obtain ⟨j, hj, rfl⟩ := List.mem_map.1 hm
  exact ⟨j, rfl, mem_indices.1 hj⟩

/-- Operands with dimensions of size one in front give the result with dimensions of size one in front. -/
theorem zip_padded {f : α → α → β} {X Y x y : Tensor α} {Z : Tensor β} {r : Nat} (hx : PadOf X x r)
    (hy : PadOf Y y r) (hZ : Tensor.zipBcast f X Y = some Z) :
    ∃ z, Burn.zip f x y = some z ∧ PadOf Z z r := by
  obtain ⟨s, hs, rfl⟩ := Option.map_eq_some_iff.1 hZ
  have hsl := bcast_length hs
  have h1 := hx.le
  have h2 := hy.le
  have hb : bcast x.shape y.shape = some (List.replicate (r - s.length) 1 ++ s) := by
    have e1 := bcast_pad hs (r - X.shape.length) (by omega)
    rw [bcast_comm] at e1
    have e2 := bcast_pad e1 (r - Y.shape.length) (by simp; omega)
    rw [bcast_comm] at e2
    rw [hx.shape, hy.shape, e2]
    have : Y.shape.length + (r - Y.shape.length) -
        (List.replicate (X.shape.length + (r - X.shape.length) - s.length) 1 ++ s).length = 0 := by
      simp; omega
    rw [this]
    simp only [List.replicate_zero, List.nil_append]
    congr 3
    omega
  unfold Burn.zip
  rw [if_pos (by rw [hx.length, hy.length])]
  unfold Tensor.zipBcast
  rw [hb]
  refine ⟨_, rfl, by simp only [Tensor.ofFn]; omega, by simp only [Tensor.ofFn], ?_⟩
  simp only [Tensor.ofFn, indices_pad, List.map_map]
  apply List.map_congr_left
  intro j hj
  have hjr := mem_indices.1 hj
  have hjl := hjr.length
  simp only [Function.comp]
  have key : ∀ {T u : Tensor α}, PadOf T u r → T.shape.length ≤ s.length →
      u.get (proj u.shape (List.replicate (r - s.length) 0 ++ j)) = T.get (proj T.shape j) := by
    intro T u h hl
    have hle := h.le
    rw [h.shape, proj_ones (by simp; omega), h.get, proj_drop_pad _ (by omega)]
  rw [key hx (by omega), key hy (by omega)]

/-! ### Values of one kind -/

theorem get_scalar {T : Tensor α} {x : α} (hs : T.shape = []) (hd : T.data = [x]) (i : List Nat) : T.get i = x := by
  simp [Tensor.get, hs, hd, flatIdx]

theorem map_data_get (u : Tensor α) (g : α → β) : (u.map g).data = (indices u.shape).map fun i => g (u.get i) := by
  show u.data.map g = _
  rw [u.data_eq, List.map_map]
  rfl

/-- A scalar on the right. -/
theorem zip_scalar_right {f : α → α → β} {X Y : Tensor α} {Z : Tensor β} {b : α} (hs : Y.shape = []) (hd : Y.data = [b])
    (h : Tensor.zipBcast f X Y = some Z) : Z = X.map fun a => f a b := by
  unfold Tensor.zipBcast at h
  rw [hs, bcast_nil_right] at h
  cases h
  refine Tensor.ext rfl ?_
  rw [map_data_get]
  simp only [Tensor.ofFn]
  apply List.map_congr_left
  intro i hi
  rw [get_scalar hs hd, proj_self (mem_indices.1 hi)]

/-- A scalar on the left. -/
theorem zip_scalar_left {f : α → α → β} {X Y : Tensor α} {Z : Tensor β} {a : α} (hs : X.shape = []) (hd : X.data = [a])
    (h : Tensor.zipBcast f X Y = some Z) : Z = Y.map fun b => f a b := by
  unfold Tensor.zipBcast at h
  rw [hs, bcast_nil_left] at h
  cases h
  refine Tensor.ext rfl ?_
  rw [map_data_get]
  simp only [Tensor.ofFn]
  apply List.map_congr_left
  intro i hi
  rw [get_scalar hs hd, proj_self (mem_indices.1 hi)]

theorem bcastRev_self (s : List Nat) : bcastRev s s = some s := by
  induction s with
  | nil => rfl
  | cons d s ih => simp [bcastRev, ih]

theorem zip_same {f : α → α → β} {X Y : Tensor α} {Z : Tensor β} (hs : X.shape = Y.shape)
    (h : Tensor.zipBcast f X Y = some Z) : Z.shape = X.shape ∧ Z.data = List.zipWith f X.data Y.data := by
  unfold Tensor.zipBcast at h
  rw [← hs] at h
  have : bcast X.shape X.shape = some X.shape := by simp [bcast, bcastRev_self]
  rw [this] at h
  cases h
  refine ⟨rfl, ?_⟩
  rw [X.data_eq, Y.data_eq, ← hs]
  simp only [Tensor.ofFn, List.zipWith_map, List.zipWith_self]
  apply List.map_congr_left
  intro i hi
  rw [proj_self (mem_indices.1 hi)]

theorem zipInto_eq {g : Int → Int → Int} : ∀ {l r : List Int}, l.length = r.length → zipInto g l r = List.zipWith g l r
  | [], [], _ => rfl
  | [], _ :: _, h => by simp at h
  | _ :: _, [], h => by simp at h
  | a :: l, b :: r, h => by simp only [zipInto, List.zipWith]; rw [zipInto_eq (by simpa using h)]

/-! ### The specification -/

/-- What each arm of the generated code has to compute for the operator's function `f` on elements. `ok` restricts the
items of arrays (no overflow, no division by zero). -/
structure Gen.BinCode.Computes (c : BinCode α β) (f : α → α → β) (ofInt : Int → α) (ofInt' : Int → β) (ok : Int → Int → Prop) :
    Prop where
  method : ∀ a b, c.method a b = f a b
  devNative : ∀ g ∈ c.devNative, ∀ a b, g a b = f a b
  nativeDev : ∀ g ∈ c.nativeDev, ∀ a b, g a b = f a b
  natives : ∀ g ∈ c.natives, ∀ a b, g a b = f a b
  shapes : ∀ g ∈ c.shapes, ∀ a b, ok a b → ofInt' (g a b) = f (ofInt a) (ofInt b)
  shapeScalar : ∀ g ∈ c.shapeScalar, ∀ a s, ok a s → ofInt' (g a s) = f (ofInt a) (ofInt s)
  scalarShape : ∀ g ∈ c.scalarShape, ∀ s a, ok s a → ofInt' (g s a) = f (ofInt s) (ofInt a)

/-- The combinations of argument types for which the generator has an arm that fits the inferred type. -/
def Gen.BinCode.Handles (c : BinCode α β) : ArgType → ArgType → Prop
  | .tensor s, .tensor t => c.aligned = true ∨ s.rank = t.rank
  | .tensor s, .scalarTensor _ => c.aligned = true ∨ s.rank = 1
  | .scalarTensor _, .tensor t => c.aligned = true ∨ t.rank = 1
  | .scalarTensor _, .scalarTensor _ => True
  | .tensor _, .scalarNative _ => c.devNative.isSome
  | .scalarTensor _, .scalarNative _ => c.devNative.isSome
  | .scalarNative _, .tensor _ => c.nativeDev.isSome
  | .scalarNative _, .scalarTensor _ => c.nativeDev.isSome
  | .scalarNative _, .scalarNative _ => c.natives.isSome
  | .shape m, .shape n => c.shapes.isSome ∧ m = n
  | .shape _, .scalarNative _ => c.shapeScalar.isSome
  | .shape _, .scalarTensor _ => c.shapeScalar.isSome
  | .scalarNative _, .shape _ => c.scalarShape.isSome
  | .scalarTensor _, .shape _ => c.scalarShape.isSome
  | .shape _, .tensor t => c.shapeDev = true ∧ t.rank = 1
  | .tensor t, .shape _ => c.shapeDev = true ∧ t.rank = 1

/-- The items that meet in an array arm: all pairs of items of arrays and of scalars that meet arrays. -/
def ItemsOk (toInt : α → Int) (ok : Int → Int → Prop) (x y : GVal α) (X Y : Tensor α) : Prop :=
  match x, y with
  | .shape l, .shape r => ∀ p ∈ l.zip r, ok p.1 p.2
  | .shape l, _ => ∀ a ∈ l, ∀ s ∈ Y.data, ok a (toInt s)
  | _, .shape r => ∀ s ∈ X.data, ∀ b ∈ r, ok (toInt s) b
  | _, _ => True

theorem Reps.pad {ofInt : Int → α} {ty : ArgType} {u T : Tensor α} (h : Reps ofInt ty (.dev u) T) : PadOf T u ty.rank := by
  cases ty with
  | tensor t => obtain ⟨rfl, h1, _⟩ := h; rw [show (ArgType.tensor t).rank = u.shape.length from h1.symm]; exact PadOf.refl u
  | scalarTensor d =>
    obtain ⟨h1, h2, h3⟩ := h
    exact ⟨by simp [h2], by simp [h1, h2, ArgType.rank], h3⟩
  | scalarNative d => exact h.elim
  | shape n => exact h.elim

omit [Inhabited α] in
theorem PadOf.eq {T u : Tensor α} {r : Nat} (h : PadOf T u r) (hr : T.shape.length = r) : u = T :=
  Tensor.ext (by rw [h.shape, hr]; simp) h.data

theorem genAligned_ok {c : BinCode α β} {f : α → α → β} (hm : ∀ a b, c.method a b = f a b) {lr rr : Nat} {X Y u v : Tensor α}
    {Z : Tensor β} (hx : PadOf X u lr) (hy : PadOf Y v rr) (ha : c.aligned = true ∨ lr = rr)
    (hZ : Tensor.zipBcast f X Y = some Z) : ∃ z, genAligned c lr rr u v = some z ∧ PadOf Z z (max lr rr) := by
  have hf : c.method = f := funext fun a => funext fun b => hm a b
  unfold genAligned
  rw [hf]
  by_cases h : lr = rr
  · rw [if_pos (Or.inl h)]
    subst h
    rw [Nat.max_self]
    exact zip_padded hx hy hZ
  · have ha := ha.resolve_right h
    rw [if_neg (by simp [h, ha])]
    by_cases hl : rr < lr
    · rw [if_pos hl]
      obtain ⟨v', h1, h2⟩ := hy.more (n := lr - rr)
      rw [h1, show max lr rr = lr by omega]
      rw [show rr + (lr - rr) = lr by omega] at h2
      exact zip_padded hx h2 hZ
    · rw [if_neg hl]
      obtain ⟨u', h1, h2⟩ := hx.more (n := rr - lr)
      rw [h1, show max lr rr = rr by omega]
      rw [show lr + (rr - lr) = rr by omega] at h2
      exact zip_padded h2 hy hZ

theorem intoScalar_ok {ofInt : Int → α} {d : DType} {u T : Tensor α} (h : Reps ofInt (.scalarTensor d) (.dev u) T) :
    ∃ x, T.shape = [] ∧ T.data = [x] ∧ Burn.intoScalar u = some x ∧ u.shape = [1] ∧ u.data = [x] := by
  obtain ⟨h1, h2, h3⟩ := h
  have hl := T.size
  rw [h2] at hl
  match hd : T.data, hl with
  | [x], _ => exact ⟨x, h2, rfl, by simp [Burn.intoScalar, h3, hd], h1, by rw [h3, hd]⟩
  | [], h => simp [prodShape] at h
  | _ :: _ :: _, h => simp [prodShape] at h

/-- The type inferred for the result, by kinds of the arguments. -/
inductive OutKind : ArgType → ArgType → ArgType → Prop
  | tensors {lt rt : ArgType} {o : TensorType} : lt.isTensor = true ∨ rt.isTensor = true → o.rank = max lt.rank rt.rank →
      OutKind lt rt (.tensor o)
  | shapeLeft {n : Nat} {rt : ArgType} : rt.isTensor = false → OutKind (.shape n) rt (.shape n)
  | shapeRight {lt : ArgType} {n : Nat} : lt.isScalar = true → OutKind lt (.shape n) (.shape n)
  | natives {d e o : DType} : OutKind (.scalarNative d) (.scalarNative e) (.scalarNative o)
  | scalars {lt rt : ArgType} {o : DType} : lt.isScalar = true → rt.isScalar = true →
      lt.isOnDevice = true ∨ rt.isOnDevice = true → OutKind lt rt (.scalarTensor o)

theorem outKind {lt rt ot : ArgType} {od : Option DType} (h : broadcastOutputType [lt, rt] od = some ot)
    (hl : ∀ t, lt = .tensor t → 1 ≤ t.rank) (hr : ∀ t, rt = .tensor t → 1 ≤ t.rank) : OutKind lt rt ot := by
  cases lt with
  | tensor s =>
    have := hl s rfl
    cases rt with
    | tensor t =>
      simp only [broadcastOutputType, List.any_cons, ArgType.isTensor, Bool.true_or, Bool.not_true, Bool.false_and,
        computeBroadcastRank, List.foldl_cons, List.foldl_nil] at h
      rw [if_neg (by simp)] at h
      obtain ⟨d, _, rfl⟩ := Option.map_eq_some_iff.1 h
      rw [if_neg (by omega), if_neg (by simp)]
      exact .tensors (.inl rfl) (by simp [ArgType.rank])
    | _ =>
      simp only [broadcastOutputType, List.any_cons, ArgType.isTensor, Bool.true_or, Bool.not_true, Bool.false_and,
        computeBroadcastRank, List.foldl_cons, List.foldl_nil] at h
      rw [if_neg (by simp)] at h
      obtain ⟨d, _, rfl⟩ := Option.map_eq_some_iff.1 h
      rw [if_neg (by omega), if_neg (by simp)]
      exact .tensors (.inl rfl) (by simp [ArgType.rank])
  | shape n =>
    cases rt with
    | tensor t =>
      have := hr t rfl
      simp only [broadcastOutputType, List.any_cons, ArgType.isTensor, Bool.true_or, Bool.false_or, Bool.not_true, Bool.false_and,
        computeBroadcastRank, List.foldl_cons, List.foldl_nil] at h
      rw [if_neg (by simp)] at h
      obtain ⟨d, _, rfl⟩ := Option.map_eq_some_iff.1 h
      rw [if_neg (by omega), if_neg (by simp)]
      exact .tensors (.inr rfl) (by simp [ArgType.rank])
    | _ =>
      have h : some (ArgType.shape n) = some ot := h
      cases h
      exact .shapeLeft rfl
  | scalarTensor d =>
    cases rt with
    | tensor t =>
      have := hr t rfl
      simp only [broadcastOutputType, List.any_cons, ArgType.isTensor, Bool.true_or, Bool.false_or, Bool.not_true, Bool.false_and,
        computeBroadcastRank, List.foldl_cons, List.foldl_nil] at h
      rw [if_neg (by simp)] at h
      obtain ⟨d, _, rfl⟩ := Option.map_eq_some_iff.1 h
      rw [if_neg (by omega), if_neg (by simp)]
      exact .tensors (.inr rfl) (by simp [ArgType.rank])
    | shape n =>
      have h : some (ArgType.shape n) = some ot := h
      cases h
      exact .shapeRight rfl
    | scalarTensor e =>
      simp [broadcastOutputType, ArgType.isTensor, ArgType.shapeLen?, computeBroadcastRank] at h
      obtain ⟨o, _, rfl⟩ := h
      exact .scalars rfl rfl (.inl rfl)
    | scalarNative e =>
      simp [broadcastOutputType, ArgType.isTensor, ArgType.shapeLen?, computeBroadcastRank] at h
      obtain ⟨o, _, rfl⟩ := h
      exact .scalars rfl rfl (.inl rfl)
  | scalarNative d =>
    cases rt with
    | tensor t =>
      have := hr t rfl
      simp only [broadcastOutputType, List.any_cons, ArgType.isTensor, Bool.true_or, Bool.false_or, Bool.not_true, Bool.false_and,
        computeBroadcastRank, List.foldl_cons, List.foldl_nil] at h
      rw [if_neg (by simp)] at h
      obtain ⟨d, _, rfl⟩ := Option.map_eq_some_iff.1 h
      rw [if_neg (by omega), if_neg (by simp)]
      exact .tensors (.inr rfl) (by simp [ArgType.rank])
    | shape n =>
      have h : some (ArgType.shape n) = some ot := h
      cases h
      exact .shapeRight rfl
    | scalarTensor e =>
      simp [broadcastOutputType, ArgType.isTensor, ArgType.shapeLen?, computeBroadcastRank] at h
      obtain ⟨o, _, rfl⟩ := h
      exact .scalars rfl rfl (.inr rfl)
    | scalarNative e =>
      simp [broadcastOutputType, ArgType.isTensor, ArgType.shapeLen?, computeBroadcastRank] at h
      obtain ⟨o, _, rfl⟩ := h
      exact .natives

theorem Reps.rank_pos {ofInt : Int → α} {ty : ArgType} {v : GVal α} {T : Tensor α} (h : Reps ofInt ty v T) :
    ∀ t, ty = .tensor t → 1 ≤ t.rank := by
  rintro t rfl
  cases v with
  | dev u => exact h.2.2
  | native x => exact h.elim
  | shape l => exact h.elim

theorem PadOf.map {T u : Tensor α} {r : Nat} (h : PadOf T u r) (g : α → β) : PadOf (T.map g) (u.map g) r :=
  ⟨h.le, h.shape, by show u.data.map g = T.data.map g; rw [h.data]⟩

/-- A result on the device, at the inferred type. -/
theorem reps_dev {ofInt : Int → α} {ofInt' : Int → β} {lt rt ot : ArgType} {x y : GVal α} {X Y : Tensor α}
    {Z z : Tensor β} (hx : Reps ofInt lt x X) (hy : Reps ofInt rt y Y) (hk : OutKind lt rt ot)
    (hd : lt.isOnDevice = true ∨ rt.isOnDevice = true) (hl : ∀ n, lt ≠ .shape n) (hr : ∀ n, rt ≠ .shape n)
    (hZl : Z.shape.length = max X.shape.length Y.shape.length) (hz : PadOf Z z (max lt.rank rt.rank)) :
    Reps ofInt' ot (.dev z) Z := by
  have len : ∀ {ty : ArgType} {v : GVal α} {T : Tensor α}, Reps ofInt ty v T → (∀ n, ty ≠ .shape n) →
      (ty.isTensor = true ∧ T.shape.length = ty.rank ∧ 1 ≤ ty.rank) ∨
      (ty.isTensor = false ∧ T.shape.length = 0 ∧ ty.rank ≤ 1) := by
    intro ty v T h hn
    cases ty with
    | tensor t =>
      cases v with
      | dev u => exact .inl ⟨rfl, h.2.1, h.2.2⟩
      | native x => exact h.elim
      | shape l => exact h.elim
    | scalarTensor d =>
      cases v with
      | dev u => exact .inr ⟨rfl, by rw [h.2.1]; rfl, Nat.le_refl _⟩
      | native x => exact h.elim
      | shape l => exact h.elim
    | scalarNative d =>
      cases v with
      | dev u => exact h.elim
      | native x => exact .inr ⟨rfl, by rw [h.1]; rfl, Nat.zero_le _⟩
      | shape l => exact h.elim
    | shape n => exact absurd rfl (hn n)
  have h1 := len hx hl
  have h2 := len hy hr
  cases hk with
  | tensors ht ho =>
    have e : Z.shape.length = max lt.rank rt.rank := by
      rcases h1 with ⟨a, b, c⟩ | ⟨a, b, c⟩ <;> rcases h2 with ⟨a', b', c'⟩ | ⟨a', b', c'⟩
      · omega
      · omega
      · omega
      · rw [a, a'] at ht; simp at ht
    have hp : 1 ≤ max lt.rank rt.rank := by
      rcases h1 with ⟨a, b, c⟩ | ⟨a, b, c⟩ <;> rcases h2 with ⟨a', b', c'⟩ | ⟨a', b', c'⟩
      · omega
      · omega
      · omega
      · rw [a, a'] at ht; simp at ht
    exact ⟨Tensor.ext (by rw [hz.shape, e]; simp) hz.data, by rw [e, ho], by rw [ho]; exact hp⟩
  | shapeLeft _ => exact absurd rfl (hl _)
  | shapeRight _ => exact absurd rfl (hr _)
  | natives => simp [ArgType.isOnDevice] at hd
  | scalars ha hb hc =>
    have hZ0 : Z.shape = [] := by
      apply List.length_eq_zero_iff.1
      have q1 : lt.isTensor = false := by cases lt <;> simp_all [ArgType.isScalar, ArgType.isTensor]
      have q2 : rt.isTensor = false := by cases rt <;> simp_all [ArgType.isScalar, ArgType.isTensor]
      rcases h1 with ⟨a, b, c⟩ | ⟨a, b, c⟩
      · rw [q1] at a; cases a
      · rcases h2 with ⟨a', b', c'⟩ | ⟨a', b', c'⟩
        · rw [q2] at a'; cases a'
        · omega
    have hm : max lt.rank rt.rank = 1 := by
      clear len h1 h2 hz hZl hZ0 hx hy
      cases lt <;> cases rt <;> simp_all [ArgType.isScalar, ArgType.isOnDevice, ArgType.rank]
    refine ⟨?_, hZ0, hz.data⟩
    rw [hz.shape, hZ0, hm]; rfl

/-- An array with a scalar. -/
theorem shape_scalar_ok {f : α → α → β} {g : Int → Int → Int} {ofInt : Int → α} {ofInt' : Int → β} {toInt : α → Int}
    {l : List Int} {X Y : Tensor α} {Z : Tensor β} {k : α} (hg : ∀ a ∈ l, ofInt' (g a (toInt k)) = f (ofInt a) k)
    (hX : X.data = l.map ofInt) (hs : Y.shape = []) (hd : Y.data = [k]) (hZ : Tensor.zipBcast f X Y = some Z) :
    Z.shape = X.shape ∧ Z.data = (l.map fun a => g a (toInt k)).map ofInt' := by
  have := zip_scalar_right hs hd hZ
  subst this
  refine ⟨rfl, ?_⟩
  show X.data.map _ = _
  rw [hX, List.map_map, List.map_map]
  exact List.map_congr_left fun a ha => (hg a ha).symm

/-- A scalar with an array. -/
theorem scalar_shape_ok {f : α → α → β} {g : Int → Int → Int} {ofInt : Int → α} {ofInt' : Int → β} {toInt : α → Int}
    {r : List Int} {X Y : Tensor α} {Z : Tensor β} {k : α} (hg : ∀ a ∈ r, ofInt' (g (toInt k) a) = f k (ofInt a))
    (hY : Y.data = r.map ofInt) (hs : X.shape = []) (hd : X.data = [k]) (hZ : Tensor.zipBcast f X Y = some Z) :
    Z.shape = Y.shape ∧ Z.data = (r.map fun a => g (toInt k) a).map ofInt' := by
  have := zip_scalar_left hs hd hZ
  subst this
  refine ⟨rfl, ?_⟩
  show Y.data.map _ = _
  rw [hY, List.map_map, List.map_map]
  exact List.map_congr_left fun a ha => (hg a ha).symm

theorem ofShape_eq {ofInt : Int → α} {l : List Int} {n : Nat} {T : Tensor α} (h : Reps ofInt (.shape n) (.shape l) T) :
    Burn.ofShape ofInt l = T := by
  obtain ⟨h1, h2, h3⟩ := h
  exact Tensor.ext (by simp [Burn.ofShape, h1, h2]) (by simp [Burn.ofShape, h3])

/-- **C55.** For every operator whose arms compute `f` on elements, all types, shapes and values the arguments may have:
if ONNX's result (`f` with multidirectional broadcasting) is defined, the generated code runs, and its result is how that
ONNX result is held at the inferred output type. -/
theorem C55_binary_partial {c : BinCode α β} {f : α → α → β} {ofInt : Int → α} {ofInt' : Int → β} {toInt : α → Int}
    {ok : Int → Int → Prop} (hc : c.Computes f ofInt ofInt' ok) {lt rt ot : ArgType} {od : Option DType} {x y : GVal α}
    {X Y : Tensor α} {Z : Tensor β} (hx : Reps ofInt lt x X) (hy : Reps ofInt rt y Y)
    (hto : (∃ l, x = .shape l ∨ y = .shape l) → ∀ a, a ∈ X.data ∨ a ∈ Y.data → ofInt (toInt a) = a) (hok : ItemsOk toInt ok x y X Y)
    (hZ : Tensor.zipBcast f X Y = some Z) (ho : broadcastOutputType [lt, rt] od = some ot) (hh : c.Handles lt rt) :
    ∃ z, genBinary ofInt toInt c lt rt x y = some z ∧ Reps ofInt' ot z Z := by
  have hk := outKind ho hx.rank_pos hy.rank_pos
  obtain ⟨s, hs, hZe⟩ := Option.map_eq_some_iff.1 hZ
  have hZl : Z.shape.length = max X.shape.length Y.shape.length := by
    rw [← bcast_length hs, ← hZe]; rfl
  have pads : ∀ {u v : Tensor α}, x = .dev u → y = .dev v → (c.aligned = true ∨ lt.rank = rt.rank) →
      ∃ z, genBinary ofInt toInt c lt rt x y = some (.dev z) ∧ PadOf Z z (max lt.rank rt.rank) := by
    rintro u v rfl rfl ha
    obtain ⟨z, h1, h2⟩ := genAligned_ok hc.method hx.pad hy.pad ha hZ
    exact ⟨z, by simp [genBinary, h1], h2⟩
  cases x with
  | dev u =>
    cases y with
    | dev v =>
      have hdl : lt.isOnDevice = true ∧ ∀ n, lt ≠ .shape n := by
        cases lt <;> first | exact hx.elim | simp [ArgType.isOnDevice]
      have hdr : ∀ n, rt ≠ .shape n := by
        cases rt <;> first | exact hy.elim | simp
      have ha : c.aligned = true ∨ lt.rank = rt.rank := by
        cases lt <;> cases rt <;> first | exact hx.elim | exact hy.elim | skip
        · exact .inr rfl
        · exact hh.imp_right Eq.symm
        · exact hh
        · exact hh
      obtain ⟨z, h1, h2⟩ := pads rfl rfl ha
      exact ⟨_, h1, reps_dev hx hy hk (.inl hdl.1) hdl.2 hdr hZl h2⟩
    | native b =>
      have hdl : lt.isOnDevice = true ∧ ∀ n, lt ≠ .shape n := by
        cases lt <;> first | exact hx.elim | simp [ArgType.isOnDevice]
      obtain ⟨e, rfl⟩ : ∃ e, rt = .scalarNative e := by
        cases rt <;> first | exact hy.elim | exact ⟨_, rfl⟩
      have hsome : c.devNative.isSome := by
        cases lt <;> first | exact hx.elim | exact hh
      obtain ⟨g, hg⟩ := Option.isSome_iff_exists.1 hsome
      have hfg : g = f := funext fun a => funext fun b => hc.devNative g (by simp [hg]) a b
      subst hfg
      have hZ' := zip_scalar_right hy.1 hy.2 hZ
      subst hZ'
      refine ⟨.dev (u.map fun a => g a b), by simp [genBinary, hg], ?_⟩
      refine reps_dev hx hy hk (.inl hdl.1) hdl.2 (by simp) hZl ?_
      have : max lt.rank (ArgType.scalarNative e).rank = lt.rank := Nat.max_zero _
      rw [this]
      exact hx.pad.map _
    | shape r =>
      obtain ⟨n, rfl⟩ : ∃ n, rt = .shape n := by
        cases rt <;> first | exact hy.elim | exact ⟨_, rfl⟩
      cases lt with
      | scalarNative d => exact hx.elim
      | shape m => exact hx.elim
      | scalarTensor d =>
        obtain ⟨g, hg⟩ := Option.isSome_iff_exists.1 (show c.scalarShape.isSome from hh)
        obtain ⟨k, k1, k2, k3, _, _⟩ := intoScalar_ok hx
        have hgk := scalar_shape_ok (g := g) (ofInt := ofInt) (ofInt' := ofInt') (toInt := toInt) (r := r) (k := k) (f := f)
          (fun a ha => by
            rw [hc.scalarShape g (by simp [hg]) _ _ (hok k (by simp [k2]) a ha), hto ⟨_, .inr rfl⟩ k (.inl (by simp [k2]))])
          hy.2.2 k1 k2 hZ
        refine ⟨.shape (r.map fun a => g (toInt k) a), ?_, ?_⟩
        · simp [genBinary, hg, ArgType.isScalar, genShapeScalar, scalarI64, k3]
        · cases hk with
          | tensors ht _ => simp [ArgType.isTensor] at ht
          | shapeRight _ => exact ⟨by simpa using hy.1, by rw [hgk.1, hy.2.1], hgk.2⟩
          | scalars _ hb _ => simp [ArgType.isScalar] at hb
      | tensor t =>
        obtain ⟨hd, hr1⟩ := hh
        have hu : u = X := hx.1
        have e2 := ofShape_eq hy
        obtain ⟨z, h1, h2⟩ := zip_padded (f := f) (PadOf.refl X) (by
          have := PadOf.refl Y
          rw [hy.2.1] at this
          rw [show X.shape.length = [n].length by rw [hx.2.1, hr1]; rfl]
          exact this) hZ
        have hf : c.method = f := funext fun a => funext fun b => hc.method a b
        have hxl : X.shape.length = 1 := by rw [hx.2.1, hr1]
        have hyl : Y.shape.length = 1 := by rw [hy.2.1]; rfl
        refine ⟨.dev z, ?_, ?_⟩
        · simp [genBinary, ArgType.isScalar, hd, e2, hu, hf, h1]
        · cases hk with
          | tensors ht ho' =>
            rw [hxl] at h2
            refine ⟨h2.eq (by omega), ?_, ?_⟩
            · rw [ho']; simp [ArgType.rank, hr1]; omega
            · rw [ho']; simp [ArgType.rank, hr1]
          | shapeRight hs' => simp [ArgType.isScalar] at hs'
          | scalars ha' _ _ => simp [ArgType.isScalar] at ha'
  | native a =>
    obtain ⟨d, rfl⟩ : ∃ d, lt = .scalarNative d := by
      cases lt <;> first | exact hx.elim | exact ⟨_, rfl⟩
    cases y with
    | dev v =>
      have hdr : rt.isOnDevice = true ∧ ∀ n, rt ≠ .shape n := by
        cases rt <;> first | exact hy.elim | simp [ArgType.isOnDevice]
      have hsome : c.nativeDev.isSome := by
        cases rt <;> first | exact hy.elim | exact hh
      obtain ⟨g, hg⟩ := Option.isSome_iff_exists.1 hsome
      have hfg : g = f := funext fun a => funext fun b => hc.nativeDev g (by simp [hg]) a b
      subst hfg
      have hZ' := zip_scalar_left hx.1 hx.2 hZ
      subst hZ'
      refine ⟨.dev (v.map fun b => g a b), by simp [genBinary, hg], ?_⟩
      refine reps_dev hx hy hk (.inr hdr.1) (by simp) hdr.2 hZl ?_
      have : max (ArgType.scalarNative d).rank rt.rank = rt.rank := Nat.zero_max _
      rw [this]
      exact hy.pad.map _
    | native b =>
      obtain ⟨e, rfl⟩ : ∃ e, rt = .scalarNative e := by
        cases rt <;> first | exact hy.elim | exact ⟨_, rfl⟩
      obtain ⟨g, hg⟩ := Option.isSome_iff_exists.1 (show c.natives.isSome from hh)
      have hfg : g = f := funext fun a => funext fun b => hc.natives g (by simp [hg]) a b
      subst hfg
      have hZ' := zip_scalar_left hx.1 hx.2 hZ
      subst hZ'
      refine ⟨.native (g a b), by simp [genBinary, hg], ?_⟩
      cases hk with
      | tensors ht _ => simp [ArgType.isTensor] at ht
      | natives => exact ⟨hy.1, by show Y.data.map _ = _; rw [hy.2]; rfl⟩
      | scalars _ _ hc' => simp [ArgType.isOnDevice] at hc'
    | shape r =>
      obtain ⟨n, rfl⟩ : ∃ n, rt = .shape n := by
        cases rt <;> first | exact hy.elim | exact ⟨_, rfl⟩
      obtain ⟨g, hg⟩ := Option.isSome_iff_exists.1 (show c.scalarShape.isSome from hh)
      have hgk := scalar_shape_ok (g := g) (ofInt := ofInt) (ofInt' := ofInt') (toInt := toInt) (r := r) (k := a) (f := f)
        (fun b hb => by
          rw [hc.scalarShape g (by simp [hg]) _ _ (hok a (by simp [hx.2]) b hb), hto ⟨_, .inr rfl⟩ a (.inl (by simp [hx.2]))])
        hy.2.2 hx.1 hx.2 hZ
      refine ⟨.shape (r.map fun b => g (toInt a) b), ?_, ?_⟩
      · simp [genBinary, hg, genShapeScalar, scalarI64]
      · cases hk with
        | tensors ht _ => simp [ArgType.isTensor] at ht
        | shapeRight _ => exact ⟨by simpa using hy.1, by rw [hgk.1, hy.2.1], hgk.2⟩
        | scalars _ hb _ => simp [ArgType.isScalar] at hb
  | shape l =>
    obtain ⟨m, rfl⟩ : ∃ m, lt = .shape m := by
      cases lt <;> first | exact hx.elim | exact ⟨_, rfl⟩
    cases y with
    | dev v =>
      cases rt with
      | scalarNative d => exact hy.elim
      | shape m => exact hy.elim
      | scalarTensor d =>
        obtain ⟨g, hg⟩ := Option.isSome_iff_exists.1 (show c.shapeScalar.isSome from hh)
        obtain ⟨k, k1, k2, k3, _, _⟩ := intoScalar_ok hy
        have hgk := shape_scalar_ok (g := g) (ofInt := ofInt) (ofInt' := ofInt') (toInt := toInt) (l := l) (k := k) (f := f)
          (fun a ha => by
            rw [hc.shapeScalar g (by simp [hg]) _ _ (hok a ha k (by simp [k2])), hto ⟨_, .inl rfl⟩ k (.inr (by simp [k2]))])
          hx.2.2 k1 k2 hZ
        refine ⟨.shape (l.map fun a => g a (toInt k)), ?_, ?_⟩
        · simp [genBinary, hg, ArgType.isScalar, genShapeScalar, scalarI64, k3]
        · cases hk with
          | tensors ht _ => simp [ArgType.isTensor] at ht
          | shapeLeft _ => exact ⟨by simpa using hx.1, by rw [hgk.1, hx.2.1], hgk.2⟩
          | scalars ha _ _ => simp [ArgType.isScalar] at ha
      | tensor t =>
        obtain ⟨hd, hr1⟩ := hh
        have hu : v = Y := hy.1
        have e2 := ofShape_eq hx
        have hxl : X.shape.length = 1 := by rw [hx.2.1]; rfl
        have hyl : Y.shape.length = 1 := by rw [hy.2.1, hr1]
        obtain ⟨z, h1, h2⟩ := zip_padded (f := f) (PadOf.refl X) (by
          have := PadOf.refl Y
          rw [hyl, ← hxl] at this
          exact this) hZ
        have hf : c.method = f := funext fun a => funext fun b => hc.method a b
        refine ⟨.dev z, ?_, ?_⟩
        · simp [genBinary, ArgType.isScalar, hd, e2, hu, hf, h1]
        · cases hk with
          | tensors ht ho' =>
            rw [hxl] at h2
            refine ⟨h2.eq (by omega), ?_, ?_⟩
            · rw [ho']; simp [ArgType.rank, hr1]; omega
            · rw [ho']; simp [ArgType.rank, hr1]
          | shapeLeft hs' => simp [ArgType.isTensor] at hs'
          | scalars ha' _ _ => simp [ArgType.isScalar] at ha'
    | native b =>
      obtain ⟨e, rfl⟩ : ∃ e, rt = .scalarNative e := by
        cases rt <;> first | exact hy.elim | exact ⟨_, rfl⟩
      obtain ⟨g, hg⟩ := Option.isSome_iff_exists.1 (show c.shapeScalar.isSome from hh)
      have hgk := shape_scalar_ok (g := g) (ofInt := ofInt) (ofInt' := ofInt') (toInt := toInt) (l := l) (k := b) (f := f)
        (fun a ha => by
          rw [hc.shapeScalar g (by simp [hg]) _ _ (hok a ha b (by simp [hy.2])), hto ⟨_, .inl rfl⟩ b (.inr (by simp [hy.2]))])
        hx.2.2 hy.1 hy.2 hZ
      refine ⟨.shape (l.map fun a => g a (toInt b)), ?_, ?_⟩
      · simp [genBinary, hg, genShapeScalar, scalarI64]
      · cases hk with
        | tensors ht _ => simp [ArgType.isTensor] at ht
        | shapeLeft _ => exact ⟨by simpa using hx.1, by rw [hgk.1, hx.2.1], hgk.2⟩
        | scalars ha _ _ => simp [ArgType.isScalar] at ha
    | shape r =>
      obtain ⟨n, rfl⟩ : ∃ n, rt = .shape n := by
        cases rt <;> first | exact hy.elim | exact ⟨_, rfl⟩
      obtain ⟨hsome, rfl⟩ := hh
      obtain ⟨g, hg⟩ := Option.isSome_iff_exists.1 hsome
      have hlen : l.length = r.length := by rw [hx.1, hy.1]
      obtain ⟨z1, z2⟩ := zip_same (by rw [hx.2.1, hy.2.1]) hZ
      refine ⟨.shape (zipInto g l r), by simp [genBinary, hg], ?_⟩
      have hdat : Z.data = (zipInto g l r).map ofInt' := by
        rw [z2, hx.2.2, hy.2.2, zipInto_eq hlen, List.zipWith_map, List.map_zipWith]
        have hok' : ∀ p ∈ l.zip r, ok p.1 p.2 := hok
        clear hx hy hZ hZl z1 z2 hok hk ho hZe pads hs hto
        induction l generalizing r with
        | nil => simp
        | cons a l ih =>
          cases r with
          | nil => simp at hlen
          | cons b r =>
            simp only [List.zipWith_cons_cons]
            rw [hc.shapes g (by simp [hg]) a b (hok' (a, b) (by simp)),
              ih _ (by simpa using hlen) fun p hp => hok' p (by simp [hp])]
      cases hk with
      | tensors ht _ => simp [ArgType.isTensor] at ht
      | shapeLeft _ => exact ⟨by rw [zipInto_eq hlen]; simp [← hlen, hx.1], by rw [z1, hx.2.1], hdat⟩
      | shapeRight hs' => simp [ArgType.isScalar] at hs'
      | scalars ha _ _ => simp [ArgType.isScalar] at ha

/-! ### The operators -/

section Ops

variable {α : Type} [Inhabited α]

/-- The result is an `i64`. -/
def FitsI64 (x : Int) : Prop := -2 ^ 63 ≤ x ∧ x ≤ 2 ^ 63 - 1

theorem sat_eq {x : Int} (h : FitsI64 x) : sat x = x := by
  obtain ⟨h1, h2⟩ := h
  unfold sat
  omega

theorem addCode_computes {add : α → α → α} {ofInt : Int → α} (h : ∀ a b, ofInt (a + b) = add (ofInt a) (ofInt b)) :
    (addCode add).Computes add ofInt ofInt fun a b => FitsI64 (a + b) where
  method _ _ := rfl
  devNative := by simp [addCode]
  nativeDev := by simp [addCode]
  natives := by simp [addCode]
  shapes := by simp only [addCode, Option.mem_some_iff]; rintro g rfl a b hk; simp only [sat_eq hk, h]
  shapeScalar := by simp only [addCode, Option.mem_some_iff]; rintro g rfl a b hk; simp only [sat_eq hk, h]
  scalarShape := by
    simp only [addCode, Option.mem_some_iff]; rintro g rfl a b hk; simp only [Int.add_comm b a, sat_eq hk, h]

theorem subCode_computes {sub : α → α → α} {ofInt : Int → α} (h : ∀ a b, ofInt (a - b) = sub (ofInt a) (ofInt b)) :
    (subCode sub).Computes sub ofInt ofInt fun a b => FitsI64 (a - b) where
  method _ _ := rfl
  devNative := by simp [subCode]
  nativeDev := by simp [subCode]
  natives := by simp [subCode]
  shapes := by simp only [subCode, Option.mem_some_iff]; rintro g rfl a b hk; simp only [sat_eq hk, h]
  shapeScalar := by simp only [subCode, Option.mem_some_iff]; rintro g rfl a b hk; simp only [sat_eq hk, h]
  scalarShape := by simp only [subCode, Option.mem_some_iff]; rintro g rfl a b hk; simp only [sat_eq hk, h]

theorem mulCode_computes {mul : α → α → α} {ofInt : Int → α} (h : ∀ a b, ofInt (a * b) = mul (ofInt a) (ofInt b)) :
    (mulCode mul).Computes mul ofInt ofInt fun a b => FitsI64 (a * b) where
  method _ _ := rfl
  devNative := by simp [mulCode]
  nativeDev := by simp [mulCode]
  natives := by simp [mulCode]
  shapes := by simp only [mulCode, Option.mem_some_iff]; rintro g rfl a b hk; simp only [sat_eq hk, h]
  shapeScalar := by simp only [mulCode, Option.mem_some_iff]; rintro g rfl a b hk; simp only [sat_eq hk, h]
  scalarShape := by
    simp only [mulCode, Option.mem_some_iff]; rintro g rfl a b hk; simp only [Int.mul_comm b a, sat_eq hk, h]

/-- Division; `recip` must be a reciprocal (native number divided by a tensor). -/
theorem divCode_computes {div mul : α → α → α} {recip : α → α} {ofInt : Int → α}
    (hr : ∀ a b, mul (recip b) a = div a b)
    (h : ∀ a b, b ≠ 0 → ofInt (a.tdiv b) = div (ofInt a) (ofInt b)) :
    (divCode div mul recip).Computes div ofInt ofInt fun _ b => b ≠ 0 where
  method _ _ := rfl
  devNative := by simp [divCode]
  nativeDev := by simp only [divCode, Option.mem_some_iff]; rintro g rfl a b; exact hr a b
  natives := by simp [divCode]
  shapes := by simp only [divCode, Option.mem_some_iff]; rintro g rfl a b hk; simp only [guardedDiv, if_pos hk, h a b hk]
  shapeScalar := by
    simp only [divCode, Option.mem_some_iff]; rintro g rfl a b hk; simp only [guardedDiv, if_pos hk, h a b hk]
  scalarShape := by
    simp only [divCode, Option.mem_some_iff]; rintro g rfl a b hk; simp only [guardedDiv, if_pos hk, h a b hk]

/-- An `i64` item as a truth value. -/
def truthy (x : Int) : Bool := x != 0

theorem truthy_flag (p : Prop) [Decidable p] : truthy (flag p) = decide p := by
  unfold truthy flag
  by_cases h : p <;> simp [h]

theorem equalCode_computes {eq : α → α → Bool} {ofInt : Int → α} (hs : ∀ a b, eq a b = eq b a)
    (h : ∀ a b, eq (ofInt a) (ofInt b) = decide (a = b)) :
    (equalCode eq).Computes eq ofInt truthy fun _ _ => True where
  method _ _ := rfl
  devNative := by simp [equalCode]
  nativeDev := by simp only [equalCode, Option.mem_some_iff]; rintro g rfl a b; exact hs b a
  natives := by simp [equalCode]
  shapes := by simp only [equalCode, Option.mem_some_iff]; rintro g rfl a b _; rw [truthy_flag, h]
  shapeScalar := by simp [equalCode]
  scalarShape := by simp [equalCode]

theorem greaterCode_computes {lt : α → α → Bool} {ofInt : Int → α} (h : ∀ a b, lt (ofInt a) (ofInt b) = decide (a < b)) :
    (greaterCode lt).Computes (fun a b => lt b a) ofInt truthy fun _ _ => True where
  method _ _ := rfl
  devNative := by simp [greaterCode]
  nativeDev := by simp [greaterCode]
  natives := by simp [greaterCode]
  shapes := by simp only [greaterCode, Option.mem_some_iff]; rintro g rfl a b _; rw [truthy_flag, h]
  shapeScalar := by simp [greaterCode]
  scalarShape := by simp [greaterCode]

theorem greaterEqualCode_computes {le : α → α → Bool} {ofInt : Int → α}
    (h : ∀ a b, le (ofInt a) (ofInt b) = decide (a ≤ b)) :
    (greaterEqualCode le).Computes (fun a b => le b a) ofInt truthy fun _ _ => True where
  method _ _ := rfl
  devNative := by simp [greaterEqualCode]
  nativeDev := by simp [greaterEqualCode]
  natives := by simp [greaterEqualCode]
  shapes := by simp only [greaterEqualCode, Option.mem_some_iff]; rintro g rfl a b _; rw [truthy_flag, h]
  shapeScalar := by simp [greaterEqualCode]
  scalarShape := by simp [greaterEqualCode]

theorem lessCode_computes {lt : α → α → Bool} {ofInt : Int → α} (h : ∀ a b, lt (ofInt a) (ofInt b) = decide (a < b)) :
    (lessCode lt).Computes lt ofInt truthy fun _ _ => True where
  method _ _ := rfl
  devNative := by simp [lessCode]
  nativeDev := by simp [lessCode]
  natives := by simp [lessCode]
  shapes := by simp only [lessCode, Option.mem_some_iff]; rintro g rfl a b _; rw [truthy_flag, h]
  shapeScalar := by simp [lessCode]
  scalarShape := by simp [lessCode]

theorem lessEqualCode_computes {le : α → α → Bool} {ofInt : Int → α}
    (h : ∀ a b, le (ofInt a) (ofInt b) = decide (a ≤ b)) :
    (lessEqualCode le).Computes le ofInt truthy fun _ _ => True where
  method _ _ := rfl
  devNative := by simp [lessEqualCode]
  nativeDev := by simp [lessEqualCode]
  natives := by simp [lessEqualCode]
  shapes := by simp only [lessEqualCode, Option.mem_some_iff]; rintro g rfl a b _; rw [truthy_flag, h]
  shapeScalar := by simp [lessEqualCode]
  scalarShape := by simp [lessEqualCode]

theorem andCode_computes : andCode.Computes (fun a b => a && b) truthy truthy fun _ _ => True where
  method _ _ := rfl
  devNative := by simp only [andCode, Option.mem_some_iff]; rintro g rfl a b; cases a <;> cases b <;> rfl
  nativeDev := by simp only [andCode, Option.mem_some_iff]; rintro g rfl a b; cases a <;> cases b <;> rfl
  natives := by simp [andCode]
  shapes := by
    simp only [andCode, Option.mem_some_iff]; rintro g rfl a b _; rw [truthy_flag]
    by_cases ha : a = 0 <;> by_cases hb : b = 0 <;> simp [truthy, ha, hb]
  shapeScalar := by simp [andCode]
  scalarShape := by simp [andCode]

theorem orCode_computes : orCode.Computes (fun a b => a || b) truthy truthy fun _ _ => True where
  method _ _ := rfl
  devNative := by simp only [orCode, Option.mem_some_iff]; rintro g rfl a b; cases a <;> cases b <;> rfl
  nativeDev := by simp only [orCode, Option.mem_some_iff]; rintro g rfl a b; cases a <;> cases b <;> rfl
  natives := by simp [orCode]
  shapes := by
    simp only [orCode, Option.mem_some_iff]; rintro g rfl a b _; rw [truthy_flag]
    by_cases ha : a = 0 <;> by_cases hb : b = 0 <;> simp [truthy, ha, hb]
  shapeScalar := by simp [orCode]
  scalarShape := by simp [orCode]

theorem xorCode_computes : xorCode.Computes (fun a b => Bool.xor a b) truthy truthy fun _ _ => True where
  method a b := by cases a <;> cases b <;> rfl
  devNative := by simp only [xorCode, Option.mem_some_iff]; rintro g rfl a b; cases a <;> cases b <;> rfl
  nativeDev := by simp only [xorCode, Option.mem_some_iff]; rintro g rfl a b; cases a <;> cases b <;> rfl
  natives := by simp [xorCode]
  shapes := by
    simp only [xorCode, Option.mem_some_iff]; rintro g rfl a b _; rw [truthy_flag]
    by_cases ha : a = 0 <;> by_cases hb : b = 0 <;> simp [truthy, ha, hb, bne]
  shapeScalar := by simp [xorCode]
  scalarShape := by simp [xorCode]

omit [Inhabited α] in
theorem bitwiseCode_computes {op : α → α → α} (hs : ∀ a b, op a b = op b a) (ofInt : Int → α) :
    (bitwiseCode op).Computes op ofInt ofInt fun _ _ => True where
  method _ _ := rfl
  devNative := by simp [bitwiseCode]
  nativeDev := by simp only [bitwiseCode, Option.mem_some_iff]; rintro g rfl a b; exact hs b a
  natives := by simp [bitwiseCode]
  shapes := by simp [bitwiseCode]
  shapeScalar := by simp [bitwiseCode]
  scalarShape := by simp [bitwiseCode]

omit [Inhabited α] in
theorem bitshiftCode_computes (shift : α → α → α) (ofInt : Int → α) :
    (bitshiftCode shift).Computes shift ofInt ofInt fun _ _ => True where
  method _ _ := rfl
  devNative := by simp [bitshiftCode]
  nativeDev := by simp [bitshiftCode]
  natives := by simp [bitshiftCode]
  shapes := by simp [bitshiftCode]
  shapeScalar := by simp [bitshiftCode]
  scalarShape := by simp [bitshiftCode]

omit [Inhabited α] in
theorem pairCode_computes (op : α → α → α) (ofInt : Int → α) : (pairCode op).Computes op ofInt ofInt fun _ _ => True where
  method _ _ := rfl
  devNative := by simp [pairCode]
  nativeDev := by simp [pairCode]
  natives := by simp [pairCode]
  shapes := by simp [pairCode]
  shapeScalar := by simp [pairCode]
  scalarShape := by simp [pairCode]

end Ops

/-! ### Integer instances, stated without the tables -/

/-- What it means for generated code `gen` to compute the element-wise `f` on integers: for every two values held at
types `lt` and `rt`, the code runs and its result is held at the type inferred for the node. -/
def ComputesInt (gen : ArgType → ArgType → GVal Int → GVal Int → Option (GVal Int)) (f : Int → Int → Int) (lt rt : ArgType) (ok : Int → Int → Prop) : Prop :=
  ∀ (ot : ArgType) (x y : GVal Int) (X Y Z : Tensor Int), Reps id lt x X → Reps id rt y Y →
    (∀ a ∈ X.data, ∀ b ∈ Y.data, ok a b) → Tensor.zipBcast f X Y = some Z → broadcastOutputType [lt, rt] none = some ot →
    ∃ z, gen lt rt x y = some z ∧ Reps id ot z Z

theorem itemsOk_of {ok : Int → Int → Prop} {lt rt : ArgType} {x y : GVal Int} {X Y : Tensor Int} (hx : Reps id lt x X)
    (hy : Reps id rt y Y) (h : ∀ a ∈ X.data, ∀ b ∈ Y.data, ok a b) : ItemsOk id ok x y X Y := by
  have arr : ∀ {ty : ArgType} {l : List Int} {T : Tensor Int}, Reps id ty (.shape l) T → T.data = l := by
    intro ty l T h
    cases ty <;> first | exact h.elim | (have := h.2.2; simpa using this)
  unfold ItemsOk
  split
  · rw [arr hx, arr hy] at h
    intro p hp
    exact h p.1 (List.of_mem_zip hp).1 p.2 (List.of_mem_zip hp).2
  · rw [arr hx] at h
    exact fun a ha s hs => h a ha s hs
  · rw [arr hy] at h
    exact fun s hs b hb => h s hs b hb
  · trivial

/-- **C55, sums of integers**: tensors of any ranks, native numbers and arrays of equal length, as long as no sum leaves
the range of `i64`. -/
theorem C55_add_int_partial {lt rt : ArgType} (hh : (addCode (α := Int) (· + ·)).Handles lt rt) :
    ComputesInt (genBinary id id (addCode (· + ·))) (· + ·) lt rt fun a b => FitsI64 (a + b) :=
  fun _ _ _ _ _ _ hx hy hok hZ ho =>
    C55_binary_partial (addCode_computes fun _ _ => rfl) hx hy (fun _ _ _ => rfl) (itemsOk_of hx hy hok) hZ ho hh

/-- **C55, differences of integers.** -/
theorem C55_sub_int_partial {lt rt : ArgType} (hh : (subCode (α := Int) (· - ·)).Handles lt rt) :
    ComputesInt (genBinary id id (subCode (· - ·))) (· - ·) lt rt fun a b => FitsI64 (a - b) :=
  fun _ _ _ _ _ _ hx hy hok hZ ho =>
    C55_binary_partial (subCode_computes fun _ _ => rfl) hx hy (fun _ _ _ => rfl) (itemsOk_of hx hy hok) hZ ho hh

/-- **C55, products of integers.** -/
theorem C55_mul_int_partial {lt rt : ArgType} (hh : (mulCode (α := Int) (· * ·)).Handles lt rt) :
    ComputesInt (genBinary id id (mulCode (· * ·))) (· * ·) lt rt fun a b => FitsI64 (a * b) :=
  fun _ _ _ _ _ _ hx hy hok hZ ho =>
    C55_binary_partial (mulCode_computes fun _ _ => rfl) hx hy (fun _ _ _ => rfl) (itemsOk_of hx hy hok) hZ ho hh

/-! ### Where the generated code fails -/

/-- A vector. -/
def vecT (l : List α) : Tensor α := ⟨[l.length], l, by simp [prodShape]⟩

/-- Arrays of different lengths: `[3]` added to `[1]` broadcasts in ONNX. The generated loop adds to the first item only;
with the
shorter array on the left the inferred type and the result have one item where ONNX has three. -/
theorem C55_shape_lengths_wrong :
    Tensor.zipBcast (· + ·) (vecT [10, 20, 30]) (vecT [1]) = some (vecT [11, 21, (31 : Int)]) ∧
    genBinary id id (addCode (· + ·)) (.shape 3) (.shape 1) (.shape [10, 20, 30]) (.shape [1])
      = some (.shape [11, 20, 30]) ∧
    broadcastOutputType [.shape 1, .shape 3] none = some (.shape 1) ∧
    Tensor.zipBcast (· + ·) (vecT [1]) (vecT [10, 20, 30]) = some (vecT [11, 21, (31 : Int)]) ∧
    genBinary id id (addCode (· + ·)) (.shape 1) (.shape 3) (.shape [1]) (.shape [10, 20, 30])
      = some (.shape [(11 : Int)]) := by
  exact ⟨by decide +kernel, rfl, by decide +kernel, by decide +kernel, rfl⟩

/-- Sums of arrays that leave the range of `i64` are cut off at its ends; ONNX (and tensors) wrap around. -/
theorem C55_saturates :
    genBinary id id (addCode (· + ·)) (.shape 1) (.shape 1) (.shape [2 ^ 63 - 1]) (.shape [(1 : Int)])
      = some (.shape [2 ^ 63 - 1]) := rfl

/-- Division of an array by zero leaves the dividend. -/
theorem C55_div_by_zero :
    genBinary id id (divCode Int.tdiv (· * ·) id) (.shape 1) (.scalarNative .i64) (.shape [7]) (.native (0 : Int))
      = some (.shape [7]) := rfl

/-- An array with a tensor of rank 2 or more: types are inferred, the code is generated, and it does not compile. -/
theorem C55_shape_with_matrix_wrong {add : α → α → α} {ofInt : Int → α} {toInt : α → Int} {l : List Int} {u : Tensor α}
    {n : Nat} {t : TensorType} (hr : u.shape.length = t.rank) (h2 : 2 ≤ t.rank) :
    (∃ ot, broadcastOutputType [.shape n, .tensor t] none = some ot) ∧
    genBinary ofInt toInt (addCode add) (.shape n) (.tensor t) (.shape l) (.dev u) = none := by
  constructor
  · unfold broadcastOutputType
    exact ⟨_, rfl⟩
  · have : ¬ [l.length].length = u.shape.length := by simp; omega
    simp [genBinary, ArgType.isScalar, addCode, Burn.zip, Burn.ofShape]
    omega

/-- A comparison of an array with a native number: the type rule gives an array, the generator has no arm. -/
theorem C55_compare_shape_native_panics {lt : α → α → Bool} {ofInt : Int → α} {toInt : α → Int} {l : List Int} {b : α}
    {n : Nat} {d : DType} :
    broadcastOutputType [.shape n, .scalarNative d] (some .bool) = some (.shape n) ∧
    genBinary ofInt toInt (lessCode lt) (.shape n) (.scalarNative d) (.shape l) (.native b) = none := by
  exact ⟨rfl, rfl⟩

/-- Shifts by a tensor of another rank do not compile. -/
theorem C55_bitshift_rank_wrong {shift : α → α → α} {ofInt : Int → α} {toInt : α → Int} {s t : TensorType} {u v : Tensor α}
    (hu : u.shape.length = s.rank) (hv : v.shape.length = t.rank) (hne : s.rank ≠ t.rank) :
    genBinary ofInt toInt (bitshiftCode shift) (.tensor s) (.tensor t) (.dev u) (.dev v) = none := by
  have h : ¬ u.shape.length = v.shape.length := by omega
  simp [genBinary, genAligned, bitshiftCode, Burn.zip, h]

/-- Minimum and maximum with a native number: no arm. -/
theorem C55_min_native_panics {op : α → α → α} {ofInt : Int → α} {toInt : α → Int} {lt : ArgType} {u : Tensor α} {b : α}
    {d : DType} : genBinary ofInt toInt (pairCode op) lt (.scalarNative d) (.dev u) (.native b) = none := rfl

/-! ### The hypotheses can be met -/

/-- A matrix minus a vector. -/
example : ∃ z, genBinary id id (subCode (· - ·)) (.tensor ⟨.i64, 2, none⟩) (.tensor ⟨.i64, 1, none⟩)
    (.dev ⟨[2, 2], [1, 2, 3, 4], rfl⟩) (.dev ⟨[2], [10, 20], rfl⟩) = some z ∧
    Reps id (.tensor ⟨.i64, 2, none⟩) z ⟨[2, 2], [-9, -18, -7, -16], rfl⟩ := by
  refine C55_sub_int_partial (by simp [Gen.BinCode.Handles, subCode]) _ _ _ ⟨[2, 2], [1, 2, 3, 4], rfl⟩ ⟨[2], [10, 20], rfl⟩ _
    ⟨rfl, rfl, by decide⟩ ⟨rfl, rfl, by decide⟩ ?_ (by decide +kernel) (by decide +kernel)
  simp [FitsI64]

/-- An array minus a scalar on the device. -/
example : ∃ z, genBinary id id (subCode (· - ·)) (.scalarTensor .i64) (.shape 2)
    (.dev ⟨[1], [100], rfl⟩) (.shape [10, 20]) = some z ∧
    Reps id (.shape 2) z ⟨[2], [90, 80], rfl⟩ := by
  refine C55_sub_int_partial (by simp [Gen.BinCode.Handles, subCode]) _ _ _ ⟨[], [100], rfl⟩ ⟨[2], [10, 20], rfl⟩ _
    ⟨rfl, rfl, rfl⟩ ⟨rfl, rfl, rfl⟩ ?_ (by decide +kernel) (by decide +kernel)
  simp [FitsI64]

end OnnxIR
