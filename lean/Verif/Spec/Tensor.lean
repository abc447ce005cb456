/-!
# Tensors

Dense tensors with an arbitrary element type: a shape and the elements in row-major order.
Independent of the code; used to state what ONNX operators compute.
-/

namespace OnnxIR

/-- Number of elements of a shape. -/
def prodShape : List Nat → Nat
  | [] => 1
  | d :: ds => d * prodShape ds

/-- All multi-indices of a shape, in row-major order. -/
def indices : List Nat → List (List Nat)
  | [] => [[]]
  | d :: ds => (List.range d).flatMap fun i => (indices ds).map (i :: ·)

/-- Row-major position of a multi-index. -/
def flatIdx : List Nat → List Nat → Nat
  | _ :: ds, i :: is => i * prodShape ds + flatIdx ds is
  | _, _ => 0

/-- The multi-index has the rank of the shape and every component is within its dimension. -/
def InRange : List Nat → List Nat → Prop
  | [], [] => True
  | d :: ds, i :: is => i < d ∧ InRange ds is
  | _, _ => False

/-- A dense tensor. -/
structure Tensor (α : Type) where
  shape : List Nat
  data : List α
  size : data.length = prodShape shape

namespace Tensor

variable {α : Type}

theorem ext {s t : Tensor α} (h1 : s.shape = t.shape) (h2 : s.data = t.data) : s = t := by
  cases s; cases t; cases h1; cases h2; rfl

instance [DecidableEq α] : DecidableEq (Tensor α) := fun s t =>
  if h : s.shape = t.shape ∧ s.data = t.data then isTrue (ext h.1 h.2)
  else isFalse fun hst => h (hst ▸ ⟨rfl, rfl⟩)

end Tensor

/-! ### Index arithmetic -/

theorem range_mul (d P : Nat) :
    (List.range d).flatMap (fun i => (List.range P).map (i * P + ·)) = List.range (d * P) := by
  induction d with
  | zero => simp
  | succ d ih =>
    rw [List.range_succ, List.flatMap_append, ih, Nat.succ_mul, List.range_add]
    simp

theorem map_flatIdx_indices (s : List Nat) :
    (indices s).map (flatIdx s) = List.range (prodShape s) := by
  induction s with
  | nil => rfl
  | cons d ds ih =>
    have h : ∀ i, ((indices ds).map (i :: ·)).map (flatIdx (d :: ds)) =
        (List.range (prodShape ds)).map (i * prodShape ds + ·) := by
      intro i
      rw [← ih, List.map_map, List.map_map]
      rfl
    rw [indices, List.map_flatMap]
    simp only [h]
    exact range_mul d (prodShape ds)

theorem indices_length (s : List Nat) : (indices s).length = prodShape s := by
  have := congrArg List.length (map_flatIdx_indices s)
  simpa using this

theorem mem_indices {s i : List Nat} : i ∈ indices s ↔ InRange s i := by
  induction s generalizing i with
  | nil => cases i <;> simp [indices, InRange]
  | cons d ds ih =>
    cases i with
    | nil => simp [indices, InRange]
    | cons i is => simp [indices, InRange, ih]

theorem InRange.length {s i : List Nat} (h : InRange s i) : i.length = s.length := by
  induction s generalizing i with
  | nil => cases i <;> simp_all [InRange]
  | cons d ds ih => cases i <;> simp_all [InRange]

theorem flatIdx_lt {s i : List Nat} (h : InRange s i) : flatIdx s i < prodShape s := by
  have : flatIdx s i ∈ (indices s).map (flatIdx s) := List.mem_map_of_mem (mem_indices.2 h)
  rw [map_flatIdx_indices] at this
  exact List.mem_range.1 this

namespace Tensor

variable {α : Type}

/-- Element at a multi-index (an arbitrary element outside the range). -/
def get [Inhabited α] (t : Tensor α) (i : List Nat) : α := t.data.getD (flatIdx t.shape i) default

/-- The tensor with the given shape and elements. -/
def ofFn (s : List Nat) (f : List Nat → α) : Tensor α :=
  ⟨s, (indices s).map f, by rw [List.length_map, indices_length]⟩

theorem data_eq [Inhabited α] (t : Tensor α) : t.data = (indices t.shape).map t.get := by
  have h1 : (indices t.shape).map t.get
      = ((indices t.shape).map (flatIdx t.shape)).map (t.data.getD · default) := by
    rw [List.map_map]; rfl
  rw [h1, map_flatIdx_indices, ← t.size]
  refine List.ext_getElem (by simp) ?_
  intro n h1 h2
  simp [h1]

theorem ofFn_get [Inhabited α] (t : Tensor α) : ofFn t.shape t.get = t :=
  ext rfl t.data_eq.symm

theorem get_ofFn [Inhabited α] {s : List Nat} {f : List Nat → α} {i : List Nat}
    (h : InRange s i) : (ofFn s f).get i = f i := by
  have hm := mem_indices.2 h
  obtain ⟨k, hk, rfl⟩ := List.getElem_of_mem hm
  have hf : flatIdx s (indices s)[k] = k := by
    have h1 := map_flatIdx_indices s
    have h2 : ((indices s).map (flatIdx s))[k]? = (List.range (prodShape s))[k]? := by rw [h1]
    have hk' : k < prodShape s := by rwa [indices_length] at hk
    simpa [List.getElem?_eq_getElem, hk, hk'] using h2
  simp [get, ofFn, hf, hk]

/-- Two tensors are equal when their shapes and their elements at every in-range index are. -/
theorem eq_of_get [Inhabited α] {s t : Tensor α} (hs : s.shape = t.shape)
    (hg : ∀ i, InRange s.shape i → s.get i = t.get i) : s = t := by
  rw [← ofFn_get s, ← ofFn_get t]
  refine ext hs ?_
  simp only [ofFn, ← hs]
  exact List.map_congr_left fun i hi => hg i (mem_indices.1 hi)

/-- Apply a function to every element. -/
def map {β : Type} (f : α → β) (t : Tensor α) : Tensor β :=
  ⟨t.shape, t.data.map f, by rw [List.length_map, t.size]⟩

end Tensor

/-! ### Broadcasting

ONNX multidirectional (NumPy) broadcasting: shapes are aligned at their last dimension. The
functions below work on reversed shapes. -/

/-- Broadcast of two reversed shapes. -/
def bcastRev : List Nat → List Nat → Option (List Nat)
  | [], b => some b
  | a, [] => some a
  | x :: a, y :: b =>
    if x = y then (bcastRev a b).map (x :: ·)
    else if x = 1 then (bcastRev a b).map (y :: ·)
    else if y = 1 then (bcastRev a b).map (x :: ·)
    else none

/-- Broadcast of two shapes; `none` if they are incompatible. -/
def bcast (a b : List Nat) : Option (List Nat) := (bcastRev a.reverse b.reverse).map List.reverse

/-- The index into a tensor of (reversed) shape `s` that a (reversed) index of the broadcast
result reads: repeated along dimensions of size one. -/
def projRev : List Nat → List Nat → List Nat
  | d :: ds, i :: is => (if d = 1 then 0 else i) :: projRev ds is
  | _, _ => []

/-- See `projRev`. -/
def proj (s i : List Nat) : List Nat := (projRev s.reverse i.reverse).reverse

/-- Element-wise binary operation with broadcasting. -/
def Tensor.zipBcast {α β γ : Type} [Inhabited α] [Inhabited β] (f : α → β → γ) (x : Tensor α)
    (y : Tensor β) : Option (Tensor γ) :=
  (bcast x.shape y.shape).map fun s =>
    Tensor.ofFn s fun i => f (x.get (proj x.shape i)) (y.get (proj y.shape i))

theorem inRange_append {a b i j : List Nat} (h : a.length = i.length) :
    InRange (a ++ b) (i ++ j) ↔ InRange a i ∧ InRange b j := by
  induction a generalizing i with
  | nil => cases i <;> simp_all [InRange]
  | cons x a ih =>
    cases i with
    | nil => simp at h
    | cons y i =>
      simp at h
      simp [InRange, ih h, and_assoc]

theorem inRange_reverse {s i : List Nat} : InRange s.reverse i.reverse ↔ InRange s i := by
  induction s generalizing i with
  | nil =>
    cases i with
    | nil => simp [InRange]
    | cons y i =>
      simp [InRange]
  | cons x s ih =>
    cases i with
    | nil =>
      simp [InRange]
    | cons y i =>
      by_cases hl : s.length = i.length
      · rw [List.reverse_cons, List.reverse_cons, inRange_append (by simpa using hl), ih]
        simp [InRange, and_comm]
      · constructor
        · intro h; have := InRange.length h; simp at this; omega
        · intro h; have := InRange.length h; simp at this; omega

theorem projRev_inRange_self : ∀ {b i : List Nat}, InRange b i → InRange b (projRev b i)
  | [], [], _ => trivial
  | [], _ :: _, h => by simp [InRange] at h
  | _ :: _, [], h => by simp [InRange] at h
  | d :: ds, i :: is, h => by
    simp only [InRange] at h
    refine ⟨?_, projRev_inRange_self h.2⟩
    split <;> omega

theorem projRev_inRange : ∀ {a b s i : List Nat}, bcastRev a b = some s → InRange s i →
    InRange a (projRev a i) ∧ InRange b (projRev b i) := by
  intro a
  induction a with
  | nil =>
    intro b s i h hi
    simp [bcastRev] at h
    subst h
    refine ⟨by cases i <;> simp [projRev, InRange], ?_⟩
    exact projRev_inRange_self hi
  | cons x a ih =>
    intro b s i h hi
    cases b with
    | nil =>
      simp [bcastRev] at h
      subst h
      refine ⟨?_, by cases i <;> simp [projRev, InRange]⟩
      exact projRev_inRange_self hi
    | cons y b =>
      simp only [bcastRev] at h
      have fin : ∀ z s', bcastRev a b = some s' → s = z :: s' → (x = z ∨ x = 1) →
          (y = z ∨ y = 1) → InRange (x :: a) (projRev (x :: a) i) ∧
          InRange (y :: b) (projRev (y :: b) i) := by
        intro z s' hs' hs hx hy
        subst hs
        cases i with
        | nil => simp [InRange] at hi
        | cons i is =>
          simp only [InRange] at hi
          obtain ⟨h1, h2⟩ := ih hs' hi.2
          refine ⟨⟨?_, h1⟩, ⟨?_, h2⟩⟩
          · split <;> omega
          · split <;> omega
      split at h
      · next hxy =>
        obtain ⟨s', hs', rfl⟩ := Option.map_eq_some_iff.1 h
        exact fin x s' hs' rfl (Or.inl rfl) (Or.inl hxy.symm)
      · split at h
        · next h1 =>
          obtain ⟨s', hs', rfl⟩ := Option.map_eq_some_iff.1 h
          exact fin y s' hs' rfl (Or.inr h1) (Or.inl rfl)
        · split at h
          · next h1 =>
            obtain ⟨s', hs', rfl⟩ := Option.map_eq_some_iff.1 h
            exact fin x s' hs' rfl (Or.inl rfl) (Or.inr h1)
          · cases h

/-- Projections of an in-range index of the broadcast result are in range. -/
theorem proj_inRange {a b s i : List Nat} (h : bcast a b = some s) (hi : InRange s i) :
    InRange a (proj a i) ∧ InRange b (proj b i) := by
  obtain ⟨s', hs', rfl⟩ := Option.map_eq_some_iff.1 h
  have hi' : InRange s' i.reverse := by
    rw [← inRange_reverse] at hi; simpa using hi
  obtain ⟨h1, h2⟩ := projRev_inRange hs' hi'
  unfold proj
  constructor
  · rw [← inRange_reverse]; simpa using h1
  · rw [← inRange_reverse]; simpa using h2

theorem projRev_self : ∀ {s i : List Nat}, InRange s i → projRev s i = i
  | [], [], _ => rfl
  | [], _ :: _, h => by simp [InRange] at h
  | _ :: _, [], h => by simp [InRange] at h
  | d :: ds, i :: is, h => by
    simp only [InRange] at h
    simp only [projRev, projRev_self h.2]
    split
    · congr 1; omega
    · rfl

theorem proj_self {s i : List Nat} (h : InRange s i) : proj s i = i := by
  unfold proj
  rw [projRev_self (inRange_reverse.2 h), List.reverse_reverse]

theorem bcastRev_comm : ∀ a b : List Nat, bcastRev a b = bcastRev b a
  | [], [] => rfl
  | [], _ :: _ => rfl
  | _ :: _, [] => rfl
  | x :: a, y :: b => by
    simp only [bcastRev, bcastRev_comm a b]
    by_cases h : x = y
    · subst h; rfl
    · have h' : ¬ y = x := fun e => h e.symm
      simp only [h, h', if_false]
      by_cases h1 : x = 1
      · subst h1; simp [h']
      · by_cases h2 : y = 1
        · simp [h2, h1]
        · simp [h1, h2]

theorem bcast_comm (a b : List Nat) : bcast a b = bcast b a := by
  unfold bcast; rw [bcastRev_comm]

end OnnxIR
