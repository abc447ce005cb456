import Verif.Spec.Transpose

/-!
# Burn's tensor operations

The operations of the Burn tensor library that generated code calls, as documented by Burn. Burn is a
dependency and is not in the repository: these definitions are part of the trusted base. `none` is a
panic.
-/

namespace OnnxIR.Burn

variable {α : Type}

/-- `Tensor::reshape` with explicit dimensions: same elements in row-major order; panics when the
number of elements differs. -/
def reshape (t : Tensor α) (s : List Nat) : Option (Tensor α) :=
  if h : prodShape s = prodShape t.shape then some ⟨s, t.data, by rw [t.size, h]⟩ else none

/-- `Tensor::permute`. -/
def permute [Inhabited α] (t : Tensor α) (axes : List Nat) : Tensor α := t.transpose axes

/-- `Tensor::unsqueeze::<D>`: dimensions of size one in front, up to rank `D`. -/
def unsqueeze (t : Tensor α) (rank : Nat) : Option (Tensor α) :=
  if t.shape.length ≤ rank then reshape t (List.replicate (rank - t.shape.length) 1 ++ t.shape)
  else none

/-- `Tensor::squeeze_dim::<D>(dim)`: removes a dimension of size one. -/
def squeezeDim (t : Tensor α) (dim : Nat) : Option (Tensor α) :=
  if t.shape[dim]? = some 1 then reshape t (t.shape.eraseIdx dim) else none

/-- Elements of a reshaped tensor. -/
theorem reshape_get [Inhabited α] {t u : Tensor α} {s i : List Nat} (h : reshape t s = some u) :
    u.shape = s ∧ u.get i = t.data.getD (flatIdx s i) default := by
  unfold reshape at h
  split at h
  · cases h; exact ⟨rfl, rfl⟩
  · cases h

theorem reshape_isSome {t : Tensor α} {s : List Nat} :
    (reshape t s).isSome ↔ prodShape s = prodShape t.shape := by
  unfold reshape
  split <;> simp_all

/-- Elements at indices with the same row-major position are the same. -/
theorem reshape_get_eq [Inhabited α] {t u : Tensor α} {s i j : List Nat} (h : reshape t s = some u)
    (e : flatIdx s i = flatIdx t.shape j) : u.get i = t.get j := by
  rw [(reshape_get h).2, e]; rfl

end OnnxIR.Burn

namespace OnnxIR.Burn

variable {α : Type} [Inhabited α]

/-- A row or column of `k` elements. -/
def row (k : Nat) (f : Nat → α) : List α := (List.range k).map f

/-- `Tensor::matmul` on two tensors of the same rank, at least 2: the last two dimensions are matrices,
the others are broadcast. `dot` is the sum of products, whatever the arithmetic. -/
def matmul (dot : List α → List α → α) (x y : Tensor α) : Option (Tensor α) :=
  match x.shape.reverse, y.shape.reverse with
  | k :: m :: ba, n :: k' :: bb =>
    if k = k' ∧ ba.length = bb.length then
      (bcast ba.reverse bb.reverse).map fun s =>
        Tensor.ofFn (s ++ [m, n]) fun i =>
          dot (row k fun l => x.get (proj ba.reverse (i.take s.length) ++ [i.getD s.length 0, l]))
            (row k fun l => y.get (proj bb.reverse (i.take s.length) ++ [l, i.getD (s.length + 1) 0]))
    else none
  | _, _ => none

/-- `Tensor::unsqueeze_dims(&[-1, 0, …, 0])` with `n` zeros: one dimension of size one at the back and
`n` in front. -/
def unsqueezeBackFront (t : Tensor α) (n : Nat) : Option (Tensor α) :=
  reshape t (List.replicate n 1 ++ t.shape ++ [1])

end OnnxIR.Burn
