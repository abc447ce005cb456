import Verif.Spec.Attention
import Mathlib.Algebra.Field.Defs
import Mathlib.Tactic.Ring

/-!
# Dense tensors with attention

The operators of `AttnSem` on dense tensors over a field: products of stacks of matrices, NumPy broadcasting
for sums, products and quotients, softmax with an arbitrary weight function (over the reals, the exponential
function). They satisfy the laws `AttnSem`, so those laws are consistent.
-/

namespace OnnxIR

variable {K : Type} [Field K]

local instance : Inhabited K := ⟨0⟩

namespace DenseAttn

/-- ∑ over `l < k`. -/
def sumTo (k : Nat) (f : Nat → K) : K := ((List.range k).map f).foldr (· + ·) 0

theorem sumTo_mul (s : K) (k : Nat) (f : Nat → K) : sumTo k (fun l => s * f l) = s * sumTo k f := by
  unfold sumTo
  induction List.range k with
  | nil => simp
  | cons a as ih => simp only [List.map_cons, List.foldr_cons, ih]; ring

theorem sumTo_congr {k : Nat} {f g : Nat → K} (h : ∀ l, l < k → f l = g l) : sumTo k f = sumTo k g := by
  unfold sumTo
  rw [List.map_congr_left fun l hl => h l (List.mem_range.1 hl)]

/-- Products of stacks of matrices of rank four with the same batch and head dimensions. -/
def mm (a b : Tensor K) : Option (Tensor K) :=
  match a.shape, b.shape with
  | [n, h, i, k], [n', h', k', j] =>
    if n' = n ∧ h' = h ∧ k' = k then
      some (Tensor.ofFn [n, h, i, j] fun x =>
        sumTo k fun l => a.get [x.getD 0 0, x.getD 1 0, x.getD 2 0, l] *
          b.get [x.getD 0 0, x.getD 1 0, l, x.getD 3 0])
    else none
  | _, _ => none

/-- Exchange of the last two of four dimensions. -/
def swap (a : Tensor K) : Option (Tensor K) :=
  match a.shape with
  | [n, h, i, j] =>
    some (Tensor.ofFn [n, h, j, i] fun x => a.get [x.getD 0 0, x.getD 1 0, x.getD 3 0, x.getD 2 0])
  | _ => none

/-- Softmax of a tensor of rank four along its last dimension, for the weight function `wt`. -/
def soft (wt : K → K) (a : Tensor K) : Option (Tensor K) :=
  match a.shape with
  | [n, h, i, j] =>
    some (Tensor.ofFn [n, h, i, j] fun x =>
      wt (a.get x) / sumTo j fun l => wt (a.get [x.getD 0 0, x.getD 1 0, x.getD 2 0, l]))
  | _ => none

/-- The operations. -/
def ops (wt : K → K) : AttnOps (Tensor K) K where
  mm := mm
  swap := swap
  scale s x := some (x.map (s * ·))
  add a b := a.zipBcast (· + ·) b
  soft := soft wt

/-- Attention with a given scale. -/
def attend (wt : K → K) (s : K) (q k v : Tensor K) (mask : Option (Tensor K)) : Option (Tensor K) := do
  let kt ← swap k
  let a ← mm q kt
  let b := a.map (s * ·)
  let c ← match mask with
    | none => some b
    | some m => b.zipBcast (· + ·) m
  let w ← soft wt c
  mm w v

/-- How the pass reads and writes factors. -/
def scaleView [DecidableEq K] (bits : K → Nat) (ofBits : Nat → K) : ScaleView (Tensor K) K where
  scalar t := t.data.head?
  isZero s := decide (s = 0)
  inv s := 1 / s
  mul := (· * ·)
  bits := bits
  ofBits := ofBits

/-- Shapes of tensors; no integer tensors occur. -/
def view : TensorView (Tensor K) where
  shape := Tensor.shape
  i64s _ := none
  scalarI64 _ := none
  mkI64 s _ := Tensor.ofFn s fun _ => 0

/-- The scale of an Attention node: its attribute, or the default for Q. -/
def scaleOf (ofBits : Nat → K) (default : Tensor K → K) (attrs : List (String × AttrVal (Tensor K)))
    (q : Tensor K) : K :=
  match attrGet attrs "scale" with
  | some (.f32 n) => ofBits n
  | _ => default q

/-- The meaning of the operators. `ofBits` reads a scale attribute, `default` is the scale of an Attention
node without one. -/
def sem (wt : K → K) (ofBits : Nat → K) (default : Tensor K → K) : Sem (Tensor K)
  | _, .matMul, _, [some a, some b] => (mm a b).map ([·])
  | _, .transpose, attrs, [some a] =>
    match attrGet attrs "perm" with
    | some (.i64s [0, 1, 3, 2]) => (swap a).map ([·])
    | some (.i64s [0, 1, 2, 3]) => some [a]
    | _ => none
  | _, .mul, _, [some a, some b] => (a.zipBcast (· * ·) b).map ([·])
  | _, .div, _, [some a, some b] => (a.zipBcast (· / ·) b).map ([·])
  | _, .add, _, [some a, some b] => (a.zipBcast (· + ·) b).map ([·])
  | _, .softmax, attrs, [some a] =>
    match attrI64 attrs "axis" with
    | some ax =>
      if ax.getD (-1) = -1 ∨ ax.getD (-1) = (a.shape.length : Int) - 1 then (soft wt a).map ([·]) else none
    | none => none
  | _, .attention, attrs, [some q, some k, some v] =>
    (attend wt (scaleOf ofBits default attrs q) q k v none).map ([·])
  | _, .attention, attrs, [some q, some k, some v, some m] =>
    (attend wt (scaleOf ofBits default attrs q) q k v (some m)).map ([·])
  | _, _, _, _ => none

/-! ## The laws hold -/

theorem eq_ones : ∀ {s : List Nat}, prodShape s = 1 → s = List.replicate s.length 1
  | [], _ => rfl
  | d :: ds, h => by
    simp only [prodShape] at h
    have h1 := Nat.eq_one_of_mul_eq_one_right h
    have h2 := Nat.eq_one_of_mul_eq_one_left h
    rw [h1, List.length_cons, List.replicate_succ, ← eq_ones h2]

theorem bcastRev_ones : ∀ {k : Nat} {s : List Nat}, k ≤ s.length →
    bcastRev s (List.replicate k 1) = some s
  | 0, [], _ => rfl
  | 0, _ :: _, _ => rfl
  | k + 1, [], h => by simp at h
  | k + 1, d :: ds, h => by
    rw [List.replicate_succ]
    simp only [bcastRev, bcastRev_ones (k := k) (s := ds) (by simpa using h), Option.map_some]
    by_cases h1 : d = 1 <;> simp [h1]

/-- A one-element tensor of no higher rank is broadcast to the other operand. -/
theorem fits_one {a b : Tensor K} (hp : prodShape b.shape = 1) (hl : b.shape.length ≤ a.shape.length) :
    bcast a.shape b.shape = some a.shape := by
  unfold bcast
  rw [eq_ones hp, List.reverse_replicate, bcastRev_ones (by simpa using hl)]
  simp

theorem get_one {b : Tensor K} (hp : prodShape b.shape = 1) {s : K} (hs : b.data.head? = some s)
    {i : List Nat} (hi : InRange b.shape i) : b.get i = s := by
  have := flatIdx_lt hi
  have h0 : flatIdx b.shape i = 0 := by omega
  unfold Tensor.get
  rw [h0]
  cases hd : b.data with
  | nil => rw [hd] at hs; simp at hs
  | cons x xs => rw [hd] at hs; simpa using hs

theorem get_map {t : Tensor K} {f : K → K} {i : List Nat} (hi : InRange t.shape i) :
    (t.map f).get i = f (t.get i) := by
  have hl := flatIdx_lt hi
  rw [← t.size] at hl
  simp [Tensor.get, Tensor.map, hl]

theorem zip_right {f : K → K → K} {a b : Tensor K} {s : K} (hs : b.data.head? = some s)
    (hp : prodShape b.shape = 1) (hl : b.shape.length ≤ a.shape.length) :
    a.zipBcast f b = some (a.map (f · s)) := by
  have hb := fits_one hp hl
  unfold Tensor.zipBcast
  rw [hb, Option.map_some]
  congr 1
  refine Tensor.eq_of_get rfl fun i hi => ?_
  replace hi : InRange a.shape i := hi
  rw [Tensor.get_ofFn hi, get_map hi, proj_self hi, get_one hp hs (proj_inRange hb hi).2]

theorem zip_left {f : K → K → K} {a b : Tensor K} {s : K} (hs : a.data.head? = some s)
    (hp : prodShape a.shape = 1) (hl : a.shape.length ≤ b.shape.length) :
    a.zipBcast f b = some (b.map (f s ·)) := by
  have hb : bcast a.shape b.shape = some b.shape := by rw [bcast_comm]; exact fits_one hp hl
  unfold Tensor.zipBcast
  rw [hb, Option.map_some]
  congr 1
  refine Tensor.eq_of_get rfl fun i hi => ?_
  replace hi : InRange b.shape i := hi
  rw [Tensor.get_ofFn hi, get_map hi, proj_self hi, get_one hp hs (proj_inRange hb hi).1]

theorem zip_comm {f : K → K → K} (hf : ∀ x y, f x y = f y x) (a b : Tensor K) :
    a.zipBcast f b = b.zipBcast f a := by
  unfold Tensor.zipBcast
  rw [bcast_comm]
  congr 1
  funext s
  congr 1
  funext i
  exact hf _ _

/-- Linearity of the product in its first operand. -/
theorem mm_scale (s : K) (q k : Tensor K) :
    mm (q.map (s * ·)) k = (mm q k).map (·.map (s * ·)) := by
  unfold mm
  rw [show (q.map (s * ·)).shape = q.shape from rfl]
  split
  · next n h i l n' h' l' j hq hk =>
    split
    · next hc =>
      rw [Option.map_some]
      congr 1
      refine Tensor.eq_of_get rfl fun x hx => ?_
      replace hx : InRange [n, h, i, j] x := hx
      rw [Tensor.get_ofFn hx, get_map hx, Tensor.get_ofFn hx, ← sumTo_mul]
      refine sumTo_congr fun y hy => ?_
      match x, hx with
      | [x0, x1, x2, x3], hx =>
        simp only [InRange] at hx
        simp only [List.getD_cons_zero, List.getD_cons_succ]
        rw [get_map (by rw [hq]; exact ⟨hx.1, hx.2.1, hx.2.2.1, hy, trivial⟩)]
        ring
    · rfl
  · rfl

theorem sem_laws [DecidableEq K] (wt : K → K) (bits : K → Nat) (ofBits : Nat → K)
    (default : Tensor K → K) :
    AttnSem (sem wt ofBits default) view (scaleView bits ofBits) (ops wt) where
  matMulOp nm attrs xs ys h := by
    unfold sem at h
    split at h <;> try (first | cases h | (rename_i heq; cases heq) | contradiction)
    next a b =>
    obtain ⟨y, hy, rfl⟩ := Option.map_eq_some_iff.1 h
    exact ⟨a, b, y, rfl, rfl, hy⟩
  transposeOp nm attrs xs ys hp h := by
    unfold sem at h
    split at h <;> try (first | cases h | contradiction)
    next a _ =>
    simp only [hp] at h
    obtain ⟨y, hy, rfl⟩ := Option.map_eq_some_iff.1 h
    exact ⟨a, y, rfl, rfl, hy⟩
  mulOp nm attrs xs ys h := by
    unfold sem at h
    split at h <;> try (first | cases h | contradiction)
    next a b _ =>
    obtain ⟨y, hy, rfl⟩ := Option.map_eq_some_iff.1 h
    refine ⟨a, b, y, rfl, rfl, fun s hs h4 => ?_, fun s hs h4 => ?_⟩
    · obtain ⟨h1, h2, h3⟩ := hs
      rw [zip_right h1 h2 (by rw [show a.shape.length = 4 from h4]; exact h3)] at hy
      rw [← hy]
      simp only [ops, mul_comm]
    · obtain ⟨h1, h2, h3⟩ := hs
      rw [zip_left h1 h2 (by rw [show b.shape.length = 4 from h4]; exact h3)] at hy
      rw [← hy]
      rfl
  divOp nm attrs xs ys h := by
    unfold sem at h
    split at h <;> try (first | cases h | contradiction)
    next a b _ =>
    obtain ⟨y, hy, rfl⟩ := Option.map_eq_some_iff.1 h
    refine ⟨a, b, y, rfl, rfl, fun s hs _ h4 => ?_⟩
    obtain ⟨h1, h2, h3⟩ := hs
    rw [zip_right h1 h2 (by rw [show a.shape.length = 4 from h4]; exact h3)] at hy
    rw [← hy]
    simp only [ops, scaleView]
    congr 2
    funext x
    ring
  addOp nm attrs xs ys h := by
    unfold sem at h
    split at h <;> try (first | cases h | contradiction)
    next a b _ =>
    obtain ⟨y, hy, rfl⟩ := Option.map_eq_some_iff.1 h
    exact ⟨a, b, y, rfl, rfl, hy⟩
  add_comm a b := zip_comm (fun x y => by ring) a b
  softmaxOp nm attrs xs ys h := by
    unfold sem at h
    split at h <;> try (first | cases h | contradiction)
    next a _ =>
    split at h
    case h_2 => cases h
    next ax hax =>
    split at h
    case isFalse => cases h
    obtain ⟨y, hy, rfl⟩ := Option.map_eq_some_iff.1 h
    exact ⟨a, y, rfl, rfl, fun _ _ _ => hy⟩
  swap_rank x y h := by
    simp only [ops, swap] at h
    split at h
    case h_2 => cases h
    next hx =>
    cases h
    simp [view, hx, Tensor.ofFn]
  mm_rank a b y h _ _ := by
    simp only [ops, mm] at h
    split at h
    case h_2 => cases h
    split at h
    case isFalse => cases h
    cases h
    simp [view, Tensor.ofFn]
  scale_shape s x y h := by
    simp only [ops, Option.some.injEq] at h
    subst h; rfl
  mm_scale s q q' k y h1 h2 := by
    simp only [ops, Option.some.injEq] at h1
    subst h1
    simp only [ops] at h2 ⊢
    rw [mm_scale] at h2
    obtain ⟨a, ha, rfl⟩ := Option.map_eq_some_iff.1 h2
    exact ⟨a, ha, rfl⟩
  attentionOp nm s q k v o h := by
    obtain ⟨_, _, _, kt, a, b, c, w, h1, _, h2, h3, h4, h5, _, h6⟩ := h
    simp only [ops, Option.some.injEq, scaleView] at h1 h2 h3 h5 h6
    simp only at h4
    subst h4
    subst h3
    simp [sem, scaleOf, attrGet, mapGet, attend, h1, h2, h5, h6]
  attentionMaskOp nm s q k v m o h := by
    obtain ⟨_, _, _, kt, a, b, c, w, h1, _, h2, h3, ⟨h4, _⟩, h5, _, h6⟩ := h
    simp only [ops, Option.some.injEq, scaleView] at h1 h2 h3 h4 h5 h6
    subst h3
    simp [sem, scaleOf, attrGet, mapGet, attend, h1, h2, h4, h5, h6]

end DenseAttn

end OnnxIR
