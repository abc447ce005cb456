import Verif.Spec.Burn
import Mathlib.Algebra.BigOperators.Group.List.Basic

/-!
# Burn's operations along one axis

`cumsum`, `flip`, `narrow`, `zeros_like` and `cat` of the Burn tensor library, as documented by Burn
(part of the trusted base), each described by its shape and by the element at every index. `none` is a
panic.
-/

namespace OnnxIR.Burn

variable {α : Type} [Inhabited α]

/-- `Tensor::cumsum(axis)`: the running total along `axis`; panics when the axis does not exist. -/
def cumsum [Add α] [Zero α] (t : Tensor α) (axis : Nat) : Option (Tensor α) :=
  if axis < t.shape.length then
    some (Tensor.ofFn t.shape fun i =>
      ((List.range (i.getD axis 0 + 1)).map fun j => t.get (i.set axis j)).sum)
  else none

/-- `Tensor::flip([axis])`: reverses the order of the elements along `axis`. -/
def flip (t : Tensor α) (axis : Nat) : Option (Tensor α) :=
  if axis < t.shape.length then
    some (Tensor.ofFn t.shape fun i =>
      t.get (i.set axis (t.shape.getD axis 0 - 1 - i.getD axis 0)))
  else none

/-- `Tensor::narrow(axis, start, length)`: `length` positions of `axis` from `start` on; panics when
the range is empty or not inside the dimension. -/
def narrow (t : Tensor α) (axis start len : Nat) : Option (Tensor α) :=
  if axis < t.shape.length ∧ 0 < len ∧ start + len ≤ t.shape.getD axis 0 then
    some (Tensor.ofFn (t.shape.set axis len) fun i => t.get (i.set axis (i.getD axis 0 + start)))
  else none

/-- `Tensor::zeros_like`. -/
def zerosLike [Zero α] (t : Tensor α) : Tensor α := Tensor.ofFn t.shape fun _ => 0

/-- `Tensor::cat` of two tensors along `axis`; panics when the other dimensions differ. -/
def cat2 (a b : Tensor α) (axis : Nat) : Option (Tensor α) :=
  if axis < a.shape.length ∧ a.shape.set axis 0 = b.shape.set axis 0 then
    some (Tensor.ofFn (a.shape.set axis (a.shape.getD axis 0 + b.shape.getD axis 0)) fun i =>
      if i.getD axis 0 < a.shape.getD axis 0 then a.get i
      else b.get (i.set axis (i.getD axis 0 - a.shape.getD axis 0)))
  else none

end OnnxIR.Burn

namespace OnnxIR

theorem getD_set (l : List Nat) (a v k : Nat) :
    (l.set a v).getD k 0 = if a = k ∧ a < l.length then v else l.getD k 0 := by
  simp only [List.getD_eq_getElem?_getD, List.getElem?_set]
  by_cases h : a = k
  · subst h
    by_cases h2 : a < l.length
    · simp [h2]
    · simp [h2]
  · simp [h]

/-- Replacing the coordinate along one axis by another one in range. -/
theorem InRange.set {s i : List Nat} {a v : Nat} (h : InRange s i) (hv : v < s.getD a 0) :
    InRange s (i.set a v) := by
  rw [inRange_iff_get] at *
  refine ⟨by simpa using h.1, fun k hk => ?_⟩
  rw [getD_set]
  split
  · next e => rw [← e.1]; exact hv
  · exact h.2 k hk

/-- In-range indices when the length of one axis changes. -/
theorem inRange_set {s i : List Nat} {a n : Nat} (ha : a < s.length) :
    InRange (s.set a n) i ↔ i.length = s.length ∧ i.getD a 0 < n ∧
      ∀ k, k < s.length → k ≠ a → i.getD k 0 < s.getD k 0 := by
  rw [inRange_iff_get]
  simp only [List.length_set, getD_set, ha, and_true]
  constructor
  · rintro ⟨h1, h2⟩
    refine ⟨h1, by simpa using h2 a ha, fun k hk hne => ?_⟩
    have := h2 k hk
    rwa [if_neg (fun e => hne e.symm)] at this
  · rintro ⟨h1, h2, h3⟩
    refine ⟨h1, fun k hk => ?_⟩
    by_cases e : a = k
    · subst e; simpa using h2
    · rw [if_neg e]; exact h3 k hk (fun e' => e e'.symm)

theorem InRange.axis_lt {s i : List Nat} {a : Nat} (h : InRange s i) (ha : a < s.length) :
    i.getD a 0 < s.getD a 0 := (inRange_iff_get.1 h).2 a ha

theorem set_getD_self {l : List Nat} {a : Nat} : l.set a (l.getD a 0) = l := by
  apply List.ext_getElem?
  intro k
  rw [List.getElem?_set]
  by_cases h : a = k
  · subst h
    by_cases h2 : a < l.length <;> simp [h2]
  · simp [h]

end OnnxIR
