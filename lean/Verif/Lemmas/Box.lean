import Verif.Spec.Recurrent
import Verif.Props.Scatter

/-!
# Tensors given element by element under slicing, reshaping and swapping dimensions
-/

namespace OnnxIR

variable {α : Type} [Inhabited α]

theorem inRange1 {a : Nat} {i : List Nat} (h : InRange [a] i) : ∃ x, i = [x] ∧ x < a := by
  match i, h with
  | [x], h => exact ⟨x, rfl, by simpa [InRange] using h⟩
  | [], h => simp [InRange] at h
  | _ :: _ :: _, h => simp [InRange] at h

theorem inRange2 {a b : Nat} {i : List Nat} (h : InRange [a, b] i) : ∃ x y, i = [x, y] ∧ x < a ∧ y < b := by
  match i, h with
  | [x, y], h => exact ⟨x, y, rfl, by simpa [InRange] using h⟩
  | [], h => simp [InRange] at h
  | [_], h => simp [InRange] at h
  | _ :: _ :: _ :: _, h => simp [InRange] at h

theorem inRange4 {a b c d : Nat} {i : List Nat} (h : InRange [a, b, c, d] i) :
    ∃ x y z u, i = [x, y, z, u] ∧ x < a ∧ y < b ∧ z < c ∧ u < d := by
  match i, h with
  | [x, y, z, u], h => exact ⟨x, y, z, u, rfl, by simpa [InRange] using h⟩
  | [], h => simp [InRange] at h
  | [_], h => simp [InRange] at h
  | [_, _], h => simp [InRange] at h
  | [_, _, _], h => simp [InRange] at h
  | _ :: _ :: _ :: _ :: _ :: _, h => simp [InRange] at h

/-- Tensors given by functions that agree in range are equal. -/
theorem Tensor.ofFn_congr {β : Type} {s : List Nat} {f g : List Nat → β} (h : ∀ i, InRange s i → f i = g i) :
    Tensor.ofFn s f = Tensor.ofFn s g := by
  unfold Tensor.ofFn
  refine Tensor.ext rfl ?_
  exact List.map_congr_left fun i hi => h i (mem_indices.1 hi)

/-- Reshaping a tensor given by a function. -/
theorem reshape_ofFn {s s' : List Nat} {f g : List Nat → α} (hp : prodShape s' = prodShape s)
    (h : ∀ i, InRange s' i → ∃ j, InRange s j ∧ flatIdx s' i = flatIdx s j ∧ g i = f j) :
    Burn.reshape (Tensor.ofFn s f) s' = some (Tensor.ofFn s' g) := by
  have hs : (Burn.reshape (Tensor.ofFn s f) s').isSome := Burn.reshape_isSome.2 hp
  obtain ⟨u, hu⟩ := Option.isSome_iff_exists.1 hs
  rw [hu]
  congr 1
  have h1 := (Burn.reshape_get (i := []) hu).1
  refine Tensor.eq_of_get h1 fun i hi => ?_
  rw [h1] at hi
  obtain ⟨j, hj, e, hg⟩ := h i hi
  rw [Burn.reshape_get_eq hu (j := j) e, Tensor.get_ofFn hj, Tensor.get_ofFn hi, hg]

/-- The places of a range inside a dimension. -/
theorem places_box {d a b : Nat} (h : b ≤ d) :
    Burn.places d ⟨(a : Nat), some ((b : Nat) : Int), 1⟩ = (List.range (b - min a d)).map (min a d + ·) := by
  unfold Burn.places Burn.bound
  have e1 : ¬ ((a : Nat) : Int) < 0 := by omega
  have e2 : ¬ ((b : Nat) : Int) < 0 := by omega
  simp only [e1, e2, if_false, Int.toNat_natCast, Nat.min_eq_left h]
  simp

/-- A slice inside a tensor given by a function. -/
theorem sliceBox_ofFn {t : Tensor α} {rs : List (Nat × Nat)} (hl : rs.length = t.shape.length)
    (h : ∀ k (hk : k < rs.length) (hs : k < t.shape.length), (rs[k]).1 ≤ (rs[k]).2 ∧ (rs[k]).2 ≤ t.shape[k]) :
    Burn.sliceBox t rs = some (Tensor.ofFn (rs.map fun r => r.2 - r.1) fun i => t.get (List.zipWith (fun r k => r.1 + k) rs i)) := by
  unfold Burn.sliceBox Burn.slice
  rw [if_pos ⟨by simp [hl], fun r hr => by obtain ⟨p, _, rfl⟩ := List.mem_map.1 hr; simp⟩]
  congr 1
  unfold Tensor.pickAll
  have hp : List.zipWith Burn.places t.shape (rs.map fun r => (⟨r.1, some r.2, 1⟩ : Burn.SliceRange)) =
      rs.map fun r => (List.range (r.2 - r.1)).map (r.1 + ·) := by
    refine List.ext_getElem (by simp [hl]) fun k h1 h2 => ?_
    simp only [List.length_map] at h2
    have hs : k < t.shape.length := by omega
    obtain ⟨ha, hb⟩ := h k h2 hs
    simp only [List.getElem_zipWith, List.getElem_map]
    rw [places_box hb, Nat.min_eq_left (by omega)]
  rw [hp]
  have hsh : (rs.map fun r => (List.range (r.2 - r.1)).map (r.1 + ·)).map (·.length) = rs.map fun r => r.2 - r.1 := by
    simp [Function.comp_def]
  rw [hsh]
  refine Tensor.ofFn_congr fun i hi => ?_
  congr 1
  rw [List.zipWith_map_left]
  have hil : i.length = rs.length := by have := hi.length; simpa using this
  rw [inRange_iff_get] at hi
  refine List.ext_getElem (by simp) fun k h1 h2 => ?_
  simp only [List.length_zipWith] at h1
  have hk : k < rs.length := by omega
  have hik : i[k] < (rs[k]).2 - (rs[k]).1 := by
    have := hi.2 k (by simpa using hk)
    simpa [List.getD_eq_getElem?_getD, hk, hil ▸ hk] using this
  simp only [List.getElem_zipWith]
  rw [List.getD_eq_getElem?_getD, List.getElem?_map, List.getElem?_range hik]
  rfl

theorem swapDims_two {a b : Nat} {f : List Nat → α} :
    Burn.swapDims (Tensor.ofFn [a, b] f) 0 1 = some (Tensor.ofFn [b, a] fun i => f [i.getD 1 0, i.getD 0 0]) := by
  unfold Burn.swapDims
  rw [if_pos (by simp [Tensor.ofFn])]
  congr 1
  refine Tensor.ofFn_congr (s := [b, a]) fun i hi => ?_
  obtain ⟨x, y, rfl, hx, hy⟩ := inRange2 hi
  exact Tensor.get_ofFn (s := [a, b]) (i := [y, x]) ⟨hy, hx, trivial⟩

theorem swapDims_three {a b c : Nat} {f : List Nat → α} :
    Burn.swapDims (Tensor.ofFn [a, b, c] f) 0 1 =
      some (Tensor.ofFn [b, a, c] fun i => f [i.getD 1 0, i.getD 0 0, i.getD 2 0]) := by
  unfold Burn.swapDims
  rw [if_pos (by simp [Tensor.ofFn])]
  congr 1
  refine Tensor.ofFn_congr (s := [b, a, c]) fun i hi => ?_
  obtain ⟨x, y, z, rfl, hx, hy, hz⟩ := inRange3 hi
  exact Tensor.get_ofFn (s := [a, b, c]) (i := [y, x, z]) ⟨hy, hx, hz, trivial⟩

theorem swapDims_four {a b c d : Nat} {f : List Nat → α} :
    Burn.swapDims (Tensor.ofFn [a, b, c, d] f) 1 2 =
      some (Tensor.ofFn [a, c, b, d] fun i => f [i.getD 0 0, i.getD 2 0, i.getD 1 0, i.getD 3 0]) := by
  unfold Burn.swapDims
  rw [if_pos (by simp [Tensor.ofFn])]
  congr 1
  refine Tensor.ofFn_congr (s := [a, c, b, d]) fun i hi => ?_
  obtain ⟨x, y, z, u, rfl, hx, hy, hz, hu⟩ := inRange4 hi
  exact Tensor.get_ofFn (s := [a, b, c, d]) (i := [x, z, y, u]) ⟨hx, hz, hy, hu, trivial⟩

end OnnxIR
