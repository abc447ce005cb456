import Verif.Spec.OpShapes

/-!
# ONNX output shapes: Concat, Gather, Reduce*, Expand, linear layers
-/

namespace OnnxIR.Onnx

/-- `out` is the concatenation of the shapes along position `k`: same rank, equal elsewhere, sum at
`k`. -/
def Concat (k : Nat) (shapes : List (List Nat)) (out : List Nat) : Prop :=
  k < out.length ∧
  (∀ s ∈ shapes, s.length = out.length ∧ ∀ i : Nat, i ≠ k → s[i]? = out[i]?) ∧
  out[k]? = some (shapes.map (·.getD k 0)).sum

/-- Gather: the indices replace the axis. -/
def gather (a : Int) (s idx : List Nat) : Option (List Nat) :=
  (axis s.length a).map fun k => s.take k ++ idx ++ s.drop (k + 1)

/-- Reduce over axes (all of them if none are given; `noop_with_empty_axes` unset). -/
def reduce (as : List Int) (keepdims : Bool) (s : List Nat) : Option (List Nat) :=
  (if as = [] then some (List.range s.length) else axes s.length as).map fun is =>
    if keepdims then s.mapIdx (fun i d => if i ∈ is then 1 else d) else dropAt is s

/-- Expand: the broadcast of the input with the target. -/
def expand (s target : List Nat) : Option (List Nat) := bcast s target

/-- A linear layer on the last dimension with a weight `[in, out]`, or `[out, in]` if transposed. -/
def linear (transposed : Bool) (s w : List Nat) : Option (List Nat) :=
  match s.reverse, w with
  | d :: batch, [w0, w1] =>
    if d = (if transposed then w1 else w0) then
      some (batch.reverse ++ [if transposed then w0 else w1]) else none
  | _, _ => none

example : gather 1 [2, 3, 4] [7, 8] = some [2, 7, 8, 4] ∧ gather 0 [5] [] = some [] ∧
    reduce [1] false [2, 3, 4] = some [2, 4] ∧ reduce [-1, 0] true [2, 3, 4] = some [1, 3, 1] ∧
    reduce [] false [2, 3] = some [] ∧ reduce [] true [2, 3] = some [1, 1] ∧
    expand [3, 1] [2, 1, 6] = some [2, 3, 6] ∧ linear true [8, 3] [5, 3] = some [8, 5] := by
  decide +kernel

example : Concat 1 [[2, 3], [2, 4]] [2, 7] := by
  refine ⟨by decide, ?_, by decide⟩
  intro s hs
  rcases List.mem_cons.1 hs with rfl | hs
  · exact ⟨rfl, fun i hi => by cases i with | zero => rfl | succ i => cases i with | zero => exact absurd rfl hi | succ i => rfl⟩
  · rw [List.mem_singleton.1 hs]
    exact ⟨rfl, fun i hi => by cases i with | zero => rfl | succ i => cases i with | zero => exact absurd rfl hi | succ i => rfl⟩

end OnnxIR.Onnx
