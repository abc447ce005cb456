import Verif.Spec.OpShapes

/-!
# ONNX Reshape

The target has one entry per output dimension: a positive entry is the dimension, 0 copies the input
dimension at that position (or means 0 with `allowzero`), and at most one −1 is whatever makes the
number of elements equal.
-/

namespace OnnxIR.Onnx

/-- Entry by entry agreement of a target with the output, `k` being the position of the head. -/
def ReshapeDims (allowzero : Bool) (s : List Nat) : Nat → List Int → List Nat → Prop
  | _, [], [] => True
  | k, v :: vs, d :: ds =>
    (v = -1 ∨ (v = 0 ∧ allowzero = false ∧ s[k]? = some d) ∨
      (v = d ∧ (v = 0 → allowzero = true))) ∧ ReshapeDims allowzero s (k + 1) vs ds
  | _, _, _ => False

/-- `out` is a legal result of reshaping a tensor of shape `s`. -/
def Reshape (allowzero : Bool) (target : List Int) (s out : List Nat) : Prop :=
  target.count (-1) ≤ 1 ∧ ReshapeDims allowzero s 0 target out ∧ prodShape out = prodShape s

example : Reshape false [2, 0, -1] [6, 3, 4] [2, 3, 12] ∧ Reshape true [0, 7] [3, 0] [0, 7] ∧
    ¬ Reshape false [2, -1] [3] [2, 2] := by
  refine ⟨⟨by decide, by simp [ReshapeDims], by decide⟩, ⟨by decide, by simp [ReshapeDims], by decide⟩, ?_⟩
  rintro ⟨-, -, h⟩
  exact absurd h (by decide)

end OnnxIR.Onnx
