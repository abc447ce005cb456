import Verif.Model.ShapeOp
import Verif.Spec.ShapeOps
import Verif.Spec.Typing

/-!
# The Shape operator: inferred type and generated code
-/

namespace OnnxIR

/-- Whenever the generated code returns, it returns what ONNX Shape returns. -/
theorem C43_generated_value {start stop : Option Int} {dims : List Nat} {v : List Int}
    (h : genShape start stop dims = some v) : v = onnxShape (start.getD 0) stop dims := by
  unfold genShape at h
  dsimp only at h
  split at h
  · rename_i hb
    simp only [Option.some.injEq] at h
    rw [← h]
    unfold onnxShape
    simp only [Infer.shapeBounds, Infer.normAxis] at hb ⊢
    have hclamp : ∀ x : Int, 0 ≤ x → x ≤ dims.length → clampInt 0 dims.length x = x := by
      intro x h0 h1
      unfold clampInt
      rw [if_neg (by omega), if_neg (by omega)]
    unfold fromBack
    rw [hclamp _ (by omega) (by omega), hclamp _ (by omega) (by omega), List.drop_take]
  · cases h

/-- The type promises the number of elements the generated code returns. -/
theorem C43_type_matches_code {start stop : Option Int} {t : TensorType} {dims : List Nat} {v : List Int}
    {ty : ArgType} (hx : (ArgType.tensor t).Admits dims)
    (hty : Infer.shape start stop (.tensor t) = some ty) (h : genShape start stop dims = some v) :
    ty.Admits [v.length] := by
  unfold genShape at h
  dsimp only at h
  split at h
  · rename_i hb
    simp only [Infer.shape, ← hx.1] at hty
    split at hty
    · cases hty
    · simp only [Option.some.injEq] at hty h
      subst hty
      subst h
      simp only [ArgType.Admits, List.length_map, List.length_drop, List.length_take, List.cons.injEq, and_true]
      omega
  · cases h

/-- The generated code returns exactly when no clamping is needed; ONNX always returns. -/
theorem C43_defined_iff {start stop : Option Int} {dims : List Nat} :
    (genShape start stop dims).isSome ↔
      0 ≤ fromBack dims.length (start.getD 0) ∧
      fromBack dims.length (start.getD 0) ≤ fromBack dims.length (stop.getD dims.length) ∧
      fromBack dims.length (stop.getD dims.length) ≤ dims.length := by
  unfold genShape
  dsimp only [Infer.shapeBounds, Infer.normAxis]
  unfold fromBack
  generalize (if start.getD 0 < 0 then start.getD 0 + (dims.length : Int) else start.getD 0) = a
  generalize (if stop.getD (dims.length : Int) < 0 then stop.getD (dims.length : Int) + (dims.length : Int)
    else stop.getD (dims.length : Int)) = b
  split <;> simp_all

example : genShape (some (-2)) none [2, 3, 4] = some [3, 4] ∧ genShape none (some (-1)) [2, 3, 4] = some [2, 3] := by
  decide

/-- ONNX clamps `end = 10` to the rank; the type says 10 elements and the generated code panics. -/
theorem C43_no_clamping :
    Infer.shape none (some 10) (.tensor ⟨.f32, 3, none⟩) = some (.shape 10) ∧
    genShape none (some 10) [2, 3, 4] = none ∧ onnxShape 0 (some 10) [2, 3, 4] = [2, 3, 4] := by decide

/-- The Shape of a `Shape(k)` value ignores `start` and `end`: with `start = 1` ONNX returns nothing. -/
theorem C43_shape_of_shape_wrong :
    Infer.shape (some 1) none (.shape 3) = some (.shape 1) ∧ genShapeOfShape 3 = [3] ∧
    onnxShape 1 none [3] = [] := by decide

/-- Without `start` and `end` the Shape of a `Shape(k)` value is right. -/
theorem C43_shape_of_shape {k : Nat} :
    genShapeOfShape k = onnxShape 0 none [k] := by
  simp [genShapeOfShape, onnxShape, clampInt, fromBack]

end OnnxIR
