import Verif.Spec.Eval
import Verif.Spec.Tensor

/-!
# ONNX Shape, Gather and Slice on one-dimensional integer data

Independent of the code. Follows the ONNX operator definitions:
* `Shape` (opset 15): negative `start`/`end` count from the back, then both are clamped to
  `[0, rank]`; the result is the slice of the dimensions.
* `Gather` on axis 0: an index in `[-n, n-1]`, negative ones count from the back.
* `Slice`: negative `start`/`end` count from the back; for a positive step both are clamped to
  `[0, n]`, for a negative step `start` to `[0, n-1]` and `end` to `[-1, n-1]`; the elements read
  are `start, start+step, ...` up to and excluding `end`.
-/

namespace OnnxIR

/-- Clamp `x` to `[lo, hi]`. -/
def clampInt (lo hi x : Int) : Int := if x < lo then lo else if hi < x then hi else x

/-- A possibly negative position, counted from the back. -/
def fromBack (n : Nat) (x : Int) : Int := if x < 0 then x + n else x

/-- ONNX `Shape` applied to a tensor with the given dimensions. -/
def onnxShape (start : Int) (stop : Option Int) (dims : List Nat) : List Int :=
  let n := dims.length
  let s := (clampInt 0 n (fromBack n start)).toNat
  let e := (clampInt 0 n (fromBack n (stop.getD n))).toNat
  ((dims.drop s).take (e - s)).map Int.ofNat

/-- ONNX `Gather` of one index along the only axis. -/
def onnxGather1 (l : List Int) (i : Int) : Option Int :=
  if -(l.length : Int) ≤ i ∧ i < l.length then l[(fromBack l.length i).toNat]? else none

/-- Positions `i, i+step, ...` before `e` (a positive step counts up, a negative one down). -/
def slicePositions (step : Int) (e : Int) (i : Int) : List Int :=
  if _h : (0 < step ∧ i < e) ∨ (step < 0 ∧ e < i) then i :: slicePositions step e (i + step)
  else []
termination_by (if 0 < step then e - i else i - e).toNat
decreasing_by
  rcases _h with ⟨h1, h2⟩ | ⟨h1, h2⟩
  · simp only [h1, if_true]; omega
  · have : ¬ 0 < step := by omega
    simp only [this, if_false]; omega

/-- ONNX `Slice` along the only axis, step not zero. -/
def onnxSlice1 (l : List Int) (start stop step : Int) : List Int :=
  let n : Int := l.length
  let s := if 0 < step then clampInt 0 n (fromBack l.length start)
    else clampInt 0 (n - 1) (fromBack l.length start)
  let e := if 0 < step then clampInt 0 n (fromBack l.length stop)
    else clampInt (-1) (n - 1) (fromBack l.length stop)
  (slicePositions step e s).filterMap fun i => l[i.toNat]?

/-- Sanity of the specification, on the examples of the ONNX documentation. -/
example : onnxShape 1 (some (-1)) [2, 3, 4] = [3] ∧ onnxShape (-1) none [2, 3, 4] = [4] ∧
    onnxShape 0 (some (-7)) [2, 3] = [] := by decide +kernel

end OnnxIR
