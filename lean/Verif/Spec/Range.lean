import Mathlib.Algebra.Order.Ring.Rat
import Mathlib.Data.Rat.Cast.Order
import Mathlib.Tactic.Linarith
import Mathlib.Tactic.Ring

/-!
# ONNX Range and Mod

Range, from the ONNX operator reference: the numbers `start`, `start + delta`, `start + 2·delta`, …
up to but excluding `limit`; `delta` may be negative (counting down) and must not be zero. Values are
rationals, so that both integer and floating-point operands are covered.

Mod: with `fmod = 0` the result has the sign of the divisor (as `%` in Python); with `fmod = 1` it has
the sign of the dividend (as `fmod` in C).
-/

namespace OnnxIR.Onnx

/-- `v` comes before the limit in the direction of counting. -/
def BeforeLimit (limit delta v : Rat) : Prop := if 0 < delta then v < limit else limit < v

/-- `out` is Range(start, limit, delta): the arithmetic sequence of exactly those terms before the
limit. -/
def IsRange (start limit delta : Rat) (out : List Rat) : Prop :=
  delta ≠ 0 ∧ ∃ n : Nat, out = (List.range n).map (fun i : Nat => start + (i : Rat) * delta) ∧
    (∀ i : Nat, i < n → BeforeLimit limit delta (start + (i : Rat) * delta)) ∧
    ¬ BeforeLimit limit delta (start + (n : Rat) * delta)

/-- `r` is Mod(a, b) on integers: `a = q·b + r` with `|r| < |b|` and the sign of `r` (when not zero)
that of the dividend (`fmod = 1`) or of the divisor (`fmod = 0`). -/
def IsMod (fmod : Bool) (a b r : Int) : Prop :=
  (∃ q, a = q * b + r) ∧ r.natAbs < b.natAbs ∧
    (r = 0 ∨ r.sign = (if fmod then a else b).sign)

end OnnxIR.Onnx
