import Verif.Model.OpRules3

/-!
# Code generated for Slice on a `Shape` value

crates/burn-onnx/src/burn/node/slice.rs:463-548 `generate_shape_slice`, static parameters (the only ones
type inference accepts, onnx-ir/src/node/slice.rs:191-196). A `Shape` value of length `n` is an array
`[i64; n]`. `none` is a panic of the generated code.
-/

namespace OnnxIR.Gen

/-- Rust's `step_by(k)` for `k > 0`: the first element, then every `k`-th. -/
def stepBy (k : Nat) : List Int → List Int
  | [] => []
  | x :: xs => x :: stepBy k (xs.drop (k - 1))
termination_by l => l.length
decreasing_by simp only [List.length_drop, List.length_cons]; omega

/-- `&a[from..to]`: panics when `from > to` or `to` is beyond the end. -/
def subSlice (l : List Int) (start stop : Nat) : Option (List Int) :=
  if start ≤ stop ∧ stop ≤ l.length then some ((l.take stop).drop start) else none

/-- `slice.try_into().unwrap()` into `[i64; n]`. -/
def toArray (n : Nat) (l : List Int) : Option (List Int) := if l.length = n then some l else none

/-- `let mut out = [0i64; n]; for (i, &s) in … { out[i] = s }`. -/
def fillArray (n : Nat) (l : List Int) : Option (List Int) :=
  if l.length ≤ n then some (l ++ List.replicate (n - l.length) 0) else none

/-- slice.rs:495-499 `actual_start`. -/
def actualStart (n : Nat) (start : Int) : Nat :=
  if start < 0 then (max ((n : Int) + start) 0).toNat else (min start n).toNat

/-- slice.rs:501-507 `actual_end`; `i64::MAX` gives the same as `min`. -/
def actualEnd (n : Nat) (stop : Int) : Nat :=
  if stop < 0 then (max ((n : Int) + stop) 0).toNat else (min stop n).toNat

/-- slice.rs:512-547: the array of length `outLen` computed from `vals`. -/
def shapeSlice (outLen : Nat) (start stop step : Int) (vals : List Int) : Option (List Int) :=
  (subSlice vals (actualStart vals.length start) (actualEnd vals.length stop)).bind fun seg =>
    if step = 1 then toArray outLen seg
    else if step = -1 then toArray outLen seg.reverse
    else if 0 < step then fillArray outLen (stepBy step.natAbs seg)
    else fillArray outLen (stepBy step.natAbs seg.reverse)

end OnnxIR.Gen
