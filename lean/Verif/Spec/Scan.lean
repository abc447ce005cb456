import Verif.Spec.Loop
import Verif.Spec.BurnAxis

/-!
# The ONNX Scan operator on tensors
-/

namespace OnnxIR

namespace Onnx

variable {V : Type}

/-- The body of a Scan: formal inputs (carried values, then one element of each sequence), calls, and the names of the new carried values and
of the scan values. -/
structure ScanBody (V : Type) where
  vars : List String
  elems : List String
  calls : List (Call V)
  varOuts : List String
  scanOuts : List String

/-- The attributes, by position; a missing entry is 0 (first axis, forward). -/
structure ScanAttrs where
  inAxes : List Int := []
  inDirs : List Int := []
  outAxes : List Int := []
  outDirs : List Int := []

/-- One iteration: the new carried values and the scan values. `outer` gives the values the body captures. -/
def scanStep (b : ScanBody V) (outer : String → Option V) (vs xs : List V) : Option (List V × List V) :=
  match evalCalls (define outer (b.vars ++ b.elems) (vs ++ xs)) b.calls with
  | none => none
  | some env =>
    match values env b.varOuts, values env b.scanOuts with
    | some vs', some sc => some (vs', sc)
    | _, _ => none

/-- All iterations: the last carried values, and the scan values of each iteration in order. -/
def scanFold (step : List V → List V → Option (List V × List V)) : List (List V) → List V → Option (List V × List (List V))
  | [], vs => some (vs, [])
  | xs :: xss, vs =>
    match step vs xs with
    | none => none
    | some (vs', sc) =>
      match scanFold step xss vs' with
      | none => none
      | some (vs'', rows) => some (vs'', sc :: rows)

variable {α : Type} [Inhabited α]

/-- An axis of a tensor of rank `r`, counted from the back if negative. -/
def scanAxis (a : Int) (r : Nat) : Nat := (if a < 0 then a + r else a).toNat

/-- The part of a tensor at position `k` of an axis. -/
def elemAt (ax k : Nat) (t : Tensor α) : Tensor α :=
  Tensor.ofFn (t.shape.eraseIdx ax) fun j => t.get (j.take ax ++ k :: j.drop ax)

/-- What iteration `k` of `n` reads from the sequences: the position counts from the end where the direction is 1. -/
def scanRow (a : ScanAttrs) (ts : List (Tensor α)) (n k : Nat) : List (Tensor α) :=
  ts.mapIdx fun j t => elemAt (scanAxis (a.inAxes.getD j 0) t.shape.length) (if a.inDirs.getD j 0 = 1 then n - 1 - k else k) t

/-- Tensors of shape `s` along a new axis. -/
def stackAlong (ax : Nat) (s : List Nat) (ts : List (Tensor α)) : Tensor α :=
  Tensor.ofFn (s.take ax ++ ts.length :: s.drop ax) fun i => (ts[i.getD ax 0]?).elim default fun t => t.get (i.eraseIdx ax)

/-- Scan output `k`: the values of all iterations, of shape `s`, along a new axis; the last one comes first where the direction is 1. -/
def scanOutput (a : ScanAttrs) (k : Nat) (s : List Nat) (col : List (Tensor α)) : Tensor α :=
  stackAlong (scanAxis (a.outAxes.getD k 0) (s.length + 1)) s (if a.outDirs.getD k 0 = 1 then col.reverse else col)

end Onnx

namespace Burn

variable {α : Type} [Inhabited α]

/-- `Tensor::stack`: panics without tensors, when the shapes differ and when the axis is out of range. -/
def stack (ax : Nat) (ts : List (Tensor α)) : Option (Tensor α) :=
  match ts with
  | [] => none
  | t :: _ => if (∀ u ∈ ts, u.shape = t.shape) ∧ ax ≤ t.shape.length then some (Onnx.stackAlong ax t.shape ts) else none

end Burn

end OnnxIR
