import Verif.Spec.Typing

/-!
# ONNX multidirectional broadcasting of any number of shapes
-/

namespace OnnxIR

/-- Broadcast a list of shapes onto a shape, one after the other. -/
def bcastOnto (acc : List Nat) : List (List Nat) → Option (List Nat)
  | [] => some acc
  | s :: ss => (bcast acc s).bind (bcastOnto · ss)

/-- Broadcast of a list of shapes; `none` if they are incompatible. -/
def bcastAll (shapes : List (List Nat)) : Option (List Nat) := bcastOnto [] shapes

/-- The annotations describe the shapes, position by position. -/
inductive AdmitsAll : List ArgType → List (List Nat) → Prop
  | nil : AdmitsAll [] []
  | cons {t ts s ss} : t.Admits s → AdmitsAll ts ss → AdmitsAll (t :: ts) (s :: ss)

/-- As in the ONNX documentation. -/
example : bcastAll [[2, 3, 4, 5], [], [5], [4, 5], [2, 1, 1, 5]] = some [2, 3, 4, 5] ∧
    bcastAll [[3], [2]] = none ∧ bcastAll [[1, 4, 5], [2, 3, 1, 1]] = some [2, 3, 4, 5] := by
  decide +kernel

end OnnxIR
