import Verif.Model.Boundary

/-!
# What the boundary of a graph is meant to do

Inside the graph a value of type `ScalarTensor` lives on the device. Users pass and receive native scalars.
-/

namespace OnnxIR.Boundary

open Gen (RVal)

variable {X W V : Type}

/-- What the graph gets when a user passes `v` for an input of type `t`. -/
def enter : ArgType → RVal X W → Option (RVal X W)
  | .scalarTensor d, .native d' x => if d' = d then some (.dev d x) else none
  | .scalarTensor _, _ => none
  | _, v => some v

/-- What the user gets when the graph returns `v` for an output of type `t`. -/
def leave : ArgType → RVal X W → Option (RVal X W)
  | .scalarTensor d, .dev d' x => if d' = d then some (.native d x) else none
  | .scalarTensor _, _ => none
  | _, v => some v

/-- Each value through the boundary, at the type of the argument in the same place; as many values as
arguments. -/
def cross (f : ArgType → RVal X W → Option (RVal X W)) : List (Arg V) → List (RVal X W) →
    Option (List (RVal X W))
  | [], [] => some []
  | a :: as, v :: vs =>
    match f a.ty v, cross f as vs with
    | some w, some ws => some (w :: ws)
    | _, _ => none
  | _, _ => none

/-- The variables of the graph when its code starts: each input by its name. -/
def entry : List (Arg V) → List (RVal X W) → Gen.Locals X W
  | a :: as, v :: vs => fun y => if y = a.name then some v else entry as vs y
  | _, _ => fun _ => none

/-- The values of the graph's outputs in `e`. -/
def exits : List (Arg V) → Gen.Locals X W → Option (List (RVal X W))
  | [], _ => some []
  | a :: as, e =>
    match e a.name, exits as e with
    | some v, some vs => some (v :: vs)
    | _, _ => none

/-- A call of the graph: values enter, the nodes run, the outputs leave. -/
def call (body : Gen.Locals X W → Option (Gen.Locals X W)) (ins outs : List (Arg V)) (xs : List (RVal X W)) :
    Option (List (RVal X W)) := do
  let ys ← cross enter ins xs
  let e ← body (entry ins ys)
  let zs ← exits outs e
  cross leave outs zs

/-- A value has the Rust type of an argument type (native scalar, device scalar, or neither). -/
def HasType : RVal X W → ArgType → Prop
  | .native d _, t => t = .scalarNative d
  | .dev d _, t => t = .scalarTensor d
  | .other _, t => (∃ r, t = .shape r) ∨ ∃ u, t = .tensor u

end OnnxIR.Boundary
