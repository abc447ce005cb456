/-!
# A Rust function made of `let` statements

The part of Rust that `forward` functions without conditionals and loops use, with values: parameters, statements
`let (o, …) = op(e, …);` whose arguments are variables taken by value or cloned, and a returned tuple of variables.
Independent of the generator. An operation is given by its effect on the values handed to it.
-/

namespace OnnxIR.Rust

/-- An argument of an operation. -/
inductive Take
  /-- `x.clone()` (or another call that only borrows `x`) -/
  | clone (x : String)
  /-- `x`, by value -/
  | move (x : String)
deriving DecidableEq, Repr

/-- `let (outs) = op(args);`; the effect of `op` is `none` when it panics or does not compile. -/
structure Instr (R : Type) where
  args : List Take
  op : List R → Option (List R)
  outs : List String

/-- A function: names of the parameters, statements, names of the returned variables. -/
structure Function (R : Type) where
  params : List String
  body : List (Instr R)
  rets : List String

/-- The variables: `none` is not declared, `some none` is moved out of. -/
abbrev Vars (R : Type) := String → Option (Option R)

/-- `let x = v;` -/
def Vars.declare {R : Type} (s : Vars R) (x : String) (v : R) : Vars R := fun y => if y = x then some (some v) else s y

/-- The variable has been moved out of. -/
def Vars.leave {R : Type} (s : Vars R) (x : String) : Vars R := fun y => if y = x then some none else s y

/-- The value of an argument and the variables after it; `none` is a compile error: the variable is not declared or was
moved. `copy` tells the values of types that are `Copy`: taking such a variable by value leaves it usable. -/
def take {R : Type} (copy : R → Bool) (s : Vars R) : Take → Option (R × Vars R)
  | .clone x =>
    match s x with
    | some (some v) => some (v, s)
    | _ => none
  | .move x =>
    match s x with
    | some (some v) => some (v, if copy v then s else s.leave x)
    | _ => none

/-- Arguments, from left to right. -/
def takes {R : Type} (copy : R → Bool) (s : Vars R) : List Take → Option (List R × Vars R)
  | [] => some ([], s)
  | t :: ts =>
    match take copy s t with
    | none => none
    | some (v, s') =>
      match takes copy s' ts with
      | none => none
      | some (vs, s'') => some (v :: vs, s'')

/-- `let (x, …) = (v, …);`; the numbers have to agree. -/
def declareAll {R : Type} (s : Vars R) : List String → List R → Option (Vars R)
  | [], [] => some s
  | x :: xs, v :: vs => declareAll (s.declare x v) xs vs
  | _, _ => none

/-- One statement. -/
def step {R : Type} (copy : R → Bool) (s : Vars R) (t : Instr R) : Option (Vars R) :=
  match takes copy s t.args with
  | none => none
  | some (vs, s') =>
    match t.op vs with
    | none => none
    | some ws => declareAll s' t.outs ws

/-- Statements, one after the other. -/
def steps {R : Type} (copy : R → Bool) (s : Vars R) : List (Instr R) → Option (Vars R)
  | [] => some s
  | t :: ts =>
    match step copy s t with
    | none => none
    | some s' => steps copy s' ts

/-- A call of the function: `none` if it does not compile or panics. -/
def call {R : Type} (copy : R → Bool) (f : Function R) (xs : List R) : Option (List R) :=
  match declareAll (fun _ => none) f.params xs with
  | none => none
  | some s =>
    match steps copy s f.body with
    | none => none
    | some s' =>
      match takes copy s' (f.rets.map .move) with
      | none => none
      | some (ys, _) => some ys

/-- `|a| { let b = op(a.clone()); let c = op(b, a); c }` runs, and does not compile when the clone is left out. -/
example : call (fun _ : Nat => false) ⟨["a"], [⟨[.clone "a"], fun l => some [l.sum + 1], ["b"]⟩,
      ⟨[.move "b", .move "a"], fun l => some [l.sum], ["c"]⟩], ["c"]⟩ [20] = some [41] ∧
    call (fun _ : Nat => false) ⟨["a"], [⟨[.move "a"], fun l => some [l.sum + 1], ["b"]⟩,
      ⟨[.move "b", .move "a"], fun l => some [l.sum], ["c"]⟩], ["c"]⟩ [20] = none := by
  decide +kernel

end OnnxIR.Rust
