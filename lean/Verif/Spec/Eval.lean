import Verif.Model.Types

/-!
# What a graph computes

This is the specification side: the meaning of a graph of operators, as ONNX defines it. Nodes
run in list order, each reads the values bound to its input names and binds its output names.
Operators are opaque. An operator receives the node's name so that a nondeterministic operator
(Dropout, RandomNormal, ...) may return different values at different nodes.
-/

namespace OnnxIR

/-- Meaning of the operators: node name, operator, attributes, input values (`none` = the
optional input is absent); `none` = the operator fails. -/
abbrev Sem (V : Type) :=
  String → NodeType → List (String × AttrVal V) → List (Option V) → Option (List V)

/-- Values bound to names. -/
abbrev Env (V : Type) := String → Option V

/-- The value of an argument: the outer `none` means "refers to an undefined name". -/
def evalArg {V} (env : Env V) (a : Arg V) : Option (Option V) :=
  match a.src with
  | .static v => some (some v)
  | .optional => some none
  | .constant => (env a.name).map some
  | .dynamic => (env a.name).map some

/-- Values of a list of arguments; undefined if one of them is. -/
def evalArgs {V} (env : Env V) : List (Arg V) → Option (List (Option V))
  | [] => some []
  | a :: as =>
    match evalArg env a, evalArgs env as with
    | some v, some vs => some (v :: vs)
    | _, _ => none

/-- Bind a list of names to a list of values, first name first. -/
def bindAll {V} (env : Env V) : List String → List V → Env V
  | x :: xs, v :: vs => bindAll (fun y => if y = x then some v else env y) xs vs
  | _, _ => env

/-- Run one node. -/
def evalNode {V} (S : Sem V) (env : Env V) (n : Node V) : Option (Env V) :=
  match evalArgs env n.inputs with
  | none => none
  | some xs =>
    match S n.name n.ty n.attrs xs with
    | none => none
    | some ys => if ys.length = n.outputs.length then some (bindAll env n.outNames ys) else none

/-- Run a list of nodes in order. -/
def evalNodes {V} (S : Sem V) (env : Env V) : List (Node V) → Option (Env V)
  | [] => some env
  | n :: ns =>
    match evalNode S env n with
    | none => none
    | some env' => evalNodes S env' ns

/-- What a graph returns: the values of its outputs after running its nodes on the inputs
`env`. -/
def evalGraph {V} (S : Sem V) (env : Env V) (nodes : List (Node V)) (outs : List (Arg V)) :
    Option (List (Option V)) :=
  match evalNodes S env nodes with
  | none => none
  | some env' => evalArgs env' outs

/-- Single assignment: no name is produced twice and no produced name is a graph input. -/
structure SSA {V} (env : Env V) (nodes : List (Node V)) : Prop where
  nodup : (nodes.flatMap Node.outNames).Nodup
  fresh : ∀ n ∈ nodes, ∀ x ∈ n.outNames, env x = none

/-- The naming discipline of the importer for one argument
(crates/onnx-ir/src/ir/argument.rs:22-31 and 328-343): an absent (`Optional`) argument has the
empty name, and only absent and embedded (`Static`) arguments do. -/
def WfArg {V} (a : Arg V) : Prop :=
  (a.src = .optional → a.name = "") ∧ (a.name = "" → a.src = .optional ∨ ∃ v, a.src = .static v)

/-- Every input follows the naming discipline, the label of an embedded constant is not the name
of a value, and no output is named "". (Labels of embedded constants are empty, or end in
`_const` when the simplifier made the constant.) -/
structure WfNames {V} (nodes : List (Node V)) : Prop where
  ins : ∀ n ∈ nodes, ∀ a ∈ n.inputs, WfArg a
  labels : ∀ n ∈ nodes, ∀ a ∈ n.inputs, ∀ v, a.src = .static v → ∀ m ∈ nodes, a.name ∉ m.outNames
  outs : ∀ n ∈ nodes, "" ∉ n.outNames

/-- A transformation of node lists that leaves every defined result unchanged. -/
def Preserves {V} (S : Sem V) (env : Env V) (outs : List (Arg V))
    (nodes nodes' : List (Node V)) : Prop :=
  ∀ r, evalGraph S env nodes outs = some r → evalGraph S env nodes' outs = some r

end OnnxIR
