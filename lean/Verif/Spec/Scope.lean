import Verif.Model.OuterScope

/-!
# Free names of a subgraph

Specification, on the names as they stand in the file. A graph binds its inputs, its initializers
and its nodes' outputs. A name is free if a node reads it or it is returned, in this graph or
freely in a graph nested in it, and this graph does not bind it. The empty name means "omitted".
-/

namespace OnnxIR

/-- The graphs in a node's attributes, each with the mark "body of a Loop or Scan". -/
def ScopeNode.bodies (n : ScopeNode) : List (Bool × ScopeGraph) :=
  n.attrs.flatMap fun
    | .graph name g => [(decide ((n.op = "Loop" ∨ n.op = "Scan") ∧ name = "body"), g)]
    | .graphs gs => gs.map fun g => (false, g)
    | .other => []

/-- The graph binds the name. -/
def Binds (g : ScopeGraph) (x : String) : Prop :=
  x ∈ g.inputs ∨ x ∈ g.inits ∨ ∃ n ∈ g.nodes, x ∈ n.outputs

/-- The name is used and not bound. -/
inductive Free : ScopeGraph → String → Prop
  | read {g n x} : n ∈ g.nodes → x ∈ n.inputs → x ≠ "" → ¬ Binds g x → Free g x
  | result {g x} : x ∈ g.outputs → x ≠ "" → ¬ Binds g x → Free g x
  | nested {g n b h x} : n ∈ g.nodes → (b, h) ∈ n.bodies → Free h x → ¬ Binds g x → Free g x

/-- The name occurs somewhere in the graph. -/
inductive Occurs : ScopeGraph → String → Prop
  | input {g x} : x ∈ g.inputs → Occurs g x
  | init {g x} : x ∈ g.inits → Occurs g x
  | output {g x} : x ∈ g.outputs → Occurs g x
  | read {g n x} : n ∈ g.nodes → x ∈ n.inputs → Occurs g x
  | written {g n x} : n ∈ g.nodes → x ∈ n.outputs → Occurs g x
  | nested {g n b h x} : n ∈ g.nodes → (b, h) ∈ n.bodies → Occurs h x → Occurs g x

/-- Nested graphs other than the bodies of loops have no formal inputs (ONNX requires this of the
branches of an If), at any depth. -/
inductive PlainBranches : ScopeGraph → Prop
  | mk {g} : (∀ n ∈ g.nodes, ∀ h, (false, h) ∈ n.bodies → h.inputs = []) →
    (∀ n ∈ g.nodes, ∀ b h, (b, h) ∈ n.bodies → PlainBranches h) → PlainBranches g

end OnnxIR
