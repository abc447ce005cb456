import Verif.Model.Types

/-!
# Removing constants nothing refers to

crates/onnx-ir/src/ir/graph.rs:61-95 and 189-301: the last step of building a graph, done for every subgraph when its node is built
and then for the enclosing graph.
-/

namespace OnnxIR.Nested

mutual
/-- crates/onnx-ir/src/ir/graph.rs:18-30 `OnnxGraph`. -/
inductive FGraph (V : Type)
  | mk (inputs : List (Arg V)) (nodes : List (FNode V)) (outputs : List (Arg V))
/-- crates/onnx-ir/src/ir/node.rs `Node`: operator, name, inputs, outputs, the names of the captured values (`scope_ref_names`, whose
values are the last inputs) and the subgraphs. The configuration of an operator is given by its name. -/
inductive FNode (V : Type)
  | mk (ty : NodeType) (name : String) (inputs outputs : List (Arg V)) (refs : List String) (bodies : List (FGraph V))
end

variable {V : Type}

def FGraph.inputs : FGraph V → List (Arg V) | .mk i _ _ => i
def FGraph.nodes : FGraph V → List (FNode V) | .mk _ n _ => n
def FGraph.outputs : FGraph V → List (Arg V) | .mk _ _ o => o
def FNode.ty : FNode V → NodeType | .mk t _ _ _ _ _ => t
def FNode.inputs : FNode V → List (Arg V) | .mk _ _ i _ _ _ => i
def FNode.outputs : FNode V → List (Arg V) | .mk _ _ _ o _ _ => o
def FNode.refs : FNode V → List String | .mk _ _ _ _ r _ => r
def FNode.bodies : FNode V → List (FGraph V) | .mk _ _ _ _ _ b => b

/-- graph.rs:219: `saturating_sub`. -/
def ownCount (ins : List (Arg V)) (refs : List String) : Nat := ins.length - refs.length

/-- graph.rs:227-231 and 250-254: the names of the arguments marked as constants. -/
def constNames : List (Arg V) → List String
  | [] => []
  | a :: as =>
    match a.src with
    | .constant => if a.name = "" then constNames as else a.name :: constNames as
    | _ => constNames as

mutual
/-- crates/onnx-ir/src/ir/graph.rs:212-255 `collect_constant_refs`. -/
def constRefs : FGraph V → List String
  | .mk _ nodes outs => nodesConstRefs nodes ++ constNames outs
/-- graph.rs:214-247: the nodes; the captured values among the inputs are passed over, subgraphs are searched. -/
def nodesConstRefs : List (FNode V) → List String
  | [] => []
  | .mk _ _ ins _ refs bodies :: ns =>
    constNames (ins.take (ownCount ins refs)) ++ bodiesConstRefs bodies ++ nodesConstRefs ns
def bodiesConstRefs : List (FGraph V) → List String
  | [] => []
  | g :: gs => constRefs g ++ bodiesConstRefs gs
end

/-- graph.rs:274-275: the name of the first output. -/
def firstOutput : List (Arg V) → String
  | [] => ""
  | a :: _ => a.name

/-- graph.rs:273-287: whether a node stays. -/
def staysIn (refs : List String) (n : FNode V) : Bool :=
  match n.ty with
  | .constant => refs.contains (firstOutput n.outputs)
  | _ => true

/-- crates/onnx-ir/src/ir/graph.rs:260-301 `eliminate_dead_constants`. -/
def dropDead (g : FGraph V) : FGraph V := .mk g.inputs (g.nodes.filter (staysIn (constRefs g))) g.outputs

mutual
/-- crates/onnx-ir/src/ir/graph.rs:61-95 `convert_to_graph` with ir/attribute.rs:80-86: subgraphs are finished first. -/
def finish : FGraph V → FGraph V
  | .mk ins nodes outs => dropDead (.mk ins (finishNodes nodes) outs)
def finishNodes : List (FNode V) → List (FNode V)
  | [] => []
  | .mk ty name ins outs refs bodies :: ns => .mk ty name ins outs refs (finishBodies bodies) :: finishNodes ns
def finishBodies : List (FGraph V) → List (FGraph V)
  | [] => []
  | g :: gs => finish g :: finishBodies gs
end

end OnnxIR.Nested
