import Verif.Model.Sanitize

/-!
# Outer-scope references

crates/onnx-ir/src/proto_conversion.rs:637-770 `extract_outer_scope_references` and 777-805
`extract_node_outer_scope_references`. Hash sets are lists; only membership matters.
-/

namespace OnnxIR

mutual
/-- `GraphProto`, reduced to names: inputs, initializers, outputs, nodes. -/
inductive ScopeGraph
  | mk (inputs inits outputs : List String) (nodes : List ScopeNode)
/-- `NodeProto`: operator, inputs, outputs, attributes. -/
inductive ScopeNode
  | mk (op : String) (inputs outputs : List String) (attrs : List ScopeAttr)
/-- `AttributeProto`: one graph, several graphs, or anything else. -/
inductive ScopeAttr
  | graph (name : String) (g : ScopeGraph)
  | graphs (gs : List ScopeGraph)
  | other
end

def ScopeGraph.inputs : ScopeGraph → List String | .mk i _ _ _ => i
def ScopeGraph.inits : ScopeGraph → List String | .mk _ i _ _ => i
def ScopeGraph.outputs : ScopeGraph → List String | .mk _ _ o _ => o
def ScopeGraph.nodes : ScopeGraph → List ScopeNode | .mk _ _ _ n => n
def ScopeNode.op : ScopeNode → String | .mk o _ _ _ => o
def ScopeNode.inputs : ScopeNode → List String | .mk _ i _ _ => i
def ScopeNode.outputs : ScopeNode → List String | .mk _ _ o _ => o
def ScopeNode.attrs : ScopeNode → List ScopeAttr | .mk _ _ _ a => a

/-- `.filter(|n| !n.is_empty()).map(sanitize_name)`. -/
def sanAll (xs : List String) : List String := (xs.filter fun x => x ≠ "").map sanitizeName

/-- proto_conversion.rs:653-655 `is_outer_scope_input`. -/
def isOuterInput (inits : List String) (x : String) : Bool :=
  decide (x ≠ "") && !(sanAll inits).contains (sanitizeName x)

/-- proto_conversion.rs:658-682 `defined_names`. -/
def definedNames (ins inits : List String) (nodes : List ScopeNode) : List String :=
  (ins.filter fun x => decide (x ≠ "") && !isOuterInput inits x).map sanitizeName ++
    sanAll inits ++ nodes.flatMap fun n => sanAll n.outputs

/-- proto_conversion.rs:720-731 `loop_provided_names`. -/
def loopProvided (loop : Bool) (attrName : String) (g : ScopeGraph) : List String :=
  if loop = true ∧ attrName = "body" then sanAll g.inputs else []

mutual
/-- proto_conversion.rs:637-770 `extract_outer_scope_references`. -/
def extractOuter : ScopeGraph → List String
  | .mk ins inits outs nodes =>
    ((ins.filter fun x => isOuterInput inits x).map sanitizeName ++
      nodesRefs (definedNames ins inits nodes) nodes ++ sanAll outs).filter
        fun s => !(definedNames ins inits nodes).contains s
/-- proto_conversion.rs:695-756: the references of the nodes. -/
def nodesRefs (defd : List String) : List ScopeNode → List String
  | [] => []
  | .mk op ins _ attrs :: ns =>
    sanAll ins ++ attrsRefs defd (op == "Loop" || op == "Scan") attrs ++ nodesRefs defd ns
/-- proto_conversion.rs:707-755: the references of a node's subgraphs. -/
def attrsRefs (defd : List String) (loop : Bool) : List ScopeAttr → List String
  | [] => []
  | .graph name g :: as =>
    (extractOuter g).filter (fun s => !defd.contains s && !(loopProvided loop name g).contains s) ++
      attrsRefs defd loop as
  | .graphs gs :: as => graphsRefs defd gs ++ attrsRefs defd loop as
  | .other :: as => attrsRefs defd loop as
/-- proto_conversion.rs:744-753. -/
def graphsRefs (defd : List String) : List ScopeGraph → List String
  | [] => []
  | g :: gs => (extractOuter g).filter (fun s => !defd.contains s) ++ graphsRefs defd gs
end

/-- proto_conversion.rs:784-801: the references of one node's subgraphs. -/
def attrsOuter : List ScopeAttr → List String
  | [] => []
  | .graph _ g :: as => extractOuter g ++ attrsOuter as
  | .graphs gs :: as => gs.flatMap extractOuter ++ attrsOuter as
  | .other :: as => attrsOuter as

/-- proto_conversion.rs:777-805 `extract_node_outer_scope_references`. -/
def extractNodeOuter (n : ScopeNode) : List String := attrsOuter n.attrs

end OnnxIR
