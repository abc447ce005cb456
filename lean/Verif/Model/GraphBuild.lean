import Verif.Model.ConstantShape
import Verif.Model.Naming
import Verif.Model.Sanitize

/-!
# From ONNX names to arguments

crates/onnx-ir/src/graph_state.rs: the state built from a graph's inputs, outputs and initializers
(152-287), the resolution of an input name (295-352), adding a node (358-388) and handing out the
result (401-417), with the node loop of crates/onnx-ir/src/phases/node_conversion.rs:37-214.

Simplifications. Types are left at their default (they play no part in resolution). Node types are
taken as they are after `remap_node_type`, fusion (`coalesce`) is in `Verif.Model.Coalesce`, the lifting of
constants is in `Verif.Model.Pipeline`, and a `Constant` node's tensor comes from its attribute
`value` (the other attribute spellings differ only in how the tensor is built). The graph has no
shared registry, as the main graph (pipeline.rs:285-286).
-/

namespace OnnxIR

variable {V : Type}

/-- `NodeProto`: operator, names of inputs and outputs ("" = omitted), attributes. `first` is not in the file: fusion
(`Verif.Model.Coalesce`) records there the operator a fused node had before, under which it was named first. -/
structure NodeProto (V : Type) where
  ty : NodeType
  inputs : List String
  outputs : List String
  attrs : List (String × AttrVal V)
  first : Option NodeType := none

/-- The calls for a name made for a node (node_conversion.rs:165 and 172-191): its type, and the new type if fusion
changed it. -/
def NodeProto.call (np : NodeProto V) : String × Option String :=
  match np.first with
  | none => (np.ty.display, none)
  | some t => (t.display, some np.ty.display)

/-- The name of a node, and the counters afterwards. -/
def NodeProto.named (c : Counters) (np : NodeProto V) : String × Counters := nameNode c np.call.1 np.call.2

/-- `GraphProto`: names of inputs and outputs, initializers with their tensors, nodes. -/
structure GraphProto (V : Type) where
  inputs : List String
  inits : List (String × V)
  nodes : List (NodeProto V)
  outputs : List String

/-- crates/onnx-ir/src/ir/argument.rs:346 `from_name` with 328-343 `new`. -/
def argFromName (name : String) : Arg V :=
  ⟨name, .default, if name = "" then .optional else .dynamic⟩

/-- crates/onnx-ir/src/graph_state.rs:81-110 `GraphState`, the fields used for names. -/
structure GState (V : Type) where
  nodes : List (Node V)
  inputs : List (Arg V)
  inputMap : List (String × Nat)
  outMap : List (String × (Nat × Nat))
  outer : List (String × Arg V)
  counters : Counters

/-- crates/onnx-ir/src/graph_state.rs:523-546 `create_constant_node` with 573-588. -/
def constNode (i : Nat) (v : V) : Node V :=
  { ty := .constant, name := "constant" ++ toString (i + 1),
    inputs := [⟨"", .default, .static v⟩],
    outputs := [⟨outName ("constant" ++ toString (i + 1)) 1, .default, .constant⟩], attrs := [] }

/-- crates/onnx-ir/src/graph_state.rs:554-592 `process_initializers`, from index `i` on. -/
def initializerNodes (i : Nat) : List (String × V) → List (Node V)
  | [] => []
  | (_, v) :: inits => constNode i v :: initializerNodes (i + 1) inits

/-- crates/onnx-ir/src/graph_state.rs:179-186: initializer names, original and sanitised. -/
def initMap (i : Nat) (m : List (String × (Nat × Nat))) : List String → List (String × (Nat × Nat))
  | [] => m
  | x :: xs =>
    initMap (i + 1)
      (if sanitizeName x ≠ x then (sanitizeName x, (i, 0)) :: (x, (i, 0)) :: m
       else (x, (i, 0)) :: m) xs

/-- crates/onnx-ir/src/graph_state.rs:208-268: graph inputs that are not initializers; `idx` is
`input_idx`. An input without a type in the file (only in subgraphs) is treated like one with a
type; both get the sanitised name. -/
def inputLoop (outMap : List (String × (Nat × Nat))) (idx : Nat) (args : List (Arg V))
    (m : List (String × Nat)) : List String → List (Arg V) × List (String × Nat)
  | [] => (args, m)
  | x :: xs =>
    if (mapGet outMap x).isSome then inputLoop outMap idx args m xs
    else
      inputLoop outMap (idx + 1) (args ++ [⟨sanitizeName x, .default, .dynamic⟩])
        (if sanitizeName x ≠ x then (sanitizeName x, idx) :: (x, idx) :: m else (x, idx) :: m) xs

/-- crates/onnx-ir/src/graph_state.rs:152-287 `new_with_registry_and_outer_scope`, with the
counters of node_conversion.rs:53-63. -/
def GState.start (outer : List (String × Arg V)) (g : GraphProto V) : GState V :=
  let outMap := initMap 0 [] (g.inits.map Prod.fst)
  { nodes := initializerNodes 0 g.inits
    inputs := (inputLoop outMap 0 [] [] g.inputs).1
    inputMap := (inputLoop (V := V) outMap 0 [] [] g.inputs).2
    outMap := outMap
    outer := outer
    counters := initCounters g.inits.length }

/-- `self.processed_nodes[node_idx].outputs[output_idx]`; `none` is the index panic. -/
def GState.output (st : GState V) (p : Nat × Nat) : Option (Arg V) :=
  st.nodes[p.1]?.bind fun n => n.outputs[p.2]?

/-- crates/onnx-ir/src/graph_state.rs:326-334 and 344-349: an enclosing graph's argument. -/
def scopeArg (a : Arg V) (s : String) : Arg V :=
  match a.src with
  | .constant => a
  | _ => { a with name := s }

/-- crates/onnx-ir/src/graph_state.rs:316-351: the enclosing graph, or an unknown name. -/
def GState.fromOuter (st : GState V) (x : String) : Arg V :=
  match mapGet st.outer (sanitizeName x) with
  | some a => scopeArg a (sanitizeName x)
  | none =>
    match mapGet st.outer x with
    | some a => scopeArg a (sanitizeName x)
    | none => argFromName (sanitizeName x)

/-- crates/onnx-ir/src/graph_state.rs:295-352 `init_in`; `none` is an index panic. -/
def GState.initIn (st : GState V) (x : String) : Option (Arg V) :=
  match mapGet st.inputMap x with
  | some i => st.inputs[i]?
  | none =>
    match mapGet st.outMap (sanitizeName x) with
    | some p => st.output p
    | none =>
      match mapGet st.outMap x with
      | some p => st.output p
      | none => some (st.fromOuter x)

/-- `node.input.iter().map(|x| graph_data.init_in(x)).collect()`. -/
def GState.initAll (st : GState V) : List String → Option (List (Arg V))
  | [] => some []
  | x :: xs =>
    match st.initIn x, st.initAll xs with
    | some a, some as => some (a :: as)
    | _, _ => none

/-- crates/onnx-ir/src/graph_state.rs:375-377: the map entries of a node's outputs, the `k`-th
output first. -/
def addOutputs (idx k : Nat) (m : List (String × (Nat × Nat))) :
    List (Arg V) → List (String × (Nat × Nat))
  | [] => m
  | a :: as => addOutputs idx (k + 1) ((a.name, (idx, k)) :: m) as

/-- crates/onnx-ir/src/graph_state.rs:378-379: the new names of a node's outputs. -/
def renameOutputs (node : String) (k : Nat) : List (Arg V) → List (Arg V)
  | [] => []
  | a :: as => { a with name := outName node (k + 1) } :: renameOutputs node (k + 1) as

/-- crates/onnx-ir/src/graph_state.rs:358-388 `add_node`. -/
def GState.addNode (st : GState V) (n : Node V) : GState V :=
  { st with
    outMap := addOutputs st.nodes.length 0 st.outMap n.outputs
    nodes := st.nodes ++ [{ n with outputs := renameOutputs n.name 0 n.outputs }] }

/-- crates/onnx-ir/src/phases/node_conversion.rs:217-283 `extract_constant_from_attributes`, for
the attribute `value`. -/
def extractConstant (n : Node V) : Node V :=
  match n.ty, attrGet n.attrs "value" with
  | .constant, some (.tensor v) =>
    { n with
      inputs := n.inputs ++ [⟨"", .default, .static v⟩]
      outputs := match n.outputs with
        | [] => []
        | o :: os => { o with src := .constant } :: os
      attrs := n.attrs.filter fun p => p.1 ≠ "value" }
  | _, _ => n

/-- crates/onnx-ir/src/proto_conversion.rs:583-616 `convert_node_proto`, then
node_conversion.rs:154-212. -/
def GState.convertNode (st : GState V) (np : NodeProto V) : Option (GState V) :=
  match st.initAll np.inputs with
  | none => none
  | some args =>
    let g := np.named st.counters
    let n := extractConstant
      { ty := np.ty, name := g.1, inputs := args,
        outputs := np.outputs.map fun o => argFromName (sanitizeName o), attrs := np.attrs }
    some { st.addNode n with counters := g.2 }

/-- crates/onnx-ir/src/phases/node_conversion.rs:66-213: the loop. -/
def GState.convertNodes (st : GState V) : List (NodeProto V) → Option (GState V)
  | [] => some st
  | np :: nps =>
    match st.convertNode np with
    | none => none
    | some st' => st'.convertNodes nps

/-- crates/onnx-ir/src/graph_state.rs:402-415: the graph's outputs; one that is found nowhere is
dropped. Outer `none` is an index panic. -/
def GState.results (st : GState V) : List String → Option (List (Arg V))
  | [] => some []
  | x :: xs =>
    match mapGet st.outMap (sanitizeName x) with
    | some p =>
      match st.output p, st.results xs with
      | some a, some as => some (a :: as)
      | _, _ => none
    | none =>
      match mapGet st.inputMap (sanitizeName x) with
      | some i =>
        match st.inputs[i]?, st.results xs with
        | some a, some as => some (a :: as)
        | _, _ => none
      | none => st.results xs

/-- The nodes, inputs and outputs of the imported graph. -/
def importGraph (outer : List (String × Arg V)) (g : GraphProto V) :
    Option (List (Node V) × List (Arg V) × List (Arg V)) :=
  match (GState.start outer g).convertNodes g.nodes with
  | none => none
  | some st =>
    match st.results g.outputs with
    | none => none
    | some outs => some (st.nodes, st.inputs, outs)

end OnnxIR
