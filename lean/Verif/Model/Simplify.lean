import Verif.Model.Types

/-!
# The graph-simplification passes that rewrite names and drop nodes

crates/onnx-ir/src/simplify/{dead_nodes,idempotent,identity_element,redundant_nodes}.rs
-/

namespace OnnxIR

variable {V : Type}

/-! ## Dead node elimination -/

/-- crates/onnx-ir/src/simplify/dead_nodes.rs:15-24: names consumed by a graph output or by any
node input. -/
def liveNames (nodes : List (Node V)) (outs : List (Arg V)) : List String :=
  outs.map Arg.name ++ nodes.flatMap Node.inNames

/-- crates/onnx-ir/src/simplify/dead_nodes.rs:26-41: one `retain` sweep. -/
def dceStep (nodes : List (Node V)) (outs : List (Arg V)) : List (Node V) :=
  nodes.filter fun n => n.outputs.any fun o => (liveNames nodes outs).contains o.name

/-- crates/onnx-ir/src/simplify/dead_nodes.rs:10-50 `eliminate_dead_nodes`: repeat the sweep
until it removes nothing. -/
def eliminateDeadNodes (nodes : List (Node V)) (outs : List (Arg V)) : List (Node V) :=
  if (dceStep nodes outs).length = nodes.length then dceStep nodes outs
  else eliminateDeadNodes (dceStep nodes outs) outs
termination_by nodes.length
decreasing_by
  have : (dceStep nodes outs).length ≤ nodes.length := List.length_filter_le _ _
  omega

/-! ## Renaming node inputs -/

/-- The rewriting loop shared by crates/onnx-ir/src/simplify/idempotent.rs:68-74,
identity_element.rs:87-93 and redundant_nodes.rs:46-52: only the `name` of an input changes. -/
def renameArg (ρ : List (String × String)) (a : Arg V) : Arg V :=
  match mapGet ρ a.name with
  | some x => { a with name := x }
  | none => a

/-- See `renameArg`. -/
def renameNode (ρ : List (String × String)) (n : Node V) : Node V :=
  { n with inputs := n.inputs.map (renameArg ρ) }

/-- See `renameArg`. -/
def renameInputs (ρ : List (String × String)) (nodes : List (Node V)) : List (Node V) :=
  nodes.map (renameNode ρ)

/-! ## Idempotent operators -/

/-- crates/onnx-ir/src/simplify/idempotent.rs:6-13 `IDEMPOTENT_OPS`. -/
def idempotentOps : List NodeType := [.relu, .ceil, .floor, .round, .sign, .abs]

/-- crates/onnx-ir/src/simplify/idempotent.rs:22-28: output name to operator of its producer.
Later insertions shadow earlier ones. Simplification: the node index stored in the Rust map is
never read (line 43 ignores it). -/
def producerTypes : List (Node V) → List (String × NodeType)
  | [] => []
  | n :: ns => producerTypes ns ++ (n.outputs.reverse.map fun o => (o.name, n.ty))

/-- crates/onnx-ir/src/simplify/idempotent.rs:34-56: the binding, if any, that one node adds to
the rename map. -/
def idempotentBinding (prod : List (String × NodeType)) (n : Node V) :
    Option (String × String) :=
  if idempotentOps.contains n.ty then
    match n.inputs, n.outputs with
    | [i], [o] =>
      if mapGet prod i.name = some n.ty then some (o.name, i.name) else none
    | _, _ => none
  else none

/-- crates/onnx-ir/src/simplify/idempotent.rs:32-56: bindings in insertion order, newest
first. -/
def idempotentRename (nodes : List (Node V)) : List (String × String) :=
  (nodes.filterMap (idempotentBinding (producerTypes nodes))).reverse

/-- crates/onnx-ir/src/simplify/idempotent.rs:21-77 `eliminate_idempotent_ops`. (The early return
on an empty map, lines 58-60, equals renaming with the empty map.) -/
def eliminateIdempotentOps (nodes : List (Node V)) : List (Node V) :=
  renameInputs (idempotentRename nodes) nodes

/-! ## Identity elements -/

/-- Constant test of an argument, crates/onnx-ir/src/simplify/identity_element.rs:101-117
`is_constant_value`, with crates/onnx-ir/src/ir/argument.rs:351-397 `value`.
`cmap` is the content of the constants an argument of source `Constant` can be resolved to, and
`elems` the conversion of a tensor to its elements (`to_f64_vec`, `none` if it fails), here with
elements in an arbitrary type `E` instead of `f64`. -/
def isConstantValue {E : Type} [DecidableEq E] (cmap : String → Option V)
    (elems : V → Option (List E)) (a : Arg V) (target : E) : Bool :=
  let value : Option V :=
    match a.src with
    | .static v => some v
    | .constant => cmap a.name
    | .dynamic => none
    | .optional => none
  match value with
  | none => false
  | some v =>
    match elems v with
    | none => false
    | some [] => false
    | some es => es.all fun e => decide (e = target)

/-- crates/onnx-ir/src/simplify/identity_element.rs:24-63: index of the operand kept. -/
def identityPassthrough {E : Type} [DecidableEq E] (cmap : String → Option V)
    (elems : V → Option (List E)) (zero one : E) (ty : NodeType) (a b : Arg V) :
    Option (Arg V) :=
  match ty with
  | .add =>
    if isConstantValue cmap elems b zero then some a
    else if isConstantValue cmap elems a zero then some b else none
  | .sub => if isConstantValue cmap elems b zero then some a else none
  | .mul =>
    if isConstantValue cmap elems b one then some a
    else if isConstantValue cmap elems a one then some b else none
  | .div => if isConstantValue cmap elems b one then some a else none
  | .pow => if isConstantValue cmap elems b one then some a else none
  | _ => none

/-- crates/onnx-ir/src/simplify/identity_element.rs:19-75: the binding one node adds. -/
def identityBinding {E : Type} [DecidableEq E] (cmap : String → Option V)
    (elems : V → Option (List E)) (zero one : E) (n : Node V) : Option (String × String) :=
  match n.inputs, n.outputs with
  | [a, b], [o] =>
    match identityPassthrough cmap elems zero one n.ty a b with
    | some k => some (o.name, k.name)
    | none => none
  | _, _ => none

/-- crates/onnx-ir/src/simplify/identity_element.rs:17-76. -/
def identityRename {E : Type} [DecidableEq E] (cmap : String → Option V)
    (elems : V → Option (List E)) (zero one : E) (nodes : List (Node V)) :
    List (String × String) :=
  (nodes.filterMap (identityBinding cmap elems zero one)).reverse

/-- crates/onnx-ir/src/simplify/identity_element.rs:16-96 `eliminate_identity_elements`. -/
def eliminateIdentityElements {E : Type} [DecidableEq E] (cmap : String → Option V)
    (elems : V → Option (List E)) (zero one : E) (nodes : List (Node V)) : List (Node V) :=
  renameInputs (identityRename cmap elems zero one nodes) nodes

/-! ## Common subexpressions -/

/-- crates/onnx-ir/src/simplify/redundant_nodes.rs:60-93: the key is a string; `unique` is
`"__unique__:" ++ name` and `op` the `Debug` rendering of operator, input names and sorted
attributes. Simplification: the rendering is taken to be injective. -/
inductive CseKey (V : Type)
  | unique (name : String)
  | op (ty : NodeType) (ins : List String) (attrs : List (String × AttrVal V))
deriving DecidableEq

/-- crates/onnx-ir/src/simplify/redundant_nodes.rs:62-72: attribute kinds that exclude a node
(`Graphs` is not among them). -/
def AttrVal.isGraphLike : AttrVal V → Bool
  | .deferredGraph _ => true
  | .deferredGraphs _ => true
  | .graph _ => true
  | _ => false

/-- crates/onnx-ir/src/simplify/redundant_nodes.rs:77-84. -/
def Src.isEmbedded : Src V → Bool
  | .constant => true
  | .static _ => true
  | _ => false

/-- crates/onnx-ir/src/simplify/redundant_nodes.rs:60-93 `cse_key`. -/
def cseKey (n : Node V) : CseKey V :=
  if n.attrs.any fun p => p.2.isGraphLike then .unique n.name
  else if n.inputs.any fun a => a.src.isEmbedded then .unique n.name
  else .op n.ty n.inNames n.attrs

/-- First node with the given key among the nodes recorded in `seen`. -/
def seenGet [DecidableEq V] (seen : List (CseKey V × Node V)) (k : CseKey V) : Option (Node V) :=
  match seen with
  | [] => none
  | (k', n) :: rest => if k' = k then some n else seenGet rest k

/-- crates/onnx-ir/src/simplify/redundant_nodes.rs:17-37: the scan that fills `seen` and
`rename`. Simplification: `seen` holds the node instead of its index. -/
def cseScan [DecidableEq V] : List (Node V) → List (CseKey V × Node V) →
    List (String × String) → List (String × String)
  | [], _, ρ => ρ
  | n :: ns, seen, ρ =>
    match seenGet seen (cseKey n) with
    | some orig =>
      if orig.outputs.length = n.outputs.length then
        cseScan ns seen ((n.outNames.zip orig.outNames).reverse ++ ρ)
      else cseScan ns seen ρ
    | none => cseScan ns ((cseKey n, n) :: seen) ρ

/-- crates/onnx-ir/src/simplify/redundant_nodes.rs:11-55 `eliminate_redundant_nodes`. -/
def eliminateRedundantNodes [DecidableEq V] (nodes : List (Node V)) : List (Node V) :=
  renameInputs (cseScan nodes [] []) nodes

end OnnxIR
