import Verif.Model.Naming

/-!
# Fields of the generated struct and stored weights

crates/burn-onnx/src/burn/graph.rs: `collect_all_fields` (348-449) gives the fields of the generated
`Model`, `collect_all_snapshots` (70-150) the weights written to the burnpack file. They are two separate
traversals with separate counters.

A node is what the traversals read of it: the name of its field, if it has one (`NodeCodegen::field`; the
identifier is the node's name in every implementation), and the parameters it stores
(`NodeCodegen::collect_snapshots`), as paths below the field: `linear.rs:53-76` stores
`{field}.weight` and `{field}.bias`, `constant.rs` stores `{field}` itself (the empty path). The type of
the field and its initialiser are left out; `tag` stands for them, so that the theorems can say which
node a field belongs to.
-/

namespace OnnxIR.Fields

mutual
/-- The nodes of crates/onnx-ir/src/ir/node.rs as graph.rs sees them. -/
inductive FNode
  /-- A node without subgraphs. -/
  | leaf (name : String) (hasField : Bool) (params : List (List String)) (tag : Nat)
  | ifNode (thenBranch elseBranch : FGraph)
  | loopNode (body : FGraph)
  | scanNode (body : FGraph)
/-- The node list of a graph. -/
inductive FGraph
  | nil
  | cons (n : FNode) (rest : FGraph)
end

/-- The `HashMap<String, usize>` of either traversal: newest binding first. -/
abbrev Counts := List (String × Nat)

/-- graph.rs:365-366 and 83-84: `entry(base).or_insert(0)`, then `+= 1`; the new count and the map. -/
def bump (c : Counts) (base : String) : Nat × Counts :=
  let k := (mapGet c base).getD 0 + 1
  (k, (base, k) :: c)

/-- graph.rs:369-371: `{base}_{count}` from the second use on. -/
def fieldName (base : String) (count : Nat) : String :=
  if count > 1 then base ++ "_" ++ toString count else base

mutual
/-- graph.rs:354-417 `collect_subgraph_fields_recursive`. A field is its name and the tag of its node. -/
def subNodeFields (c : Counts) : FNode → List (String × Nat) × Counts
  | .leaf base true _ tag => ([(fieldName base (bump c base).1, tag)], (bump c base).2)
  | .leaf _ false _ _ => ([], c)
  | .ifNode t e =>
    let a := subFields c t
    let b := subFields a.2 e
    (a.1 ++ b.1, b.2)
  | .loopNode b => subFields c b
  | .scanNode _ => ([], c)
def subFields (c : Counts) : FGraph → List (String × Nat) × Counts
  | .nil => ([], c)
  | .cons n rest =>
    let a := subNodeFields c n
    let b := subFields a.2 rest
    (a.1 ++ b.1, b.2)
end

/-- graph.rs:419-447: the nodes of the main graph; their own fields keep their names. -/
def mainFields (c : Counts) : FGraph → List (String × Nat)
  | .nil => []
  | .cons n rest =>
    match n with
    | .leaf name true _ tag => (name, tag) :: mainFields c rest
    | .leaf _ false _ _ => mainFields c rest
    | .ifNode t e =>
      let a := subFields c t
      let b := subFields a.2 e
      a.1 ++ b.1 ++ mainFields b.2 rest
    | .loopNode b =>
      let a := subFields c b
      a.1 ++ mainFields a.2 rest
    | .scanNode _ => mainFields c rest

/-- graph.rs:348-449 `collect_all_fields`. -/
def collectAllFields (g : FGraph) : List (String × Nat) := mainFields [] g

/-- node_traits.rs:195-240 through the node's `collect_snapshots`: a stored weight is its path (the text
`{field}.{param}` split at the dots, 234) and the tag of the node whose data it is. -/
def snapshotsOf (field : String) (params : List (List String)) (tag : Nat) :
    List (List String × Nat) :=
  params.map fun p => (field :: p, tag)

mutual
/-- graph.rs:75-118 `collect_subgraph_snapshots_recursive`. -/
def subNodeSnaps (c : Counts) : FNode → List (List String × Nat) × Counts
  | .leaf base true params tag =>
    (snapshotsOf (fieldName base (bump c base).1) params tag, (bump c base).2)
  | .leaf _ false _ _ => ([], c)
  | .ifNode t e =>
    let a := subSnaps c t
    let b := subSnaps a.2 e
    (a.1 ++ b.1, b.2)
  | .loopNode b => subSnaps c b
  | .scanNode _ => ([], c)
def subSnaps (c : Counts) : FGraph → List (List String × Nat) × Counts
  | .nil => ([], c)
  | .cons n rest =>
    let a := subNodeSnaps c n
    let b := subSnaps a.2 rest
    (a.1 ++ b.1, b.2)
end

/-- graph.rs:120-147: the nodes of the main graph. -/
def mainSnaps (c : Counts) : FGraph → List (List String × Nat)
  | .nil => []
  | .cons n rest =>
    match n with
    | .leaf name true params tag => snapshotsOf name params tag ++ mainSnaps c rest
    | .leaf _ false _ _ => mainSnaps c rest
    | .ifNode t e =>
      let a := subSnaps c t
      let b := subSnaps a.2 e
      a.1 ++ b.1 ++ mainSnaps b.2 rest
    | .loopNode b =>
      let a := subSnaps c b
      a.1 ++ mainSnaps a.2 rest
    | .scanNode _ => mainSnaps c rest

/-- graph.rs:70-150 `collect_all_snapshots`. -/
def collectAllSnapshots (g : FGraph) : List (List String × Nat) := mainSnaps [] g

mutual
/-- The fields that the generated `forward` reads, as `self.{name}`: every node with a field writes its own
node name (`linear.rs:81`, and the same in every implementation of `forward` with a field), at any depth
(subgraph_helper.rs `generate_subgraph_code` calls the nodes' `forward`, also for Scan). A read is the name
and the tag of the reading node. -/
def nodeReads : FNode → List (String × Nat)
  | .leaf name true _ tag => [(name, tag)]
  | .leaf _ false _ _ => []
  | .ifNode t e => reads t ++ reads e
  | .loopNode b => reads b
  | .scanNode b => reads b
def reads : FGraph → List (String × Nat)
  | .nil => []
  | .cons n rest => nodeReads n ++ reads rest
end

end OnnxIR.Fields
