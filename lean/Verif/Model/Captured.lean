import Verif.Model.GraphBuild

/-!
# Values of the enclosing graph in a subgraph

crates/onnx-ir/src/phases/node_conversion.rs:88-138 and crates/onnx-ir/src/processor.rs:476-549: how the values a subgraph takes from
the enclosing graph are handed over (Model/HashOrder.lean has the same step for the order of visiting, without the failure of `init_in`).
-/

namespace OnnxIR.Captured

variable {V : Type}

/-- crates/onnx-ir/src/phases/node_conversion.rs:94-113: the inputs of the node with the captured values, and the names the subgraphs
use for these. `refs` is the set of references in the order in which it is visited. `none` is an index panic. -/
def addRefs (st : GState V) : List (Arg V) → List String → Option (List (Arg V) × List String)
  | ins, [] => some (ins, [])
  | ins, r :: rs =>
    if ins.any (fun i => i.name == r) then addRefs st ins rs
    else
      match st.initIn r with
      | none => none
      | some a => (addRefs st (ins ++ [a]) rs).map fun p => (p.1, r :: p.2)

/-- crates/onnx-ir/src/processor.rs:524-546: names paired with the inputs after the node's own; without a name, that of the input. -/
def scopeEntries : List (Arg V) → List String → List (String × Arg V)
  | [], _ => []
  | a :: as, [] => (a.name, a) :: scopeEntries as []
  | a :: as, r :: rs => (r, a) :: scopeEntries as rs

/-- crates/onnx-ir/src/processor.rs:507-549 `build_outer_scope_from_inputs`; the newest entry first. `own` is the number of the
node's own inputs (node_conversion.rs:117, 476-491). -/
def outerScope (own : Nat) (ins : List (Arg V)) (names : List String) : List (String × Arg V) :=
  (scopeEntries (ins.drop own) names).reverse

/-- The number of own inputs: node_conversion.rs:117. -/
def ownInputs (p : List (Arg V) × List String) : Nat := p.1.length - p.2.length

end OnnxIR.Captured
