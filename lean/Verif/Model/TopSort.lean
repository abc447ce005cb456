import Verif.Model.GraphBuild

/-!
# The order check on an ONNX model

crates/onnx-ir/src/pipeline.rs:388-415 `is_top_sorted`. It looks at the main graph's nodes only: the
names read inside subgraphs, and the nodes of subgraphs, are not checked.
-/

namespace OnnxIR

variable {V : Type}

/-- pipeline.rs:400-410: some node before position `pos` reads `o`. `at` is
`other_node_position`. -/
def readEarlier (pos : Nat) (o : String) : Nat → List (NodeProto V) → Bool
  | _, [] => false
  | i, m :: ms => (m.inputs.contains o && decide (pos > i)) || readEarlier pos o (i + 1) ms

/-- pipeline.rs:393-412: the outputs of one node. -/
def outputsSorted (all : List (NodeProto V)) (pos : Nat) : List String → Bool
  | [] => true
  | o :: os =>
    if o = "" then outputsSorted all pos os
    else if readEarlier pos o 0 all then false
    else outputsSorted all pos os

/-- pipeline.rs:391-414: the nodes from position `pos` on. -/
def sortedFrom (all : List (NodeProto V)) (pos : Nat) : List (NodeProto V) → Bool
  | [] => true
  | n :: ns => outputsSorted all pos n.outputs && sortedFrom all (pos + 1) ns

/-- crates/onnx-ir/src/pipeline.rs:388-415 `is_top_sorted`. -/
def isTopSorted (nodes : List (NodeProto V)) : Bool := sortedFrom nodes 0 nodes

end OnnxIR
