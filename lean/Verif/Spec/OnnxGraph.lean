import Verif.Spec.Eval
import Verif.Model.GraphBuild

/-!
# What an ONNX graph computes

Specification: the graph as it stands in the file, run by name. A node reads the values bound to
its input names ("" = omitted) and binds its output names ("" = not wanted). Initializers are bound
before the first node. Nothing here knows about sanitised or generated names.
-/

namespace OnnxIR

variable {V : Type}

/-- Meaning of an operator; it does not depend on node names. -/
abbrev OpSem (V : Type) :=
  NodeType → List (String × AttrVal V) → List (Option V) → Option (List V)

/-- Values of a list of input names; undefined if one is unbound. -/
def onnxArgs (e : Env V) : List String → Option (List (Option V))
  | [] => some []
  | x :: xs =>
    match (if x = "" then some none else (e x).map some), onnxArgs e xs with
    | some v, some vs => some (v :: vs)
    | _, _ => none

/-- Bind output names in order, skipping omitted ones. -/
def onnxBind (e : Env V) : List String → List V → Env V
  | x :: xs, v :: vs =>
    onnxBind (if x = "" then e else fun y => if y = x then some v else e y) xs vs
  | _, _ => e

/-- Run one node. -/
def onnxNode (S : OpSem V) (e : Env V) (n : NodeProto V) : Option (Env V) :=
  match onnxArgs e n.inputs with
  | none => none
  | some xs =>
    match S n.ty n.attrs xs with
    | none => none
    | some ys => if ys.length = n.outputs.length then some (onnxBind e n.outputs ys) else none

/-- Run nodes in order. -/
def onnxNodes (S : OpSem V) (e : Env V) : List (NodeProto V) → Option (Env V)
  | [] => some e
  | n :: ns =>
    match onnxNode S e n with
    | none => none
    | some e' => onnxNodes S e' ns

/-- Run a graph: `e` binds the inputs (and, for a subgraph, the enclosing values). -/
def onnxGraph (S : OpSem V) (e : Env V) (g : GraphProto V) : Option (List (Option V)) :=
  match onnxNodes S (onnxBind e (g.inits.map Prod.fst) (g.inits.map Prod.snd)) g.nodes with
  | none => none
  | some e' => onnxArgs e' g.outputs

end OnnxIR
