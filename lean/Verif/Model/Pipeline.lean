import Verif.Model.Coalesce
import Verif.Model.TypeInference
import Verif.Model.PostProcess
import Verif.Model.SimplifyGraph
import Verif.Model.Boundary

/-!
# From an ONNX graph to the graph the code is generated from

crates/onnx-ir/src/pipeline.rs:325-372: the phases, one after the other, for the main graph.
-/

namespace OnnxIR

variable {V : Type}

/-- Types known from the file (value infos and initializers, graph_state.rs:191-268 and 523-592): every argument
of a name gets the type declared for it. `Verif.Model.GraphBuild` leaves types out; this adds them. -/
def declareArg (ty : String → Option ArgType) (a : Arg V) : Arg V := { a with ty := (ty a.name).getD a.ty }

/-- The type of an input; an embedded tensor (only in `Constant` nodes at this point) has the type of the node's
output (graph_state.rs:530-542, node_conversion.rs:247-273). -/
def declareInput (ty : String → Option ArgType) (n : Node V) (a : Arg V) : Arg V :=
  match a.src, n.outputs with
  | .static _, o :: _ => { a with ty := (ty o.name).getD a.ty }
  | _, _ => declareArg ty a

/-- See `declareArg`. -/
def declareNode (ty : String → Option ArgType) (n : Node V) : Node V :=
  { n with inputs := n.inputs.map (declareInput ty n), outputs := n.outputs.map (declareArg ty) }

/-- crates/onnx-ir/src/ir/argument.rs:430-459 `to_static`; a failure leaves the argument alone. -/
def liftArg (tbl : String → Option V) (a : Arg V) : Arg V :=
  match a.src with
  | .constant =>
    match tbl a.name with
    | some v => { a with name := "", src := .static v }
    | none => a
  | _ => a

/-- The inputs at the given positions, counted from `k`, embedded. -/
def liftInputs (tbl : String → Option V) (ps : List Nat) : Nat → List (Arg V) → List (Arg V)
  | _, [] => []
  | k, a :: as => (if k ∈ ps then liftArg tbl a else a) :: liftInputs tbl ps (k + 1) as

/-- `processor.lift_constants(node, ..)` (processor.rs:228): each processor embeds some of its constant inputs;
`which` says which. Simplification: a processor that fails at one input goes on with the others. -/
def liftNode (tbl : String → Option V) (which : Node V → List Nat) (n : Node V) : Node V :=
  { n with inputs := liftInputs tbl (which n) 0 n.inputs }

variable {A B E F : Type}

/-- What the phases depend on besides the graph. `matrix` tells the constants of rank 2 (`Verif.Model.Coalesce`). `omapOrder` and `rewireOrder` list hash maps in some order. -/
structure Importer (A B E F : Type) where
  matrix : CVal A B → Bool
  declared : String → Option ArgType
  rules : Rules (CVal A B)
  lifted : Node (CVal A B) → List Nat
  noop : Node (CVal A B) → Bool
  omapOrder : List (String × Nat × Nat) → List (String × Nat × Nat)
  rewireOrder : List (String × String) → List (String × String)
  simp : SimpOps A B E F
  simplify : Bool

/-- Phases 1 and 2 (pipeline.rs:333-342): state and conversion of the nodes with fusion, then the declared types and the
lifting of constants (node_conversion.rs:186-201). Simplification: lifting each node as it is converted and
lifting all at the end are the same, since a node only reads constants converted before it. -/
def convertPhase (o : Importer A B E F) (g : GraphProto (CVal A B)) : Option (GState (CVal A B)) :=
  (GState.convertFused o.matrix false g.nodes (GState.start [] g)).map fun st =>
    { st with
      inputs := st.inputs.map (declareArg o.declared)
      nodes := st.nodes.map fun n => liftNode (constTable st.nodes) o.lifted (declareNode o.declared n) }

/-- Phase 3 (pipeline.rs:344-345). -/
def inferPhase (o : Importer A B E F) (st : GState (CVal A B)) : Option (GState (CVal A B)) :=
  (inferTypes o.rules st.nodes).map fun r => { st with nodes := r.1 }

/-- The plan of phase 4. -/
def noopPlan (o : Importer A B E F) (st : GState (CVal A B)) : NoopPlan :=
  planNoop o.noop (o.omapOrder st.outMap) st.nodes

/-- Phase 4 (pipeline.rs:347-348; post_processing.rs:205-276): outputs, elimination of no-ops, lifting. -/
def postPhase (o : Importer A B E F) (st : GState (CVal A B)) (outputs : List String) :
    Option (GraphSt A B) :=
  (st.results outputs).map fun outs =>
    let plan := noopPlan o st
    let r := applyNoop plan (o.rewireOrder plan.rewire) st.nodes outs
    ⟨r.1.map (liftNode (constTable st.nodes) o.lifted), r.2, constTable st.nodes⟩

/-- Phase 4b (pipeline.rs:350-355). -/
def simplifyPhase [DecidableEq E] [DecidableEq (CVal A B)] (o : Importer A B E F) (st : GraphSt A B) :
    Option (GraphSt A B) :=
  if o.simplify then simplifyGraph o.simp st else some st

/-- Up to phase 4: inputs and the rest. -/
def frontEnd (o : Importer A B E F) (g : GraphProto (CVal A B)) :
    Option (List (Arg (CVal A B)) × GState (CVal A B) × GraphSt A B) := do
  let st ← convertPhase o g
  let st ← inferPhase o st
  let s ← postPhase o st g.outputs
  some (st.inputs, st, s)

/-- crates/onnx-ir/src/pipeline.rs:325-372: nodes, inputs and outputs of the finished graph (phase 5 is
finalization.rs:20-34). -/
def importModel [DecidableEq E] [DecidableEq (CVal A B)] (o : Importer A B E F) (g : GraphProto (CVal A B)) :
    Option (List (Node (CVal A B)) × List (Arg (CVal A B)) × List (Arg (CVal A B))) := do
  let f ← frontEnd o g
  let s ← simplifyPhase o f.2.2
  some (removeUnreferencedConstants s.nodes s.outs, f.1, s.outs)

/-- The parameters and results of the generated function (model_gen.rs:371-401). -/
def forwardSignature [DecidableEq E] [DecidableEq (CVal A B)] (o : Importer A B E F)
    (g : GraphProto (CVal A B)) : Option (List (Arg (CVal A B)) × List (Arg (CVal A B))) := do
  let m ← importModel o g
  let io ← Gen.intoBurn m.1 m.2.1 m.2.2
  some ((Gen.convertScalars io.1).1, (Gen.convertScalars io.2).1)

end OnnxIR
