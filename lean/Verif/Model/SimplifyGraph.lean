import Verif.Model.Simplify
import Verif.Model.ConstantFold
import Verif.Model.PermuteReshape
import Verif.Model.Attention

/-!
# The simplification pipeline

crates/onnx-ir/src/simplify/mod.rs:65-117.
-/

namespace OnnxIR

variable {A B E F : Type}

/-- What the passes transform: nodes, graph outputs and the constants registered in the graph state. -/
structure GraphSt (A B : Type) where
  nodes : List (Node (CVal A B))
  outs : List (Arg (CVal A B))
  cmap : String → Option (CVal A B)

/-- The number operations the passes use: `f64`/`f32` arithmetic (constant_fold.rs), reading of scale factors
(coalesce_attention.rs) and the elements compared with 0 and 1 (identity_element.rs). -/
structure SimpOps (A B E F : Type) where
  fo : FloatOps A B
  sv : ScaleView (CVal A B) F
  elems : CVal A B → Option (List E)
  zero : E
  one : E

/-- The passes of one round. -/
inductive Pass
  | attention
  | permuteReshape
  | constantShape
  | constantFold
  | idempotent
  | identityElement
  | redundant
  | dead
deriving DecidableEq, Repr

/-- simplify/mod.rs:74-99: their order. -/
def Pass.order : List Pass :=
  [.attention, .permuteReshape, .constantShape, .constantFold, .idempotent, .identityElement, .redundant,
    .dead]

/-- simplify/mod.rs:74-99: one pass; `none` = panic. -/
def Pass.run [DecidableEq E] [DecidableEq (CVal A B)] (o : SimpOps A B E F) (p : Pass) (st : GraphSt A B) :
    Option (GraphSt A B) :=
  match p with
  | .attention => some { st with nodes := coalesceAttention o.sv st.cmap st.nodes }
  | .permuteReshape =>
    (simplifyPermuteReshape (cvalView o.fo) st.cmap st.nodes).map fun ns => { st with nodes := ns }
  | .constantShape =>
    (simplifyConstantShape (cvalView o.fo) st.cmap st.nodes st.outs).map fun r => ⟨r.1, r.2.1, r.2.2⟩
  | .constantFold => (foldConstants o.fo st.cmap st.nodes st.outs).map fun r => ⟨r.1, r.2.1, r.2.2⟩
  | .idempotent => some { st with nodes := eliminateIdempotentOps st.nodes }
  | .identityElement =>
    some { st with nodes := eliminateIdentityElements st.cmap o.elems o.zero o.one st.nodes }
  | .redundant => some { st with nodes := eliminateRedundantNodes st.nodes }
  | .dead => some { st with nodes := eliminateDeadNodes st.nodes st.outs }

/-- A sequence of passes. -/
def runPasses [DecidableEq E] [DecidableEq (CVal A B)] (o : SimpOps A B E F) :
    List Pass → GraphSt A B → Option (GraphSt A B)
  | [], st => some st
  | p :: ps, st =>
    match p.run o st with
    | none => none
    | some st' => runPasses o ps st'

/-- simplify/mod.rs:71-114: up to `k` more rounds. The subtraction of line 101 panics (or wraps) if the graph
has grown: `none`. -/
def simplifyLoop [DecidableEq E] [DecidableEq (CVal A B)] (o : SimpOps A B E F) :
    Nat → GraphSt A B → Option (GraphSt A B)
  | 0, st => some st
  | k + 1, st =>
    match runPasses o Pass.order st with
    | none => none
    | some st' =>
      if st.nodes.length < st'.nodes.length then none
      else if st.nodes.length - st'.nodes.length = 0 then some st'
      else simplifyLoop o k st'

/-- simplify/mod.rs:58, 65-117 `simplify_graph`. -/
def simplifyGraph [DecidableEq E] [DecidableEq (CVal A B)] (o : SimpOps A B E F) (st : GraphSt A B) :
    Option (GraphSt A B) :=
  simplifyLoop o 10 st

end OnnxIR
