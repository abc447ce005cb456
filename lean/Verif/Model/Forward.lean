import Verif.Spec.Program
import Verif.Model.Boundary
import Verif.Model.Ownership

/-!
# The `forward` function of a whole graph, with values

crates/burn-onnx/src/burn/graph.rs:231-275 (`build_scope`), 503-583 (`codegen_forward`) and
crates/burn-onnx/src/burn/scope.rs:114-173 (`ScopeAtPosition::arg`): the statements generated for the nodes, each with
the clones and moves the scope decides on, between the conversions of scalars at the boundary. What the code of one node does
with the values it is given is a parameter (`NodeCode`). Nodes with subgraphs are not represented here.
-/

namespace OnnxIR.Gen

open Rust

variable {V R : Type}

/-- How the code of a node mentions its input number `i`: through `scope.arg(&self.inputs[i])`, or by its name in a call that
borrows it. -/
inductive Use
  | arg (i : Nat)
  | name (i : Nat)
deriving DecidableEq, Repr

/-- The number of the input. -/
def Use.index : Use → Nat
  | .arg i => i
  | .name i => i

/-- The code of one node: the inputs it mentions, in order, and its effect on their values. -/
structure NodeCode (R : Type) where
  uses : List Use
  effect : List R → Option (List R)

/-- crates/burn-onnx/src/burn/scope.rs:159-173 `arg`, or a mention by name; `none` is the panic of indexing. -/
def genUse (p : Nat) (n : Node V) (s : Scope) : Use → Option (Scope × Take)
  | .arg i =>
    match n.inputs[i]? with
    | none => none
    | some a =>
      if a.ty.isOnDevice then some ((useOwned s a.name p).1, if (useOwned s a.name p).2 then .clone a.name else .move a.name)
      else some (s, .move a.name)
  | .name i =>
    match n.inputs[i]? with
    | none => none
    | some a => some (s, .clone a.name)

/-- The mentions of a node, in order. -/
def genUses (p : Nat) (n : Node V) (s : Scope) : List Use → Option (Scope × List Take)
  | [] => some (s, [])
  | u :: us =>
    match genUse p n s u with
    | none => none
    | some (s', t) =>
      match genUses p n s' us with
      | none => none
      | some (s'', ts) => some (s'', t :: ts)

/-- graph.rs:548-553: the statements of the nodes, from position `p` on. `code` is `none` where the generator panics. -/
def genNodes (code : Node V → Option (NodeCode R)) : Nat → Scope → List (Node V) → Option (List (Instr R))
  | _, _, [] => some []
  | p, s, n :: ns =>
    match code n with
    | none => none
    | some c =>
      match genUses p n s c.uses with
      | none => none
      | some (s', ts) =>
        match genNodes code (p + 1) s' ns with
        | none => none
        | some rest => some (⟨ts, c.effect, n.outNames⟩ :: rest)

/-- Inputs that the scope counts: `is_dynamic() || is_constant()`, on the device (graph.rs:259-264). -/
def tracked (a : Arg V) : Bool :=
  (match a.src with
    | .dynamic | .constant => true
    | _ => false) && a.ty.isOnDevice

/-- graph.rs:246-265: registration of the nodes from position `p` on. -/
def registerNodes : Nat → Scope → List (Node V) → Scope
  | _, s, [] => s
  | p, s, n :: ns =>
    registerNodes (p + 1)
      (((n.inputs.filter tracked).map Arg.name).foldl (registerFutureUse · · p)
        (((n.outputs.filter fun o => o.ty.isOnDevice).map Arg.name).foldl (registerVariable · · (p + 1)) s)) ns

/-- Has type `Tensor`. -/
def isTensor : ArgType → Bool
  | .tensor _ => true
  | _ => false

/-- graph.rs:231-275 `build_scope`. `ins` and `outs` are the graph inputs and outputs before `ScalarTensor` was replaced; a
graph input that is converted is registered as well (236-244), an output that is converted is not (268-274). -/
def scopeOf (nodes : List (Node V)) (ins outs : List (Arg V)) : Scope :=
  ((outs.filter fun o => isTensor o.ty).map Arg.name).foldl (registerFutureUse · · nodes.length)
    (registerNodes 0 (((ins.filter fun a => a.ty.isOnDevice).map Arg.name).foldl (registerVariable · · 0) fun _ => none) nodes)

/-- `let x = convert(x);` for the arguments with a conversion (graph.rs:508-546, 555-566). -/
def convertStmts (conv : DType → R → Option R) (m : List (String × DType)) (as : List (Arg V)) : List (Instr R) :=
  as.filterMap fun a => (mapGet m a.name).map fun d =>
    ⟨[.move a.name], fun vs => match vs with
      | [v] => (conv d v).map fun w => [w]
      | _ => none, [a.name]⟩

/-- graph.rs:503-583 `codegen_forward`. `toDevice`, `toNative` are the conversions of scalars. -/
def genForward (toDevice toNative : DType → R → Option R) (code : Node V → Option (NodeCode R)) (nodes : List (Node V))
    (ins outs : List (Arg V)) : Option (Function R) :=
  (genNodes code 0 (scopeOf nodes ins outs) nodes).map fun body =>
    ⟨(convertScalars ins).1.map Arg.name,
      convertStmts toDevice (convertScalars ins).2 (convertScalars ins).1 ++ body ++
        convertStmts toNative (convertScalars outs).2 (convertScalars outs).1,
      (convertScalars outs).1.map Arg.name⟩

end OnnxIR.Gen
