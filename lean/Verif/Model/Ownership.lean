import Verif.Spec.Moves

/-!
# Clones and moves in generated code

crates/burn-onnx/src/burn/scope.rs, graph.rs:231-275 and 503-583, node/if_node.rs,
node/loop_node.rs, node/subgraph_helper.rs. Only variables that hold device tensors (`Tensor` and
`ScalarTensor`) are represented, native scalars and shapes are `Copy`. A node is represented by its
tracked tensor inputs, its tensor outputs and the way its `forward` accesses its inputs.
-/

namespace OnnxIR.Gen

open Rust

/-- crates/burn-onnx/src/burn/scope.rs:18-22 `TensorVariable`. -/
structure Var where
  refs : Nat
  pos : Nat
deriving DecidableEq, Repr

/-- crates/burn-onnx/src/burn/scope.rs:12-15 `Scope`: a map from names, given by its content. -/
abbrev Scope := String → Option Var

/-- Insert or overwrite. -/
def Scope.upd (s : Scope) (x : String) (v : Var) : Scope := fun y => if y = x then some v else s y

/-- crates/burn-onnx/src/burn/scope.rs:29-38 `tensor_register_variable`. -/
def registerVariable (s : Scope) (x : String) (p : Nat) : Scope :=
  match s x with
  | some v => if v.pos = p then s.upd x ⟨v.refs + 1, v.pos⟩ else s
  | none => s.upd x ⟨0, p⟩

/-- crates/burn-onnx/src/burn/scope.rs:46-57 `tensor_register_future_use`. -/
def registerFutureUse (s : Scope) (x : String) (p : Nat) : Scope :=
  match s x with
  | some v => if v.pos ≤ p then s.upd x ⟨v.refs + 1, v.pos⟩ else s
  | none => s.upd x ⟨1, p⟩

/-- crates/burn-onnx/src/burn/scope.rs:65-98 `tensor_use_owned`: the new scope, and whether the
variable is cloned. -/
def useOwned (s : Scope) (x : String) (p : Nat) : Scope × Bool :=
  match s x with
  | some v =>
    if v.pos ≤ p ∧ 0 < v.refs then (s.upd x ⟨v.refs - 1, v.pos⟩, decide (0 < v.refs - 1)) else (s, false)
  | none => (s, false)

/-- How a `forward` accesses a tensor: through `scope.arg`, by reading it under its name
(`#name.shape()`, `#name.clone()`), or by taking it by value under its name without asking the scope. -/
inductive Access
  | arg (x : String)
  | peek (x : String)
  | raw (x : String)
deriving DecidableEq, Repr

/-- Code of one access. -/
def genAccess (p : Nat) (s : Scope) : Access → Scope × (Code → Code)
  | .arg x => let r := useOwned s x p; (r.1, if r.2 then .clone x else .move x)
  | .peek x => (s, .clone x)
  | .raw x => (s, .move x)

/-- Code of a list of accesses, in order, followed by `k`. -/
def genAccesses (p : Nat) (s : Scope) : List Access → Scope × (Code → Code)
  | [] => (s, id)
  | a :: as =>
    let r := genAccess p s a
    let r' := genAccesses p r.1 as
    (r'.1, fun c => r.2 (r'.2 c))

/-- `let` for each name. -/
def binds (xs : List String) (c : Code) : Code := xs.foldr Code.bind c

/-- Taking each by value. -/
def movesOf (xs : List String) (c : Code) : Code := xs.foldr Code.move c

/-- The nodes of a graph, in order. `op` is any node without subgraph. `ite` is If: `b1`, `b2` pair
the name a branch uses with the outer value it captures (only captures that branch uses), `r1`, `r2`
are the branch's outputs. `loop` is Loop: initial values `init` for the body's variables `vars`,
accesses `guard` of the trip count, accesses `cond` of the initial condition, captures, body, new
values `rets` of the variables. -/
inductive Prog
  | done
  | op (ins outs : List String) (acc : List Access) (rest : Prog)
  | ite (ins outs : List String) (cond : List Access) (b1 : List (String × String)) (p1 : Prog)
      (r1 : List String) (b2 : List (String × String)) (p2 : Prog) (r2 : List String) (rest : Prog)
  | loop (ins outs : List String) (init vars : List String) (guard cond : List Access)
      (b : List (String × String)) (body : Prog) (rets : List String) (rest : Prog)
deriving DecidableEq, Repr

/-- Number of nodes. -/
def Prog.len : Prog → Nat
  | .done => 0
  | .op _ _ _ r => r.len + 1
  | .ite _ _ _ _ _ _ _ _ _ r => r.len + 1
  | .loop _ _ _ _ _ _ _ _ _ r => r.len + 1

/-- Registration of one node (graph.rs:246-265; the same in subgraph_helper.rs:107-131). -/
def regNode (ins outs : List String) (p : Nat) (s : Scope) : Scope :=
  ins.foldl (registerFutureUse · · p) (outs.foldl (registerVariable · · (p + 1)) s)

/-- Registration of the nodes (graph.rs:246-265, subgraph_helper.rs:107-131). -/
def regProg : Prog → Nat → Scope → Scope
  | .done, _, s => s
  | .op ins outs _ r, p, s => regProg r (p + 1) (regNode ins outs p s)
  | .ite ins outs _ _ _ _ _ _ _ r, p, s => regProg r (p + 1) (regNode ins outs p s)
  | .loop ins outs _ _ _ _ _ _ _ r, p, s => regProg r (p + 1) (regNode ins outs p s)

/-- crates/burn-onnx/src/burn/node/subgraph_helper.rs:50-90 `generate_outer_scope_bindings`:
`let inner = outer.clone();` (a `clone()` is appended whatever the scope says). -/
def genBindings (p : Nat) (s : Scope) : List (String × String) → Scope × (Code → Code)
  | [] => (s, id)
  | (inner, outer) :: rest =>
    let r := genBindings p (useOwned s outer p).1 rest
    (r.1, fun c => .clone outer (.bind inner (r.2 c)))

/-- crates/burn-onnx/src/burn/node/subgraph_helper.rs:96-137 `register_subgraph_scope`; `outs` are
the outputs of type `Tensor`. -/
def regSub (params : List String) (q : Prog) (outs : List String) (p : Nat) (s : Scope) : Scope :=
  outs.foldl (registerFutureUse · · (p + q.len))
    (regProg q p (params.foldl (registerVariable · · p) s))

/-- `update_vars` (loop_node.rs:222-231): `var = out;` unless they are the same variable. -/
def genUpdates : List String → List String → Code → Code
  | v :: vs, o :: os, c =>
    if v = o then genUpdates vs os c else .move o (.set v (genUpdates vs os c))
  | _, _, c => c

/-- `init_stmts` (loop_node.rs:153-172): `let mut var = initial;`. -/
def genInits : List String → List String → Code → Code
  | x :: xs, v :: vs, c => .move x (.bind v (genInits xs vs c))
  | _, _, c => c

/-- Code of the nodes (graph.rs:548-553; subgraph_helper.rs:140-154 starts at `node_position + 1`;
if_node.rs:8-53 and 63-137; loop_node.rs:8-38 and 50-370, without scan outputs). -/
def genProg : Prog → Nat → Scope → Scope × Code
  | .done, _, s => (s, .done)
  | .op _ outs acc r, p, s =>
    let a := genAccesses p s acc
    let g := genProg r (p + 1) a.1
    (g.1, a.2 (binds outs g.2))
  | .ite _ outs cond b1 p1 r1 b2 p2 r2 r, p, s =>
    let a := genAccesses p s cond
    let t := genBindings p a.1 b1
    let t1 := genProg p1 (p + 1) (regSub [] p1 r1 p t.1)
    let e := genBindings p t1.1 b2
    let e1 := genProg p2 (p + 1) (regSub [] p2 r2 p e.1)
    let g := genProg r (p + 1) e1.1
    (g.1, a.2 (.ite (t.2 (t1.2 ++ movesOf r1 .done)) (e.2 (e1.2 ++ movesOf r2 .done)) (binds outs g.2)))
  | .loop _ outs init vars guard cond b body rets r, p, s =>
    let m := genAccesses p s guard
    let a := genAccesses p m.1 cond
    let t := genBindings p a.1 b
    let t1 := genProg body (p + 1) (regSub vars body rets p t.1)
    let g := genProg r (p + 1) t1.1
    (g.1, .block (genInits init vars (a.2 (.loop (m.2 (t.2 (t1.2 ++ genUpdates vars rets .done)))
      (movesOf vars .done)))) (binds outs g.2))

/-- A graph: tensor inputs, nodes, outputs of type `Tensor`, and outputs of type `ScalarTensor`,
which the graph converts to native scalars at its boundary. -/
structure Graph where
  inputs : List String
  prog : Prog
  outputs : List String
  scalarOutputs : List String
deriving DecidableEq, Repr

/-- crates/burn-onnx/src/burn/graph.rs:231-275 `build_scope`. Scalar outputs have been made
`ScalarNative` before (graph.rs:670-685) and are not registered. -/
def buildScope (g : Graph) : Scope :=
  g.outputs.foldl (registerFutureUse · · g.prog.len)
    (regProg g.prog 0 (g.inputs.foldl (registerVariable · · 0) fun _ => none))

/-- crates/burn-onnx/src/burn/graph.rs:503-583 `codegen_forward`: parameters, nodes, conversion of
scalar outputs (`let y = y.into_scalar()…`), return expression. -/
def forward (g : Graph) : Code :=
  binds g.inputs ((genProg g.prog 0 (buildScope g)).2 ++ movesOf g.scalarOutputs (movesOf g.outputs .done))

end OnnxIR.Gen
