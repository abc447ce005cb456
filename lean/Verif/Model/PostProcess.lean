import Verif.Model.Simplify

/-!
# Post-processing and finalization

crates/onnx-ir/src/phases/post_processing.rs and crates/onnx-ir/src/phases/finalization.rs
-/

namespace OnnxIR

variable {V : Type}

/-! ## No-op elimination -/

/-- crates/onnx-ir/src/phases/post_processing.rs:20-25 `NoopEliminationPlan`. -/
structure NoopPlan where
  rewire : List (String × String)
  remove : List Nat

/-- crates/onnx-ir/src/phases/post_processing.rs:86-116: bindings contributed by the no-op node
at index `idx`. `omap` is `node_output_map` in its (arbitrary) iteration order. Simplification:
a no-op node without outputs is skipped (Rust panics at line 95). -/
def noopBindings (omap : List (String × Nat × Nat)) (idx : Nat) (n : Node V) :
    List (String × String) :=
  match n.inputs, n.outputs with
  | i :: _, o :: _ =>
    match omap.find? (fun p => p.2.1 = idx && p.2.2 = 0) with
    | some (orig, _) =>
      if orig ≠ o.name then [(orig, i.name), (o.name, i.name)] else [(o.name, i.name)]
    | none => [(o.name, i.name)]
  | _, _ => []

/-- Can the no-op node be removed (it has an input, line 89, and an output)? -/
def noopRemovable (n : Node V) : Bool :=
  match n.inputs, n.outputs with
  | _ :: _, _ :: _ => true
  | _, _ => false

/-- crates/onnx-ir/src/phases/post_processing.rs:50-122 `plan_noop_elimination`. `noop` decides
which nodes are no-ops (lines 65-70). -/
def planNoop (noop : Node V → Bool) (omap : List (String × Nat × Nat)) (nodes : List (Node V)) :
    NoopPlan :=
  let idx := nodes.zipIdx.filter fun p => noop p.1 && noopRemovable p.1
  { rewire := (idx.flatMap fun p => (noopBindings omap p.2 p.1).reverse).reverse
    remove := idx.map Prod.snd }

/-- crates/onnx-ir/src/phases/post_processing.rs:167-176: follow the chain of rewirings.
Simplification: the loop carries a step budget; `follow_root` shows that on acyclic maps the
budget used below is never exhausted. -/
def follow (m : List (String × String)) : Nat → List String → String → String
  | 0, _, cur => cur
  | fuel + 1, visited, cur =>
    match mapGet m cur with
    | none => cur
    | some next => if visited.contains next then cur else follow m fuel (cur :: visited) next

/-- crates/onnx-ir/src/phases/post_processing.rs:159-179: transitive resolution. `order` lists
the entries of the rewire map in the (arbitrary) iteration order of the `HashMap`. -/
def resolveRewire (fuel : Nat) : List (String × String) → List (String × String) →
    List (String × String)
  | [], m => m
  | (k, v) :: rest, m => resolveRewire fuel rest ((k, follow m fuel [k] v) :: m)

/-- crates/onnx-ir/src/phases/post_processing.rs:150-157: output name to output argument. -/
def outputArgs : List (Node V) → List (String × Arg V)
  | [] => []
  | n :: ns => outputArgs ns ++ (n.outputs.reverse.map fun o => (o.name, o))

/-- crates/onnx-ir/src/phases/post_processing.rs:28-43 `rewire_argument`. -/
def rewireArg (m : List (String × String)) (oam : List (String × Arg V)) (a : Arg V) : Arg V :=
  match mapGet m a.name with
  | none => a
  | some new =>
    match mapGet oam new with
    | some s => { name := new, ty := s.ty, src := s.src }
    | none => { a with name := new }

/-- crates/onnx-ir/src/phases/post_processing.rs:181-186: rewire every input of a node. -/
def rewireNode (m : List (String × String)) (oam : List (String × Arg V)) (n : Node V) :
    Node V :=
  { n with inputs := n.inputs.map (rewireArg m oam) }

/-- crates/onnx-ir/src/phases/post_processing.rs:130-199 `apply_noop_elimination`. `order` is the
iteration order of the rewire map. -/
def applyNoop (plan : NoopPlan) (order : List (String × String)) (nodes : List (Node V))
    (outs : List (Arg V)) : List (Node V) × List (Arg V) :=
  let m := resolveRewire (nodes.length + 2) order plan.rewire
  let oam := outputArgs nodes
  let nodes' := nodes.map (rewireNode m oam)
  let outs' := outs.map (rewireArg m oam)
  ((nodes'.zipIdx.filter fun p => !plan.remove.contains p.2).map Prod.fst, outs')

/-! ## Unreferenced constants -/

/-- crates/onnx-ir/src/phases/finalization.rs:38-46: output name of a constant node to the index
of that node; later insertions shadow earlier ones. -/
def constantIdx (nodes : List (Node V)) : List (String × Nat) :=
  (nodes.zipIdx.flatMap fun p =>
    if p.1.ty = .constant then p.1.outputs.map fun o => (o.name, p.2) else []).reverse

/-- crates/onnx-ir/src/ir/argument.rs:400-412 `is_constant` / `is_dynamic`, as combined in
crates/onnx-ir/src/phases/finalization.rs:53 and 62. -/
def Arg.isRef (a : Arg V) : Bool :=
  match a.src with
  | .constant => true
  | .dynamic => true
  | _ => false

/-- crates/onnx-ir/src/phases/finalization.rs:48-67: number of references to a name. -/
def refCount (nodes : List (Node V)) (outs : List (Arg V)) (x : String) : Nat :=
  ((nodes.flatMap Node.inputs ++ outs).filter fun a => a.isRef && a.name = x).length

/-- crates/onnx-ir/src/phases/finalization.rs:37-85 `remove_unreferenced_constants`. -/
def removeUnreferencedConstants (nodes : List (Node V)) (outs : List (Arg V)) : List (Node V) :=
  let cidx := constantIdx nodes
  let remove := (cidx.filter fun p => mapGet cidx p.1 = some p.2 && refCount nodes outs p.1 = 0).map
    Prod.snd
  (nodes.zipIdx.filter fun p => !remove.contains p.2).map Prod.fst

end OnnxIR
