import Verif.Model.Simplify

/-!
# The signature of the generated `forward` and the scalars crossing it

crates/burn-onnx/src/burn/graph.rs:503-685, crates/burn-onnx/src/model_gen.rs:371-401 and
crates/burn-onnx/src/burn/argument_helpers.rs:63-78, 109-154.
-/

namespace OnnxIR.Gen

variable {V : Type}

/-- graph.rs:608-618: node inputs by name, later nodes over earlier ones. -/
def nodeInputs (nodes : List (Node V)) : List (String × Arg V) :=
  (nodes.flatMap fun n => n.inputs.map fun a => (a.name, a)).reverse

/-- graph.rs:620-637: one graph input per name; `none` = panic. -/
def registerInputs (found : List (String × Arg V)) (given : List (Arg V)) : Nat → List String →
    Option (List (Arg V))
  | _, [] => some []
  | idx, x :: xs =>
    match (mapGet found x).or given[idx]?, registerInputs found given (idx + 1) xs with
    | some a, some as => some (a :: as)
    | _, _ => none

/-- graph.rs:639-661: one graph output per name. Simplification: without given outputs the code looks for
node outputs of those names; `into_burn` passes as many names as outputs, so there are no names then. -/
def registerOutputs (given : List (Arg V)) (names : List String) : List (Arg V) :=
  (names.zip given).map fun p => { p.2 with name := p.1 }

/-- graph.rs:592-665 `register_input_output` before the conversion of scalars: graph inputs and outputs. -/
def registerIO (nodes : List (Node V)) (inNames outNames : List String) (ins outs : List (Arg V)) :
    Option (List (Arg V) × List (Arg V)) :=
  if nodes.isEmpty then some (ins, outs)
  else (registerInputs (nodeInputs nodes) ins 0 inNames).map fun as => (as, registerOutputs outs outNames)

/-- model_gen.rs:371-401 `into_burn`: the names are those of the graph's inputs and outputs. -/
def intoBurn (nodes : List (Node V)) (ins outs : List (Arg V)) : Option (List (Arg V) × List (Arg V)) :=
  registerIO nodes (ins.map Arg.name) (outs.map Arg.name) ins outs

/-- graph.rs:671-684: the conversions, by name, later ones over earlier ones. -/
def conversions (as : List (Arg V)) : List (String × DType) :=
  (as.filterMap fun a => match a.ty with
    | .scalarTensor d => some (a.name, d)
    | _ => none).reverse

/-- graph.rs:671-684: the type in the signature. -/
def boundaryType : ArgType → ArgType
  | .scalarTensor d => .scalarNative d
  | t => t

/-- graph.rs:670-685 `convert_graph_boundary_scalars`, for the inputs or for the outputs. -/
def convertScalars (as : List (Arg V)) : List (Arg V) × List (String × DType) :=
  (as.map fun a => { a with ty := boundaryType a.ty }, conversions as)

/-- A Rust value: a native scalar, a scalar on the device (`Tensor<B, 1>` with one element), or anything
else. -/
inductive RVal (X W : Type)
  | native (d : DType) (x : X)
  | dev (d : DType) (x : X)
  | other (w : W)
deriving DecidableEq, Repr

variable {X W : Type}

/-- Local variables. -/
abbrev Locals (X W : Type) := String → Option (RVal X W)

/-- `let x = v;` -/
def Locals.bind (e : Locals X W) (x : String) (v : RVal X W) : Locals X W := fun y => if y = x then some v else e y

/-- graph.rs:511-546: `Tensor::from_data_dtype(TensorData::from([x]), …, dtype)`; only compiles for a native
scalar. Simplification: of that element type. -/
def toDevice (d : DType) : RVal X W → Option (RVal X W)
  | .native d' x => if d' = d then some (.dev d x) else none
  | _ => none

/-- argument_helpers.rs:75-78 `on_device_to_native`: `x.into_scalar().elem::<T>()`; only compiles for a
tensor. Simplification: of that element type. -/
def toNativeScalar (d : DType) : RVal X W → Option (RVal X W)
  | .dev d' x => if d' = d then some (.native d x) else none
  | _ => none

/-- graph.rs:508-546 and 555-566: `let x = convert(x);` for each argument with a conversion. -/
def convertLoop (conv : DType → RVal X W → Option (RVal X W)) (m : List (String × DType)) :
    List (Arg V) → Locals X W → Option (Locals X W)
  | [], e => some e
  | a :: as, e =>
    match mapGet m a.name with
    | none => convertLoop conv m as e
    | some d =>
      match (e a.name).bind (conv d) with
      | none => none
      | some v => convertLoop conv m as (e.bind a.name v)

/-- argument_helpers.rs:116-127 `codegen_fn_params`: the parameters, bound to the arguments of a call.
Simplification: a repeated name is rejected by the compiler; here the later one wins. -/
def bindParams : List (Arg V) → List (RVal X W) → Locals X W → Option (Locals X W)
  | [], [], e => some e
  | a :: as, v :: vs, e => bindParams as vs (e.bind a.name v)
  | _, _, _ => none

/-- argument_helpers.rs:146-154 `codegen_return_expr`: the values returned. -/
def returnAll : List (Arg V) → Locals X W → Option (List (RVal X W))
  | [], _ => some []
  | a :: as, e =>
    match e a.name, returnAll as e with
    | some v, some vs => some (v :: vs)
    | _, _ => none

/-- graph.rs:503-583 `codegen_forward`: a call of the generated function with the values `xs`. `ins` and
`outs` are the graph inputs and outputs before the conversion of scalars, `body` the code of the nodes. -/
def forwardCall (body : Locals X W → Option (Locals X W)) (ins outs : List (Arg V)) (xs : List (RVal X W)) :
    Option (List (RVal X W)) := do
  let i := convertScalars ins
  let o := convertScalars outs
  let e0 ← bindParams i.1 xs fun _ => none
  let e1 ← convertLoop toDevice i.2 i.1 e0
  let e2 ← body e1
  let e3 ← convertLoop toNativeScalar o.2 o.1 e2
  returnAll o.1 e3

end OnnxIR.Gen
