import Verif.Model.Types

/-!
# Storage of constants

`crates/onnx-ir/src/tensor_store.rs` (tensors by id), the constant map of
`crates/onnx-ir/src/graph_state.rs` (ids by name), and reading the value of an argument,
`crates/onnx-ir/src/ir/argument.rs`.

`D` is the type of stored references (`TensorDataRef`), `T` that of tensors, and `load : D → T` is
`to_tensor_data` (tensor_store.rs:104-114). For external data `load` reads a file; it is a function
here, so the file is taken not to change.
-/

namespace OnnxIR.Store

variable {D T : Type}

/-- crates/onnx-ir/src/tensor_store.rs:220-225 `TensorStore`. The `HashMap` is a list of bindings, newest
first. -/
structure TensorStore (D : Type) where
  data : List (Nat × D)
  nextId : Nat

/-- Lookup in the `HashMap<DataId, _>`. -/
def idGet (m : List (Nat × D)) (k : Nat) : Option D :=
  match m with
  | [] => none
  | (k', v) :: rest => if k' = k then some v else idGet rest k

/-- crates/onnx-ir/src/tensor_store.rs:229-234 `TensorStore::new`. -/
def TensorStore.new : TensorStore D := ⟨[], 0⟩

/-- crates/onnx-ir/src/tensor_store.rs:237-242 `TensorStore::store`. Simplified: the id does not
overflow. -/
def TensorStore.store (s : TensorStore D) (d : D) : TensorStore D × Nat :=
  (⟨(s.nextId, d) :: s.data, s.nextId + 1⟩, s.nextId)

/-- crates/onnx-ir/src/tensor_store.rs:247-249 `TensorStore::get`. -/
def TensorStore.get (load : D → T) (s : TensorStore D) (id : Nat) : Option T :=
  (idGet s.data id).map load

/-- crates/onnx-ir/src/tensor_store.rs:271-277 `ValueStore`: a snapshot of the tensors and of the
constant map. The `Arc`s are copied on write (`Arc::make_mut`), so a snapshot is a value. It is also the
part of `GraphState` (graph_state.rs:94-97) that holds constants. -/
structure ValueStore (D : Type) where
  tensors : TensorStore D
  constants : List (String × Nat)

/-- crates/onnx-ir/src/graph_state.rs:161-162: the empty stores. -/
def ValueStore.new : ValueStore D := ⟨.new, []⟩

/-- What happens to the stores while a graph is imported. -/
inductive Event (D : Type)
  /-- graph_state.rs:455-457 `store_tensor_data`, for a Constant node's attribute
  (node_conversion.rs:242-245). -/
  | storeTensor (d : D)
  /-- graph_state.rs:463-467 `register_constant` (constant folding), and 571-586 (initializers). -/
  | registerConstant (name : String) (d : D)
  /-- graph_state.rs:362-383 `add_node` for a Constant node with a `Static` input: its output names are
  mapped to the id. -/
  | addConstantNode (outputs : List String) (id : Nat)

/-- One event; the id it allocates, if any. -/
def ValueStore.step (s : ValueStore D) : Event D → ValueStore D × Option Nat
  | .storeTensor d =>
    let (t, id) := s.tensors.store d
    (⟨t, s.constants⟩, some id)
  | .registerConstant name d =>
    let (t, id) := s.tensors.store d
    (⟨t, (name, id) :: s.constants⟩, some id)
  | .addConstantNode outs id =>
    (⟨s.tensors, outs.foldl (fun m o => (o, id) :: m) s.constants⟩, none)

/-- A history of events; the ids allocated, in order. -/
def ValueStore.run (s : ValueStore D) : List (Event D) → ValueStore D × List Nat
  | [] => (s, [])
  | e :: es =>
    let (s', id) := s.step e
    let (s'', ids) := s'.run es
    (s'', id.toList ++ ids)

/-- crates/onnx-ir/src/tensor_store.rs:289-291 `get_tensor_data`. -/
def ValueStore.getTensorData (load : D → T) (s : ValueStore D) (id : Nat) : Option T :=
  s.tensors.get load id

/-- crates/onnx-ir/src/tensor_store.rs:294-296 `get_constant_data_id`. -/
def ValueStore.getConstantDataId (s : ValueStore D) (name : String) : Option Nat :=
  mapGet s.constants name

/-- crates/onnx-ir/src/ir/argument.rs:17-33 `ValueSource`. -/
inductive Source
  | static (id : Nat)
  | constant
  | dynamic
  | optional
deriving DecidableEq

/-- crates/onnx-ir/src/ir/argument.rs:35-49 `Argument`, without its type. -/
structure Argument (D : Type) where
  name : String
  source : Source
  store : Option (ValueStore D)

/-- crates/onnx-ir/src/ir/argument.rs:351-397 `Argument::value`. -/
def Argument.value (load : D → T) (a : Argument D) : Option T :=
  a.store.bind fun s =>
    match a.source with
    | .static id => s.getTensorData load id
    | .constant => (s.getConstantDataId a.name).bind (s.getTensorData load)
    | .dynamic | .optional => none

/-- crates/onnx-ir/src/ir/argument.rs:430-459 `Argument::to_static`; `none` is an error. -/
def Argument.toStatic (a : Argument D) : Option (Argument D) :=
  match a.source with
  | .constant => do
    let s ← a.store
    let id ← s.getConstantDataId a.name
    some ⟨"", .static id, a.store⟩
  | _ => none

/-- crates/onnx-ir/src/phases/node_conversion.rs:292-322 `attach_value_stores`, for one input: the store
is replaced unless the argument can already be read through the one it has. -/
def Argument.attach (a : Argument D) (s : ValueStore D) : Argument D :=
  let preserve : Bool := match a.source with
    | .constant => a.store.any fun t => (t.getConstantDataId a.name).isSome
    | .static id => a.store.any fun t => (idGet t.tensors.data id).isSome
    | _ => false
  if preserve then a else { a with store := some s }

/-- crates/onnx-ir/src/phases/post_processing.rs:243-258 and
crates/onnx-ir/src/ir/graph.rs:99-122: the same for the later phases, which keep the store of `Static`
arguments only. -/
def Argument.finalize (a : Argument D) (s : ValueStore D) : Argument D :=
  let preserve : Bool := match a.source with
    | .static id => a.store.any fun t => (idGet t.tensors.data id).isSome
    | _ => false
  if preserve then a else { a with store := some s }

end OnnxIR.Store
