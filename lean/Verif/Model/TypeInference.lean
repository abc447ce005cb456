import Verif.Model.Broadcast

/-!
# The type-inference phase

crates/onnx-ir/src/phases/type_inference.rs. Operator rules are a parameter (`Rules`); concrete rules
are modelled elsewhere and plugged in.
-/

namespace OnnxIR

/-- crates/onnx-ir/src/processor.rs:70-76 `ArgPreference`. -/
inductive Pref
  | scalarNative | shape | tensor
deriving DecidableEq, Repr

/-- What consumers request, by output name (processor.rs:99-126 `OutputPreferences`). The consumer
names stored beside the requests are not read by any rule and are dropped; the order of the requests
is that of a hash set and the model uses insertion order (the only rule that reads them,
node/constant.rs:85-118, asks only whether a kind occurs). -/
abbrev OutPrefs := String → List Pref

/-- The operator-specific part (crates/onnx-ir/src/processor.rs:202-288 `NodeProcessor`): whether the
operator is registered, whether the node passes its specification (`validate_node_spec` at the
model's opset), the output types (`infer_types`, `none` for an error), and the preferences for its
inputs (`input_preferences`). No processor assigns anything but output types in `infer_types`. -/
structure Rules (V : Type) where
  registered : NodeType → Bool
  valid : Node V → Bool
  infer : Node V → OutPrefs → Option (List ArgType)
  wants : Node V → List (String × Pref)

variable {V : Type}

/-- Assign types to the outputs; outputs beyond the given list keep theirs. -/
def setTypes : List (Arg V) → List ArgType → List (Arg V)
  | a :: as, t :: ts => ⟨a.name, t, a.src⟩ :: setTypes as ts
  | as, _ => as

/-- A node with new outputs. -/
def Node.withOutputs (n : Node V) (outs : List (Arg V)) : Node V :=
  ⟨n.ty, n.name, n.inputs, outs, n.attrs⟩

/-- A node with new inputs. -/
def Node.withInputs (n : Node V) (ins : List (Arg V)) : Node V :=
  ⟨n.ty, n.name, ins, n.outputs, n.attrs⟩

/-- crates/onnx-ir/src/processor.rs:330-347 `validate_no_rank_zero_tensors`. -/
def noRankZeroOutput (n : Node V) : Bool :=
  n.outputs.all fun o => match o.ty with
    | .tensor t => t.rank != 0
    | _ => true

/-- type_inference.rs:86-89 and 157-160: the last output with a given name decides. -/
def outputType (nodes : List (Node V)) (name : String) : Option ArgType :=
  ((nodes.flatMap Node.outputs).reverse.find? (·.name == name)).map Arg.ty

/-- type_inference.rs:93-99: an input takes the producer's type, keeping dimensions only it knows. -/
def syncArg (types : String → Option ArgType) (a : Arg V) : Arg V :=
  match types a.name with
  | some t => ⟨a.name, t.mergeStaticShape a.ty, a.src⟩
  | none => a

/-- type_inference.rs:91-101 and 162-174. -/
def syncNodes (types : String → Option ArgType) (nodes : List (Node V)) : List (Node V) :=
  nodes.map fun n => n.withInputs (n.inputs.map (syncArg types))

/-- Whether syncing changes some input (type_inference.rs:168-171; compares the types). -/
def syncChanges (types : String → Option ArgType) (nodes : List (Node V)) : Bool :=
  nodes.any fun n => n.inputs.any fun a => decide ((syncArg types a).ty ≠ a.ty)

/-- The single-name map used when one output is pushed downstream (type_inference.rs:135-152). -/
def oneType (o : Arg V) : String → Option ArgType := fun name => if name = o.name then some o.ty else none

/-- type_inference.rs:129-152: push the outputs of a node to the nodes after it, one output at a
time. -/
def pushOutputs : List (Arg V) → List (Node V) → List (Node V) × Bool
  | [], rest => (rest, false)
  | o :: os, rest =>
    let r := pushOutputs os (syncNodes (oneType o) rest)
    (r.1, syncChanges (oneType o) rest || r.2)

/-- type_inference.rs:109-153: infer every node in order, pushing its outputs downstream. The flag
says whether some input type changed. -/
def inferPass (R : Rules V) (prefs : String → OutPrefs) : Nat → List (Node V) → Option (List (Node V) × Bool)
  | _, [] => some ([], false)
  | 0, _ :: _ => none
  | fuel + 1, n :: rest =>
    if !R.valid n then none
    else
      match R.infer n (prefs n.name) with
      | none => none
      | some tys =>
        let n' := n.withOutputs (setTypes n.outputs tys)
        if !noRankZeroOutput n' then none
        else
          let r := pushOutputs n'.outputs rest
          match inferPass R prefs fuel r.1 with
          | none => none
          | some (done, ch) => some (n' :: done, r.2 || ch)

/-- Collected preferences: producer output, consumer, kind (type_inference.rs:52). -/
abbrev Collected := List (String × String × Pref)

/-- The first node with an output of this name (type_inference.rs:70-79, 192-219). -/
def nodeProducing (nodes : List (Node V)) (out : String) : Option (Node V) :=
  nodes.find? fun n => n.outputs.any (·.name == out)

/-- type_inference.rs:58-80: the preferences handed to the node of a given name. -/
def prefsFor (nodes : List (Node V)) (c : Collected) (node : String) : OutPrefs := fun out =>
  (c.filter fun k => k.1 = out && (match nodeProducing nodes k.1 with
    | some p => p.name = node
    | none => false)).map (·.2.2)

/-- type_inference.rs:179-222: preferences of the consumers for values that some node produces; the
ones not yet collected are added, and the flag says whether there were any. -/
def collectPrefs (R : Rules V) (nodes : List (Node V)) (c : Collected) : Collected × Bool :=
  let wanted := nodes.flatMap fun n => n.inputs.flatMap fun a =>
    ((R.wants n).filter (·.1 = a.name)).filterMap fun w =>
      if (nodeProducing nodes a.name).isSome then some (a.name, n.name, w.2) else none
  let new := wanted.filter (! c.contains ·)
  (c ++ new, !new.isEmpty)

/-- One round (type_inference.rs:56-229): the nodes, the collected preferences and whether another
round is needed. `first` is `iteration = 1`. -/
def inferRound (R : Rules V) (first : Bool) (c : Collected) (nodes : List (Node V)) :
    Option (List (Node V) × Collected × Bool) :=
  let prefs := prefsFor nodes c
  let nodes1 := if first then nodes else syncNodes (outputType nodes) nodes
  match inferPass R prefs nodes1.length nodes1 with
  | none => none
  | some (nodes2, ch1) =>
    let types := outputType nodes2
    let nodes3 := syncNodes types nodes2
    let cp := collectPrefs R nodes3 c
    some (nodes3, cp.1, ch1 || syncChanges types nodes2 || cp.2)

/-- The rounds (type_inference.rs:56-236). The flag is false when the limit is reached. -/
def inferRounds (R : Rules V) : Nat → Bool → Collected → List (Node V) → Option (List (Node V) × Bool)
  | 0, _, _, nodes => some (nodes, false)
  | k + 1, first, c, nodes =>
    match inferRound R first c nodes with
    | none => none
    | some (nodes', c', again) => if again then inferRounds R k false c' nodes' else some (nodes', true)

/-- type_inference.rs:54. -/
def maxRounds : Nat := 10

/-- crates/onnx-ir/src/phases/type_inference.rs:35-237 `iterative_type_inference_with_preferences`:
the typed nodes and whether the rounds converged, or `none` for an error. -/
def inferTypes (R : Rules V) (nodes : List (Node V)) : Option (List (Node V) × Bool) :=
  if nodes.all fun n => R.registered n.ty then inferRounds R maxRounds true [] nodes else none

end OnnxIR
