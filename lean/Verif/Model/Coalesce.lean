import Verif.Model.GraphBuild

/-!
# Fusion into Linear

crates/onnx-ir/src/phases/node_conversion.rs:66-213 with 415-570: the node loop in which a `Gemm` may become a
`Linear`, and a `MatMul` by a constant matrix becomes a `Linear` and may take the `Add` that follows as its bias.

Simplification: fusion is a step from protocol nodes to a protocol node, before arguments are resolved. The code
resolves first and then edits the resolved node; since the state does not change in between, the same names resolve to
the same arguments. `matrix` tells whether a constant's type is a tensor of rank 2.
-/

namespace OnnxIR

variable {V : Type}

/-- The constants registered in the state, by name: a `Constant` node whose first input is embedded registers
its outputs (graph_state.rs:362-385 and 573-588). -/
def constEntries (nodes : List (Node V)) : List (String × V) :=
  (nodes.flatMap fun n => match n.ty, n.inputs with
    | .constant, a :: _ =>
      match a.src with
      | .static v => n.outputs.map fun o => (o.name, v)
      | _ => []
    | _, _ => []).reverse

/-- Look-up in the table of constants. -/
def constTable (nodes : List (Node V)) (x : String) : Option V := mapGet (constEntries nodes) x

/-- crates/onnx-ir/src/graph_state.rs:420-424 `has_value`. -/
def GState.hasValue (st : GState V) (x : String) : Bool :=
  st.nodes.any fun n => n.ty == .constant && n.outputs.any fun o => o.name == x

/-- The bits of `1.0f32`; no other float equals it. -/
def oneBits : Nat := 0x3F800000

/-- crates/onnx-ir/src/phases/node_conversion.rs:443-470: `transA` is not 1, and `alpha`, `beta` and `transB` are all
given, as 1.0, 1.0 and 1. -/
def straightGemm (attrs : List (String × AttrVal V)) : Bool :=
  (match attrGet attrs "transA" with
    | some (.i64 1) => false
    | _ => true) &&
  (match attrGet attrs "alpha", attrGet attrs "beta", attrGet attrs "transB" with
    | some (.f32 a), some (.f32 b), some (.i64 t) => a == oneBits && b == oneBits && t == 1
    | _, _, _ => false)

/-- crates/onnx-ir/src/phases/node_conversion.rs:474-481: the attributes of the `Linear`. -/
def linearAttrs (attrs : List (String × AttrVal V)) : List (String × AttrVal V) :=
  (attrs.filter fun p => p.1 ≠ "alpha" ∧ p.1 ≠ "beta" ∧ p.1 ≠ "transA" ∧ p.1 ≠ "transB" ∧
    p.1 ≠ "transpose_weight") ++ [("transpose_weight", .i64 1)]

/-- crates/onnx-ir/src/phases/node_conversion.rs:434-493 `convert_gemm_to_linear`; `none` is the panic. -/
def fuseGemm (np : NodeProto V) : Option (NodeProto V) :=
  if np.outputs.length ≠ 1 then none
  else if straightGemm np.attrs then
    some { np with ty := .linear, attrs := linearAttrs np.attrs, first := some .gemm }
  else some np

/-- crates/onnx-ir/src/phases/node_conversion.rs:543-569 `is_add_node_with_bias` and the choice of the bias in
`convert_and_remove_add_node`; `y` is the product's sanitised name. Outer `none` is a panic while the node is read. -/
def GState.biasOf (st : GState V) (y : String) (ad : NodeProto V) : Option (Option String) :=
  match ad.inputs, st.initAll ad.inputs with
  | _, none => none
  | [l, r], some [al, ar] =>
    if ad.ty = .add ∧ (al.name = y ∧ st.hasValue ar.name ∨ ar.name = y ∧ st.hasValue al.name) then
      some (some (if al.name = y then r else l))
    else some none
  | _, some _ => some none

/-- crates/onnx-ir/src/phases/node_conversion.rs:496-540 `convert_matmul_to_linear`; `next` is the peeked node. The
result says whether that node is taken too. `none` is a panic. -/
def GState.fuseMatMul (matrix : V → Bool) (st : GState V) (np : NodeProto V) (next : Option (NodeProto V)) :
    Option (NodeProto V × Bool) :=
  if np.inputs.length ≠ 2 then none
  else
    match st.initAll np.inputs with
    | some [_, w] =>
      if st.hasValue w.name ∧ (constTable st.nodes w.name).any matrix then
        let lin := { np with ty := .linear, first := some .matMul }
        match next, np.outputs with
        | none, _ => some (lin, false)
        | some _, [] => none
        | some ad, y :: ys =>
          match st.biasOf (sanitizeName y) ad with
          | none => none
          | some none => some (lin, false)
          | some (some b) =>
            match ad.outputs with
            | [] => none
            | z :: _ => some ({ lin with inputs := np.inputs ++ [b], outputs := z :: ys }, true)
      else some (np, false)
    | _ => none

/-- crates/onnx-ir/src/phases/node_conversion.rs:416-430 `coalesce`. -/
def GState.fuse (matrix : V → Bool) (st : GState V) (np : NodeProto V) (next : Option (NodeProto V)) :
    Option (NodeProto V × Bool) :=
  match np.ty with
  | .gemm => (fuseGemm np).map fun n => (n, false)
  | .matMul => st.fuseMatMul matrix np next
  | _ => some (np, false)

/-- crates/onnx-ir/src/phases/node_conversion.rs:66-213: the loop, with fusion. The flag says that the next node has
been taken already (539: `iter_mut.next()`). -/
def GState.convertFused (matrix : V → Bool) : Bool → List (NodeProto V) → GState V → Option (GState V)
  | _, [], st => some st
  | true, _ :: rest, st => GState.convertFused matrix false rest st
  | false, np :: rest, st =>
    match st.fuse matrix np rest.head? with
    | none => none
    | some (np', skip) =>
      match st.convertNode np' with
      | none => none
      | some st' => GState.convertFused matrix skip rest st'

/-- The nodes, inputs and outputs of the imported graph. -/
def importFused (matrix : V → Bool) (outer : List (String × Arg V)) (g : GraphProto V) :
    Option (List (Node V) × List (Arg V) × List (Arg V)) :=
  match GState.convertFused matrix false g.nodes (GState.start outer g) with
  | none => none
  | some st =>
    match st.results g.outputs with
    | none => none
    | some outs => some (st.nodes, st.inputs, outs)

end OnnxIR
