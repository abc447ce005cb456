import Verif.Model.Simplify

/-!
# Folding `Shape -> Gather` and `Shape -> Slice`

crates/onnx-ir/src/simplify/constant_shape.rs and the helpers of
crates/onnx-ir/src/simplify/mod.rs it uses.
-/

namespace OnnxIR

variable {V : Type}

/-- How the passes look into a tensor value: its shape, `to_i64_vec`
(crates/onnx-ir/src/ir/tensor_data_ext.rs:90-99, `none` = wrong element type) and `scalar_i64`
(73-88; Simplification: the panic on an empty tensor is `none`), and `TensorDataRef::new` with
`DType::I64`. -/
structure TensorView (V : Type) where
  shape : V → List Nat
  i64s : V → Option (List Int)
  scalarI64 : V → Option Int
  mkI64 : List Nat → List Int → V

/-- crates/onnx-ir/src/ir/argument.rs:351-397 `value`; `cmap` is the constant table of the value
store. -/
def Arg.value (cmap : String → Option V) (a : Arg V) : Option V :=
  match a.src with
  | .static v => some v
  | .constant => cmap a.name
  | .dynamic => none
  | .optional => none

/-- `attrs.get(key)` on the attribute map. -/
def attrGet (attrs : List (String × AttrVal V)) (key : String) : Option (AttrVal V) :=
  mapGet attrs key

/-- `attrs.get(key).map(|v| v.into_i64())` (crates/onnx-ir/src/ir/attribute.rs `into_i64`): the
outer `none` is the panic on an attribute of another kind. -/
def attrI64 (attrs : List (String × AttrVal V)) (key : String) : Option (Option Int) :=
  match attrGet attrs key with
  | none => some none
  | some (.i64 v) => some (some v)
  | some _ => none

/-- The `producer` map of crates/onnx-ir/src/simplify/constant_shape.rs:23-28,
permute_reshape.rs:17-22 and coalesce_attention.rs:577-585: output name to node index, later
insertions shadow. -/
def producerMap (nodes : List (Node V)) : List (String × Nat) :=
  (nodes.zipIdx.flatMap fun p => p.1.outNames.map fun x => (x, p.2)).reverse

/-- `&nodes[*producer.get(name)?]`. -/
def producerOf (prod : List (String × Nat)) (nodes : List (Node V)) (x : String) :
    Option (Node V) :=
  (mapGet prod x).bind fun i => nodes[i]?

/-- crates/onnx-ir/src/simplify/constant_shape.rs:185-193 and 216-224: the normalised `start`;
`none` = panic. -/
def shapeStart (n : Node V) (rank : Nat) : Option Nat :=
  (attrI64 n.attrs "start").map fun o =>
    let s : Int := o.getD 0
    (if s < 0 then s + (rank : Int) else s).toNat

/-- crates/onnx-ir/src/simplify/constant_shape.rs:157-161: output types that are folded. -/
def dimOutputOk : ArgType → Bool
  | .scalarNative _ => true
  | .shape k => k == 1
  | _ => false

/-- crates/onnx-ir/src/simplify/constant_shape.rs:199-208: the dimension at an index that counts
from `start` (from the back if negative). -/
def dimAt (dims : List Nat) (start : Nat) (iv : Int) : Option Int :=
  let slicedLen := dims.length - start
  let iv' : Int := if iv < 0 then iv + (slicedLen : Int) else iv
  if iv' < 0 ∨ slicedLen ≤ iv'.toNat then none else (dims[start + iv'.toNat]?).map Int.ofNat

/-- crates/onnx-ir/src/simplify/constant_shape.rs:149-209 `extract_constant_shape_dim`. The outer
`none` is a panic: an attribute of the wrong kind, a missing input or output, or the `usize`
subtraction in line 199 when `start` exceeds the rank. -/
def extractConstantShapeDim (tv : TensorView V) (cmap : String → Option V) (gather : Node V)
    (nodes : List (Node V)) (prod : List (String × Nat)) : Option (Option Int) :=
  match gather.outputs, gather.inputs with
  | o :: _, data :: index :: _ =>
    if dimOutputOk o.ty = false then some none else
    match attrI64 gather.attrs "axis" with
    | none => none
    | some axis =>
      if axis.getD 0 ≠ 0 then some none else
      match producerOf prod nodes data.name with
      | none => some none
      | some sn =>
        if sn.ty ≠ .shape then some none else
        match sn.inputs with
        | [] => none
        | x :: _ =>
          match x.ty.staticShapeKnown with
          | none => some none
          | some dims =>
            match shapeStart sn dims.length with
            | none => none
            | some start =>
              match (index.value cmap).bind tv.scalarI64 with
              | none => some none
              | some iv =>
                if dims.length < start then none else some (dimAt dims start iv)
  | _, _ => none

/-- crates/onnx-ir/src/simplify/constant_shape.rs:212-241 `extract_full_static_shape`. In line 234
a negative `end` becomes a huge `usize`, hence `rank`. Outer `none` = panic. -/
def extractFullStaticShape (sn : Node V) : Option (Option (List Int)) :=
  match sn.inputs with
  | [] => none
  | x :: _ =>
    match x.ty.staticShapeKnown with
    | none => some none
    | some dims =>
      match shapeStart sn dims.length, attrI64 sn.attrs "end" with
      | some start, some eo =>
        let e : Int := eo.getD dims.length
        let e : Int := if e < 0 then e + (dims.length : Int) else e
        let stop := if e < 0 then dims.length else min e.toNat dims.length
        if stop ≤ start then some (some [])
        else some (some (((dims.drop start).take (stop - start)).map Int.ofNat))
      | _, _ => none

/-- crates/onnx-ir/src/simplify/constant_shape.rs:326-330: `(start..end).step_by(step)` read from
the values. -/
def stepUp (vals : List Int) (step : Nat) (i e : Nat) : List Int :=
  if _h : 0 < step ∧ i < e then
    (vals[i]?).toList ++ stepUp vals step (i + step) e
  else []
termination_by e - i

/-- crates/onnx-ir/src/simplify/constant_shape.rs:331-340: the `while i > end` loop; `none` is the
out-of-bounds panic. `step` is the absolute value of the negative step. The loop variable is an
`i64` that may become negative, which ends the loop because `0 <= end`. -/
def stepDown (vals : List Int) (step : Nat) (i : Int) (e : Nat) : Option (List Int) :=
  if _h : 0 < step ∧ (e : Int) < i then
    match vals[i.toNat]? with
    | none => none
    | some v => (stepDown vals step (i - step) e).map (v :: ·)
  else some []
termination_by (i - e).toNat

/-- crates/onnx-ir/src/simplify/constant_shape.rs:274-292: the optional `axes` and `steps` inputs;
inner `none` = give up. -/
def sliceParam (tv : TensorView V) (cmap : String → Option V) (a : Option (Arg V))
    (dflt : List Int) : Option (List Int) :=
  match a with
  | none => some dflt
  | some a => (a.value cmap).bind tv.i64s

/-- crates/onnx-ir/src/simplify/constant_shape.rs:303-342: the slice itself, after the parameters
have been read. Outer `none` = panic. -/
def applyShapeSlice (vals : List Int) (start stop step : Int) : Option (Option (List Int)) :=
  if step = 0 then some none else
  let n : Int := vals.length
  let start := if start < 0 then start + n else start
  let stop := if stop < 0 then stop + n else stop
  let start := if start < 0 then 0 else if n < start then n else start
  let stop := if stop < 0 then 0 else if n < stop then n else stop
  if 0 < step then some (some (stepUp vals step.toNat start.toNat stop.toNat))
  else (stepDown vals (-step).toNat start stop.toNat).map some

/-- crates/onnx-ir/src/simplify/constant_shape.rs:245-343 `extract_constant_shape_slice`. The outer
`none` is a panic (line 305 indexes an empty vector, or the loop of lines 335-338 indexes past the
end). -/
def extractConstantShapeSlice (tv : TensorView V) (cmap : String → Option V) (slice : Node V)
    (nodes : List (Node V)) (prod : List (String × Nat)) : Option (Option (List Int)) :=
  match slice.inputs with
  | data :: st :: en :: rest =>
    match producerOf prod nodes data.name with
    | none => some none
    | some sn =>
      if sn.ty ≠ .shape then some none else
      match extractFullStaticShape sn with
      | none => none
      | some none => some none
      | some (some vals) =>
        match (st.value cmap).bind tv.i64s, (en.value cmap).bind tv.i64s with
        | some starts, some ends =>
          if starts.length ≠ ends.length then some none else
          match sliceParam tv cmap rest[0]? ((List.range starts.length).map Int.ofNat),
              sliceParam tv cmap rest[1]? (List.replicate starts.length 1) with
          | some axes, some steps =>
            if axes.length ≠ starts.length ∨ steps.length ≠ starts.length then some none
            else if axes.any (fun a => decide (a ≠ 0)) then some none
            else
              match starts, ends, steps with
              | s :: _, e :: _, t :: _ => applyShapeSlice vals s e t
              | _, _, _ => none
          | _, _ => some none
        | _, _ => some none
  | _ => some none

/-- crates/onnx-ir/src/simplify/constant_shape.rs:107-145 `make_constant_node`, and
constant_fold.rs:64-96 with a ready value. Simplification: registering the value in the graph
state is modelled by the caller extending its constant table. -/
def makeConstantNode (nodeName outName : String) (v : V) (ty : ArgType) : Node V :=
  ⟨.constant, nodeName, [⟨outName ++ "_const", ty, .static v⟩], [⟨outName, ty, .constant⟩], []⟩

/-- crates/onnx-ir/src/simplify/constant_shape.rs:115-120: the tensor for a list of dimensions. -/
def shapeConstant (tv : TensorView V) (values : List Int) (ty : ArgType) : V :=
  let scalar : Bool := match ty with
    | .scalarNative _ => true
    | _ => false
  if values.length = 1 ∧ scalar = true then tv.mkI64 [] values else tv.mkI64 [values.length] values

/-- crates/onnx-ir/src/simplify/mod.rs:146-155: mark one argument. -/
def markConstant (consts : List String) (a : Arg V) : Arg V :=
  match a.src with
  | .dynamic => if consts.contains a.name then { a with src := .constant } else a
  | _ => a

/-- crates/onnx-ir/src/simplify/mod.rs:146-155 for one node. -/
def markConstantNode (consts : List String) (n : Node V) : Node V :=
  { n with inputs := n.inputs.map (markConstant consts) }

/-- crates/onnx-ir/src/simplify/mod.rs:124-164 `update_constant_references`. Simplification: the
copied `value_store` is the constant table. -/
def updateConstantReferences (consts : List String) (nodes : List (Node V))
    (outs : List (Arg V)) : List (Node V) × List (Arg V) :=
  (nodes.map (markConstantNode consts), outs.map (markConstant consts))

/-- `?`-style collection of per-node results: `none` as soon as one node panics. -/
def collect {α β : Type} (f : α → Option β) : List α → Option (List β)
  | [] => some []
  | a :: as =>
    match f a, collect f as with
    | some b, some bs => some (b :: bs)
    | _, _ => none

/-- What a pass decides about one node: keep it, or replace it by a constant. -/
abbrev Repl (V : Type) := Option (V × ArgType)

/-- crates/onnx-ir/src/simplify/constant_shape.rs:44-57 and 70-88: apply the decisions. -/
def replaceByConstants : List (Node V) → List (Repl V) → List (Node V)
  | n :: ns, r :: rs =>
    (match r, n.outputs with
      | some (v, ty), o :: _ => makeConstantNode n.name o.name v ty
      | _, _ => n) :: replaceByConstants ns rs
  | ns, _ => ns

/-- crates/onnx-ir/src/simplify/constant_shape.rs:41-56, 70-87: names pushed on
`constant_outputs`. -/
def replacedNames : List (Node V) → List (Repl V) → List (String × V)
  | n :: ns, r :: rs =>
    (match r, n.outputs with
      | some (v, _), o :: _ => [(o.name, v)]
      | _, _ => []) ++ replacedNames ns rs
  | _, _ => []

/-- crates/onnx-ir/src/simplify/constant_shape.rs:30-39: the decision of pass 1 for one node. -/
def gatherDecision (tv : TensorView V) (cmap : String → Option V) (nodes : List (Node V))
    (prod : List (String × Nat)) (n : Node V) : Option (Repl V) :=
  if n.ty = .gather ∧ 2 ≤ n.inputs.length then
    match extractConstantShapeDim tv cmap n nodes prod with
    | none => none
    | some none => some none
    | some (some d) =>
      match n.outputs with
      | o :: _ => some (some (shapeConstant tv [d] o.ty, o.ty))
      | [] => none
  else some none

/-- crates/onnx-ir/src/simplify/constant_shape.rs:59-68: the decision of pass 2 for one node. -/
def sliceDecision (tv : TensorView V) (cmap : String → Option V) (nodes : List (Node V))
    (prod : List (String × Nat)) (n : Node V) : Option (Repl V) :=
  if n.ty = .slice ∧ n.inputs ≠ [] then
    match extractConstantShapeSlice tv cmap n nodes prod with
    | none => none
    | some none => some none
    | some (some l) =>
      match n.outputs with
      | _ :: _ => some (some (shapeConstant tv l (.shape l.length), .shape l.length))
      | [] => none
  else some none

/-- A constant table extended with newly registered constants
(crates/onnx-ir/src/graph_state.rs `register_constant`). -/
def extendTable (cmap : String → Option V) (news : List (String × V)) : String → Option V :=
  fun x => match mapGet news.reverse x with
    | some v => some v
    | none => cmap x

/-- crates/onnx-ir/src/simplify/constant_shape.rs:17-104 `simplify_constant_shape`: nodes, outputs
and the extended constant table; `none` = panic. -/
def simplifyConstantShape (tv : TensorView V) (cmap : String → Option V) (nodes : List (Node V))
    (outs : List (Arg V)) : Option (List (Node V) × List (Arg V) × (String → Option V)) :=
  let prod := producerMap nodes
  match collect (gatherDecision tv cmap nodes prod) nodes with
  | none => none
  | some r1 =>
    let nodes1 := replaceByConstants nodes r1
    let cmap1 := extendTable cmap (replacedNames nodes r1)
    match collect (sliceDecision tv cmap1 nodes1 prod) nodes1 with
    | none => none
    | some r2 =>
      let nodes2 := replaceByConstants nodes1 r2
      let news := replacedNames nodes r1 ++ replacedNames nodes1 r2
      let (ns, os) := updateConstantReferences (news.map Prod.fst) nodes2 outs
      some (ns, os, extendTable cmap1 (replacedNames nodes1 r2))

end OnnxIR
