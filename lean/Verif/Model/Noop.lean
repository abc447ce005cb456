import Verif.Model.ConstantShape
import Verif.Model.Reshape

/-!
# Which nodes the importer takes for no-ops

`NodeProcessor::is_noop` of every operator that overrides it (crates/onnx-ir/src/node/*.rs; the default,
processor.rs, is `false`), and the choice in crates/onnx-ir/src/phases/post_processing.rs:66-70. The outer
`none` is a panic (missing first input or output, attribute of another kind).
-/

namespace OnnxIR

variable {V : Type}

/-- `attrs.get(key).map(|v| v.into_i64s())`; the outer `none` is the panic. -/
def attrI64s (attrs : List (String × AttrVal V)) (key : String) : Option (Option (List Int)) :=
  match attrGet attrs key with
  | none => some none
  | some (.i64s v) => some (some v)
  | some _ => none

/-- transpose.rs:128: every entry is its own position; `k` is the position of the head. -/
def ownPositions (k : Nat) : List Int → Bool
  | [] => true
  | p :: ps => p == (k : Int) && ownPositions (k + 1) ps

/-- transpose.rs:114-129. -/
def transposeNoop (n : Node V) : Option Bool :=
  match n.inputs with
  | [] => none
  | x :: _ =>
    match x.ty with
    | .tensor t =>
      (attrI64s n.attrs "perm").map fun
        | some perm => ownPositions 0 perm
        | none => decide (t.rank ≤ 1)
    | _ => some false

/-- flatten.rs:107-123. -/
def flattenNoop (n : Node V) : Option Bool :=
  match n.inputs with
  | [] => none
  | x :: _ =>
    match x.ty with
    | .tensor t =>
      if t.rank ≠ 2 then some false
      else (attrI64 n.attrs "axis").map fun a => a.getD 1 == 1 || a.getD 1 == -((t.rank : Int) - 1)
    | _ => some false

/-- reshape.rs:245-263. -/
def reshapeNodeNoop (n : Node V) : Option Bool :=
  match n.inputs, n.outputs with
  | x :: _, y :: _ => some (Infer.reshapeNoop x.ty y.ty)
  | _, _ => none

/-- expand.rs:164-173. -/
def expandNoop (n : Node V) : Option Bool :=
  match n.inputs, n.outputs with
  | x :: _, y :: _ =>
    match x.ty, y.ty with
    | .tensor a, .tensor b =>
      match a.staticShape, b.staticShape with
      | some p, some q => some (p == q)
      | _, _ => some false
    | _, _ => some false
  | _, _ => none

/-- cast.rs:60-64. -/
def castNoop (n : Node V) : Option Bool :=
  match n.inputs, n.outputs with
  | x :: _, y :: _ => some (x.ty == y.ty)
  | _, _ => none

/-- gather.rs:65-68. -/
def gatherNoop (n : Node V) : Option Bool :=
  match n.inputs with
  | [] => none
  | x :: _ => match x.ty with
    | .scalarNative _ => some true
    | _ => some false

/-- pad.rs:122-130: the pads input, if its content is known. `get_input` (node.rs) skips an absent input, which
has no value either way. -/
def padInputNoop (tv : TensorView V) (cmap : String → Option V) (n : Node V) : Bool :=
  match (n.inputs[1]?).bind (Arg.value cmap) with
  | some v => match tv.i64s v with
    | some ps => ps.all (· == 0)
    | none => false
  | none => false

/-- pad.rs:110-131. `to_vec::<i64>` fails on other element types, and so does `tv.i64s` there. -/
def padNoop (tv : TensorView V) (cmap : String → Option V) (n : Node V) : Option Bool :=
  match attrI64s n.attrs "pads" with
  | none => none
  | some (some ps) => some (ps.all (· == 0))
  | some none =>
    match attrI64s n.attrs "paddings" with
    | none => none
    | some (some ps) => some (ps.all (· == 0))
    | some none => some (padInputNoop tv cmap n)

/-- `is_noop` by operator: identity.rs:58-60, dropout.rs:62-65, split.rs:162-165, concat.rs:286-289 and the
functions above; every other operator has the default. -/
def isNoop (tv : TensorView V) (cmap : String → Option V) (n : Node V) : Option Bool :=
  match n.ty with
  | .identity => some true
  | .other "Dropout" => some true
  | .other "Split" => some (n.outputs.length == 1)
  | .concat => some (n.inputs.length == 1)
  | .transpose => transposeNoop n
  | .other "Flatten" => flattenNoop n
  | .reshape => reshapeNodeNoop n
  | .other "Expand" => expandNoop n
  | .cast => castNoop n
  | .gather => gatherNoop n
  | .other "Pad" => padNoop tv cmap n
  | _ => some false

/-- post_processing.rs:66-70: without simplification only `Identity` is removed. -/
def noopChoice (tv : TensorView V) (cmap : String → Option V) (simplify : Bool) (n : Node V) : Option Bool :=
  if simplify then isNoop tv cmap n else some (n.ty == .identity)

end OnnxIR
