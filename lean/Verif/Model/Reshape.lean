import Verif.Model.OpRules2

/-!
# Reshape: output type and the no-op test

crates/onnx-ir/src/node/reshape.rs. `target` is the constant content of the shape input or the
`shape` attribute (`get_static_shape`, 223-237), `shapeTy` the type of the shape input if there is
one, `prev` the type the output had before inference.
-/

namespace OnnxIR.Infer

/-- reshape.rs:406-425: what each entry of the target says about its dimension; `k` is the position of
the head. -/
def reshapeDims (allowzero : Bool) (sh : Option PShape) (k : Nat) : List Int → PShape
  | [] => []
  | v :: vs =>
    (if 0 < v then some v.toNat
     else if v = 0 then (if allowzero then some 0 else (sh.bind (·[k]?)).join)
     else none) :: reshapeDims allowzero sh (k + 1) vs

/-- reshape.rs:432-435: the product of the known dimensions. -/
def prodSome : PShape → Nat
  | [] => 1
  | some d :: ds => d * prodSome ds
  | none :: ds => prodSome ds

/-- reshape.rs:441-445: put the inferred size where the target has −1. -/
def fillNegOne (x : Nat) : List Int → PShape → PShape
  | v :: vs, d :: ds => (if v = -1 then some x else d) :: fillNegOne x vs ds
  | _, ds => ds

/-- reshape.rs:400-450: the static shape for a constant target. -/
def reshapeStatic (allowzero : Bool) (sh : Option PShape) (target : List Int) : PShape :=
  let dims := reshapeDims allowzero sh 0 target
  if -1 ∈ target then
    match sh.bind knownProd with
    | some total =>
      if 0 < prodSome dims ∧ total % prodSome dims = 0 then fillNegOne (total / prodSome dims) target dims
      else dims
    | none => dims
  else dims

/-- reshape.rs:326-353: the shape input must be a one-dimensional `i64` tensor or a `Shape`. -/
def reshapeShapeOk : Option ArgType → Bool
  | none => true
  | some (.tensor t) => t.rank == 1 && t.dtype == .i64
  | some (.shape _) => true
  | some _ => false

/-- reshape.rs:356-384: the checks on a constant target. -/
def reshapeTargetOk (allowzero : Bool) (target : List Int) : Bool :=
  decide (target.count (-1) ≤ 1) && !(allowzero && target.contains 0 && target.contains (-1))

/-- reshape.rs:170-220 `infer_reshape_output_rank`; without any information it panics. -/
def reshapeRank (target : Option (List Int)) (shapeTy : Option ArgType) (prev : ArgType) : Option Nat :=
  match target with
  | some t => some t.length
  | none =>
    let fromShape := match shapeTy with
      | some (.shape k) => some k
      | some (.tensor t) => (t.staticShape.bind List.head?).join
      | _ => none
    match fromShape with
    | some r => some r
    | none => match prev with
      | .tensor t => some t.rank
      | .scalarNative _ => some 0
      | _ => none

/-- reshape.rs:141-167 `calculate_shape_output_size`. -/
def reshapeShapeSize (n : Nat) (target : Option (List Int)) (static : Option PShape) : Nat :=
  match target with
  | some [v] => if v = -1 then n else if 0 < v then v.toNat else 1
  | _ => match static with
    | some [some d] => d
    | _ => n

/-- The element type of the input (reshape.rs:76-97). -/
def reshapeElem : ArgType → DType
  | .tensor t => t.dtype
  | .shape _ => .i64
  | .scalarTensor d => d
  | .scalarNative d => d

/-- reshape.rs:400-457: the static shape the output type gets. -/
def reshapeStaticOut (allowzero : Bool) (target : Option (List Int)) (prev x : ArgType) : Option PShape :=
  match target with
  | some tg => some (reshapeStatic allowzero x.staticShape tg)
  | none => prev.staticShape

/-- reshape.rs:100-138 `determine_output_type`. -/
def reshapeOut (target : Option (List Int)) (static : Option PShape) (r : Nat) (x : ArgType) : ArgType :=
  if r = 0 then .scalarNative (reshapeElem x)
  else
    match x with
    | .scalarNative d =>
      if r = 1 ∧ (target = some [-1] ∨ target = some [1]) then .scalarNative d
      else .tensor ⟨d, r, static⟩
    | .shape n => if r = 1 then .shape (reshapeShapeSize n target static) else .tensor ⟨.i64, r, static⟩
    | _ => .tensor ⟨reshapeElem x, r, static⟩

/-- reshape.rs:301-469 `infer_types`. -/
def reshape (allowzero : Bool) (target : Option (List Int)) (shapeTy : Option ArgType) (prev x : ArgType) :
    Option ArgType :=
  if !reshapeShapeOk shapeTy then none
  else if !(target.all (reshapeTargetOk allowzero)) then none
  else (reshapeRank target shapeTy prev).map fun r =>
    reshapeOut target (reshapeStaticOut allowzero target prev x) r x

/-- reshape.rs:245-263 and expand.rs:164-173 `is_noop`: both types are tensors with equal static
shapes (or, for Reshape, both are host scalars). -/
def reshapeNoop (x out : ArgType) : Bool :=
  match x, out with
  | .scalarNative _, .scalarNative _ => true
  | .tensor a, .tensor b =>
    match a.staticShape, b.staticShape with
    | some p, some q => p == q
    | _, _ => false
  | _, _ => false

end OnnxIR.Infer
