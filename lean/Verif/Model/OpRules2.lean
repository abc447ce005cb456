import Verif.Model.OpRules

/-!
# Output types: Concat, Gather, Reduce*, Expand
-/

namespace OnnxIR.Infer

/-- The `i64 as usize` cast. -/
def asUsize (d : Int) : Nat := if d < 0 then (d + 2 ^ 64).toNat else d.toNat

/-- Length of a rank-1 tensor: from the static shape, then from the constant value (`value` is the
shape of the constant), then 1 (concat.rs:117-122; the other branch, 223-228, asks in the other
order). -/
def concatLen (t : TensorType) (value : Option (List Nat)) (valueFirst : Bool) : Option Nat :=
  let fromStatic := t.staticShape.bind fun p => (allKnown p).bind List.head?
  let fromValue := value.bind List.head?
  some <| if valueFirst then (fromValue.or fromStatic).getD 1 else (fromStatic.or fromValue).getD 1

/-- The contribution of an input when Concat builds a one-dimensional value (concat.rs:111-134 and
216-238). -/
def concatPart (scalarsAllowed valueFirst : Bool) (i : ArgType × Option (List Nat)) : Option Nat :=
  match i.1 with
  | .scalarNative _ | .scalarTensor _ => if scalarsAllowed then some 1 else none
  | .tensor t => if t.rank = 1 then concatLen t i.2 valueFirst else none
  | .shape k => some k

/-- Sum of the parts, an error if one is. -/
def sumParts : List (Option Nat) → Option Nat
  | [] => some 0
  | p :: ps => match p, sumParts ps with
    | some a, some b => some (a + b)
    | _, _ => none

/-- The element type of a tensor or scalar input (concat.rs:143-158). -/
def concatDtype : ArgType → Option DType
  | .scalarNative d => some d
  | .scalarTensor d => some d
  | .tensor t => some t.dtype
  | .shape _ => none

/-- Whether the type is a `Shape`. -/
def isShape : ArgType → Bool
  | .shape _ => true
  | _ => false

/-- Whether the type is a tensor of rank 1. -/
def isRank1 : ArgType → Bool
  | .tensor t => t.rank == 1
  | _ => false

/-- concat.rs:107-176: some input is a scalar. -/
def concatScalars (inputs : List (ArgType × Option (List Nat))) : Option ArgType :=
  match sumParts (inputs.map (concatPart true false)) with
  | none => none
  | some n =>
    if inputs.any (isShape ·.1) then some (.shape n)
    else
      let dts := inputs.filterMap (concatDtype ·.1)
      let first := dts.headD .i64
      if dts.all (· == first) then some (.tensor ⟨first, 1, some [some n]⟩) else none

/-- concat.rs:179-209: without `Shape` and rank-1 inputs all inputs must be tensors of one element
type. -/
def concatCheck (tys : List ArgType) : Bool :=
  match tys with
  | .tensor t :: rest => rest.all fun | .tensor u => u.dtype == t.dtype | _ => false
  | _ => false

/-- crates/onnx-ir/src/node/concat.rs:80-284; each input with the shape of its constant value. -/
def concat (inputs : List (ArgType × Option (List Nat))) : Option ArgType :=
  if inputs.any (·.1.isScalar) then concatScalars inputs
  else if !inputs.any (isShape ·.1) && !inputs.any (isRank1 ·.1) && !concatCheck (inputs.map Prod.fst) then none
  else if inputs.any (isShape ·.1) && inputs.any (isRank1 ·.1) then
    (sumParts (inputs.map (concatPart false true))).map .shape
  else
    match inputs.map Prod.fst with
    | .tensor t :: _ => some (.tensor ⟨t.dtype, t.rank, none⟩)
    | .shape _ :: _ =>
      (sumParts (inputs.map fun i => match i.1 with | .shape k => some k | _ => none)).map .shape
    | _ => none

/-- The rank Gather uses for its data input (gather.rs:107-111); for a `Shape(k)` it is `k`. -/
def gatherDim : ArgType → Nat
  | .tensor t => t.rank
  | .shape k => k
  | _ => 1

/-- The rank of the indices (gather.rs:143-151). -/
def gatherIdxRank : ArgType → Nat
  | .tensor t => t.rank
  | .shape _ => 1
  | _ => 0

/-- crates/onnx-ir/src/node/gather.rs:97-196. -/
def gather (axis : Int) (x idx : ArgType) : Option ArgType :=
  let a := normAxis (gatherDim x) axis
  if a < 0 ∨ (gatherDim x : Int) ≤ a then none
  else
    let ir := gatherIdxRank idx
    match x with
    | .tensor t =>
      if ir + t.rank - 1 = 0 then some (.scalarTensor t.dtype)
      else some (.tensor ⟨t.dtype, ir + t.rank - 1, none⟩)
    | .shape _ =>
      if ir = 0 then some (.scalarNative .i64)
      else some (.shape (match idx with | .shape k => k | _ => ir))
    | .scalarTensor d => some (.scalarTensor d)
    | .scalarNative d => some (.scalarNative d)

/-- Insert into a sorted list. -/
def insertNat (x : Nat) : List Nat → List Nat
  | [] => [x]
  | y :: ys => if x ≤ y then x :: y :: ys else y :: insertNat x ys

/-- `Vec::sort` (reduce.rs:291); any sort gives the same list. -/
def sortNat : List Nat → List Nat
  | [] => []
  | x :: xs => insertNat x (sortNat xs)

/-- crates/onnx-ir/src/node/reduce.rs:279-291: normalised and sorted axes. A negative position after
normalisation is taken as an error (in the code it is a huge number that fails later). -/
def reduceDims (rank : Nat) (axes : List Int) : Option (List Nat) :=
  ((normAxes rank axes).mapM fun a => if a < 0 then none else some a.toNat).map
    sortNat

/-- reduce.rs:227-231: set dimensions to 1 in turn; out of range panics. -/
def setOnes : List Nat → PShape → Option PShape
  | [], p => some p
  | d :: ds, p => if d < p.length then setOnes ds (p.set d (some 1)) else none

/-- reduce.rs:233-235: remove dimensions in turn; out of range panics. -/
def removeDims : List Nat → PShape → Option PShape
  | [], p => some p
  | d :: ds, p => if d < p.length then removeDims ds (p.eraseIdx d) else none

/-- crates/onnx-ir/src/node/reduce.rs:188-248 with `extract_config` 250-295. `axes` are the attribute
or the constant input, empty if there are none or they are only known at run time. -/
def reduce (axes : List Int) (keepdims : Bool) (x : ArgType) : Option ArgType :=
  match x with
  | .tensor t =>
    match reduceDims t.rank axes with
    | none => none
    | some dims =>
      if !keepdims && (dims.isEmpty || dims.length == t.rank) then some (.scalarTensor t.dtype)
      else if keepdims = false ∧ t.rank < dims.length then none
      else
        let rank := if keepdims then t.rank else t.rank - dims.length
        match t.staticShape with
        | none => some (.tensor ⟨t.dtype, rank, none⟩)
        | some sh =>
          if sh.length ≠ t.rank then some (.tensor ⟨t.dtype, rank, none⟩)
          else if keepdims then (setOnes dims sh).map fun q => .tensor ⟨t.dtype, rank, some q⟩
          else (removeDims dims.reverse sh).map fun q => .tensor ⟨t.dtype, rank, some q⟩
  | _ => none

/-- The element type of Expand's data (expand.rs:101-110). -/
def expandElem : ArgType → Option DType
  | .tensor t => some t.dtype
  | .scalarTensor d => some d
  | .scalarNative d => some d
  | .shape _ => none

/-- expand.rs:71-93: the shape input must be a one-dimensional `i64` tensor or a `Shape`. -/
def expandShapeOk : ArgType → Bool
  | .tensor t => t.rank == 1 && t.dtype == .i64
  | .shape _ => true
  | _ => false

/-- expand.rs:125-151: the output rank for a target known only at run time; `prev` is the type the
output had before. -/
def expandRank (shapeTy prev : ArgType) : Option Nat :=
  match shapeTy with
  | .shape k => some k
  | .tensor t =>
    match (t.staticShape.bind List.head?).join with
    | some k => some k
    | none => match prev with
      | .tensor p => if 0 < p.rank then some p.rank else none
      | _ => none
  | _ => none

/-- crates/onnx-ir/src/node/expand.rs:62-162 with `extract_config` 175-192. `target` is the constant
content of the shape input. -/
def expand (target : Option (List Int)) (shapeTy prev x : ArgType) : Option ArgType :=
  if expandShapeOk shapeTy then
    (expandElem x).bind fun dt =>
      match target with
      | some dims => some (.tensor ⟨dt, dims.length, some (dims.map fun d => some (asUsize d))⟩)
      | none => (expandRank shapeTy prev).map fun r => .tensor ⟨dt, r, none⟩
  else none

end OnnxIR.Infer
