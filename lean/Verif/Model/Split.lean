import Verif.Model.OpRules2

/-!
# Split: chunk sizes and output types

crates/onnx-ir/src/node/split.rs and the generated code of crates/burn-onnx/src/burn/node/split.rs.
-/

namespace OnnxIR.Infer

/-- `usize::div_ceil`; panics for `n = 0`, here 0. -/
def divCeil (a n : Nat) : Nat := (a + n - 1) / n

/-- split.rs:252-260 and 354-363: `n` chunks with a running remainder. -/
def chunks (chunk : Nat) : Nat → Nat → List Nat
  | 0, _ => []
  | n + 1, remaining => min chunk remaining :: chunks chunk n (remaining - chunk)

/-- The sizes when the dimension is known at import. -/
def chunkSizes (dim n : Nat) : List Nat := chunks (divCeil dim n) n dim

/-- burn/node/split.rs:57-63: the sizes the generated code computes at run time. -/
def runtimeChunkSizes (dim n : Nat) : List Nat :=
  (List.range n).map fun i => min (divCeil dim n) (dim - i * divCeil dim n)

/-- Where the explicit sizes come from. -/
inductive SplitSizes where
  | static (sizes : List Nat)
  | runtime
deriving DecidableEq, Repr

/-- What the node carries: an input with a constant value, an input without one, the attribute of old
opsets, or nothing. -/
inductive SplitArg where
  | constInput (sizes : List Int)
  | runtimeInput
  | attr (sizes : List Int)
  | absent
deriving DecidableEq, Repr

/-- The configuration handed to code generation (`split_size` is never set). -/
structure SplitConfig where
  axis : Nat
  sizes : Option SplitSizes
  numOutputs : Option Nat
deriving DecidableEq, Repr

/-- split.rs:286-326 and 332-348: the checks on explicit sizes. -/
def explicitSizes (dim : Option Nat) (outputs : Nat) (sizes : List Int) : Option (List Nat) :=
  if sizes.any (· < 0) then none
  else
    let u := sizes.map Int.toNat
    if u.length ≠ outputs then none
    else match dim with
      | some d => if u.sum ≠ d then none else some u
      | none => some u

/-- crates/onnx-ir/src/node/split.rs:167-385 `extract_config`, for a data input of the given rank and
static shape (a `Shape(k)` is rank 1 with dimension `k`). The type checks of the sizes input are left
out. -/
def splitConfig (rank : Nat) (sh : Option PShape) (axis : Int) (numOutputs : Option Nat) (arg : SplitArg)
    (outputs : Nat) : Option SplitConfig :=
  if axis < -(rank : Int) ∨ (rank : Int) ≤ axis then none
  else
    let a := (normAxis rank axis).toNat
    if numOutputs = some 0 then none
    else
      let dim := (sh.bind (·[a]?)).join
      let first : Option (Option SplitSizes) := match numOutputs, dim with
        | some n, some d => if d = 0 then none else some (some (.static (chunkSizes d n)))
        | _, _ => some none
      match first with
      | none => none
      | some first =>
        let second : Option (Option SplitSizes) := match arg with
          | .runtimeInput => some (some .runtime)
          | .constInput sizes =>
            (explicitSizes dim outputs sizes).map fun u => if u = [] then none else some (.static u)
          | .attr sizes =>
            if sizes = [] then some first
            else (explicitSizes dim outputs sizes).map fun u => some (.static u)
          | .absent => some first
        match second with
        | none => none
        | some second =>
          let third := match second, dim with
            | none, some d => some (.static (chunkSizes d outputs))
            | s, _ => s
          some ⟨a, third, if third = none then some (numOutputs.getD outputs) else none⟩

/-- The sizes the generated code splits a dimension of run-time size `dim` into
(burn/node/split.rs:33-66); `none` where code generation panics. -/
def generatedSizes (c : SplitConfig) (dim : Nat) : Option (List Nat) :=
  match c.sizes with
  | some (.static s) => some s
  | some .runtime => none
  | none => c.numOutputs.map (runtimeChunkSizes dim)

/-- crates/onnx-ir/src/node/split.rs:121-157: the type of output `i` of a tensor. `sizes` are the
explicit sizes, if constant. Indexing out of range panics. -/
def splitTensor (dt : DType) (rank : Nat) (sh : Option PShape) (axis : Int) (sizes : Option (List Int))
    (i : Nat) : Option ArgType :=
  match sizes, sh with
  | some sz, some p =>
    match sz[i]? with
    | some d =>
      if 0 ≤ normAxis rank axis ∧ normAxis rank axis < p.length then
        some (.tensor ⟨dt, rank, some (p.set (normAxis rank axis).toNat (some (asUsize d)))⟩)
      else none
    | none => some (.tensor ⟨dt, rank, none⟩)
  | _, _ => some (.tensor ⟨dt, rank, none⟩)

/-- crates/onnx-ir/src/node/split.rs:85-160: a `Shape(k)` input counts as a vector of `k` elements. -/
def splitOutput (x : ArgType) (axis : Int) (sizes : Option (List Int)) (i : Nat) : Option ArgType :=
  match x with
  | .tensor t => splitTensor t.dtype t.rank t.staticShape axis sizes i
  | .shape k => splitTensor .i64 1 (some [some k]) axis sizes i
  | _ => none

end OnnxIR.Infer
