import Verif.Model.ConstantShape
import Verif.Spec.Values

/-!
# Constant folding

crates/onnx-ir/src/simplify/constant_fold.rs. In every function below an outer `none` is a panic
and `some none` is the Rust `None` (the node is kept).
-/

namespace OnnxIR

variable {A B : Type}

/-- The `f64` operations and the `as` conversions of Rust used by the folding code; `A` is `f32`
and `B` is `f64`. -/
structure FloatOps (A B : Type) where
  op : ArithOp → B → B → B
  isZero : B → Bool
  neg : B → B
  sqrt : B → B
  /-- `f64 as f32` -/
  asF32 : B → A
  /-- `f32 as f64` -/
  asF64 : A → B
  /-- `i64 as f64` -/
  i64AsF64 : Int → B
  /-- `i64 as f32` -/
  i64AsF32 : Int → A
  /-- an `f16`, given by its bits, as `f64` -/
  f16AsF64 : Int → B
  /-- `f64 as i64`, saturating -/
  asI64 : B → Int
  /-- `f64 as i32`, saturating -/
  asI32 : B → Int

/-- crates/onnx-ir/src/ir/tensor_data_ext.rs:90-99 `to_i64_vec`. -/
def CVal.toI64Vec : CVal A B → Option (List Int)
  | .int .i64 t => some t.data
  | .int .i32 t => some t.data
  | _ => none

/-- crates/onnx-ir/src/ir/tensor_data_ext.rs:118-134 `to_f64_vec`. -/
def CVal.toF64Vec (fo : FloatOps A B) : CVal A B → Option (List B)
  | .f32 t => some (t.data.map fo.asF64)
  | .f64 t => some t.data
  | .int .f16 t => some (t.data.map fo.f16AsF64)
  | .int .i64 t => some (t.data.map fo.i64AsF64)
  | .int .i32 t => some (t.data.map fo.i64AsF64)
  | .int .i8 t => some (t.data.map fo.i64AsF64)
  | .int .u8 t => some (t.data.map fo.i64AsF64)
  | .int .u16 t => some (t.data.map fo.i64AsF64)
  | _ => none

/-- `TensorData::new` of the burn crate with integer data: panics (`none`) unless the number of
elements is that of the shape. -/
def newInt (d : DType) (s : List Nat) (l : List Int) : Option (CVal A B) :=
  if h : l.length = prodShape s then some (.int d ⟨s, l, h⟩) else none

/-- `TensorData::new` of the burn crate with `f32` data. -/
def newF32 (s : List Nat) (l : List A) : Option (CVal A B) :=
  if h : l.length = prodShape s then some (.f32 ⟨s, l, h⟩) else none

/-- `TensorData::new` of the burn crate with `f64` data. -/
def newF64 (s : List Nat) (l : List B) : Option (CVal A B) :=
  if h : l.length = prodShape s then some (.f64 ⟨s, l, h⟩) else none

/-- crates/onnx-ir/src/simplify/constant_fold.rs:170-180 `output_shape`. -/
def outputShape : ArgType → List Nat
  | .scalarTensor _ => []
  | .scalarNative _ => []
  | .shape k => [k]
  | .tensor t => (t.staticShape.bind allKnown).getD []

/-- crates/onnx-ir/src/simplify/constant_fold.rs:182-184 `broadcast_get`; `none` = index out of
bounds. -/
def broadcastGet {α : Type} (l : List α) (i : Nat) : Option α :=
  if l.length = 1 then l[0]? else l[i]?

/-- The `for` loops with `?` inside: stop at the first panic or `None`. -/
def traverse2 {α β : Type} (f : α → Option (Option β)) : List α → Option (Option (List β))
  | [] => some (some [])
  | a :: as =>
    match f a with
    | none => none
    | some none => some none
    | some (some b) =>
      match traverse2 f as with
      | none => none
      | some none => some none
      | some (some bs) => some (some (b :: bs))

/-- Is the number an `i64`? -/
def fitsI64 (z : Int) : Bool := decide (-(2 ^ 63) ≤ z) && decide (z < 2 ^ 63)

/-- crates/onnx-ir/src/simplify/constant_fold.rs:196-206: one element. `checked_*` gives up on
overflow, `a / b` panics on overflow. -/
def stepI64 (op : ArithOp) (a b : Int) : Option (Option Int) :=
  match op with
  | .add => some (if fitsI64 (a + b) then some (a + b) else none)
  | .sub => some (if fitsI64 (a - b) then some (a - b) else none)
  | .mul => some (if fitsI64 (a * b) then some (a * b) else none)
  | .div => if b = 0 then some none else if fitsI64 (a.tdiv b) then some (some (a.tdiv b)) else none

/-- crates/onnx-ir/src/simplify/constant_fold.rs:221-231: one element. -/
def stepF64 (fo : FloatOps A B) (op : ArithOp) (a b : B) : Option (Option B) :=
  if op = .div ∧ fo.isZero b = true then some none else some (some (fo.op op a b))

/-- One iteration of the loops of `apply_binary_i64`/`apply_binary_f64` (lines 193-208). -/
def stepAt {α : Type} (step : α → α → Option (Option α)) (lhs rhs : List α) (i : Nat) :
    Option (Option α) :=
  match broadcastGet lhs i, broadcastGet rhs i with
  | some a, some b => step a b
  | _, _ => none

/-- crates/onnx-ir/src/simplify/constant_fold.rs:186-210 `apply_binary_i64` and 212-235
`apply_binary_f64`, which differ in the element operation only. -/
def applyBinary {α : Type} (step : α → α → Option (Option α)) (lhs rhs : List α) :
    Option (Option (List α)) :=
  if lhs.length ≠ rhs.length ∧ lhs.length ≠ 1 ∧ rhs.length ≠ 1 then some none
  else traverse2 (stepAt step lhs rhs) (List.range (max lhs.length rhs.length))

/-- `let result = ...?; Some((TensorData::new(result, shape), output_ty))`. -/
def finish {α : Type} (new : List α → Option (CVal A B)) (r : Option (Option (List α))) :
    Option (Option (CVal A B)) :=
  match r with
  | none => none
  | some none => some none
  | some (some l) => (new l).map some

/-- Both operands as integers, then the loop. -/
def binaryInts (op : ArithOp) (x y : CVal A B) : Option (Option (List Int)) :=
  match x.toI64Vec, y.toI64Vec with
  | some l, some r => applyBinary (stepI64 op) l r
  | _, _ => some none

/-- Both operands as `f64`, then the loop. -/
def binaryFloats (fo : FloatOps A B) (op : ArithOp) (x y : CVal A B) : Option (Option (List B)) :=
  match x.toF64Vec fo, y.toF64Vec fo with
  | some l, some r => applyBinary (stepF64 fo op) l r
  | _, _ => some none

/-- crates/onnx-ir/src/simplify/constant_fold.rs:134-166: the body of `eval_binary`. -/
def binaryValue (fo : FloatOps A B) (op : ArithOp) (s : List Nat) (x y : CVal A B) :
    Option (Option (CVal A B)) :=
  match x.dtype with
  | .i64 => finish (newInt .i64 s) (binaryInts op x y)
  | .i32 => finish (fun l => newInt .i32 s (l.map (wrapInt .i32))) (binaryInts op x y)
  | .f32 => finish (fun l => newF32 s (l.map fo.asF32)) (binaryFloats fo op x y)
  | .f64 => finish (newF64 s) (binaryFloats fo op x y)
  | _ => some none

/-- A list of values wrapped as the result of a `?`. -/
def given {α : Type} (o : Option (List α)) : Option (Option (List α)) := some o

/-- crates/onnx-ir/src/simplify/constant_fold.rs:238-266: the body of `eval_neg`. `-v` on `i64`
wraps (release build; a debug build panics on the minimum). -/
def negValue (fo : FloatOps A B) (s : List Nat) (x : CVal A B) : Option (Option (CVal A B)) :=
  match x.dtype with
  | .i64 => finish (fun l => newInt .i64 s (l.map fun v => wrapInt .i64 (-v))) (given x.toI64Vec)
  | .i32 => finish (fun l => newInt .i32 s (l.map fun v => wrapInt .i32 (-v))) (given x.toI64Vec)
  | .f32 => finish (fun l => newF32 s (l.map fun v => fo.asF32 (fo.neg v)))
      (given (x.toF64Vec fo))
  | .f64 => finish (fun l => newF64 s (l.map fo.neg)) (given (x.toF64Vec fo))
  | _ => some none

/-- crates/onnx-ir/src/simplify/constant_fold.rs:269-287: the body of `eval_sqrt`. -/
def sqrtValue (fo : FloatOps A B) (s : List Nat) (x : CVal A B) : Option (Option (CVal A B)) :=
  match x.dtype with
  | .f32 => finish (fun l => newF32 s (l.map fun v => fo.asF32 (fo.sqrt v)))
      (given (x.toF64Vec fo))
  | .f64 => finish (fun l => newF64 s (l.map fo.sqrt)) (given (x.toF64Vec fo))
  | _ => some none

/-- crates/onnx-ir/src/simplify/constant_fold.rs:295-299: the element type a type stands for. -/
def castTarget : ArgType → DType
  | .scalarTensor d => d
  | .scalarNative d => d
  | .tensor t => t.dtype
  | .shape _ => .i64

/-- Is the element type one of the two integer types the folding handles? -/
def DType.isFoldInt : DType → Bool
  | .i64 => true
  | .i32 => true
  | _ => false

/-- Is the element type one of the two floating-point types the folding handles? -/
def DType.isFoldFlt : DType → Bool
  | .f32 => true
  | .f64 => true
  | _ => false

/-- crates/onnx-ir/src/simplify/constant_fold.rs:290-340: the body of `eval_cast`. -/
def castValue (fo : FloatOps A B) (s : List Nat) (target : DType) (x : CVal A B) :
    Option (Option (CVal A B)) :=
  if x.dtype = target then some (some x)
  else if x.dtype.isFoldInt then
    match target with
    | .f32 => finish (fun l => newF32 s (l.map fo.i64AsF32)) (given x.toI64Vec)
    | .f64 => finish (fun l => newF64 s (l.map fo.i64AsF64)) (given x.toI64Vec)
    | _ => some none
  else if x.dtype.isFoldFlt then
    match target with
    | .f32 => finish (fun l => newF32 s (l.map fo.asF32)) (given (x.toF64Vec fo))
    | .f64 => finish (newF64 s) (given (x.toF64Vec fo))
    | .i64 => finish (fun l => newInt .i64 s (l.map fo.asI64)) (given (x.toF64Vec fo))
    | .i32 => finish (fun l => newInt .i32 s (l.map fo.asI32)) (given (x.toF64Vec fo))
    | _ => some none
  else some none

/-- crates/onnx-ir/src/ir/argument.rs `is_optional`. -/
def Arg.isOptional {V : Type} (a : Arg V) : Bool :=
  match a.src with
  | .optional => true
  | _ => false

/-- `collect` restricted to give-up results: the values of all inputs through a reader. -/
def readAll {α : Type} (read : CVal A B → Option (List α)) : List (Option (CVal A B)) → Option (List α)
  | [] => some []
  | v :: vs =>
    match v.bind read, readAll read vs with
    | some l, some r => some (l ++ r)
    | _, _ => none

/-- crates/onnx-ir/src/simplify/constant_fold.rs:343-394: the body of `eval_concat` after the axis
test: `first` is the value of input 0, `vals` those of the non-optional inputs. -/
def concatValue (fo : FloatOps A B) (s : List Nat) (first : CVal A B) (vals : List (Option (CVal A B))) :
    Option (Option (CVal A B)) :=
  match first.dtype with
  | .i64 => finish (newInt .i64 s) (given (readAll CVal.toI64Vec vals))
  | .i32 => finish (fun l => newInt .i32 s (l.map (wrapInt .i32))) (given (readAll CVal.toI64Vec vals))
  | .f32 => finish (fun l => newF32 s (l.map fo.asF32)) (given (readAll (CVal.toF64Vec fo) vals))
  | .f64 => finish (newF64 s) (given (readAll (CVal.toF64Vec fo) vals))
  | _ => some none

/-- crates/onnx-ir/src/simplify/constant_fold.rs:403-412: the target shape of `eval_reshape`. -/
def reshapeTarget : ArgType → Option (List Nat)
  | .scalarTensor _ => some []
  | .scalarNative _ => some []
  | .shape k => some [k]
  | .tensor t => t.staticShape.bind allKnown

/-- crates/onnx-ir/src/simplify/constant_fold.rs:398-432: the body of `eval_reshape`. -/
def reshapeValue (ty : ArgType) (x : CVal A B) : Option (CVal A B) :=
  match reshapeTarget ty with
  | none => none
  | some s => if h : prodShape x.shape = prodShape s then some (x.withShape s h) else none

/-- Evaluation of a node with one data input: `node.inputs[0].value()?`. -/
def evalUnary (cmap : String → Option (CVal A B)) (n : Node (CVal A B))
    (f : ArgType → CVal A B → Option (Option (CVal A B))) : Option (Repl (CVal A B)) :=
  match n.inputs, n.outputs with
  | a :: _, o :: _ =>
    match a.value cmap with
    | none => some none
    | some x => (f o.ty x).map fun r => r.map fun v => (v, o.ty)
  | _, _ => none

/-- crates/onnx-ir/src/simplify/constant_fold.rs:126-167 `eval_binary`. -/
def evalBinary (fo : FloatOps A B) (cmap : String → Option (CVal A B)) (n : Node (CVal A B))
    (op : ArithOp) : Option (Repl (CVal A B)) :=
  match n.inputs with
  | a :: b :: _ =>
    match a.value cmap, b.value cmap with
    | some x, some y =>
      match n.outputs with
      | o :: _ => (binaryValue fo op (outputShape o.ty) x y).map fun r => r.map fun v => (v, o.ty)
      | [] => none
    | _, _ => some none
  | _ => some none

/-- crates/onnx-ir/src/simplify/constant_fold.rs:343-394 `eval_concat`. -/
def evalConcat (fo : FloatOps A B) (cmap : String → Option (CVal A B)) (n : Node (CVal A B)) :
    Option (Repl (CVal A B)) :=
  match attrI64 n.attrs "axis" with
  | none => none
  | some axis =>
    if axis.getD 0 ≠ 0 then some none else
    evalUnary cmap n fun ty first =>
      concatValue fo (outputShape ty) first
        ((n.inputs.filter fun a => !a.isOptional).map (Arg.value cmap))

/-- crates/onnx-ir/src/simplify/constant_fold.rs:100-113 `try_evaluate`. -/
def tryEvaluate (fo : FloatOps A B) (cmap : String → Option (CVal A B)) (n : Node (CVal A B)) :
    Option (Repl (CVal A B)) :=
  match n.ty with
  | .add => evalBinary fo cmap n .add
  | .sub => evalBinary fo cmap n .sub
  | .mul => evalBinary fo cmap n .mul
  | .div => evalBinary fo cmap n .div
  | .neg => evalUnary cmap n fun ty x => negValue fo (outputShape ty) x
  | .sqrt => evalUnary cmap n fun ty x => sqrtValue fo (outputShape ty) x
  | .cast => evalUnary cmap n fun ty x => castValue fo (outputShape ty) (castTarget ty) x
  | .concat => evalConcat fo cmap n
  | .unsqueeze => evalUnary cmap n fun ty x => some (reshapeValue ty x)
  | .squeeze => evalUnary cmap n fun ty x => some (reshapeValue ty x)
  | .reshape => evalUnary cmap n fun ty x => some (reshapeValue ty x)
  | _ => some none

/-- crates/onnx-ir/src/simplify/constant_fold.rs:22-42: the decision for one node. The constants
registered by earlier iterations of the loop are not visible to later ones: an argument is marked
`Constant` only after the loop (lines 56-58), so `cmap` is the table before the pass. -/
def foldDecision (fo : FloatOps A B) (cmap : String → Option (CVal A B)) (n : Node (CVal A B)) :
    Option (Repl (CVal A B)) :=
  if n.ty = .constant then some none
  else if (n.inputs.filter fun a => !a.isOptional).all (fun a => (a.value cmap).isSome) = false
      ∨ n.inputs.all Arg.isOptional = true then some none
  else tryEvaluate fo cmap n

/-- crates/onnx-ir/src/simplify/constant_fold.rs:14-61 `fold_constants`: nodes, outputs and the
extended constant table; `none` = panic. -/
def foldConstants (fo : FloatOps A B) (cmap : String → Option (CVal A B)) (nodes : List (Node (CVal A B)))
    (outs : List (Arg (CVal A B))) :
    Option (List (Node (CVal A B)) × List (Arg (CVal A B)) × (String → Option (CVal A B))) :=
  match collect (foldDecision fo cmap) nodes with
  | none => none
  | some rs =>
    let news := replacedNames nodes rs
    let (ns, os) := updateConstantReferences (news.map Prod.fst) (replaceByConstants nodes rs) outs
    some (ns, os, extendTable cmap news)

/-- How the passes look into a numeric tensor (crates/onnx-ir/src/ir/tensor_data_ext.rs:73-99). -/
def cvalView (fo : FloatOps A B) : TensorView (CVal A B) where
  shape := CVal.shape
  i64s := CVal.toI64Vec
  scalarI64 := fun v => match v with
    | .int d t => if d ∈ [DType.i64, .i32, .i8, .u8, .u16] then t.data.head? else none
    | .f32 t => t.data.head?.map fun a => fo.asI64 (fo.asF64 a)
    | .f64 t => t.data.head?.map fo.asI64
  mkI64 := fun s l => (newInt .i64 s l).getD (.int .i64 ⟨[0], [], rfl⟩)

end OnnxIR
