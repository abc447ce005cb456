import Verif.Spec.Elem
import Verif.Model.OpRules3
import Verif.Model.Unary

/-!
# Generated code of Cast, Constant, ConstantOfShape and EyeLike

Sources: `crates/burn-onnx/src/burn/node/{cast,constant,constant_of_shape,eye_like}.rs`. `none` is a panic of the generator, code that
does not compile, or a panic (or open behaviour) of the generated code. `dfltF` and `dfltI` are the element types of the backend. Size has
no model: its code (`size.rs` 12-19) reads a field `shape` of the input, which neither tensors (where it is a method) nor arrays nor numbers
have, so it compiles for no input.
-/

namespace OnnxIR.Gen

/-- Rust's type in the cast of a native scalar (`cast.rs` 42-52); other types panic. -/
def castTarget : DType → Option DType
  | .f32 | .f16 => some .f32
  | .f64 => some .f64
  | .i32 => some .i32
  | .i64 => some .i64
  | .u16 => some .u16
  | .i8 => some .i8
  | .u8 => some .u8
  | .bool => some .bool
  | _ => none

/-- Casts of native scalars that generate no conversion (`cast.rs` 27-33). -/
def castSkipped (src dst : DType) : Bool :=
  src = dst ∨ (src.kind = .float ∧ dst.kind = .float ∧ src ≠ .f64 ∧ dst ≠ .f64) ∨ (src.kind = .int ∧ dst.kind = .int)

/-- Cast of a native scalar of Rust type `src` (`cast.rs` 22-57): the Rust type and the value of the result. -/
def castNative (R : Rounding) (src dst : DType) (x : Num) : Option (DType × Num) :=
  if castSkipped src dst then some (src, x)
  else (castTarget dst).bind fun ty => (rustAs R src ty x).map fun y => (ty, y)

/-- Cast of a tensor with elements of type `src` (`cast.rs` 62-98). -/
def castTensor (R : Rounding) (dfltF dfltI : DType) (src dst : DType) (u : Tensor Num) : Option (Tensor Num) :=
  if src = dst then some u
  else if src.kind = dst.kind then u.mapOpt (Burn.castElem R dst)
  else match dst.kind with
    | .bool => u.mapOpt Burn.toBool
    | .int => (u.mapOpt (Burn.toInt dfltI)).bind (·.mapOpt (Burn.castElem R dst))
    | .float => (u.mapOpt (Burn.toFloat R dfltF)).bind (·.mapOpt (Burn.castElem R dst))

/-- Cast (`cast.rs` 14-168). Native scalars are dealt with in `castNative`. -/
def genCast (R : Rounding) (dfltF dfltI : DType) (dst : DType) (ty : ArgType) (v : GVal Num) : Option (GVal Num) :=
  match ty, v with
  | .tensor t, .dev u => (castTensor R dfltF dfltI t.dtype dst u).map .dev
  | .scalarTensor d, .dev u => (castTensor R dfltF dfltI d dst u).map .dev
  | .shape _, .shape l =>
    match dst.kind with
    | .int => some (.shape l)
    | .float => some (.dev (Burn.ofShape (fun n => .float (R.rnd dst (R.rnd .f64 (.finite n)))) l))
    | .bool => some (.dev (Burn.ofShape (fun n => .bool (n != 0)) l))
  | _, _ => none

/-- Whether the value of a scalar constant can be read: `scalar_f64` (`tensor_data_ext.rs` 48-67) and `to_i64_vec` (90-99) know only some
of the types, and the results are unwrapped. -/
def scalarReadable : DType → Bool
  | .f16 | .f32 | .f64 | .i32 | .i64 | .bool => true
  | _ => false

/-- An integer element. -/
def asInt : Num → Option Int
  | .int k => some k
  | _ => none

/-- Constant (`constant.rs` 15-250) with the data `T` of element type `d`: tensors are stored and loaded, scalars with shape `[1]`; native
scalars and shapes are literals. -/
def genConstant (d : DType) (ty : ArgType) (T : Tensor Num) : Option (GVal Num) :=
  match ty with
  | .tensor _ => (Burn.reshape T (if T.shape = [] then [1] else T.shape)).map .dev
  | .scalarTensor _ => if scalarReadable d then (Burn.reshape T (if T.shape = [] then [1] else T.shape)).map .dev else none
  | .scalarNative _ => if scalarReadable d then T.data.head?.map .native else none
  | .shape n =>
    if d = .i64 ∨ d = .i32 then
      (T.data.mapM asInt).bind fun l => if l.length = n then some (.shape l) else none
    else none

/-- The fill value as a Rust literal with its type (`constant_of_shape.rs` 17-44): types not listed give `0.0f32`. -/
def fillValue : Option (DType × Num) → DType × Num
  | some (.f32, x) => (.f32, x)
  | some (.f64, x) => (.f64, x)
  | some (.i32, x) => (.i32, x)
  | some (.i64, x) => (.i64, x)
  | some (.bool, x) => (.bool, x)
  | _ => (.f32, .float (.finite 0))

/-- The element of a tensor filled with a number (`constant_of_shape.rs` 107-124): the literal as `f64` or `i64`, converted to the element type
of the result. -/
def fillElem (R : Rounding) (fill : DType × Num) (d : DType) : Option Num :=
  (rustAs R fill.1 (if d.kind = .float then .f64 else .i64) fill.2).bind (Burn.castElem R d)

/-- ConstantOfShape (`constant_of_shape.rs` 13-137) with the value and its type; `dims` are the sizes, known when the code is generated or
given by an array. The result has type `ty`. -/
def genConstantOfShape (R : Rounding) (value : Option (DType × Num)) (ty : ArgType) (dims : List Int) : Option (GVal Num) :=
  let fill := fillValue value
  match ty with
  | .scalarNative d | .scalarTensor d => if fill.1 = d then some (.native fill.2) else none
  | .tensor t =>
    match value with
    | some (.bool, .bool b) => (if ∀ d ∈ dims, 0 ≤ d then some (Tensor.ofFn (dims.map Int.toNat) fun _ => Num.bool b) else none).map .dev
    | _ =>
      ((fillElem R fill t.dtype).bind fun x =>
        (Burn.reshape (Burn.single x) (List.replicate t.rank 1)).bind fun u => Burn.expandTo u dims).map .dev
  | .shape n => match fill with
    | (.i64, .int k) => some (.shape (List.replicate n k))
    | _ => none

/-- EyeLike (`eye_like.rs` 14-42) of a matrix; the result has element type `d`. -/
def genEyeLike (R : Rounding) (dfltF dfltI : DType) (k : Int) (d : DType) (x : Tensor Num) : Option (Tensor Num) :=
  match x.shape with
  | [rows, cols] =>
    ((Burn.diagMask k rows cols).mapOpt Burn.boolNot).bind fun m =>
      match d.kind with
      | .int => (m.mapOpt (Burn.toInt dfltI)).bind (·.mapOpt (Burn.castElem R d))
      | .float => (m.mapOpt (Burn.toFloat R dfltF)).bind (·.mapOpt (Burn.castElem R d))
      | .bool => some m
  | _ => none

end OnnxIR.Gen
