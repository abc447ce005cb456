/-!
# Numbers in the generated source

How integers and floating-point numbers are written into the generated code. Texts are lists of characters; blanks between tokens
are left out.
-/

namespace OnnxIR.Lit

abbrev Text := List Char

/-- A finite number as Rust's formatting code sees it: a sign and the shortest decimal digits that lead back to the number, digits
before the point, digits after it, and a power of ten used when the number is very large or small. Simplified: that the nearest
float to these digits is the number itself is the guarantee of Rust's standard library. -/
structure Dec where
  neg : Bool
  whole : Nat
  frac : List (Fin 10)
  exp : Option Int

/-- A float: finite, infinite or not a number. -/
inductive Num where
  | fin (d : Dec)
  | inf (neg : Bool)
  | nan

/-- `Display` and `Debug` of an unsigned number. -/
def natText (n : Nat) : Text := Nat.toDigits 10 n

/-- `Display` and `Debug` of a signed number. -/
def intText (i : Int) : Text := if i < 0 then '-' :: natText i.natAbs else natText i.natAbs

def signText (neg : Bool) : Text := if neg then ['-'] else []

def fracText (ds : List (Fin 10)) : Text := ds.map fun d => Nat.digitChar d.val

def expText : Option Int → Text
  | none => []
  | some e => 'e' :: intText e

/-- Rust's `{}` of a float: no point if there is nothing after it, "inf", "-inf", "NaN". Simplified: `{}` spells very large and very
small numbers without a power of ten; here the power is kept for both formats. -/
def display : Num → Text
  | .fin d => signText d.neg ++ natText d.whole ++ (if d.frac = [] then [] else '.' :: fracText d.frac) ++ expText d.exp
  | .inf neg => signText neg ++ "inf".toList
  | .nan => "NaN".toList

/-- Rust's `{:?}` of a float: like `{}`, with ".0" when it would look like an integer. -/
def debug : Num → Text
  | .fin d => signText d.neg ++ natText d.whole ++
      (if d.frac = [] then (if d.exp = none then ".0".toList else []) else '.' :: fracText d.frac) ++ expText d.exp
  | x => display x

/-- crates/burn-onnx/src/burn/codegen.rs:11-15 `convert_primitive` for `usize` and `i64` (50-62). -/
def intTokens (i : Int) : Text := intText i

/-- crates/burn-onnx/src/burn/codegen.rs:17-47 `convert_to_array`, for vectors and arrays of integers: a comma after every
element. -/
def arrayTokens (is : List Int) : Text := '[' :: is.flatMap (fun i => intTokens i ++ [',']) ++ [']']

/-- `proc_macro2::Literal::i64_suffixed` and others (range.rs:23, slice.rs, constant_of_shape.rs): the digits and the type. -/
def suffixed (ty : Text) (i : Int) : Text := intText i ++ ty

/-- crates/burn-onnx/src/burn/codegen.rs:11-15 `convert_primitive` for `f64` and `f32` (65-76): celu.rs, elu.rs, hard_sigmoid.rs,
leaky_relu.rs, dropout.rs and others. -/
def primitive (x : Num) : Text := debug x

/-- crates/burn-onnx/src/burn/codegen.rs:80-108 `f32_to_tokens` (`ty` = "f32") and `f64_to_tokens` (`ty` = "f64"); the finite case is
`proc_macro2::Literal::f32_suffixed`. -/
def floatTokens (ty : Text) : Num → Text
  | .nan => ty ++ "::NAN".toList
  | .inf false => ty ++ "::INFINITY".toList
  | .inf true => ty ++ "::NEG_INFINITY".toList
  | .fin d => display (.fin d) ++ ty

/-- A float put into `quote!` directly (clip.rs:35-50, gemm.rs, batch_norm.rs and others), by `proc_macro2::Literal::f64_suffixed`,
which panics on a number that is not finite. -/
def quoted (ty : Text) : Num → Option Text
  | .fin d => some (display (.fin d) ++ ty)
  | _ => none

/-- crates/burn-onnx/src/burn/node/pad.rs:34-37: the padding value, `format!("{}_f32", value)`. -/
def padValue (x : Num) : Text := display x ++ "_f32".toList

end OnnxIR.Lit
