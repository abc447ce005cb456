/-!
# Names for generated code

crates/onnx-ir/src/proto_conversion.rs:48-102 `sanitize_name`, on lists of characters.
-/

namespace OnnxIR

/-- crates/onnx-ir/src/proto_conversion.rs:58-83: the loop. `first` is `i == 0`, `lower` and `under`
are `prev_is_lower` and `prev_is_underscore`. -/
def sanLoop : Bool → Bool → Bool → List Char → List Char
  | _, _, _, [] => []
  | first, lower, under, c :: cs =>
    if c = '_' then
      if under = false ∨ first = true then '_' :: sanLoop false false true cs
      else sanLoop false false under cs
    else if c.isAlphanum then
      if c.isUpper = true ∧ lower = true ∧ under = false then
        '_' :: c.toLower :: sanLoop false c.isLower false cs
      else c.toLower :: sanLoop false c.isLower false cs
    else if under = false ∧ first = false then '_' :: sanLoop false false true cs
    else sanLoop false false under cs

/-- crates/onnx-ir/src/proto_conversion.rs:86-94: the loop that pops trailing underscores, on the
reversed result. -/
def popUnder : List Char → List Char
  | [] => []
  | c :: cs =>
    if c = '_' ∧ cs ≠ [] then
      if (c :: cs).all (· == '_') then c :: cs else popUnder cs
    else c :: cs

/-- crates/onnx-ir/src/proto_conversion.rs:97-99: the first character. -/
def sanHead : List Char → List Char
  | [] => []
  | c :: cs => if c.isAlpha = true ∨ c = '_' then c :: cs else '_' :: c :: cs

/-- crates/onnx-ir/src/proto_conversion.rs:48-102 `sanitize_name`. The early return for the empty
name is the value of the loop on it. -/
def sanitizeChars (name : List Char) : List Char :=
  sanHead (popUnder (sanLoop true false false name).reverse).reverse

/-- `sanitize_name` on strings. -/
def sanitizeName (name : String) : String := String.ofList (sanitizeChars name.toList)

end OnnxIR
