import Verif.Model.Types

/-!
# Which operands the generated code needs as native scalars or as arrays

Read off the generated code: an `if` and a `loop` need a native condition, `arange` native bounds, an
array of dimensions (`Shape`) is indexed and combined with native scalars and other such arrays, and
so on. An operand is given by its position.
-/

namespace OnnxIR.Onnx

variable {V : Type}

/-- The binary operators that work on arrays of dimensions. -/
def shapeArithmetic : List NodeType := [.add, .sub, .mul, .div, .other "Mod"]

/-- The comparisons. -/
def comparisons : List NodeType :=
  [.other "Equal", .other "Greater", .other "Less", .other "GreaterOrEqual", .other "LessOrEqual"]

/-- A scalar in this position must be a native Rust scalar. -/
inductive NeedsNative : Node V → Nat → Prop
  | condition {n : Node V} (h : n.ty = .other "If") : NeedsNative n 0
  | loop {n : Node V} (k : Nat) (h : n.ty = .other "Loop") (hk : k < 2) : NeedsNative n k
  | range {n : Node V} (k : Nat) (h : n.ty = .other "Range") : NeedsNative n k
  | choice {n : Node V} (k : Nat) (h : n.ty = .other "Where") (hk : 1 ≤ k) : NeedsNative n k
  | join {n : Node V} (k : Nat) (h : n.ty = .concat) : NeedsNative n k
  | bound {n : Node V} (k : Nat) (h : n.ty = .slice) (hk : 1 ≤ k) : NeedsNative n k
  | index {n : Node V} {d : Arg V} {r : Nat} (h : n.ty = .gather) (hd : n.inputs[0]? = some d)
      (hs : d.ty = .shape r) : NeedsNative n 1
  | arithmetic {n : Node V} {d : Arg V} (k j : Nat) (h : n.ty ∈ shapeArithmetic)
      (hl : n.inputs.length = 2) (hkj : k + j = 1) (hd : n.inputs[j]? = some d)
      (hs : (∃ r, d.ty = .shape r) ∨ ∃ t, d.ty = .scalarNative t) : NeedsNative n k
  | compare {n : Node V} {d : Arg V} (k j : Nat) (h : n.ty ∈ comparisons)
      (hl : n.inputs.length = 2) (hkj : k + j = 1) (hd : n.inputs[j]? = some d)
      (hs : ∀ r, d.ty ≠ .shape r) : NeedsNative n k

/-- A one-dimensional operand in this position must be an array of dimensions. -/
inductive NeedsShape : Node V → Nat → Prop
  | target {n : Node V} (h : n.ty = .reshape) : NeedsShape n 1
  | bound {n : Node V} (k : Nat) (h : n.ty = .slice) (hk : 1 ≤ k) : NeedsShape n k
  | join {n : Node V} {d : Arg V} {r : Nat} (k : Nat) (h : n.ty = .concat) (hd : d ∈ n.inputs)
      (hs : d.ty = .shape r) : NeedsShape n k
  | index {n : Node V} {d : Arg V} {r : Nat} (h : n.ty = .gather) (hd : n.inputs[0]? = some d)
      (hs : d.ty = .shape r) : NeedsShape n 1
  | arithmetic {n : Node V} {d : Arg V} {r : Nat} (k j : Nat) (h : n.ty ∈ shapeArithmetic)
      (hl : n.inputs.length = 2) (hkj : k + j = 1) (hd : n.inputs[j]? = some d)
      (hs : d.ty = .shape r) : NeedsShape n k

/-- The operators that may work with native scalars or arrays of dimensions. -/
def hostOperators : List NodeType :=
  shapeArithmetic ++ comparisons ++ [.gather, .slice, .concat, .reshape, .other "Where", .other "Range",
    .other "Loop", .other "If"]

end OnnxIR.Onnx
