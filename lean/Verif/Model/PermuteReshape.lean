import Verif.Model.ConstantShape

/-!
# Rewriting `Reshape` to a permuted shape into `Transpose`

crates/onnx-ir/src/simplify/permute_reshape.rs. An outer `none` is a panic of the importer.
-/

namespace OnnxIR

variable {V : Type}

/-- crates/onnx-ir/src/simplify/permute_reshape.rs:84-123: one input of the `Concat`: the index
read by the `Gather` behind it and the name of the tensor whose shape it reads. `rank` is the
number of inputs of the `Concat`. Simplification: `scalar_i64` of a tensor without elements,
a panic in Rust, is not a match here. -/
def permuteEntry (tv : TensorView V) (cmap : String → Option V) (nodes : List (Node V))
    (prod : List (String × Nat)) (rank : Nat) (a : Arg V) : Option (Option (Int × String)) :=
  match producerOf prod nodes a.name with
  | none => some none
  | some u =>
    if u.ty != .unsqueeze then some none else
    match u.inputs with
    | [] => none
    | u0 :: _ =>
      match producerOf prod nodes u0.name with
      | none => some none
      | some g =>
        if g.ty != .gather then some none else
        match attrI64 g.attrs "axis" with
        | none => none
        | some axis =>
          if axis.getD 0 != 0 then some none else
          match g.inputs with
          | g0 :: g1 :: _ =>
            match (g1.value cmap).bind tv.scalarI64 with
            | none => some none
            | some iv =>
              match producerOf prod nodes g0.name with
              | none => some none
              | some s =>
                if s.ty != .shape then some none else
                match s.inputs with
                | [] => none
                | x :: _ => some (some (if iv < 0 then iv + (rank : Int) else iv, x.name))
          | _ => some none

/-- crates/onnx-ir/src/simplify/permute_reshape.rs:80-129: the loop over the inputs of the
`Concat`; `prev` is `shape_data_input`. -/
def permuteLoop (tv : TensorView V) (cmap : String → Option V) (nodes : List (Node V))
    (prod : List (String × Nat)) (rank : Nat) :
    List (Arg V) → Option String → Option (Option (List Int × Option String))
  | [], prev => some (some ([], prev))
  | a :: as, prev =>
    match permuteEntry tv cmap nodes prod rank a with
    | none => none
    | some none => some none
    | some (some (iv, x)) =>
      if prev.all (· == x) then
        match permuteLoop tv cmap nodes prod rank as (some x) with
        | none => none
        | some none => some none
        | some (some (perm, final)) => some (some (iv :: perm, final))
      else some none

/-- crates/onnx-ir/src/simplify/permute_reshape.rs:137-145: every index in range, none twice. -/
def isPermutation (rank : Nat) : List Int → List Int → Bool
  | [], _ => true
  | p :: ps, seen =>
    if p < 0 ∨ (rank : Int) ≤ p ∨ p ∈ seen then false else isPermutation rank ps (p :: seen)

/-- crates/onnx-ir/src/simplify/permute_reshape.rs:63-148 `extract_permute_pattern`, for a node
whose first two inputs are `data` and `target`. -/
def extractPermutePattern (tv : TensorView V) (cmap : String → Option V) (nodes : List (Node V))
    (prod : List (String × Nat)) (data target : Arg V) : Option (Option (List Int)) :=
  match producerOf prod nodes target.name with
  | none => some none
  | some c =>
    if c.ty != .concat then some none else
    match permuteLoop tv cmap nodes prod c.inputs.length c.inputs none with
    | none => none
    | some none => some none
    | some (some (perm, final)) =>
      if final != some data.name then some none
      else if isPermutation perm.length perm [] then some (some perm) else some none

/-- crates/onnx-ir/src/simplify/permute_reshape.rs:28-33 and 45-55: the node that takes the place
of `n`. -/
def permuteNode (tv : TensorView V) (cmap : String → Option V) (nodes : List (Node V))
    (prod : List (String × Nat)) (n : Node V) : Option (Node V) :=
  if n.ty = .reshape then
    match n.inputs with
    | data :: target :: _ =>
      match extractPermutePattern tv cmap nodes prod data target with
      | none => none
      | some none => some n
      | some (some perm) =>
        some { ty := .transpose, name := n.name, inputs := [data], outputs := n.outputs,
               attrs := [("perm", .i64s perm)] }
    | _ => some n
  else some n

/-- crates/onnx-ir/src/simplify/permute_reshape.rs:15-59 `simplify_permute_reshape`. All decisions
are taken on the original nodes. -/
def simplifyPermuteReshape (tv : TensorView V) (cmap : String → Option V) (nodes : List (Node V)) :
    Option (List (Node V)) :=
  collect (permuteNode tv cmap nodes (producerMap nodes)) nodes

end OnnxIR
