import Verif.Model.ExternalPath

/-!
# Converting a list of model files

`crates/burn-onnx/src/model_gen.rs:277-363` (the driver) and `crates/burn-onnx/src/burn/graph.rs:48-67, 276-345` (the weights file and
the code that names it): which files a run writes, in which order, and what is in them. All of them lie in the output directory, so a
file is named by its name there. Windows paths are not modelled.
-/

namespace OnnxIR.Driver

open OnnxIR.Ext (Chars components)

/-! ### Names (Rust standard library, trusted base) -/

/-- What is before and after the last dot. -/
def lastDot : Chars → Option (Chars × Chars)
  | [] => none
  | c :: cs =>
    match lastDot cs with
    | some (b, a) => some (c :: b, a)
    | none => if c = '.' then some ([], cs) else none

/-- `Path::file_name`: the last component, unless it is `..`. -/
def fileName (p : Chars) : Option Chars :=
  match (components p).getLast? with
  | none => none
  | some c => if c = ['.', '.'] then none else some c

/-- The stem of a file name: without the last dot and what follows, unless nothing is before it. -/
def stemOf (f : Chars) : Chars :=
  match lastDot f with
  | none => f
  | some ([], _) => f
  | some (b, _) => b

/-- `Path::file_stem`. -/
def fileStem (p : Chars) : Option Chars := (fileName p).map stemOf

/-- model_gen.rs:287, 334, 344 and 356: `out_dir.join(stem).with_extension(ext)`, which replaces what follows the last dot of the
stem. Simplified: the stems `.` and `..` (of the inputs `..onnx` and `...`), whose files would lie outside of the directory, count as
a panic. -/
def outName (stem ext : Chars) : Option Chars :=
  if stem = ['.'] ∨ stem = ['.', '.'] then none else some (stemOf stem ++ '.' :: ext)

/-! ### Files -/

/-- What a file holds: something cut off, generated code (of a model, naming its weights file and, if that is embedded, its size), the
weights of a model, or the text of a model. -/
inductive Content (M W : Type)
  | cut
  | source (m : M) (weights : Chars) (size : Option Nat)
  | weights (w : W)
  | text (m : M)
deriving DecidableEq

/-- Writing a file empties it first; the content is there when writing ends. -/
inductive Step (M W : Type)
  | start (f : Chars)
  | finish (f : Chars) (c : Content M W)

abbrev Dir (M W : Type) := Chars → Option (Content M W)

variable {M W : Type}

def Step.target : Step M W → Chars
  | .start f => f
  | .finish f _ => f

def Step.content : Step M W → Content M W
  | .start _ => .cut
  | .finish _ c => c

/-- The directory after some steps. -/
def after (d : Dir M W) : List (Step M W) → Dir M W
  | [] => d
  | s :: ss => after (fun f => if f = s.target then some s.content else d f) ss

/-- The parts of a conversion that are not about files: importing (`none`: a panic, model_gen.rs:318-321), the weights (`none`: a
panic while writing them, graph.rs:54-57), their size in the file, and whether generating the code succeeds. The input files are
taken not to be among the files written. -/
structure Parts (M W : Type) where
  parse : Chars → Option M
  weights : M → Option W
  size : W → Nat
  codegen : M → Bool

/-- The options of `ModelGen` (model_gen.rs:64-85). -/
structure Options where
  development : Bool := false
  embed : Bool := false

/-- crates/burn-onnx/src/model_gen.rs:286-293, 313-363 and graph.rs:48-67, 276-345: the steps for one input, and whether it ends
without a panic. -/
def convertOne (p : Parts M W) (o : Options) (input : Chars) : List (Step M W) × Bool :=
  match fileStem input with
  | none => ([], false)
  | some stem =>
    match p.parse input, outName stem "onnx.txt".toList, outName stem "bpk".toList, outName stem "rs".toList with
    | some m, some t, some b, some r =>
      let dbg : List (Step M W) := if o.development then [.start t, .finish t (.text m)] else []
      match p.weights m with
      | none => (dbg ++ [.start b], false)
      | some w =>
        let ws := dbg ++ [.start b, .finish b (.weights w)]
        if p.codegen m then
          (ws ++ [.start r, .finish r (.source m b (if o.embed then some (p.size w) else none))], true)
        else (ws, false)
    | _, _, _, _ => ([], false)

/-- crates/burn-onnx/src/model_gen.rs:277-297 `run`: one input after the other, up to the first panic. -/
def convertAll (p : Parts M W) (o : Options) : List Chars → List (Step M W) × Bool
  | [] => ([], true)
  | i :: is =>
    let a := convertOne p o i
    if a.2 then
      let b := convertAll p o is
      (a.1 ++ b.1, b.2)
    else (a.1, false)

end OnnxIR.Driver
