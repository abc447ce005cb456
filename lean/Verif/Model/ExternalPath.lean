/-!
# Paths of external data files

`crates/onnx-ir/src/external_data.rs` (checking and resolving the path),
`crates/onnx-ir/src/proto_conversion.rs:436-494` (which resolves it while importing) and
`crates/onnx-ir/src/tensor_store.rs:104-196` (which opens it when the tensor is read), on a Unix file
system. Strings are lists of characters. Windows paths are not modelled.
-/

namespace OnnxIR.Ext

abbrev Chars := List Char

/-- A string cut at every `/`. -/
def splitSlash : Chars → List Chars
  | [] => [[]]
  | c :: cs =>
    if c = '/' then [] :: splitSlash cs
    else match splitSlash cs with
      | [] => [[c]]
      | p :: ps => (c :: p) :: ps

/-- `Path::components` of the Rust standard library (trusted base): empty pieces and `.` are dropped.
Simplified: a leading `.`, which Rust reports as `CurDir`, is dropped too; nothing here looks at it. -/
def components (s : Chars) : List Chars := (splitSlash s).filter fun p => p ≠ [] ∧ p ≠ ['.']

/-- `Path::is_absolute` on Unix. -/
def isAbsolute (s : Chars) : Bool := s.head? == some '/'

/-- `Path::join` for a relative second path. -/
def join (base loc : Chars) : Chars :=
  if base = [] then loc
  else if base.getLast? = some '/' then base ++ loc
  else base ++ '/' :: loc

/-! ### The file system (trusted base) -/

/-- What a directory entry is. -/
inductive Entry
  | dir
  | file
  | link (target : Chars)

/-- A file system seen by a process: the entry at each absolute path without links, the current directory,
and a bound on the number of steps of a lookup (the system gives up on too many links). -/
structure Fs where
  entry : List Chars → Option Entry
  cwd : List Chars
  steps : Nat

/-- Path lookup from directory `cur`: `..` goes up, links are followed, everything named must exist and
everything but the last must be a directory. The result has no links. -/
def Fs.walk (fs : Fs) : Nat → List Chars → List Chars → Option (List Chars)
  | _, cur, [] => some cur
  | 0, _, _ :: _ => none
  | n + 1, cur, p :: ps =>
    if p = ['.', '.'] then fs.walk n cur.dropLast ps
    else match fs.entry (cur ++ [p]) with
      | none => none
      | some .dir => fs.walk n (cur ++ [p]) ps
      | some .file => if ps = [] then some (cur ++ [p]) else none
      | some (.link t) =>
        fs.walk n (if isAbsolute t then [] else cur) (components t ++ ps)

/-- `Path::canonicalize` (`realpath`): fails on the empty path. -/
def Fs.canonicalize (fs : Fs) (p : Chars) : Option (List Chars) :=
  if p = [] then none
  else fs.walk fs.steps (if isAbsolute p then [] else fs.cwd) (components p)

/-- `File::open` for reading: the file actually opened. -/
def Fs.openFile (fs : Fs) (p : Chars) : Option (List Chars) :=
  (fs.canonicalize p).filter fun q => match fs.entry q with
    | some .file => true
    | _ => false

/-! ### The code -/

/-- crates/onnx-ir/src/external_data.rs:121-167 `resolve_path`; `none` is an error. -/
def resolvePath (fs : Fs) (base loc : Chars) : Option Chars :=
  if Char.ofNat 0 ∈ loc then none
  else if isAbsolute loc then none
  else if ['.', '.'] ∈ components loc then none
  else
    let resolved := join base loc
    match fs.canonicalize base, fs.canonicalize resolved with
    | some b, some r => if b <+: r then some resolved else none
    | _, _ => some resolved

/-- crates/onnx-ir/src/proto_conversion.rs:457-468 and crates/onnx-ir/src/pipeline.rs:251: the model file's
directory is `Path::parent` of its path, and a model given as bytes has none. -/
def externalFile (fs : Fs) (base : Option Chars) (loc : Chars) : Option Chars :=
  base.bind fun b => resolvePath fs b loc

/-- crates/onnx-ir/src/tensor_store.rs:104-196: the file read for the tensor. The path was resolved when the
model was imported (`atImport`), the file is opened later (`atLoad`). -/
def loaded (atImport atLoad : Fs) (base : Option Chars) (loc : Chars) : Option (List Chars) :=
  (externalFile atImport base loc).bind atLoad.openFile

/-- `Path::parent` of a path (Rust standard library): everything before the last `/`, the empty path for a
bare file name. Simplified: paths without trailing or doubled slashes. -/
def parent (s : Chars) : Chars :=
  match (splitSlash s).dropLast with
  | [] => []
  | [[]] => ['/']
  | p :: ps => p ++ ps.flatMap fun q => '/' :: q

end OnnxIR.Ext
