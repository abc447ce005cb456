import Verif.Spec.Scan
import Verif.Spec.Burn
import Verif.Model.LoopGen

/-!
# Code generated for Scan

crates/burn-onnx/src/burn/node/scan_node.rs. Values only, all of them tensors on the device; which copies are clones and which are moves is left
out. No value of the model is taken to be called `i` or `seq_len`, the two variables that the code adds.
-/

namespace OnnxIR.Gen

open Rust Onnx

variable {α : Type} [Inhabited α]

/-- scan_node.rs:52-75 and crates/onnx-ir/src/node/scan_node.rs:23-35: the parts of a Scan node. `inits` and `seqs` are the inputs of the node, first carried
values, then sequences; `captures` pairs the name the body uses for an outer value with the outer name. -/
structure ScanNode (α : Type) where
  inits : List String
  seqs : List String
  captures : List (String × String)
  body : ScanBody (Tensor α)
  attrs : ScanAttrs

/-- A signed number `as usize`. -/
def scanUsize (a : Int) : Nat := if a < 0 then (a + 2 ^ 64).toNat else a.toNat

/-- scan_node.rs:103-110: names of the collectors. -/
def scanCollector (k : Nat) : String := "scan_output_collector_" ++ toString k

/-- All collectors. -/
def scanCollectors (n : ScanNode α) : List String := (List.range n.body.scanOuts.length).map scanCollector

/-- scan_node.rs:83-116. -/
def scanInit (n : ScanNode α) : List (Stmt (Tensor α)) :=
  ((n.body.vars.zip n.inits).map fun p => letCopy p.1 p.2) ++ (scanCollectors n).map Stmt.newVec

/-- scan_node.rs:77-81: the length of the first sequence. -/
def seqLen (n : ScanNode α) (e : Store (Tensor α)) : Option Nat :=
  match n.seqs with
  | [] => none
  | x :: _ => (getVal e x).bind fun t => t.shape[scanUsize (n.attrs.inAxes.getD 0 0)]?

/-- `slice_dim(ax, k..k + 1).squeeze_dim::<r - 1>(ax)`; there are no tensors without dimensions. -/
def sliceElem (ax k : Nat) (t : Tensor α) : Option (Tensor α) :=
  if 2 ≤ t.shape.length then (Burn.narrow t ax k 1).bind fun u => Burn.squeezeDim u ax else none

/-- One value as the only argument and result of a call. -/
def call1 {V : Type} (f : V → Option V) : List V → Option (List V)
  | [v] => (f v).map fun w => [w]
  | _ => none

/-- scan_node.rs:132-166: the elements of the sequences at iteration `i` of `len`. -/
def sliceStmts (n : ScanNode α) (len i : Nat) : List (Stmt (Tensor α)) :=
  (n.body.elems.zip n.seqs).mapIdx fun j p =>
    .bind ⟨[p.1], [p.2], call1 (sliceElem (scanUsize (n.attrs.inAxes.getD j 0)) (if n.attrs.inDirs.getD j 0 = 1 then len - i - 1 else i))⟩

/-- scan_node.rs:193-206: one assignment after the other. -/
def scanUpdates (n : ScanNode α) : List (Stmt (Tensor α)) := (n.body.vars.zip n.body.varOuts).map fun p => .set p.1 some p.2

/-- scan_node.rs:208-214. -/
def scanPushes (n : ScanNode α) : List (Stmt (Tensor α)) := ((scanCollectors n).zip n.body.scanOuts).map fun p => .push p.1 p.2

/-- scan_node.rs:274-278 with 9-41: the body of the `for`. -/
def scanBody (n : ScanNode α) (len i : Nat) : List (Stmt (Tensor α)) :=
  sliceStmts n len i ++ (n.captures.map (fun p => letCopy p.1 p.2) ++ n.body.calls.map Stmt.bind) ++ scanUpdates n ++ scanPushes n

/-- `for i in from..from + k { … }`; declarations of the body end with each round. -/
def forRun {V : Type} (body : Nat → List (Stmt V)) : Nat → Nat → Store V → Option (Store V)
  | 0, _, e => some e
  | k + 1, i, e => (run (body i) e).bind fun e1 => forRun body k (i + 1) (e1.drop (e1.length - e.length))

/-- scan_node.rs:216-249: a collector as a tensor. -/
def scanFinal (n : ScanNode α) (e : Store (Tensor α)) (k : Nat) : Option (Tensor α) :=
  match look e (scanCollector k) with
  | some (.vec l) => Burn.stack (scanUsize (n.attrs.outAxes.getD k 0)) (if n.attrs.outDirs.getD k 0 = 1 then l.reverse else l)
  | _ => none

/-- scan_node.rs:265-300: the values of the outputs. -/
def genScan (n : ScanNode α) (e : Store (Tensor α)) : Option (List (Tensor α)) :=
  (run (scanInit n) e).bind fun e1 => (seqLen n e1).bind fun len => (forRun (scanBody n len) len 0 e1).bind fun e2 =>
    (values (getVal e2) n.body.vars).bind fun vs => ((List.range n.body.scanOuts.length).mapM (scanFinal n e2)).map (vs ++ ·)

end OnnxIR.Gen
