import Verif.Spec.Loop

/-!
# Code generated for Loop

crates/burn-onnx/src/burn/node/loop_node.rs. Values only: which copies are clones and which are moves
is the subject of `Verif.Model.Ownership`.
-/

namespace OnnxIR.Gen

open Rust Onnx

variable {V : Type}

/-- crates/burn-onnx/src/burn/node/loop_node.rs:51-150: the parts of a Loop node. `trip` and `init`
are the optional trip count and initial condition, `inits` the initial carried values, `captures`
pairs the name the body uses for an outer value with the outer name. -/
structure LoopNode (V : Type) where
  trip : Option String
  init : Option String
  inits : List String
  captures : List (String × String)
  body : LoopBody V

/-- loop_node.rs:187-190: names of the scan collectors. -/
def collector (k : Nat) : String := "scan_collector_" ++ toString k

/-- All collectors. -/
def collectors (n : LoopNode V) : List String := (List.range n.body.scanOuts.length).map collector

/-- `let x = y` -/
def letCopy (x y : String) : Stmt V := .bind ⟨[x], [y], some⟩

/-- loop_node.rs:153-172 `init_stmts`. -/
def initStmts (n : LoopNode V) : List (Stmt V) := (n.body.vars.zip n.inits).map fun p => letCopy p.1 p.2

/-- loop_node.rs:341: `let mut iter = 0_i64`. -/
def iterInit (lv : LoopVals V) (n : LoopNode V) : Stmt V :=
  .bind ⟨[n.body.iter], [], fun _ => some [lv.ofInt 0]⟩

/-- A value as a native condition (`on_device_to_native`, or nothing for a native one). -/
def toNative (lv : LoopVals V) (v : V) : Option V := (lv.toBool v).map lv.ofBool

/-- A native condition as the only result of a call. -/
def nativeCall (lv : LoopVals V) : List V → Option (List V)
  | [v] => (toNative lv v).map fun w => [w]
  | _ => none

/-- loop_node.rs:99-115, 328-333 and 342: `let mut cond = init_cond`, `true` if not given. -/
def condInit (lv : LoopVals V) (n : LoopNode V) : Stmt V :=
  match n.init with
  | none => .bind ⟨[n.body.cond], [], fun _ => some [lv.ofBool true]⟩
  | some x => .bind ⟨[n.body.cond], [x], nativeCall lv⟩

/-- loop_node.rs:338-342: the statements before the loop. -/
def genInit (lv : LoopVals V) (n : LoopNode V) : List (Stmt V) :=
  initStmts n ++ (collectors n).map Stmt.newVec ++ [iterInit lv n, condInit lv n]

/-- loop_node.rs:75-96 `max_count`: `i64::MAX` if not given. -/
def maxCount (lv : LoopVals V) (n : LoopNode V) (e : Store V) : Option Int :=
  match n.trip with
  | none => some (2 ^ 63 - 1)
  | some x => (getVal e x).bind lv.toInt

/-- loop_node.rs:344: `cond && iter < max_count`. -/
def guard (lv : LoopVals V) (n : LoopNode V) (e : Store V) : Option Bool :=
  match (getVal e n.body.cond).bind lv.toBool, (getVal e n.body.iter).bind lv.toInt, maxCount lv n e with
  | some c, some i, some m => some (c && decide (i < m))
  | _, _, _ => none

/-- loop_node.rs:250-268 `collect_scans`. -/
def collectScans (n : LoopNode V) : List (Stmt V) :=
  ((collectors n).zip n.body.scanOuts).map fun p => .push p.1 p.2

/-- loop_node.rs:222-231 `update_vars`: one assignment after the other. -/
def updateVars (n : LoopNode V) : List (Stmt V) :=
  ((n.body.vars.zip n.body.varOuts).filter fun p => p.1 ≠ p.2).map fun p => .set p.1 some p.2

/-- loop_node.rs:234-245 `update_cond`. -/
def updateCond (lv : LoopVals V) (n : LoopNode V) : List (Stmt V) :=
  if n.body.cond ≠ n.body.condOut then [.set n.body.cond (toNative lv) n.body.condOut] else []

/-- `iter += 1` -/
def incrIter (lv : LoopVals V) (n : LoopNode V) : Stmt V :=
  .set n.body.iter (fun v => (lv.toInt v).map fun i => lv.ofInt (i + 1)) n.body.iter

/-- loop_node.rs:8-38 `generate_loop_body_code`: captured values, then the nodes of the body. -/
def bodyCode (n : LoopNode V) : List (Stmt V) :=
  n.captures.map (fun p => letCopy p.1 p.2) ++ n.body.calls.map Stmt.bind

/-- loop_node.rs:344-356: the body of the `while`. -/
def genBody (lv : LoopVals V) (n : LoopNode V) : List (Stmt V) :=
  bodyCode n ++ collectScans n ++ updateVars n ++ updateCond lv n ++ [incrIter lv n]

end OnnxIR.Gen
