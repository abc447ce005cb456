import Verif.Model.Types

/-!
# The ONNX Loop operator, and a small imperative language for the code generated for it
-/

namespace OnnxIR.Onnx

variable {V : Type}

/-- A call of an operator inside a body: it reads `ins` and defines `outs`. `f` is any partial
function, so nested control flow is a call as well. -/
structure Call (V : Type) where
  outs : List String
  ins : List String
  f : List V → Option (List V)

/-- The values of several names. -/
def values (env : String → Option V) : List String → Option (List V)
  | [] => some []
  | x :: xs =>
    match env x, values env xs with
    | some v, some vs => some (v :: vs)
    | _, _ => none

/-- Define several names at once; the first of two equal names wins. -/
def define (env : String → Option V) : List String → List V → String → Option V
  | x :: xs, v :: vs => fun y => if y = x then some v else define env xs vs y
  | _, _ => env

/-- Evaluation of a list of calls. -/
def evalCalls (env : String → Option V) : List (Call V) → Option (String → Option V)
  | [] => some env
  | c :: cs =>
    match values env c.ins with
    | none => none
    | some vs =>
      match c.f vs with
      | none => none
      | some ws => if ws.length = c.outs.length then evalCalls (define env c.outs ws) cs else none

/-- The body of a Loop: formal inputs (iteration number, condition, carried values), calls, and the
names of the new condition, of the new carried values and of the scan values. -/
structure LoopBody (V : Type) where
  iter : String
  cond : String
  vars : List String
  calls : List (Call V)
  condOut : String
  varOuts : List String
  scanOuts : List String

/-- Values of a loop: tensors or anything else, iteration numbers and conditions. -/
structure LoopVals (V : Type) where
  ofInt : Int → V
  toInt : V → Option Int
  ofBool : Bool → V
  toBool : V → Option Bool
  int_spec : ∀ i, toInt (ofInt i) = some i
  bool_spec : ∀ b, toBool (ofBool b) = some b

/-- One iteration: the new condition, the new carried values and the scan values. `outer` gives the
values the body captures. -/
def bodyStep (lv : LoopVals V) (b : LoopBody V) (outer : String → Option V) (i : Int) (c : Bool)
    (vs : List V) : Option (Bool × List V × List V) :=
  match evalCalls (define outer (b.iter :: b.cond :: b.vars) (lv.ofInt i :: lv.ofBool c :: vs))
      b.calls with
  | none => none
  | some env =>
    match (env b.condOut).bind lv.toBool, values env b.varOuts, values env b.scanOuts with
    | some c', some vs', some sc => some (c', vs', sc)
    | _, _, _ => none

/-- The ONNX Loop with a body given as a function. `LoopRun step m i c vs vs' rows`: from iteration
`i` with condition `c` and carried values `vs` the loop ends with carried values `vs'`, and the
remaining iterations contributed the scan values `rows`, in order. `m` is the optional trip count. -/
inductive LoopRun (step : Int → Bool → List V → Option (Bool × List V × List V)) (m : Option Int) :
    Int → Bool → List V → List V → List (List V) → Prop
  | stop {i c vs} : (c = false ∨ ∃ k, m = some k ∧ k ≤ i) → LoopRun step m i c vs vs []
  | next {i c vs c' vs1 sc vs' rows} : c = true → (∀ k, m = some k → i < k) →
      step i c vs = some (c', vs1, sc) → LoopRun step m (i + 1) c' vs1 vs' rows →
      LoopRun step m i c vs vs' (sc :: rows)

/-- Column `k` of the scan values: what one scan output collects, in iteration order. -/
def column (rows : List (List V)) (k : Nat) : List V := rows.filterMap (·[k]?)

end OnnxIR.Onnx

namespace OnnxIR.Rust

variable {V : Type}

/-- Run-time values of the generated code: loop values and vectors of them. -/
inductive RVal (V : Type)
  | val (v : V)
  | vec (l : List V)

/-- The variables in scope, innermost declaration first. -/
abbrev Store (V : Type) := List (String × RVal V)

/-- Value of the visible variable. -/
def look (e : Store V) (x : String) : Option (RVal V) :=
  match e with
  | [] => none
  | (y, v) :: e => if y = x then some v else look e x

/-- Value of a variable that is not a vector. -/
def getVal (e : Store V) (x : String) : Option V :=
  match look e x with
  | some (.val v) => some v
  | _ => none

/-- Assignment to the visible variable. -/
def assign (x : String) (v : RVal V) : Store V → Store V
  | [] => []
  | (y, w) :: e => if y = x then (y, v) :: e else (y, w) :: assign x v e

/-- Statements: `let (outs) = f(ins)`, `let mut c = Vec::new()`, `x = f(y)`, `c.push(y)`. -/
inductive Stmt (V : Type)
  | bind (c : Onnx.Call V)
  | newVec (c : String)
  | set (x : String) (f : V → Option V) (y : String)
  | push (c y : String)

/-- Execution of straight-line code; `none` is a panic (or ill-formed code). -/
def run : List (Stmt V) → Store V → Option (Store V)
  | [], e => some e
  | .bind c :: r, e =>
    match Onnx.values (getVal e) c.ins with
    | none => none
    | some vs =>
      match c.f vs with
      | none => none
      | some ws =>
        if ws.length = c.outs.length then run r (c.outs.zip (ws.map RVal.val) ++ e) else none
  | .newVec c :: r, e => run r ((c, .vec []) :: e)
  | .set x f y :: r, e =>
    match (getVal e y).bind f with
    | none => none
    | some v => if (look e x).isSome then run r (assign x (.val v) e) else none
  | .push c y :: r, e =>
    match look e c, getVal e y with
    | some (.vec l), some v => run r (assign c (.vec (l ++ [v])) e)
    | _, _ => none

/-- `while g { body }`; declarations of the body end with each round. `WhileRun g body e e'`: the
loop started in `e` ends in `e'`. -/
inductive WhileRun (g : Store V → Option Bool) (body : List (Stmt V)) : Store V → Store V → Prop
  | stop {e} : g e = some false → WhileRun g body e e
  | next {e e1 e'} : g e = some true → run body e = some e1 →
      WhileRun g body (e1.drop (e1.length - e.length)) e' → WhileRun g body e e'

end OnnxIR.Rust
