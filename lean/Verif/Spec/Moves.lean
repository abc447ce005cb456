/-!
# The move rule of Rust, for straight-line code, conditionals and loops

A small checker for the part of the borrow checker generated code can violate: a variable may be read
(borrowed or cloned) or moved only while it owns its value. Independent of the generator.
-/

namespace OnnxIR.Rust

/-- Statements, as far as ownership is concerned. Every statement carries the code that follows it. -/
inductive Code
  | done
  /-- reads `x` (`x.clone()`, `x.shape()`, …) -/
  | clone (x : String) (rest : Code)
  /-- takes `x` by value -/
  | move (x : String) (rest : Code)
  /-- `let x = …` -/
  | bind (x : String) (rest : Code)
  /-- `x = …` for an `x` already declared -/
  | set (x : String) (rest : Code)
  /-- `if … { a } else { b }` -/
  | ite (a b : Code) (rest : Code)
  /-- `while … { a }` -/
  | loop (a : Code) (rest : Code)
  /-- `{ a }` -/
  | block (a : Code) (rest : Code)
deriving DecidableEq, Repr

/-- Sequential composition. -/
def Code.append : Code → Code → Code
  | .done, c => c
  | .clone x r, c => .clone x (r.append c)
  | .move x r, c => .move x (r.append c)
  | .bind x r, c => .bind x (r.append c)
  | .set x r, c => .set x (r.append c)
  | .ite a b r, c => .ite a b (r.append c)
  | .loop a r, c => .loop a (r.append c)
  | .block a r, c => .block a (r.append c)

instance : Append Code := ⟨Code.append⟩

/-- The declared variables, innermost first, and whether each still owns its value. -/
abbrev Env := List (String × Bool)

/-- Does the visible `x` own its value? -/
def live (x : String) : Env → Bool
  | [] => false
  | (y, b) :: e => if y = x then b else live x e

/-- Mark the visible `x`. -/
def mark (x : String) (v : Bool) : Env → Env
  | [] => []
  | (y, b) :: e => if y = x then (y, v) :: e else (y, b) :: mark x v e

/-- The environment after a block that started with `n` variables: inner declarations end. -/
def leave (n : Nat) (e : Env) : Env := e.drop (e.length - n)

/-- Owned after both branches. -/
def join (a b : Env) : Env := a.zipWith (fun p q => (p.1, p.2 && q.2)) b

/-- The checker; `none` is error E0382, use of a moved value (or of an undeclared one). The body of
a loop must also be accepted in the state its first round leaves. -/
def check : Code → Env → Option Env
  | .done, e => some e
  | .clone x r, e => if live x e then check r e else none
  | .move x r, e => if live x e then check r (mark x false e) else none
  | .bind x r, e => check r ((x, true) :: e)
  | .set x r, e => check r (mark x true e)
  | .ite a b r, e =>
    match check a e, check b e with
    | some ea, some eb => check r (join (leave e.length ea) (leave e.length eb))
    | _, _ => none
  | .loop a r, e =>
    match check a e with
    | some ea =>
      if (check a (leave e.length ea)).isSome then check r (leave e.length ea) else none
    | none => none
  | .block a r, e =>
    match check a e with
    | some ea => check r (leave e.length ea)
    | none => none

/-- The borrow checker accepts the code. -/
def Accepts (c : Code) : Prop := (check c []).isSome

/-- How often `x` is cloned (or read) in straight-line code. -/
def clones (x : String) : Code → Nat
  | .clone y r => (if y = x then 1 else 0) + clones x r
  | .move _ r | .bind _ r | .set _ r | .ite _ _ r | .loop _ r | .block _ r => clones x r
  | .done => 0

/-- How often `x` is moved in straight-line code. -/
def moves (x : String) : Code → Nat
  | .move y r => (if y = x then 1 else 0) + moves x r
  | .clone _ r | .bind _ r | .set _ r | .ite _ _ r | .loop _ r | .block _ r => moves x r
  | .done => 0

/-- `let a; let b = f(a.clone()); g(a, b)` is accepted; swapping clone and move is not. -/
example : Accepts (.bind "a" (.clone "a" (.bind "b" (.move "a" (.move "b" .done))))) ∧
    ¬ Accepts (.bind "a" (.move "a" (.bind "b" (.clone "a" (.move "b" .done))))) := by
  unfold Accepts; decide +kernel

/-- A move inside a loop is an error unless the variable is assigned again. -/
example : ¬ Accepts (.bind "a" (.loop (.move "a" .done) .done)) ∧
    Accepts (.bind "a" (.loop (.move "a" (.bind "b" (.set "a" .done))) (.move "a" .done))) := by
  unfold Accepts; decide +kernel

end OnnxIR.Rust
