import Verif.Props.LoopMain
import Verif.Spec.Tensor

/-!
# C26: a Loop inside the hypotheses, and three Loops the generated code gets wrong
-/

namespace OnnxIR

open Rust Onnx Gen

/-- Values of the examples. -/
inductive LVal
  | int (i : Int)
  | bool (b : Bool)
deriving DecidableEq, Repr

/-- An integer, if it is one. -/
def LVal.toInt : LVal → Option Int
  | .int i => some i
  | .bool _ => none

/-- A condition, if it is one. -/
def LVal.toBool : LVal → Option Bool
  | .bool b => some b
  | .int _ => none

def lvals : LoopVals LVal where
  ofInt := .int
  toInt := LVal.toInt
  ofBool := .bool
  toBool := LVal.toBool
  int_spec _ := rfl
  bool_spec _ := rfl

/-- `Add` on the example values. -/
def addCall : List LVal → Option (List LVal)
  | [.int a, .int b] => some [.int (a + b)]
  | _ => none

/-- Fibonacci: `(a, b) ↦ (b, a + b)`, with the sum as scan output. -/
def fibLoop : LoopNode LVal where
  trip := some "m"
  init := none
  inits := ["x", "y"]
  captures := []
  body := ⟨"i", "c", ["a", "b"], [⟨["s"], ["a", "b"], addCall⟩], "c", ["b", "s"], ["s"]⟩

/-- The Fibonacci loop is well formed and its updates do not overwrite each other. -/
theorem fibLoop_ok : WellFormedLoop fibLoop ∧ NoClobber fibLoop := by
  refine ⟨⟨rfl, rfl, by decide +kernel, by decide +kernel, by simp [fibLoop], by simp [fibLoop],
    by decide +kernel, by simp [fibLoop], ?_, by simp [fibLoop], by decide +kernel, ⟨?_, trivial⟩,
    by decide +kernel, by decide +kernel, by decide +kernel⟩, ⟨by simp [fibLoop], ?_⟩⟩
  · intro x hx
    simp only [fibLoop, Option.some.injEq] at hx
    subst hx
    decide +kernel
  · simp [fibLoop, entryNames]
  · simp [fibLoop]

/-- Three rounds: (1, 1), (1, 2), (2, 3), (3, 5). -/
example : LoopRun (bodyStep lvals fibLoop.body (define (fun _ => none) [] [])) (some 3) 0 true
    [.int 1, .int 1] [.int 3, .int 5] [[.int 2], [.int 3], [.int 5]] := by
  refine .next rfl (by simp) rfl (.next rfl (by simp) rfl (.next rfl (by simp) rfl (.stop (Or.inr ⟨3, rfl, ?_⟩))))
  decide

theorem whileRun_det {V : Type} {g : Store V → Option Bool} {body : List (Stmt V)} {e e1 e2 : Store V}
    (h1 : WhileRun g body e e1) (h2 : WhileRun g body e e2) : e1 = e2 := by
  induction h1 with
  | stop hg =>
    cases h2 with
    | stop _ => rfl
    | next hg' _ _ => rw [hg] at hg'; exact absurd hg' (by simp)
  | next hg hr _ ih =>
    cases h2 with
    | stop hg' => rw [hg] at hg'; exact absurd hg' (by simp)
    | next _ hr' hw =>
      rw [hr] at hr'
      simp only [Option.some.injEq] at hr'
      subst hr'
      exact ih hw

/-- The same loop with the carried values in the other order: `(b, a) ↦ (a + b, b)`. -/
def fibSwapped : LoopNode LVal where
  trip := some "m"
  init := none
  inits := ["y", "x"]
  captures := []
  body := ⟨"i", "c", ["b", "a"], [⟨["s"], ["a", "b"], addCall⟩], "c", ["s", "b"], []⟩

/-- The variables before the loop. -/
def fibStore (k : Int) : Store LVal := [("m", .val (.int k)), ("x", .val (.int 1)), ("y", .val (.int 2))]

/-- The variables after the statements before the loop. -/
def fibStart (k : Int) : Store LVal :=
  ("c", .val (.bool true)) :: ("i", .val (.int 0)) :: ("a", .val (.int 1)) :: ("b", .val (.int 2)) :: fibStore k

/-- The variables after one round. -/
def fibEnd : Store LVal :=
  ("c", .val (.bool true)) :: ("i", .val (.int 1)) :: ("a", .val (.int 3)) :: ("b", .val (.int 3)) :: fibStore 1

/-- **C26, what fails: simultaneous update.** `(b, a) ↦ (a + b, b)` from `(2, 1)`, one round: ONNX gives
`(3, 2)`. The generated code assigns `b` first and then copies the new `b` to `a`, and ends with `(3, 3)`. -/
theorem C26_swap_wrong :
    WellFormedLoop fibSwapped ∧ values (getVal (fibStore 1)) fibSwapped.inits = some [.int 2, .int 1] ∧
    TripCount lvals fibSwapped (fibStore 1) 1 ∧
    LoopRun (bodyStep lvals fibSwapped.body (define (fun _ => none) [] [])) (some 1) 0 true
      [.int 2, .int 1] [.int 3, .int 2] [[]] ∧
    run (genInit lvals fibSwapped) (fibStore 1) = some (fibStart 1) ∧
    WhileRun (Gen.guard lvals fibSwapped) (genBody lvals fibSwapped) (fibStart 1) fibEnd ∧
    ∀ e', WhileRun (Gen.guard lvals fibSwapped) (genBody lvals fibSwapped) (fibStart 1) e' →
      values (getVal e') fibSwapped.body.vars = some [.int 3, .int 3] := by
  have hw : WhileRun (Gen.guard lvals fibSwapped) (genBody lvals fibSwapped) (fibStart 1) fibEnd := by
    refine .next (e1 := ("s", .val (.int 3)) :: fibEnd) rfl ?_ (.stop rfl)
    rfl
  refine ⟨⟨rfl, rfl, by decide +kernel, by decide +kernel, by simp [fibSwapped], by simp [fibSwapped],
    by decide +kernel, by simp [fibSwapped], ?_, by simp [fibSwapped], by decide +kernel, ⟨?_, trivial⟩,
    by decide +kernel, by decide +kernel, by decide +kernel⟩, rfl, rfl, ?_, rfl, hw, ?_⟩
  · intro x hx
    simp only [fibSwapped, Option.some.injEq] at hx
    subst hx
    decide +kernel
  · simp [fibSwapped, entryNames]
  · exact .next rfl (by simp) rfl (.stop (Or.inr ⟨1, rfl, by decide⟩))
  · intro e' he
    rw [← whileRun_det hw he]; rfl

/-- A loop whose condition is one of its carried values: `f ↦ g`, go on while `f`; `g` is false. -/
def flagLoop : LoopNode LVal where
  trip := some "m"
  init := none
  inits := ["x"]
  captures := []
  body := ⟨"i", "c", ["f"], [⟨["g"], [], fun _ => some [.bool false]⟩], "f", ["g"], []⟩

def flagStore : Store LVal := [("m", .val (.int 5)), ("x", .val (.bool true))]

def flagStart : Store LVal :=
  ("c", .val (.bool true)) :: ("i", .val (.int 0)) :: ("f", .val (.bool true)) :: flagStore

def flagEnd : Store LVal :=
  ("c", .val (.bool false)) :: ("i", .val (.int 1)) :: ("f", .val (.bool false)) :: flagStore

/-- **C26, what fails: the condition.** The body returns the carried value `f` as the condition. ONNX runs
two rounds (the first one sees the old `f`, which is true). The generated code assigns `f` before it reads
it for the condition, and stops after one round. -/
theorem C26_condition_wrong :
    WellFormedLoop flagLoop ∧
    (∃ vs' rows, rows.length = 2 ∧
      LoopRun (bodyStep lvals flagLoop.body (define (fun _ => none) [] [])) (some 5) 0 true
        [.bool true] vs' rows) ∧
    run (genInit lvals flagLoop) flagStore = some flagStart ∧
    (∀ e', WhileRun (Gen.guard lvals flagLoop) (genBody lvals flagLoop) flagStart e' →
      getVal e' "i" = some (.int 1)) ∧
    WhileRun (Gen.guard lvals flagLoop) (genBody lvals flagLoop) flagStart flagEnd := by
  have hw : WhileRun (Gen.guard lvals flagLoop) (genBody lvals flagLoop) flagStart flagEnd := by
    refine .next (e1 := ("g", .val (.bool false)) :: flagEnd) rfl ?_ (.stop rfl)
    rfl
  refine ⟨⟨rfl, rfl, by decide +kernel, by decide +kernel, by simp [flagLoop], by simp [flagLoop],
    by decide +kernel, by simp [flagLoop], ?_, by simp [flagLoop], by decide +kernel, ⟨?_, trivial⟩,
    by decide +kernel, by decide +kernel, by decide +kernel⟩,
    ⟨[.bool false], [[], []], rfl, ?_⟩, rfl, ?_, hw⟩
  · intro x hx
    simp only [flagLoop, Option.some.injEq] at hx
    subst hx
    decide +kernel
  · simp [flagLoop]
  · exact .next rfl (by simp) rfl (.next rfl (by simp) rfl (.stop (Or.inl rfl)))
  · intro e' he
    rw [← whileRun_det hw he]; rfl

end OnnxIR
