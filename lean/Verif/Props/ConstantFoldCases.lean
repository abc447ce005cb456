import Verif.Props.NumSem
import Verif.Lemmas.Check

/-!
# C08: a graph that meets the hypotheses, and the counterexamples
-/

namespace OnnxIR

/-- An embedded constant. -/
def nconst (ty : ArgType) (v : NVal) : Arg NVal := ⟨"", ty, .static v⟩

/-- An `i64` tensor. -/
def i64T (s : List Nat) (l : List Int) : NVal := nview.mkI64 s l

/-- A named argument. -/
def narg (name : String) (ty : ArgType) : Arg NVal := ⟨name, ty, .dynamic⟩

/-- An `i64` tensor type with known shape. -/
def i64Ty (s : List Nat) : ArgType := .tensor ⟨.i64, s.length, some (s.map some)⟩

/-- No inputs. -/
def nEnv : Env NVal := fun _ => none

/-- No constant is known by name. -/
def nTable : String → Option NVal := fun _ => none

/-- The hypotheses about annotations that do not concern `Cast`, as a check. -/
def foldKnownB (nodes : List (Node NVal)) : Bool :=
  nodes.all fun n => n.ty != .cast && n.outputs.all fun o =>
    match o.ty with
    | .tensor _ => (o.ty.staticShapeKnown).isSome
    | _ => true

theorem foldable_of_check {env : Env NVal} {nodes : List (Node NVal)} (h : foldKnownB nodes = true) :
    FoldableConsts intFloatSpec numSem env nodes := by
  have hnc : ∀ n ∈ nodes, n.ty ≠ .cast := by
    intro n hn hc
    have := List.all_eq_true.1 h n hn
    simp [hc] at this
  constructor
  · intro n hn _ _ o ho t ht
    have := List.all_eq_true.1 h n hn
    simp only [Bool.and_eq_true, List.all_eq_true] at this
    have := this.2 o ho
    rw [ht] at this
    rw [ht]
    exact Option.isSome_iff_exists.1 this
  · intro p n q e1 e2 hn hc
    exact absurd hc (hnc n (by rw [hn]; simp))
  · intro p n q e1 e2 hn hc
    exact absurd hc (hnc n (by rw [hn]; simp))

/-- `[2, 3] * 4 - [1, 1]`, then a row of a matrix: `Concat` with `[0]` and `Reshape` to `3x1`. The
constants of the later nodes are embedded too. -/
def foldNodes : List (Node NVal) :=
  [ ⟨.mul, "mul1", [nconst (i64Ty [2]) (i64T [2] [2, 3]), nconst (.scalarTensor .i64) (i64T [] [4])],
      [narg "m" (i64Ty [2])], []⟩,
    ⟨.sub, "sub1", [narg "m" (i64Ty [2]), nconst (i64Ty [2]) (i64T [2] [1, 1])],
      [narg "s" (i64Ty [2])], []⟩,
    ⟨.concat, "concat1", [nconst (i64Ty [2]) (i64T [2] [7, 8]), nconst (i64Ty [1]) (i64T [1] [9])],
      [narg "c" (.shape 3)], [("axis", .i64 0)]⟩,
    ⟨.reshape, "reshape1", [nconst (i64Ty [3]) (i64T [3] [7, 8, 9]), nconst (.shape 2) (i64T [2] [3, 1])],
      [narg "r" (i64Ty [3, 1])], []⟩,
    ⟨.neg, "neg1", [nconst (i64Ty [1]) (i64T [1] [5])], [narg "n" (i64Ty [1])], []⟩ ]

/-- The graph outputs. -/
def foldOuts : List (Arg NVal) :=
  [narg "s" (i64Ty [2]), narg "c" (.shape 3), narg "r" (i64Ty [3, 1]), narg "n" (i64Ty [1])]

/-- All hypotheses of `C08_constant_folding_preserves_outputs_partial` hold of this graph, four of
its five nodes are folded (the second one will be in the next round), and the results are
`[7, 11]`, `[7, 8, 9]`, the column `7, 8, 9` and `-5`. -/
example : FloatAgree intFloatOps intFloatSpec ∧ FoldSem intFloatSpec numSem ∧ SSA nEnv foldNodes ∧
    TableOk numSem nEnv foldNodes nTable ∧ TypedRun numSem nview nEnv foldNodes ∧
    FoldableConsts intFloatSpec numSem nEnv foldNodes ∧
    (∃ ns os c, foldConstants intFloatOps nTable foldNodes foldOuts = some (ns, os, c) ∧
      ns.map Node.ty = [.constant, .sub, .constant, .constant, .constant]) ∧
    evalGraph numSem nEnv foldNodes foldOuts =
      some [some (i64T [2] [7, 11]), some (i64T [3] [7, 8, 9]), some (i64T [3, 1] [7, 8, 9]),
        some (i64T [1] [-5])] := by
  refine ⟨intFloatAgree, numSem_foldSem, ssa_of_check (by decide +kernel), ?_,
    typedRun_of_check (by decide +kernel), foldable_of_check (by decide +kernel), ?_,
    by decide +kernel⟩
  · intro p q e _ _ x v w h _; cases h
  · refine ⟨_, _, _, rfl, by decide +kernel⟩

/-- A graph with a single node. -/
def oneNode (ty : NodeType) (ins : List (Arg NVal)) (out : ArgType) : List (Node NVal) :=
  [⟨ty, "n1", ins, [narg "y" out], []⟩]

/-- Run a graph, and import it and run the folded graph. -/
def foldedRun (nodes : List (Node NVal)) (outs : List (Arg NVal)) : Option (List (Option NVal)) :=
  (foldConstants intFloatOps nTable nodes outs).bind fun r => evalGraph numSem nEnv r.1 r.2.1

/-! ## Where the code is wrong

Each graph is well typed and has a result. -/

/-- **An output annotation without static shape makes the importer panic** when the folded value
has more than one element. -/
theorem C08_unknown_shape_panics :
    let nodes := oneNode .add [nconst (i64Ty [2]) (i64T [2] [1, 2]), nconst (i64Ty [2]) (i64T [2] [3, 4])]
      (.tensor ⟨.i64, 1, none⟩)
    let outs := [narg "y" (.tensor ⟨.i64, 1, none⟩)]
    TypedRun numSem nview nEnv nodes ∧
    evalGraph numSem nEnv nodes outs = some [some (i64T [2] [4, 6])] ∧
    (foldConstants intFloatOps nTable nodes outs).isNone = true :=
  ⟨typedRun_of_check (by decide +kernel), by decide +kernel, by decide +kernel⟩

/-- **With one element it becomes a tensor of rank 0** although the annotation says rank 1. -/
theorem C08_unknown_shape_changes_rank :
    let nodes := oneNode .add [nconst (i64Ty [1]) (i64T [1] [1]), nconst (i64Ty [1]) (i64T [1] [3])]
      (.tensor ⟨.i64, 1, none⟩)
    let outs := [narg "y" (.tensor ⟨.i64, 1, none⟩)]
    TypedRun numSem nview nEnv nodes ∧
    evalGraph numSem nEnv nodes outs = some [some (i64T [1] [4])] ∧
    foldedRun nodes outs = some [some (i64T [] [4])] :=
  ⟨typedRun_of_check (by decide +kernel), by decide +kernel, by decide +kernel⟩

/-- **Operands of equal size that broadcast against each other make the importer panic**: a column
plus a row. -/
theorem C08_broadcast_panics :
    let nodes := oneNode .add [nconst (i64Ty [2, 1]) (i64T [2, 1] [1, 2]),
      nconst (i64Ty [1, 2]) (i64T [1, 2] [10, 20])] (i64Ty [2, 2])
    let outs := [narg "y" (i64Ty [2, 2])]
    TypedRun numSem nview nEnv nodes ∧
    evalGraph numSem nEnv nodes outs = some [some (i64T [2, 2] [11, 21, 12, 22])] ∧
    (foldConstants intFloatOps nTable nodes outs).isNone = true :=
  ⟨typedRun_of_check (by decide +kernel), by decide +kernel, by decide +kernel⟩

/-- **The smallest `i64` divided by -1 makes the importer panic.** -/
theorem C08_division_overflow_panics :
    let nodes := oneNode .div [nconst (i64Ty [1]) (i64T [1] [-(2 ^ 63)]),
      nconst (i64Ty [1]) (i64T [1] [-1])] (i64Ty [1])
    let outs := [narg "y" (i64Ty [1])]
    TypedRun numSem nview nEnv nodes ∧
    (evalGraph numSem nEnv nodes outs).isSome = true ∧
    (foldConstants intFloatOps nTable nodes outs).isNone = true :=
  ⟨typedRun_of_check (by decide +kernel), by decide +kernel, by decide +kernel⟩

end OnnxIR
