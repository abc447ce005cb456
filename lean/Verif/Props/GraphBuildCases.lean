import Verif.Props.GraphBuild

/-!
# C36: concrete graphs

A graph that meets the hypotheses of `C36_import_preserves_meaning_partial`, and graphs that show
why each condition on names is there. Values are integers.
-/

namespace OnnxIR

/-- Integer operators: `Constant`, `Add`, `Sub`, `Neg`, a two-output `Split` (halves) and a `Clip`
whose first bound may be omitted. -/
def intOps : OpSem Int := fun ty attrs xs =>
  match ty, attrGet attrs "value", xs with
  | .constant, some (.tensor v), [] => some [v]
  | .constant, none, [some v] => some [v]
  | .constant, some (.tensor v), xs => intConst (xs ++ [some v])
  | .constant, _, _ => none
  | .add, _, [some a, some b] => some [a + b]
  | .sub, _, [some a, some b] => some [a - b]
  | .neg, _, [some a] => some [-a]
  | .other "Split", _, [some a] => some [a / 2, a - a / 2]
  | .other "Clip", _, [some a, none, some hi] => some [min a hi]
  | .other "Clip", _, [some a, some lo, some hi] => some [max lo (min a hi)]
  | _, _, _ => none
where
  intConst : List (Option Int) → Option (List Int)
  | [some v] => some [v]
  | _ => none

theorem attrGet_filter {V : Type} : ∀ (attrs : List (String × AttrVal V)) (k : String),
    attrGet (attrs.filter fun p => p.1 ≠ k) k = none
  | [], _ => rfl
  | (a, b) :: attrs, k => by
    by_cases h : a = k
    · rw [List.filter_cons_of_neg (by simp [h])]; exact attrGet_filter attrs k
    · rw [List.filter_cons_of_pos (by simp [h])]
      have := attrGet_filter attrs k
      unfold attrGet at this ⊢
      simp only [mapGet, if_neg h]; exact this

theorem intOps_constant : ConstantOps intOps where
  embedded := fun v => rfl
  moved := by
    intro attrs v xs h
    have hf := attrGet_filter attrs "value"
    simp only [intOps, h, hf]
    cases xs with
    | nil => rfl
    | cons a xs => cases xs <;> cases a <;> simp [intOps.intConst]

/-- Input `x:0`, initializer `W`; `h.1 = x:0 + W`; `Split h.1` with its first output not wanted;
`Clip` with its first bound omitted; a `Constant` node. -/
def goodGraph : GraphProto Int :=
  { inputs := ["x:0", "W"], inits := [("W", 10)], outputs := ["Y", "x:0"]
    nodes :=
      [{ ty := .add, inputs := ["x:0", "W"], outputs := ["h.1"], attrs := [] },
       { ty := .other "Split", inputs := ["h.1"], outputs := ["", "half"], attrs := [] },
       { ty := .constant, inputs := [], outputs := ["hi"], attrs := [("value", .tensor 7)] },
       { ty := .other "Clip", inputs := ["half", "", "hi"], outputs := ["Y"], attrs := [] }] }

set_option maxRecDepth 100000 in
theorem goodGraph_ok : NamesOk goodGraph where
  apart := by unfold goodGraph; decide +kernel
  inputsNamed := by decide +kernel
  initsNamed := by decide +kernel
  initsOnce := by decide +kernel
  noShadow := by unfold goodGraph; decide +kernel
  constNamed := by unfold goodGraph; decide +kernel
  outsHere := by unfold goodGraph; decide +kernel
  known := by rw [nodeTypes_eq]; unfold goodGraph; decide +kernel

/-- The importer's result for `goodGraph`, names only. -/
theorem goodGraph_import : (importGraph [] goodGraph).map (fun r =>
    (r.1.map fun n => (n.inNames, n.outNames), r.2.1.map Arg.name, r.2.2.map Arg.name)) =
    some ([([""], ["constant1_out1"]), (["x_0", "constant1_out1"], ["add1_out1"]),
      (["add1_out1"], ["split1_out1", "split1_out2"]), ([""], ["constant2_out1"]),
      (["split1_out2", "split1_out1", "constant2_out1"], ["clip1_out1"])],
      ["x_0"], ["clip1_out1", "x_0"]) := by decide +kernel

/-- The hypotheses are satisfiable: `goodGraph` on `x:0 = 20` returns 7 and 20, in the file and
after import. -/
example : ∃ nodes ins outs, importGraph [] goodGraph = some (nodes, ins, outs) ∧
    evalGraph (fun _ => intOps) (fun y => if y = "x_0" then some 20 else none) nodes outs =
      some [some 7, some 20] ∧
    SSA (fun y => if y = "x_0" then some (20 : Int) else none) nodes := by
  refine C36_import_preserves_meaning_partial intOps_constant goodGraph_ok (outer := []) rfl
    (e := fun y => if y = "x:0" then some 20 else none) ?_ ?_ ?_ (by decide +kernel)
  · unfold goodGraph; decide +kernel
  · intro x _ hx _ v hv
    exfalso
    split at hv
    · rename_i h; subst h; exact hx (by simp [goodGraph])
    · cases hv
  · intro nodes ins outs h n hn y hy
    have hm := goodGraph_import
    rw [h] at hm
    simp only [Option.map_some, Option.some.injEq, Prod.mk.injEq] at hm
    have hmem : (n.inNames, n.outNames) ∈ nodes.map fun n => (n.inNames, n.outNames) :=
      List.mem_map_of_mem hn
    rw [hm.1] at hmem
    have : y ≠ "x_0" := by
      simp only [List.mem_cons, Prod.mk.injEq, List.not_mem_nil, or_false] at hmem
      rcases hmem with ⟨_, h⟩ | ⟨_, h⟩ | ⟨_, h⟩ | ⟨_, h⟩ | ⟨_, h⟩ <;> rw [h] at hy <;>
        simp only [List.mem_cons, List.not_mem_nil, or_false] at hy
      all_goals first
        | (subst hy; decide)
        | (rcases hy with rfl | rfl <;> decide)
    simp [this]

/-- A branch that reads two enclosing values: `p.q`, which the map of enclosing arguments knows under its ONNX
name, and `k.1`, a constant it knows under the sanitised name. -/
def branchGraph : GraphProto Int :=
  { inputs := [], inits := [], outputs := ["y"]
    nodes := [{ ty := .sub, inputs := ["p.q", "k.1"], outputs := ["y"], attrs := [] }] }

theorem branchGraph_ok : NamesOk branchGraph where
  apart := by unfold branchGraph; decide +kernel
  inputsNamed := by decide +kernel
  initsNamed := by decide +kernel
  initsOnce := by decide +kernel
  noShadow := by unfold branchGraph; decide +kernel
  constNamed := by unfold branchGraph; decide +kernel
  outsHere := by unfold branchGraph; decide +kernel
  known := by rw [nodeTypes_eq]; unfold branchGraph; decide +kernel

/-- The enclosing arguments. -/
def branchOuter : List (String × Arg Int) :=
  [("p.q", ⟨"add1_out1", .default, .dynamic⟩), ("k_1", ⟨"constant1_out1", .default, .constant⟩)]

/-- What the branch gets: the variable named after the value, and the constant. -/
def branchEnv : Env Int := fun y => if y = "p_q" then some 20 else if y = "constant1_out1" then some 3 else none

/-- The hypotheses about the enclosing graph are satisfiable: 20 - 3. -/
example : ∃ nodes ins outs, importGraph branchOuter branchGraph = some (nodes, ins, outs) ∧
    evalGraph (fun _ => intOps) branchEnv nodes outs = some [some 17] ∧ SSA branchEnv nodes := by
  refine C36_import_preserves_meaning_partial intOps_constant branchGraph_ok (outer := branchOuter) rfl
    (e := fun y => if y = "p.q" then some 20 else if y = "k.1" then some 3 else none) ?_ ?_ ?_ (by decide +kernel)
  · unfold branchGraph; decide +kernel
  · intro x _ _ _ v hv
    split at hv
    · next h =>
      subst h
      cases hv
      exact ⟨_, .inr ⟨by decide +kernel, rfl⟩, by decide +kernel⟩
    · split at hv
      · next h =>
        subst h
        cases hv
        exact ⟨⟨"constant1_out1", .default, .constant⟩, .inl (by decide +kernel), by decide +kernel⟩
      · cases hv
  · intro nodes ins outs h n hn y hy
    have hm : (importGraph branchOuter branchGraph).map (fun r => r.1.flatMap Node.outNames) =
      some ["sub1_out1"] := by decide +kernel
    rw [h] at hm
    simp only [Option.map_some, Option.some.injEq] at hm
    have hmem : y ∈ nodes.flatMap Node.outNames := List.mem_flatMap.2 ⟨n, hn, hy⟩
    rw [hm] at hmem
    simp only [List.mem_singleton] at hmem
    subst hmem
    decide +kernel

/-- Run the imported graph. -/
def importedRun (outer : List (String × Arg Int)) (f0 : Env Int) (g : GraphProto Int) :
    Option (List (Option Int)) :=
  (importGraph outer g).bind fun r => evalGraph (fun _ => intOps) f0 r.1 r.2.2

/-- Two initializers whose names sanitise to the same name. -/
def clashGraph : GraphProto Int :=
  { inputs := [], inits := [("a.b", 1), ("a/b", 2)], outputs := ["y"]
    nodes := [{ ty := .sub, inputs := ["a.b", "a/b"], outputs := ["y"], attrs := [] }] }

/-- **C36 fails when names clash after sanitising**: `a.b` is read as `a/b`. The ONNX graph returns
-1, the imported graph 0. -/
theorem C36_sanitised_names_clash :
    onnxGraph intOps (fun _ => none) clashGraph = some [some (-1)] ∧
    importedRun [] (fun _ => none) clashGraph = some [some 0] := by
  constructor <;> decide +kernel

/-- A graph input called `add1_out1`. -/
def generatedNameGraph : GraphProto Int :=
  { inputs := ["add1_out1"], inits := [], outputs := ["z"]
    nodes := [{ ty := .add, inputs := ["add1_out1", "add1_out1"], outputs := ["y"], attrs := [] },
              { ty := .add, inputs := ["y", "add1_out1"], outputs := ["z"], attrs := [] }] }

/-- **C36 fails when an input has a generated name**: on input 5 the ONNX graph returns 15, the
imported graph 20. -/
theorem C36_generated_name_clash :
    onnxGraph intOps (fun x => if x = "add1_out1" then some 5 else none) generatedNameGraph =
      some [some 15] ∧
    importedRun [] (fun x => if x = "add1_out1" then some 5 else none) generatedNameGraph =
      some [some 20] := by
  constructor <;> decide +kernel

/-- A node that binds the name of a graph input again. -/
def shadowGraph : GraphProto Int :=
  { inputs := ["x"], inits := [], outputs := ["y"]
    nodes := [{ ty := .neg, inputs := ["x"], outputs := ["x"], attrs := [] },
              { ty := .neg, inputs := ["x"], outputs := ["y"], attrs := [] }] }

/-- **C36 fails when a node output takes the name of a graph input** (a graph ONNX forbids, but
which is not rejected): the input wins over the more recent node output. -/
theorem C36_input_shadows_output :
    onnxGraph intOps (fun x => if x = "x" then some 5 else none) shadowGraph = some [some 5] ∧
    importedRun [] (fun x => if x = "x" then some 5 else none) shadowGraph = some [some (-5)] := by
  constructor <;> decide +kernel

/-- A branch that returns an enclosing value as it is. -/
def passGraph : GraphProto Int :=
  { inputs := [], inits := [], outputs := ["v"], nodes := [] }

/-- **C36 fails when a subgraph returns an enclosing value directly**: the output is dropped. -/
theorem C36_outer_output_dropped :
    onnxGraph intOps (fun x => if x = "v" then some 5 else none) passGraph = some [some 5] ∧
    importedRun [("v", ⟨"v", .default, .dynamic⟩)] (fun x => if x = "v" then some 5 else none) passGraph =
      some [] := by
  constructor <;> decide +kernel

/-- A `Constant` node whose output is not wanted, and a node with an omitted input. -/
def omittedConstGraph : GraphProto Int :=
  { inputs := ["x"], inits := [("hi", 9)], outputs := ["y"]
    nodes := [{ ty := .constant, inputs := [], outputs := [""], attrs := [("value", .tensor 8)] },
              { ty := .other "Clip", inputs := ["x", "", "hi"], outputs := ["y"], attrs := [] }] }

/-- **C36 fails when a `Constant` node's output is omitted**: an omitted input then reads it. -/
theorem C36_omitted_constant :
    onnxGraph intOps (fun x => if x = "x" then some 5 else none) omittedConstGraph = some [some 5] ∧
    importedRun [] (fun x => if x = "x" then some 5 else none) omittedConstGraph = some [some 8] := by
  constructor <;> decide +kernel

end OnnxIR
