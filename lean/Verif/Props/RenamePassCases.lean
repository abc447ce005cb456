import Verif.Spec.RealOps

/-!
# C03, C04, C05: witnesses and counterexamples

Concrete graphs that meet the hypotheses of the theorems in `RenamePasses.lean`, and graphs on
which the code violates the unguarded properties.
-/

namespace OnnxIR

/-- A dynamic argument. -/
def dyn {V} (x : String) : Arg V := ⟨x, .default, .dynamic⟩

/-! ## C04 -/

/-- x → Relu → Relu → Abs. -/
def idemNodes {V} : List (Node V) :=
  [ ⟨.relu, "relu1", [dyn "x"], [dyn "a"], []⟩,
    ⟨.relu, "relu2", [dyn "a"], [dyn "b"], []⟩,
    ⟨.abs, "abs1", [dyn "b"], [dyn "c"], []⟩ ]

theorem idemNodes_wf {V} : WfNames (V := V) idemNodes := by
  refine ⟨?_, ?_, ?_⟩
  · intro n hn a ha
    simp only [idemNodes, List.mem_cons, List.not_mem_nil, or_false] at hn
    rcases hn with rfl | rfl | rfl <;>
      (simp only [List.mem_cons, List.not_mem_nil, or_false] at ha; subst ha; simp [WfArg, dyn])
  · intro n hn a ha v hv
    simp only [idemNodes, List.mem_cons, List.not_mem_nil, or_false] at hn
    rcases hn with rfl | rfl | rfl <;>
      (simp only [List.mem_cons, List.not_mem_nil, or_false] at ha; subst ha; cases hv)
  · intro n hn
    simp only [idemNodes, List.mem_cons, List.not_mem_nil, or_false] at hn
    rcases hn with rfl | rfl | rfl <;> simp [Node.outNames, dyn]

/-- The hypotheses of `C04_idempotent_preserves_outputs` hold of a graph the pass changes, over
the real-tensor semantics, for every input tensor. -/
example (t : Tensor ℝ) :
    let env : Env (Tensor ℝ) := fun s => if s = "x" then some t else none
    IdempotentLaw realSem ∧ SSA env idemNodes ∧ WfNames (V := Tensor ℝ) idemNodes ∧
      (eliminateIdempotentOps (V := Tensor ℝ) idemNodes).map Node.inNames = [["x"], ["a"], ["a"]] ∧
      (evalGraph realSem env idemNodes [dyn "c"]).isSome := by
  refine ⟨realSem_idempotentLaw, ⟨by simp [idemNodes, Node.outNames, dyn], ?_⟩, idemNodes_wf,
    ?_, ?_⟩
  · intro n hn x hx
    simp only [idemNodes, List.mem_cons, List.not_mem_nil, or_false] at hn
    rcases hn with rfl | rfl | rfl <;>
      (simp [Node.outNames, dyn] at hx; subst hx; simp)
  · simp [eliminateIdempotentOps, idempotentRename, idempotentBinding, producerTypes, idemNodes,
      renameInputs, renameNode, renameArg, mapGet, Node.inNames, dyn, idempotentOps]
  · simp [evalGraph, evalNodes, evalNode, evalArgs, evalArg, idemNodes, dyn, realSem, realUnary,
      bindAll, Node.outNames]

/-! ## C05 -/

/-- Element-wise integer tensors, enough to run the examples below. -/
def intSem : Sem (Tensor Int) := fun _ t _ xs =>
  match t, xs with
  | .constant, [some x] => some [x]
  | .add, [some x, some y] => (x.zipBcast (· + ·) y).map fun z => [z]
  | .abs, [some x] => some [x.map fun a => if a < 0 then -a else a]
  | _, _ => none

/-- Three zeros. -/
def zeros3 : Tensor Int := ⟨[3], [0, 0, 0], rfl⟩

/-- A tensor with one element. -/
def one7 : Tensor Int := ⟨[1], [7], rfl⟩

/-- `abs (x + c)` with a constant `c`. -/
def addZeroNodes (c : Tensor Int) : List (Node (Tensor Int)) :=
  [ ⟨.constant, "constant1", [⟨"", .default, .static c⟩], [⟨"k", .default, .constant⟩], []⟩,
    ⟨.add, "add1", [dyn "x", ⟨"k", .default, .constant⟩], [dyn "y"], []⟩,
    ⟨.abs, "abs1", [dyn "y"], [dyn "z"], []⟩ ]

/-- The constant table of `addZeroNodes`. -/
def addZeroTable (c : Tensor Int) : String → Option (Tensor Int) := fun s =>
  if s = "k" then some c else none

def xEnv (t : Tensor Int) : Env (Tensor Int) := fun s => if s = "x" then some t else none

/-- **C05 fails without the guard**: adding three zeros to a one-element tensor gives three
elements; after the pass the graph returns one. -/
theorem C05_identity_element_wrong_shape :
    evalGraph intSem (xEnv one7) (addZeroNodes zeros3) [dyn "z"]
      = some [some ⟨[3], [7, 7, 7], rfl⟩] ∧
    evalGraph intSem (xEnv one7)
      (eliminateIdentityElements (addZeroTable zeros3) (fun t => some t.data) 0 1
        (addZeroNodes zeros3)) [dyn "z"] = some [some one7] := by
  decide +kernel

/-- The pass does rewrite a graph on which the guard holds, with the same result. -/
example :
    let t : Tensor Int := ⟨[2, 3], [1, -2, 3, -4, 5, -6], rfl⟩
    (eliminateIdentityElements (addZeroTable zeros3) (fun t => some t.data) 0 1
      (addZeroNodes zeros3)).map Node.inNames = [[""], ["x", "k"], ["x"]] ∧
    bcast t.shape zeros3.shape = some t.shape ∧
    evalGraph intSem (xEnv t)
      (eliminateIdentityElements (addZeroTable zeros3) (fun t => some t.data) 0 1
        (addZeroNodes zeros3)) [dyn "z"] = evalGraph intSem (xEnv t) (addZeroNodes zeros3)
          [dyn "z"] := by
  decide +kernel

/-! ## C03 -/

/-- Two draws from the same generator, subtracted. -/
def randomNodes : List (Node Int) :=
  [ ⟨.other "RandomNormal", "randomnormal1", [], [dyn "a"], [("shape", .i64s [1])]⟩,
    ⟨.other "RandomNormal", "randomnormal2", [], [dyn "b"], [("shape", .i64s [1])]⟩,
    ⟨.sub, "sub1", [dyn "a", dyn "b"], [dyn "c"], []⟩ ]

/-- A semantics in which different random nodes draw different values. -/
def randomSem : Sem Int := fun nm t _ xs =>
  match t, xs with
  | .other "RandomNormal", [] => some [if nm = "randomnormal1" then 3 else 8]
  | .sub, [some x, some y] => some [x - y]
  | _, _ => none

/-- **C03 fails without the determinism guard**: the pass makes both operands of the subtraction
the same draw. -/
theorem C03_cse_wrong_on_random :
    evalGraph randomSem (fun _ => none) randomNodes [dyn "c"] = some [some (-5)] ∧
    evalGraph randomSem (fun _ => none) (eliminateRedundantNodes randomNodes) [dyn "c"]
      = some [some 0] := by
  decide +kernel

/-- x → Abs → a, x → Abs → b, a - b, with a deterministic semantics: the pass merges `b` into
`a`. -/
def cseNodes : List (Node Int) :=
  [ ⟨.abs, "abs1", [dyn "x"], [dyn "a"], []⟩,
    ⟨.abs, "abs2", [dyn "x"], [dyn "b"], []⟩,
    ⟨.sub, "sub1", [dyn "a", dyn "b"], [dyn "c"], []⟩ ]

def cseSem : Sem Int := fun _ t _ xs =>
  match t, xs with
  | .abs, [some x] => some [if x < 0 then -x else x]
  | .sub, [some x, some y] => some [x - y]
  | _, _ => none

/-- The hypotheses of `C03_cse_preserves_outputs_partial` hold of a graph the pass changes. -/
example :
    let env : Env Int := fun s => if s = "x" then some (-4) else none
    SSA env cseNodes ∧ WfNames cseNodes ∧ (cseNodes.map Node.name).Nodup ∧
      (∀ n ∈ cseNodes, DeterministicOn cseSem n) ∧
      (eliminateRedundantNodes cseNodes).map Node.inNames = [["x"], ["x"], ["a", "a"]] ∧
      evalGraph cseSem env cseNodes [dyn "c"] = some [some 0] := by
  refine ⟨⟨by decide, ?_⟩, ⟨?_, ?_, ?_⟩, by decide, fun _ _ _ _ => rfl, by decide +kernel,
    by decide +kernel⟩
  · intro n hn x hx
    simp only [cseNodes, List.mem_cons, List.not_mem_nil, or_false] at hn
    rcases hn with rfl | rfl | rfl <;>
      (simp [Node.outNames, dyn] at hx; subst hx; simp)
  · intro n hn a ha
    simp only [cseNodes, List.mem_cons, List.not_mem_nil, or_false] at hn
    rcases hn with rfl | rfl | rfl <;>
      (simp only [List.mem_cons, List.not_mem_nil, or_false] at ha
       rcases ha with rfl | rfl <;> simp [WfArg, dyn])
  · intro n hn a ha v hv
    simp only [cseNodes, List.mem_cons, List.not_mem_nil, or_false] at hn
    rcases hn with rfl | rfl | rfl <;>
      (simp only [List.mem_cons, List.not_mem_nil, or_false] at ha
       rcases ha with rfl | rfl <;> cases hv)
  · intro n hn
    simp only [cseNodes, List.mem_cons, List.not_mem_nil, or_false] at hn
    rcases hn with rfl | rfl | rfl <;> simp [Node.outNames, dyn]

end OnnxIR
