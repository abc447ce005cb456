import Verif.Props.PostProcess
import Verif.Props.RenamePassCases

/-! # C11, C12: witnesses and counterexamples -/

namespace OnnxIR

/-- x → Identity → Identity → Abs, and the middle value is also returned. -/
def chainNodes : List (Node Int) :=
  [ ⟨.identity, "identity1", [dyn "x"], [dyn "identity1_out1"], []⟩,
    ⟨.identity, "identity2", [dyn "identity1_out1"], [dyn "identity2_out1"], []⟩,
    ⟨.abs, "abs1", [dyn "identity2_out1"], [dyn "abs1_out1"], []⟩ ]

/-- Original ONNX names of the outputs. -/
def chainOmap : List (String × Nat × Nat) := [("a", 0, 0), ("b", 1, 0), ("c", 2, 0)]

def chainOuts : List (Arg Int) := [dyn "abs1_out1", dyn "identity2_out1"]

def isIdentity (n : Node Int) : Bool := n.ty == .identity

def chainSem : Sem Int := fun _ t _ xs =>
  match t, xs with
  | .identity, [some x] => some [x]
  | .abs, [some x] => some [if x < 0 then -x else x]
  | _, _ => none

def chainEnv : Env Int := fun s => if s = "x" then some (-4) else none

def chainOrder : List (String × String) :=
  [("identity2_out1", "identity1_out1"), ("a", "x"), ("b", "identity1_out1"),
    ("identity1_out1", "x")]

/-- Every hypothesis of `C11_noop_elimination_preserves_outputs` holds here, with an iteration
order that resolves the end of the chain before its start; two nodes disappear and the graph
output is rewired to the graph input. -/
example : SSA chainEnv chainNodes ∧ WfNames chainNodes ∧
    (∀ n ∈ chainNodes, ∀ a ∈ n.inputs, ∀ v, a.src = .static v → a.name = "") ∧
    (∀ a ∈ chainOuts, WfArg a ∧ ∀ v, a.src = .static v → a.name = "") ∧
    (∀ n ∈ chainNodes, ∀ o ∈ n.outputs, o.src = .dynamic ∨ o.src = .constant) ∧
    (∀ n ∈ chainNodes, isIdentity n = true → ReturnsFirstInput chainSem n ∧
      ∀ i is, n.inputs = i :: is → i.src = .dynamic ∨ i.src = .constant) ∧
    OriginalNamesUnused isIdentity chainOmap chainEnv chainNodes ∧
    (∀ k v, (k, v) ∈ chainOrder ↔
      mapGet (planNoop isIdentity chainOmap chainNodes).rewire k = some v) ∧
    evalGraph chainSem chainEnv chainNodes chainOuts = some [some 4, some (-4)] ∧
    (applyNoop (planNoop isIdentity chainOmap chainNodes) chainOrder chainNodes chainOuts).1.map
      Node.inNames = [["x"]] ∧
    (applyNoop (planNoop isIdentity chainOmap chainNodes) chainOrder chainNodes chainOuts).2.map
      Arg.name = ["abs1_out1", "x"] := by
  have hplan : (planNoop isIdentity chainOmap chainNodes).rewire =
      [("b", "identity1_out1"), ("identity2_out1", "identity1_out1"), ("a", "x"),
        ("identity1_out1", "x")] := by decide +kernel
  refine ⟨⟨by decide, ?_⟩, ⟨?_, ?_, ?_⟩, ?_, ?_, ?_, ?_, ?_, ?_, by decide +kernel, by decide +kernel,
    by decide +kernel⟩
  · intro n hn x hx
    simp only [chainNodes, List.mem_cons, List.not_mem_nil, or_false] at hn
    rcases hn with rfl | rfl | rfl <;>
      (simp [Node.outNames, dyn] at hx; subst hx; simp [chainEnv])
  · intro n hn a ha
    simp only [chainNodes, List.mem_cons, List.not_mem_nil, or_false] at hn
    rcases hn with rfl | rfl | rfl <;>
      (simp only [List.mem_cons, List.not_mem_nil, or_false] at ha; subst ha; simp [WfArg, dyn])
  · intro n hn a ha v hv
    simp only [chainNodes, List.mem_cons, List.not_mem_nil, or_false] at hn
    rcases hn with rfl | rfl | rfl <;>
      (simp only [List.mem_cons, List.not_mem_nil, or_false] at ha; subst ha; cases hv)
  · intro n hn
    simp only [chainNodes, List.mem_cons, List.not_mem_nil, or_false] at hn
    rcases hn with rfl | rfl | rfl <;> simp [Node.outNames, dyn]
  · intro n hn a ha v hv
    simp only [chainNodes, List.mem_cons, List.not_mem_nil, or_false] at hn
    rcases hn with rfl | rfl | rfl <;>
      (simp only [List.mem_cons, List.not_mem_nil, or_false] at ha; subst ha; cases hv)
  · intro a ha
    simp only [chainOuts, List.mem_cons, List.not_mem_nil, or_false] at ha
    rcases ha with rfl | rfl <;> simp [WfArg, dyn]
  · decide
  · intro n hn h
    simp only [chainNodes, List.mem_cons, List.not_mem_nil, or_false] at hn
    rcases hn with rfl | rfl | rfl
    · refine ⟨?_, ?_⟩
      · intro x rest ys hs
        cases rest with
        | nil => simpa [chainSem] using hs.symm
        | cons _ _ => simp [chainSem] at hs
      · intro i is hi; cases hi; exact Or.inl rfl
    · refine ⟨?_, ?_⟩
      · intro x rest ys hs
        cases rest with
        | nil => simpa [chainSem] using hs.symm
        | cons _ _ => simp [chainSem] at hs
      · intro i is hi; cases hi; exact Or.inl rfl
    · simp [isIdentity] at h
  · intro orig idx n hm _ _
    right
    simp only [chainOmap, List.mem_cons, Prod.mk.injEq, List.not_mem_nil, or_false] at hm
    rcases hm with ⟨rfl, _⟩ | ⟨rfl, _⟩ | ⟨rfl, _⟩ <;>
      (refine ⟨by decide, by decide, ?_⟩
       intro m hm
       simp only [chainNodes, List.mem_cons, List.not_mem_nil, or_false] at hm
       rcases hm with rfl | rfl | rfl <;> simp [Node.outNames, dyn])
  · intro k v
    rw [hplan]
    simp only [chainOrder, mapGet, List.mem_cons, Prod.mk.injEq, List.not_mem_nil, or_false]
    constructor
    · rintro (⟨rfl, rfl⟩ | ⟨rfl, rfl⟩ | ⟨rfl, rfl⟩ | ⟨rfl, rfl⟩) <;> decide
    · intro h
      split at h
      · next hk => cases h; simp [hk]
      · split at h
        · next hk => cases h; simp [hk]
        · split at h
          · next hk => cases h; simp [hk]
          · split at h
            · next hk => cases h; simp [hk]
            · cases h

/-! ### An original name that clashes with a generated one

The exporter called the output of an `Identity` node `relu1_out1`; the importer gives the same
name to the output of the first `Relu`. -/

def clashNodes : List (Node Int) :=
  [ ⟨.relu, "relu1", [dyn "x"], [dyn "relu1_out1"], []⟩,
    ⟨.identity, "identity1", [dyn "x"], [dyn "identity1_out1"], []⟩,
    ⟨.sub, "sub1", [dyn "relu1_out1", dyn "identity1_out1"], [dyn "sub1_out1"], []⟩ ]

/-- In the ONNX file the outputs are called `r`, `relu1_out1`, `d`. -/
def clashOmap : List (String × Nat × Nat) := [("r", 0, 0), ("relu1_out1", 1, 0), ("d", 2, 0)]

def clashSem : Sem Int := fun _ t _ xs =>
  match t, xs with
  | .identity, [some x] => some [x]
  | .relu, [some x] => some [max x 0]
  | .sub, [some x, some y] => some [x - y]
  | _, _ => none

/-- **C11 fails without the assumption on original names**: the consumer of the `Relu` is rewired
to the input of the `Identity`; `relu(x) - x` becomes `x - x`. -/
theorem C11_original_name_clash :
    let plan := planNoop isIdentity clashOmap clashNodes
    let res := applyNoop plan plan.rewire clashNodes [dyn "sub1_out1"]
    evalGraph clashSem chainEnv clashNodes [dyn "sub1_out1"] = some [some 4] ∧
    evalGraph clashSem chainEnv res.1 res.2 = some [some 0] := by
  decide +kernel

/-! ### A no-op node with a second output

`Dropout` is declared a no-op whatever its outputs
(crates/onnx-ir/src/node/dropout.rs:62-65); its mask disappears with it. -/

def dropoutNodes : List (Node Int) :=
  [ ⟨.other "Dropout", "dropout1", [dyn "x"], [dyn "dropout1_out1", dyn "dropout1_out2"], []⟩,
    ⟨.abs, "abs1", [dyn "dropout1_out2"], [dyn "abs1_out1"], []⟩ ]

def dropoutSem : Sem Int := fun _ t _ xs =>
  match t, xs with
  | .other "Dropout", [some x] => some [x, 1]
  | .abs, [some x] => some [if x < 0 then -x else x]
  | _, _ => none

/-- **C11 fails for a no-op with two outputs**: the consumer of the mask is left with an undefined
input. -/
theorem C11_dropout_mask_lost :
    let plan := planNoop (fun n => n.ty == .other "Dropout") [] dropoutNodes
    let res := applyNoop plan plan.rewire dropoutNodes [dyn "abs1_out1"]
    evalGraph dropoutSem chainEnv dropoutNodes [dyn "abs1_out1"] = some [some 1] ∧
    evalGraph dropoutSem chainEnv res.1 res.2 = none := by
  decide +kernel

/-! ### C12 -/

def constNodes : List (Node Int) :=
  [ ⟨.constant, "constant1", [⟨"", .default, .static 3⟩],
      [⟨"constant1_out1", .default, .constant⟩], []⟩,
    ⟨.constant, "constant2", [⟨"", .default, .static 5⟩],
      [⟨"constant2_out1", .default, .constant⟩], []⟩,
    ⟨.sub, "sub1", [dyn "x", ⟨"constant2_out1", .default, .constant⟩], [dyn "sub1_out1"], []⟩ ]

def constSem : Sem Int := fun _ t _ xs =>
  match t, xs with
  | .constant, [some x] => some [x]
  | .sub, [some x, some y] => some [x - y]
  | _, _ => none

/-- A graph with one referenced and one unreferenced constant meets the hypotheses of the C12
theorems. -/
example : (∀ n ∈ constNodes, n.ty = .constant → n.outputs.length = 1) ∧
    (constNodes.flatMap Node.outNames).Nodup ∧
    (∀ n ∈ constNodes, ∀ x ∈ n.outNames, chainEnv x = none) ∧
    evalGraph constSem chainEnv constNodes [dyn "sub1_out1"] = some [some (-9)] ∧
    (removeUnreferencedConstants constNodes [dyn "sub1_out1"]).map Node.name
      = ["constant2", "sub1"] := by
  decide +kernel

end OnnxIR
