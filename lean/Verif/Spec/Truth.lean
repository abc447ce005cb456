import Verif.Model.TypeInference
import Verif.Spec.Typing

/-!
# When type annotations are true of a run

A run is represented by the shapes of the named values it computes. Independent of the inference
algorithm.
-/

namespace OnnxIR

/-- Shapes of the values of a run, by name. -/
abbrev Shapes := String → Option (List Nat)

variable {V : Type}

/-- The annotation is right about a value of the given shape, and a value without dimensions is
annotated as a scalar, not as a tensor. -/
def ArgType.Fits (t : ArgType) (s : List Nat) : Prop :=
  t.Admits s ∧ ∀ u, t = .tensor u → u.rank ≠ 0

/-- The annotation of an argument is true of the run. -/
def Truthful (σ : Shapes) (a : Arg V) : Prop := ∀ s, σ a.name = some s → a.ty.Fits s

/-- If the annotation is a tensor of the right rank, its static shape is right. The placeholder a
value has before inference (rank 0, no static shape) and truthful `value_info` satisfy this. -/
def Harmless (σ : Shapes) (a : Arg V) : Prop :=
  ∀ s t, σ a.name = some s → a.ty = .tensor t → t.rank = s.length →
    ∀ p, t.staticShape = some p → p.Describes s

/-- What inference never changes about a node: operator, name, attributes, and names and sources of
inputs and outputs. -/
structure Skeleton (V : Type) where
  ty : NodeType
  name : String
  inputs : List (String × Src V)
  outputs : List (String × Src V)
  attrs : List (String × AttrVal V)

/-- The skeleton of a node. -/
def Node.skel (n : Node V) : Skeleton V :=
  ⟨n.ty, n.name, n.inputs.map fun a => (a.name, a.src), n.outputs.map fun a => (a.name, a.src), n.attrs⟩

/-- The rule for a node is sound for a run: whenever the inputs are annotated truthfully (and the
outputs, before, harmlessly), the type the rule gives to each output is right about its shape
(outputs beyond the rule's list keep theirs). -/
def SoundFor (R : Rules V) (σ : Shapes) (n : Node V) : Prop :=
  ∀ (m : Node V) prefs tys, m.skel = n.skel → (∀ a ∈ m.inputs, Truthful σ a) →
    (∀ a ∈ m.outputs, Harmless σ a) → R.infer m prefs = some tys →
    ∀ (k : Nat) (o : Arg V), m.outputs[k]? = some o →
      ∀ s, σ o.name = some s → ((tys[k]?).getD o.ty).Admits s

/-- Nodes come after the nodes whose outputs they read. -/
def OrderedNodes : List (Node V) → Prop
  | [] => True
  | n :: rest => (∀ x ∈ n.inNames, x ∉ n.outNames ∧ x ∉ rest.flatMap Node.outNames) ∧ OrderedNodes rest

end OnnxIR
