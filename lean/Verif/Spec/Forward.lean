import Verif.Spec.Eval
import Verif.Model.Forward

/-!
# What it means that generated code computes what a graph computes

Part of the statements about whole `forward` functions. `V` are the values of ONNX, `R` those of Rust.
-/

namespace OnnxIR

open Gen

variable {V R : Type}

/-- How values of ONNX are held in Rust. -/
structure Target (V R : Type) where
  /-- the Rust type of the value is `Copy` -/
  copy : R → Bool
  /-- an argument of this type holds the ONNX value as this Rust value -/
  holds : ArgType → R → V → Prop
  /-- the annotation is right about the ONNX value (element type, rank, static shape) -/
  fits : ArgType → V → Prop
  /-- a native scalar put on the device -/
  toDevice : DType → R → Option R
  /-- a scalar on the device read back -/
  toNative : DType → R → Option R

/-- The type without what is known about the sizes. -/
def ArgType.form : ArgType → ArgType
  | .tensor t => .tensor ⟨t.dtype, t.rank, none⟩
  | t => t

/-- Native scalars and arrays are `Copy`, a Rust type does not depend on static shapes, and the conversions of scalars keep
the value. -/
structure Target.Ok (L : Target V R) : Prop where
  native : ∀ ty r v, L.holds ty r v → ty.isOnDevice = false → L.copy r = true
  form : ∀ t u r v, t.form = u.form → L.holds t r v → L.holds u r v
  toDevice : ∀ d r v, L.holds (.scalarNative d) r v → ∃ r', L.toDevice d r = some r' ∧ L.holds (.scalarTensor d) r' v
  toNative : ∀ d r v, L.holds (.scalarTensor d) r v → ∃ r', L.toNative d r = some r' ∧ L.holds (.scalarNative d) r' v

/-- An argument that is a value of the run. -/
def AtRunTime (a : Arg V) : Prop := a.src = .dynamic ∨ a.src = .constant

/-- `xs` are operands of the node: the embedded value of an embedded argument, nothing for an absent one, some value of the
annotated type for the others. -/
structure Operands (L : Target V R) (n : Node V) (xs : List (Option V)) : Prop where
  length : xs.length = n.inputs.length
  static : ∀ (k : Nat) (a : Arg V) (v : V), n.inputs[k]? = some a → a.src = .static v → xs[k]? = some (some v)
  absent : ∀ (k : Nat) (a : Arg V), n.inputs[k]? = some a → a.src = .optional → xs[k]? = some none
  run : ∀ (k : Nat) (a : Arg V), n.inputs[k]? = some a → AtRunTime a → ∃ v, xs[k]? = some (some v) ∧ L.fits a.ty v

/-- The code of one node computes what the operator computes: handed values that hold the operands it mentions, it returns
values that hold the results. It mentions each input at most once and only inputs that exist at run time. Operands outside
of `dom` are not considered. -/
structure Implements (L : Target V R) (S : Sem V) (dom : Node V → List (Option V) → Prop) (n : Node V) (c : NodeCode R) :
    Prop where
  once : (c.uses.map Use.index).Nodup
  inputs : ∀ u ∈ c.uses, ∃ a, n.inputs[u.index]? = some a ∧ AtRunTime a
  right : ∀ (xs : List (Option V)) (ys : List V), S n.name n.ty n.attrs xs = some ys → Operands L n xs →
    dom n xs → ys.length = n.outputs.length →
    (∀ (k : Nat) (o : Arg V) (y : V), n.outputs[k]? = some o → ys[k]? = some y → L.fits o.ty y) →
    ∀ rs : List R, rs.length = c.uses.length →
      (∀ (k : Nat) (u : Use) (r : R), c.uses[k]? = some u → rs[k]? = some r →
        ∃ a v, n.inputs[u.index]? = some a ∧ xs[u.index]? = some (some v) ∧ L.holds a.ty r v) →
    ∃ ws, c.effect rs = some ws ∧ ws.length = ys.length ∧
      ∀ (k : Nat) (o : Arg V) (w : R) (y : V), n.outputs[k]? = some o → ws[k]? = some w → ys[k]? = some y → L.holds o.ty w y

/-- Nodes that use only what inputs or earlier nodes define (`seen`), and define new names. -/
def InOrder : List (Node V) → List String → Prop
  | [], _ => True
  | n :: ns, seen =>
    (∀ a ∈ n.inputs, AtRunTime a → a.name ∈ seen) ∧ n.outNames.Nodup ∧ (∀ x ∈ n.outNames, x ∉ seen) ∧
      InOrder ns (n.outNames ++ seen)

/-- A graph without control flow as the code generator receives it. `τ` gives the type of each name: all mentions of a name
agree on it up to static shapes. Outputs are different values, and an output kept as a scalar on the device is not used by a
node. -/
structure GraphOk (τ : String → ArgType) (nodes : List (Node V)) (ins outs : List (Arg V)) : Prop where
  order : InOrder nodes (ins.map Arg.name)
  inputs : (ins.map Arg.name).Nodup
  outputs : (outs.map Arg.name).Nodup
  results : ∀ o ∈ outs, o.src = .dynamic ∧ (o.name ∈ ins.map Arg.name ∨ o.name ∈ nodes.flatMap Node.outNames)
  nodeTypes : ∀ n ∈ nodes, (∀ a ∈ n.inputs, AtRunTime a → a.ty.form = (τ a.name).form) ∧
    ∀ o ∈ n.outputs, o.ty.form = (τ o.name).form
  inTypes : ∀ a ∈ ins, a.ty.form = (τ a.name).form
  outTypes : ∀ o ∈ outs, o.ty.form = (τ o.name).form
  scalars : ∀ o ∈ outs, ∀ d, o.ty = .scalarTensor d → ∀ n ∈ nodes, ∀ a ∈ n.inputs, AtRunTime a → a.name ≠ o.name

/-- In a run with this final environment the operands of every node are in `dom`. -/
def InDomain (dom : Node V → List (Option V) → Prop) (e : Env V) (nodes : List (Node V)) : Prop :=
  ∀ n ∈ nodes, ∀ xs, evalArgs e n.inputs = some xs → dom n xs

/-- The annotations are right about the values of a run, given by the environment after it. -/
def AnnotationsTrue (L : Target V R) (e : Env V) (nodes : List (Node V)) : Prop :=
  ∀ n ∈ nodes, (∀ a ∈ n.inputs, AtRunTime a → ∀ v, e a.name = some v → L.fits a.ty v) ∧
    ∀ o ∈ n.outputs, ∀ v, e o.name = some v → L.fits o.ty v

end OnnxIR
