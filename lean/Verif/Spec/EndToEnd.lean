import Verif.Spec.RunValues
import Verif.Spec.Values

/-!
# From the values of a file to those of a run

The importer keeps the element type with each value, and knows nothing of the elements of type float (`A`, `B`). The generated code is
judged on real numbers. These functions say which real values the values of the file stand for.
-/

namespace OnnxIR

variable {V W R : Type}

/-- The value with its float elements read as reals. Booleans are the integers 0 and 1 in the file. -/
noncomputable def CVal.real {A B : Type} (fa : A → ℝ) (fb : B → ℝ) : CVal A B → OVal
  | .int .bool t => .bool (t.map fun i => i != 0)
  | .int _ t => .int t
  | .f32 t => .float (t.map fa)
  | .f64 t => .float (t.map fb)

/-- The attribute with another kind of values. -/
def AttrVal.conv (f : V → W) : AttrVal V → AttrVal W
  | .i64 v => .i64 v
  | .i64s v => .i64s v
  | .f32 b => .f32 b
  | .f32s b => .f32s b
  | .str s => .str s
  | .strs s => .strs s
  | .tensor v => .tensor (f v)
  | .graph i => .graph i
  | .graphs i => .graphs i
  | .deferredGraph i => .deferredGraph i
  | .deferredGraphs i => .deferredGraphs i

/-- Attributes with another kind of values. -/
def convAttrs (f : V → W) (as : List (String × AttrVal V)) : List (String × AttrVal W) := as.map fun p => (p.1, p.2.conv f)

/-- Where an argument comes from, with another kind of values. -/
def Src.conv (f : V → W) : Src V → Src W
  | .static v => .static (f v)
  | .constant => .constant
  | .dynamic => .dynamic
  | .optional => .optional

/-- The argument with another kind of values. -/
def Arg.conv (f : V → W) (a : Arg V) : Arg W := ⟨a.name, a.ty, a.src.conv f⟩

/-- The node with another kind of values. -/
def Node.conv (f : V → W) (n : Node V) : Node W :=
  ⟨n.ty, n.name, n.inputs.map (Arg.conv f), n.outputs.map (Arg.conv f), convAttrs f n.attrs⟩

/-- Rust values that hold values read in another way. -/
def Target.conv (L : Target W R) (f : V → W) : Target V R where
  copy := L.copy
  holds ty r v := L.holds ty r (f v)
  fits ty v := L.fits ty (f v)
  toDevice := L.toDevice
  toNative := L.toNative

/-- What C80 asks of the types in a graph: see `GraphOk`. -/
structure TypesAgree (τ : String → ArgType) (nodes : List (Node V)) (ins outs : List (Arg V)) : Prop where
  outputs : (outs.map Arg.name).Nodup
  results : ∀ o ∈ outs, o.src = .dynamic
  nodeTypes : ∀ n ∈ nodes, (∀ a ∈ n.inputs, AtRunTime a → a.ty.form = (τ a.name).form) ∧
    ∀ o ∈ n.outputs, o.ty.form = (τ o.name).form
  inTypes : ∀ a ∈ ins, a.ty.form = (τ a.name).form
  outTypes : ∀ o ∈ outs, o.ty.form = (τ o.name).form
  scalars : ∀ o ∈ outs, ∀ d, o.ty = .scalarTensor d → ∀ n ∈ nodes, ∀ a ∈ n.inputs, AtRunTime a → a.name ≠ o.name

end OnnxIR
