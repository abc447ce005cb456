import Verif.Model.Declared
import Verif.Props.TensorDecode
import Verif.Spec.ElemRun
import Verif.Spec.TensorBytes
import Verif.Spec.Typing

/-!
# What a declared type and an attribute say

onnx.proto: `ValueInfoProto`, `TypeProto.Tensor`, `TensorShapeProto` ("`shape`, if present, gives the rank; a dimension is a number, a
name or unknown") and `AttributeProto` ("the type field says which of the fields holds the value").
-/

namespace OnnxIR.Onnx

open OnnxIR.Decode

/-- The size a declared dimension allows: a number only itself, a name or nothing every size. -/
def DimAllows : Dim → Nat → Prop
  | .value v, n => v = n
  | .param _, _ => True
  | .unset, _ => True

/-- The declared type allows a tensor with elements of type `d` and shape `s`. Without a shape every shape is allowed. -/
def Allows (v : ValueInfo) (d : DType) (s : List Nat) : Prop :=
  ∃ e shape, v.type = some (.tensor e shape) ∧ e = dataTypeNumber d ∧
    ∀ dims, shape = some dims → dims.length = s.length ∧
      ∀ (i : Nat) (a : Dim) (n : Nat), dims[i]? = some a → s[i]? = some n → DimAllows a n

/-- The declaration is one the format allows: its sizes are numbers a tensor can have. -/
def SizesOk (v : ValueInfo) : Prop :=
  ∀ e dims, v.type = some (.tensor e (some dims)) → ∀ k, Dim.value k ∈ dims → 0 ≤ k ∧ k < 2 ^ 63

/-- The elements the format gives to a tensor whose data is in the file itself: those of the raw bytes, or those of the field for its
element type. -/
def Elements (p : Proto) (t : DType) (vs : List Int) : Prop :=
  (p.raw ≠ [] ∧ RawOf t vs p.raw) ∨ (p.raw = [] ∧ vs = typedField t p ∧ ∀ v ∈ vs, InRange t v)

/-- A tensor the format allows, of a supported element type, whose data is in the file itself. -/
def Inline (p : Proto) : Prop :=
  p.external = false ∧ (∀ x ∈ p.dims, 0 ≤ x ∧ x < 2 ^ 63) ∧
    ∃ t vs, p.dataType = dataTypeNumber t ∧ Elements p t vs

/-- The tensor that was read has the element type, the dimensions and the elements of the one in the file. -/
def SameTensor (p : Proto) (d : Data) : Prop :=
  p.dataType = dataTypeNumber d.dtype ∧ d.shape.map Int.ofNat = p.dims ∧
    ∃ vs, d.values = some vs ∧ Elements p d.dtype vs

/-- The value that was read is the one the format gives to the attribute. -/
inductive Means (a : AttrProto) : AttrData → Prop
  | float : a.type = 1 → Means a (.float a.f)
  | int : a.type = 2 → Means a (.int a.i)
  | string (s) : a.type = 3 → a.s = some s → Means a (.string s)
  | tensor (p d) : a.type = 4 → a.t = some p → SameTensor p d → Means a (.tensor d)
  | graph (g) : a.type = 5 → a.g = some g → Means a (.graph g)
  | floats : a.type = 6 → Means a (.floats a.floats)
  | ints : a.type = 7 → Means a (.ints a.ints)
  | strings (ss) : a.type = 8 → a.strings = ss.map some → Means a (.strings ss)
  | tensors (ds) : a.type = 9 → a.tensors.length = ds.length →
      (∀ (i : Nat) (p : Proto) (d : Data), a.tensors[i]? = some p → ds[i]? = some d → SameTensor p d) → Means a (.tensors ds)
  | graphs : a.type = 10 → Means a (.graphs a.graphs)

/-- The attribute holds one subgraph or several. -/
def HoldsGraph (a : AttrProto) : Prop := a.type = 5 ∨ a.type = 10

/-- An attribute the format allows, of a kind other than sparse tensor and type, with its data in the file itself and its text in
UTF-8. -/
def Proper (a : AttrProto) : Prop :=
  a.type = 1 ∨ a.type = 2 ∨ (a.type = 3 ∧ a.s ≠ none) ∨ (a.type = 4 ∧ ∃ p, a.t = some p ∧ Inline p) ∨
  (a.type = 5 ∧ a.g ≠ none) ∨ a.type = 6 ∨ a.type = 7 ∨ (a.type = 8 ∧ none ∉ a.strings) ∨
  (a.type = 9 ∧ ∀ p ∈ a.tensors, Inline p) ∨ a.type = 10

end OnnxIR.Onnx
