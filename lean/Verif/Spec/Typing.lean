import Verif.Model.Types
import Verif.Spec.Tensor

/-!
# What a type annotation promises about a run-time shape

Independent of the inference code.
-/

namespace OnnxIR

/-- A partially known shape describes a shape: same rank, and equal wherever it is known. -/
def PShape.Describes : PShape → List Nat → Prop
  | [], [] => True
  | p :: ps, d :: ds => (∀ k, p = some k → k = d) ∧ PShape.Describes ps ds
  | _, _ => False

/-- The annotation is right about a value of the given shape. A scalar kept on the host has no
dimension; a scalar kept on the device stands for an ONNX tensor of rank 0 too (constant.rs:70-71); a
`Shape(k)` is a vector of `k` elements; a tensor has the declared rank and static shape. -/
def ArgType.Admits : ArgType → List Nat → Prop
  | .scalarNative _, s => s = []
  | .scalarTensor _, s => s = []
  | .shape k, s => s = [k]
  | .tensor t, s => s.length = t.rank ∧ ∀ p, t.staticShape = some p → p.Describes s

theorem PShape.describes_known {p : PShape} {s dims : List Nat} (h : p.Describes s)
    (hk : allKnown p = some dims) : s = dims := by
  induction p generalizing s dims with
  | nil =>
    cases s with
    | nil => simp [allKnown] at hk; exact hk.symm
    | cons d ds => simp [PShape.Describes] at h
  | cons o ps ih =>
    cases s with
    | nil => simp [PShape.Describes] at h
    | cons d ds =>
      simp only [PShape.Describes] at h
      cases o with
      | none => simp [allKnown] at hk
      | some k =>
        simp only [allKnown, Option.map_eq_some_iff] at hk
        obtain ⟨ds', h1, rfl⟩ := hk
        rw [ih h.2 h1, h.1 k rfl]

theorem ArgType.admits_known {t : ArgType} {s dims : List Nat} (h : t.Admits s)
    (hk : t.staticShapeKnown = some dims) : s = dims := by
  cases t with
  | tensor t =>
    simp only [ArgType.staticShapeKnown, ArgType.staticShape, Option.bind_eq_some_iff] at hk
    obtain ⟨p, hp, hd⟩ := hk
    exact PShape.describes_known (h.2 p hp) hd
  | _ => simp [ArgType.staticShapeKnown, ArgType.staticShape] at hk

end OnnxIR
