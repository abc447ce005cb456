import Verif.Props.LoopCases

/-!
# C26: putting the collected scan values together
-/

namespace OnnxIR

variable {α : Type}

namespace Onnx

/-- The scan output ONNX defines: the values of the iterations, all of shape `s`, stacked along a new
first axis. -/
def IsStack (s : List Nat) (ts : List (Tensor α)) (out : Tensor α) : Prop :=
  out.shape = ts.length :: s ∧ out.data = ts.flatMap Tensor.data

end Onnx

namespace Burn

/-- `Tensor::cat(ts, 0)` of the burn crate for tensors of shape `d :: ds`: the first dimensions add up.
Panics (`none`) on an empty list. Trusted. -/
def cat0 (d : Nat) (ds : List Nat) (ts : List (Tensor α)) : Option (List Nat × List α) :=
  if ts.isEmpty then none else some ((ts.length * d) :: ds, ts.flatMap Tensor.data)

end Burn

namespace Gen

/-- loop_node.rs:296-331 (code generated for a scan output): a vector of native scalars becomes a tensor
of shape `[len, 1]`. -/
def scanScalars (vs : List α) : List Nat × List α := ([vs.length, 1], vs)

/-- loop_node.rs:332-335: tensors are concatenated along axis 0. -/
def scanTensors (d : Nat) (ds : List Nat) (ts : List (Tensor α)) : Option (List Nat × List α) :=
  Burn.cat0 d ds ts

end Gen

/-- **C26 (partial), scan outputs.** If at least one iteration ran, the generated scan output has the
elements ONNX prescribes, in the same row-major order. Missing: the shape. -/
theorem C26_scan_elements_partial (d : Nat) (ds : List Nat) (ts : List (Tensor α)) (out : Tensor α)
    (h : Onnx.IsStack (d :: ds) ts out) (hne : ts ≠ []) :
    ∃ s, Gen.scanTensors d ds ts = some (s, out.data) := by
  refine ⟨(ts.length * d) :: ds, ?_⟩
  unfold Gen.scanTensors Burn.cat0
  rw [if_neg (by simpa using hne), h.2]

/-- **C26, what fails: scan outputs.** For every shape of positive rank the generated scan output has one
dimension less than ONNX prescribes; without an iteration the generated code panics where ONNX gives a
tensor without elements; and native scalars give `[n, 1]` instead of `[n]`. -/
theorem C26_scan_rank_wrong (d : Nat) (ds : List Nat) (ts : List (Tensor α)) (out : Tensor α)
    (h : Onnx.IsStack (d :: ds) ts out) :
    (∀ r, Gen.scanTensors d ds ts = some r → r.1.length + 1 = out.shape.length) ∧
    (ts = [] → Gen.scanTensors d ds ts = none) ∧
    ∀ (vs : List α) (t : Tensor α), t.shape = [vs.length] → (Gen.scanScalars vs).1 ≠ t.shape := by
  refine ⟨?_, ?_, ?_⟩
  · intro r hr
    unfold Gen.scanTensors Burn.cat0 at hr
    split at hr
    · exact absurd hr (by simp)
    · simp only [Option.some.injEq] at hr
      rw [← hr, h.1]
      rfl
  · intro ht; subst ht; rfl
  · intro vs t ht
    rw [ht]
    simp [Gen.scanScalars]

/-- Two iterations with vectors of length 2. -/
example : Onnx.IsStack [2] [⟨[2], [1, 2], rfl⟩, ⟨[2], [3, 4], rfl⟩] ⟨[2, 2], [1, 2, 3, 4], rfl⟩ ∧
    Gen.scanTensors 2 [] [⟨[2], [1, 2], rfl⟩, ⟨[2], [3, 4], rfl⟩] = some ([4], [1, 2, 3, 4]) :=
  ⟨⟨rfl, rfl⟩, rfl⟩

end OnnxIR
