import Verif.Model.ShapeSlice
import Verif.Props.OpRules3

/-!
# C28: slicing a shape value
-/

namespace OnnxIR

open Gen

theorem stepBy_positions {vals : List Int} {k : Nat} (hk : 0 < k) (m : Nat) :
    ∀ a b : Nat, b - a ≤ m → b ≤ vals.length →
      stepBy k ((vals.take b).drop a) =
        (slicePositions k b a).filterMap fun i => vals[i.toNat]? := by
  induction m with
  | zero =>
    intro a b h hb
    rw [slicePositions, dif_neg (by omega), List.drop_eq_nil_of_le (by simp; omega), stepBy]
    rfl
  | succ m ih =>
    intro a b h hb
    by_cases hab : a < b
    · rw [slicePositions, dif_pos (by omega)]
      have hl : a < (vals.take b).length := by simp; omega
      rw [List.drop_eq_getElem_cons hl, stepBy, List.drop_drop]
      have h1 : a + 1 + (k - 1) = a + k := by omega
      rw [h1, ih (a + k) b (by omega) hb]
      have h2 : vals[(a : Int).toNat]? = some ((vals.take b)[a]) := by
        simp only [Int.toNat_natCast, List.getElem_take]
        exact List.getElem?_eq_getElem (by omega)
      rw [List.filterMap_cons, h2]
      simp
    · rw [slicePositions, dif_neg (by omega), List.drop_eq_nil_of_le (by simp; omega), stepBy]
      rfl

theorem stepBy_one (l : List Int) : stepBy 1 l = l := by
  induction l with
  | nil => rw [stepBy]
  | cons x xs ih => rw [stepBy]; simp [ih]

theorem actualStart_eq (n : Nat) (s : Int) : (actualStart n s : Int) = clampInt 0 n (fromBack n s) := by
  unfold actualStart clampInt fromBack
  repeat' split
  all_goals omega

theorem actualEnd_eq (n : Nat) (s : Int) : (actualEnd n s : Int) = clampInt 0 n (fromBack n s) := by
  unfold actualEnd clampInt fromBack
  repeat' split
  all_goals omega

theorem actualEnd_le (n : Nat) (s : Int) : actualEnd n s ≤ n := by
  unfold actualEnd
  split <;> omega

theorem onnxSlice1_stepBy {vals : List Int} {start stop step : Int} (hs : 0 < step) :
    onnxSlice1 vals start stop step =
      stepBy step.natAbs ((vals.take (actualEnd vals.length stop)).drop (actualStart vals.length start)) := by
  rw [stepBy_positions (by omega) _ _ _ (Nat.le_refl _) (actualEnd_le _ _), actualStart_eq, actualEnd_eq]
  unfold onnxSlice1
  have : (step.natAbs : Int) = step := by omega
  simp only [hs, if_true, this]

/-- **C28**, positive step, start not after end: the generated code neither panics nor declares a wrong
length, and returns the elements ONNX returns. `len` is the length in the inferred type. Missing: start
after end and negative steps, where the code is wrong (see below). -/
theorem C28_shape_slice_partial {vals : List Int} {start stop step : Int} {len : Nat} (hs : 0 < step)
    (hle : clampInt 0 vals.length (fromBack vals.length start) ≤
      clampInt 0 vals.length (fromBack vals.length stop))
    (ht : Infer.slice [start] [stop] [step] (.shape vals.length) = some (.shape len)) :
    shapeSlice len start stop step vals = some (onnxSlice1 vals start stop step) := by
  have hlen : (onnxSlice1 vals start stop step).length = len := by
    have h0 : (0 : Int) ∉ [step] := by simp; omega
    simp only [Infer.slice, if_neg h0] at ht
    have : Infer.shapeSliceLen start stop step vals.length = len := by simpa using ht
    rw [← this, shapeSliceLen_eq hs]
    have hb : ∀ x : Int, 0 ≤ clampInt 0 vals.length x ∧ clampInt 0 vals.length x ≤ vals.length := by
      intro x; unfold clampInt; repeat' split
      all_goals omega
    unfold Onnx.sliceLen onnxSlice1
    simp only [hs, if_true, List.length_replicate]
    rw [filterMap_length_of_some, filterMap_length_of_some]
    all_goals
      intro j hj
      have := slicePositions_mem hs _ _ (Nat.le_refl _) j hj
      have h1 := hb (fromBack vals.length start)
      have h2 := hb (fromBack vals.length stop)
      simp only [List.getElem?_eq_getElem, List.length_replicate,
        show j.toNat < vals.length by omega, Option.isSome_some]
  have hle' : actualStart vals.length start ≤ actualEnd vals.length stop := by
    rw [← actualStart_eq, ← actualEnd_eq] at hle; omega
  have hseg := onnxSlice1_stepBy (vals := vals) (start := start) (stop := stop) hs
  unfold shapeSlice subSlice
  rw [if_pos ⟨hle', actualEnd_le _ _⟩, Option.bind_some]
  by_cases h1 : step = 1
  · subst h1
    rw [if_pos rfl]
    rw [show (1 : Int).natAbs = 1 from rfl, stepBy_one] at hseg
    rw [← hseg, toArray, if_pos hlen]
  · rw [if_neg h1, if_neg (by omega), if_pos hs, ← hseg, fillArray, hlen]
    simp

example : (0 : Int) < 2 ∧ Infer.slice [-4] [9] [2] (.shape 5) = some (.shape 2) ∧
    shapeSlice 2 (-4) 9 2 [10, 11, 12, 13, 14] = some [11, 13] ∧
    clampInt 0 5 (fromBack 5 (-4)) = 1 ∧ clampInt 0 5 (fromBack 5 9) = 5 := by
  refine ⟨by omega, by decide, ?_, by decide, by decide⟩
  have : (List.drop 1 (List.take 5 [10, 11, 12, 13, 14]) : List Int) = [11, 12, 13, 14] := rfl
  have h : stepBy 2 [11, 12, 13, 14] = [11, 13] := by
    rw [stepBy]; simp only [List.drop]; rw [stepBy]; simp only [List.drop]; rw [stepBy]
  simp [shapeSlice, subSlice, show actualStart 5 (-4) = 1 from rfl, show actualEnd 5 9 = 5 from rfl, h,
    fillArray]

/-- **C28 fails when the start is after the end**: ONNX returns no element, the generated code panics
(here `shape[3..1]`), whatever length is declared. -/
theorem C28_empty_slice_panics {vals : List Int} {start stop step : Int} {len : Nat} (hs : 0 < step)
    (hlt : clampInt 0 vals.length (fromBack vals.length stop) <
      clampInt 0 vals.length (fromBack vals.length start)) :
    onnxSlice1 vals start stop step = [] ∧ shapeSlice len start stop step vals = none := by
  constructor
  · unfold onnxSlice1
    simp only [hs, if_true]
    rw [slicePositions, dif_neg (by omega)]
    rfl
  · have : actualEnd vals.length stop < actualStart vals.length start := by
      have h1 := actualStart_eq vals.length start
      have h2 := actualEnd_eq vals.length stop
      omega
    unfold shapeSlice subSlice
    rw [if_neg (by omega)]
    rfl

example : clampInt 0 4 (fromBack 4 1) < clampInt 0 4 (fromBack 4 3) := by decide

theorem slicePositions_down {step e s : Int} (hs : step < 0) (h : slicePositions step e s ≠ []) : e < s := by
  rw [slicePositions] at h
  split at h
  · omega
  · exact absurd rfl h

/-- **C28 fails for every negative step**: whenever ONNX returns at least one element, the generated
code, with the length type inference declares, does not return what ONNX returns. -/
theorem C28_negative_step_wrong {vals : List Int} {start stop step : Int} {len : Nat} (hs : step < 0)
    (hne : onnxSlice1 vals start stop step ≠ [])
    (ht : Infer.slice [start] [stop] [step] (.shape vals.length) = some (.shape len)) :
    shapeSlice len start stop step vals ≠ some (onnxSlice1 vals start stop step) := by
  have h0 : ¬ 0 < step := by omega
  have hpos : slicePositions step (clampInt (-1) ((vals.length : Int) - 1) (fromBack vals.length stop))
      (clampInt 0 ((vals.length : Int) - 1) (fromBack vals.length start)) ≠ [] := by
    intro h
    apply hne
    unfold onnxSlice1
    simp only [h0, if_false, h, List.filterMap_nil]
  have hlt := slicePositions_down hs hpos
  intro heq
  have hle : actualStart vals.length start ≤ actualEnd vals.length stop := by
    unfold shapeSlice subSlice at heq
    split at heq
    · rename_i h; exact h.1
    · cases heq
  have h1 := actualStart_eq vals.length start
  have h2 := actualEnd_eq vals.length stop
  -- start and end clamp to the same position, so the generated code reads nothing
  have hsame : actualStart vals.length start = actualEnd vals.length stop := by
    unfold clampInt fromBack at *
    repeat' split at hlt
    all_goals repeat' split at h1
    all_goals repeat' split at h2
    all_goals omega
  have hempty : (vals.take (actualEnd vals.length stop)).drop (actualStart vals.length start) = [] :=
    List.drop_eq_nil_of_le (by simp only [List.length_take]; omega)
  have hz : (0 : Int) ∉ [step] := by simp; omega
  simp only [Infer.slice, if_neg hz] at ht
  have hl : Infer.shapeSliceLen start stop step vals.length = len := by simpa using ht
  have hl0 : len = 0 := by
    rw [← hl]
    unfold Infer.shapeSliceLen
    have e1 : Infer.sliceStart vals.length start = actualStart vals.length start := by
      unfold Infer.sliceStart actualStart; split <;> omega
    have e2 : Infer.sliceEnd vals.length stop = actualEnd vals.length stop := by
      unfold Infer.sliceEnd actualEnd; repeat' split
      all_goals omega
    simp only [e1, e2, hsame]
    have : (max ((actualEnd vals.length stop : Int) - (actualEnd vals.length stop : Int)) 0).toNat = 0 := by omega
    rw [this, Nat.div_eq_of_lt (by omega)]
  subst hl0
  unfold shapeSlice subSlice at heq
  rw [if_pos ⟨hle, actualEnd_le _ _⟩, hempty, Option.bind_some] at heq
  apply hne
  have hnil : stepBy step.natAbs [] = [] := by rw [stepBy]
  simp only [List.reverse_nil, toArray, fillArray, hnil, List.length_nil, if_true, Nat.le_refl,
    Nat.sub_self, List.replicate_zero, List.append_nil, ite_self, Option.some.injEq] at heq
  exact heq.symm

example : onnxSlice1 [10, 11, 12] (-1) (-4) (-1) ≠ [] ∧
    Infer.slice [-1] [-4] [-1] (.shape 3) = some (.shape 0) := by
  refine ⟨?_, by decide⟩
  unfold onnxSlice1
  have : clampInt 0 2 (fromBack 3 (-1)) = 2 ∧ clampInt (-1) 2 (fromBack 3 (-4)) = -1 := by decide
  simp [this]
  rw [slicePositions]
  simp

end OnnxIR
