import Verif.Model.MatMulInteger
import Verif.Props.MatMul
import Verif.Props.Elementwise
import Verif.Lemmas.Box

/-!
# C69: MatMulInteger
-/

namespace OnnxIR

open Gen

/-- Subtracting a vector along the last dimension. -/
theorem centred_last {x u : Tensor Int} {pre : List Nat} {d m : Nat} (hx : x.shape = pre ++ [d]) (hu : u.shape = [m]) (hm : m = d ∨ m = 1) :
    Gen.centred (some (.dev u)) x = some (Tensor.ofFn x.shape fun i => x.get i - u.get (proj [m] i)) := by
  have hl : x.shape.length = pre.length + 1 := by rw [hx]; simp
  have hbc : bcast x.shape u.shape = some x.shape := by
    rw [hu, hx, bcast_zip (by simp)]
    rcases hm with rfl | rfl
    · simp [zipDims]
    · by_cases h1 : d = 1 <;> simp [zipDims, h1]
  have hz : Tensor.zipBcast (· - ·) x u = some (Tensor.ofFn x.shape fun i => x.get i - u.get (proj [m] i)) := by
    unfold Tensor.zipBcast
    rw [hbc, Option.map_some]
    congr 1
    exact Tensor.ofFn_congr fun i hi => by rw [proj_self hi, hu]
  have hle : u.shape.length ≤ x.shape.length := by rw [hu, hl]; simp
  have hpr : prodShape (List.replicate (x.shape.length - u.shape.length) 1 ++ u.shape) = prodShape u.shape := by
    rw [prodShape_append, prodShape_replicate_one, Nat.one_mul]
  have key : ∀ w : Tensor Int, w.shape = List.replicate (x.shape.length - u.shape.length) 1 ++ u.shape → w.data = u.data →
      Burn.zip (· - ·) x w = some (Tensor.ofFn x.shape fun i => x.get i - u.get (proj [m] i)) := by
    intro w w1 w2
    obtain ⟨z, z1, z2⟩ := zip_padded (r := x.shape.length) (X := x) (Y := u) (x := x) (y := w) (PadOf.refl x) ⟨hle, w1, w2⟩ hz
    rw [z1]
    congr 1
    refine Tensor.ext ?_ z2.data
    rw [z2.shape]
    show List.replicate (x.shape.length - x.shape.length) 1 ++ x.shape = x.shape
    simp
  simp only [Gen.centred]
  split
  · rw [show Burn.unsqueeze u x.shape.length = some ⟨List.replicate (x.shape.length - u.shape.length) 1 ++ u.shape, u.data, by rw [u.size, hpr]⟩ by
      unfold Burn.unsqueeze
      rw [if_pos hle]
      exact dif_pos hpr, Option.bind_some]
    exact key _ rfl rfl
  · rename_i h1
    rw [Option.bind_some]
    refine key u ?_ rfl
    have : x.shape.length = u.shape.length := by rw [hu, hl] at *; simp at h1 ⊢; exact h1
    rw [this]
    simp

/-- How a zero point is held in the generated code: absent, a scalar on the device, or a vector. -/
inductive ZeroPoint : Option (Tensor Int) → Option (GVal Int) → Prop
  | absent : ZeroPoint none none
  | scalar {z u : Tensor Int} (hz : z.shape = []) (hu : u.shape = [1]) (h : u.data = z.data) : ZeroPoint (some z) (some (.dev u))
  | vector {z : Tensor Int} {m : Nat} (hz : z.shape = [m]) : ZeroPoint (some z) (some (.dev z))

theorem centred_scalar {axis : Nat} {z : Option (Tensor Int)} {g : Option (GVal Int)} (h : ZeroPoint z g) (hz : ∀ t, z = some t → t.shape = [])
    {x : Tensor Int} (hx : x.shape ≠ []) : Gen.centred g x = some (Onnx.centred axis z x) := by
  cases h with
  | absent =>
    show some x = some (Tensor.ofFn x.shape fun i => x.get i - 0)
    simp [Tensor.ofFn_get]
  | @scalar t u h1 hu hd =>
    obtain ⟨pre, d, hp⟩ : ∃ pre d, x.shape = pre ++ [d] := ⟨x.shape.dropLast, x.shape.getLast hx, (List.dropLast_append_getLast hx).symm⟩
    rw [centred_last hp hu (.inr rfl)]
    congr 1
    unfold Onnx.centred
    refine Tensor.ofFn_congr fun i hi => ?_
    show _ = _ - (if t.shape = [] then t.get [] else _)
    rw [if_pos h1]
    congr 1
    have e : flatIdx u.shape (proj [1] i) = 0 := by
      have := flatIdx_lt (s := u.shape) (i := proj [1] i) (by
        have := (proj_inRange (a := x.shape) (b := u.shape) (s := x.shape) (by
          rw [hu, hp, bcast_zip (by simp)]
          by_cases h1 : d = 1 <;> simp [zipDims, h1]) hi).2
        rwa [hu] at this ⊢)
      rw [hu] at this ⊢
      simp [prodShape] at this
      exact this
    unfold Tensor.get
    rw [e, hd, h1]
    rfl
  | vector h1 =>
    have := hz _ rfl
    rw [h1] at this
    cases this

/-- MatMulInteger with zero points that are absent or scalars on the device, or, for the second operand, a vector with one entry for each
column: the product of the operands less their zero points. -/
theorem C69_matmul_integer_partial {dot : List Int → List Int → Int} {x y : Tensor Int} {za zb : Option (Tensor Int)} {ga gb : Option (GVal Int)}
    (hs : (Onnx.matmul x.shape y.shape).isSome) (hv : ¬(x.shape.length = 1 ∧ y.shape.length = 1))
    (ha : ZeroPoint za ga) (hb : ZeroPoint zb gb) (ha1 : ∀ t, za = some t → t.shape = [])
    (hb1 : ∀ t, zb = some t → t.shape = [] ∨ 2 ≤ y.shape.length ∧ t.shape = y.shape.drop (y.shape.length - 1)) :
    ∃ z, Gen.matmulInteger dot ga gb x y = some z ∧ Onnx.MatMul dot (Onnx.centred 2 za x) (Onnx.centred 1 zb y) z := by
  have hx : x.shape ≠ [] := by
    intro h
    rw [h] at hs
    simp [Onnx.matmul] at hs
  have hy : y.shape ≠ [] := by
    intro h
    rw [h] at hs
    simp [Onnx.matmul] at hs
  have e1 := centred_scalar (axis := 2) ha ha1 hx
  have e2 : Gen.centred gb y = some (Onnx.centred 1 zb y) := by
    by_cases h : ∀ t, zb = some t → t.shape = []
    · exact centred_scalar hb h hy
    · cases hb with
      | absent => exact absurd (by simp) h
      | scalar h1 _ _ => exact absurd (by simpa using h1) h
      | @vector t m h1 =>
        obtain ⟨pre, d, hp⟩ : ∃ pre d, y.shape = pre ++ [d] := ⟨y.shape.dropLast, y.shape.getLast hy, (List.dropLast_append_getLast hy).symm⟩
        rcases hb1 _ rfl with h' | ⟨_, h'⟩
        · rw [h1] at h'
          cases h'
        have hm : m = d := by
          rw [h1, hp] at h'
          simpa using h'
        subst hm
        rw [centred_last hp h1 (.inl rfl)]
        congr 1
        unfold Onnx.centred
        refine Tensor.ofFn_congr fun i hi => ?_
        show _ = _ - (if t.shape = [] then t.get [] else _)
        rw [if_neg (by rw [h1]; simp), hp]
        congr 2
        obtain ⟨ip, j, rfl⟩ : ∃ ip j, i = ip ++ [j] := by
          have : i ≠ [] := by
            intro h0
            have := hi.length
            rw [h0, hp] at this
            simp at this
          exact ⟨i.dropLast, i.getLast this, (List.dropLast_append_getLast this).symm⟩
        have hl : ip.length = pre.length := by
          have := hi.length
          rw [hp] at this
          simpa using this
        rw [hp] at hi
        have hj : j < m := by
          have := (inRange_append hl.symm).1 hi
          exact this.2.1
        simp only [List.length_append, List.length_cons, List.length_nil, Nat.zero_add, Nat.add_sub_cancel]
        rw [← hl]
        simp only [List.getD_eq_getElem?_getD, List.getElem?_concat_length, Option.getD_some]
        by_cases hm1 : m = 1
        · simp [proj, projRev, hm1]
          omega
        · simp [proj, projRev, hm1]
  obtain ⟨z, z1, z2⟩ := C30_matmul_value_partial (dot := dot) (x := Onnx.centred 2 za x) (y := Onnx.centred 1 zb y) hs hv
  refine ⟨z, ?_, z2⟩
  unfold Gen.matmulInteger
  rw [e1, Option.bind_some, e2, Option.bind_some]
  exact z1

example : (Onnx.matmul [2, 3] [3, 4]).isSome ∧ ZeroPoint (some ⟨[4], [1, 2, 3, 4], rfl⟩) (some (.dev ⟨[4], [1, 2, 3, 4], rfl⟩)) :=
  ⟨by decide, .vector rfl⟩

/-- A zero point for each row of the first operand is subtracted from its columns when the operand is square. -/
theorem C69_row_zero_point_wrong : ∃ (x y za z : Tensor Int) (dot : List Int → List Int → Int),
    dot = (fun a b => (List.zipWith (· * ·) a b).sum) ∧ (Onnx.matmul x.shape y.shape).isSome ∧ za.shape = x.shape.take 1 ∧ x.shape.length = 2 ∧
    Gen.matmulInteger dot (some (.dev za)) none x y = some z ∧ ¬Onnx.MatMul dot (Onnx.centred 2 (some za) x) y z := by
  refine ⟨⟨[2, 2], [1, 2, 3, 4], rfl⟩, ⟨[2, 2], [1, 0, 0, 1], rfl⟩, ⟨[2], [0, 1], rfl⟩, ⟨[2, 2], [1, 1, 3, 3], rfl⟩, _, rfl, by decide, rfl, rfl,
    by decide, ?_⟩
  rintro (⟨ba, bb, s, m, k, n, h1, h2, h3, h4, h5⟩ | ⟨bb, k, n, h1, _⟩ | ⟨ba, m, k, _, h1, _⟩ | ⟨k, h1, _⟩)
  · have e : ba = [] := by
      have := congrArg List.length h1
      simp [Onnx.centred, Tensor.ofFn] at this
      exact this
    have e' : bb = [] := by
      have := congrArg List.length h2
      simp at this
      exact this
    subst e e'
    obtain ⟨rfl, rfl⟩ : 2 = m ∧ 2 = k := by simpa [Onnx.centred, Tensor.ofFn] using h1
    obtain ⟨_, rfl⟩ : 2 = 2 ∧ 2 = n := by simpa using h2
    obtain rfl : s = [] := by simpa [bcast, bcastRev] using h3.symm
    have := h5 [] 0 1 trivial (by omega) (by omega)
    revert this
    decide
  · have := congrArg List.length h1
    simp [Onnx.centred, Tensor.ofFn] at this
  · have := congrArg List.length h1
    simp at this
  · have := congrArg List.length h1
    simp [Onnx.centred, Tensor.ofFn] at this

/-- A zero point for each row panics when the number of rows is neither 1 nor the number of columns. -/
theorem C69_row_zero_point_panics {dot : List Int → List Int → Int} {x y za : Tensor Int} {gb : Option (GVal Int)} {m k : Nat}
    (hx : x.shape = [m, k]) (hz : za.shape = [m]) (hm : m ≠ 1) (hmk : m ≠ k) (hk : k ≠ 1) :
    Gen.matmulInteger dot (some (.dev za)) gb x y = none := by
  have hu : Burn.unsqueeze za 2 = some ⟨[1, m], za.data, by rw [za.size, hz]; simp [prodShape]⟩ := by
    unfold Burn.unsqueeze
    rw [if_pos (by rw [hz]; simp)]
    unfold Burn.reshape
    rw [dif_pos (by rw [hz]; simp [prodShape])]
    congr 2
    rw [hz]
    rfl
  unfold Gen.matmulInteger Gen.centred
  simp only [hx, List.length_cons, List.length_nil, Nat.reduceAdd, Nat.lt_add_one, if_true, hu, Option.bind_some]
  have : bcast [m, k] [1, m] = none := by
    simp [bcast, bcastRev, hm, hk, Ne.symm hmk]
  unfold Burn.zip Tensor.zipBcast
  simp only [hx, this]
  rfl

example : ∃ m k : Nat, m ≠ 1 ∧ m ≠ k ∧ k ≠ 1 := ⟨2, 3, by decide⟩

/-- A zero point held outside the device is not accepted. -/
theorem C69_host_zero_point_fails {dot : List Int → List Int → Int} {x y : Tensor Int} {z : Int} {gb : Option (GVal Int)} :
    Gen.matmulInteger dot (some (.native z)) gb x y = none := rfl

end OnnxIR
