import Verif.Model.DepthSpace
import Verif.Spec.Typing
import Mathlib.Tactic.Ring

/-!
# C48: DepthToSpace and SpaceToDepth move every element where ONNX says
-/

namespace OnnxIR

open Onnx

variable {α : Type} [Inhabited α]

theorem permute_get {t : Tensor α} {perm i : List Nat}
    (hi : InRange (permShape t.shape perm) i) :
    (Burn.permute t perm).get i = t.get (unpermute t.shape.length perm i) :=
  Tensor.get_ofFn hi

private theorem step {x y z : Tensor α} {s6 s4 perm i4 i6 : List Nat} {j : List Nat}
    (h1 : Burn.reshape x s6 = some y) (h2 : Burn.reshape (Burn.permute y perm) s4 = some z)
    (hr : InRange (permShape s6 perm) i6)
    (e1 : flatIdx s4 i4 = flatIdx (permShape s6 perm) i6)
    (e2 : flatIdx s6 (unpermute s6.length perm i6) = flatIdx x.shape j) :
    z.get i4 = x.get j := by
  have hy := (Burn.reshape_get (i := []) h1).1
  have e3 : (Burn.permute y perm).shape = permShape s6 perm := by
    simp [Burn.permute, Tensor.transpose, Tensor.ofFn, hy]
  rw [Burn.reshape_get_eq h2 (j := i6) (by rw [e1, e3]), permute_get (by rw [hy]; exact hr), hy]
  exact Burn.reshape_get_eq h1 e2

/-- Whenever ONNX defines the result (rank 4, channels a multiple of the block area) the generated
DepthToSpace code runs and its result is the one ONNX defines, for every block size, shape and
element type. -/
theorem C48_depth_to_space (m : DepthMode) {bs b c' h w : Nat} {x : Tensor α} (hbs : 0 < bs)
    (hx : x.shape = [b, c' * (bs * bs), h, w]) :
    ∃ y, Gen.depthToSpace m bs x = some y ∧ DepthToSpace m bs x y := by
  have hdiv : c' * (bs * bs) / (bs * bs) = c' := Nat.mul_div_cancel _ (Nat.mul_pos hbs hbs)
  cases m with
  | dcr =>
    simp only [Gen.depthToSpace, hx, hdiv]
    obtain ⟨y, h1⟩ : ∃ y, Burn.reshape x [b, bs, bs, c', h, w] = some y :=
      Option.isSome_iff_exists.1 (Burn.reshape_isSome.2 (by simp only [hx, prodShape]; ring))
    have hy := (Burn.reshape_get (i := []) h1).1
    obtain ⟨z, h2⟩ : ∃ z, Burn.reshape (Burn.permute y [0, 3, 4, 1, 5, 2])
        [b, c', h * bs, w * bs] = some z :=
      Option.isSome_iff_exists.1 (Burn.reshape_isSome.2 (by
        simp [-mul_eq_mul_left_iff, -mul_eq_mul_right_iff, -Nat.add_right_cancel_iff,
        -Nat.add_left_cancel_iff, Burn.permute, Tensor.transpose, Tensor.ofFn, hy, permShape, prodShape]; ring))
    refine ⟨z, by rw [h1]; exact h2, b, c', h, w, hx, (Burn.reshape_get (i := []) h2).1, ?_⟩
    intro n c i p j q hn hc hi hp hj hq
    refine step h1 h2 (i6 := [n, c, i, p, j, q]) ?_ ?_ ?_
    · simp [permShape, InRange, *]
    · simp [-mul_eq_mul_left_iff, -mul_eq_mul_right_iff, -Nat.add_right_cancel_iff,
        -Nat.add_left_cancel_iff, permShape, flatIdx, prodShape]; ring
    · simp [-mul_eq_mul_left_iff, -mul_eq_mul_right_iff, -Nat.add_right_cancel_iff,
        -Nat.add_left_cancel_iff, unpermute, List.range, List.range.loop, List.idxOf_cons, flatIdx, prodShape, hx,
        DepthMode.channel]; ring
  | crd =>
    simp only [Gen.depthToSpace, hx, hdiv]
    obtain ⟨y, h1⟩ : ∃ y, Burn.reshape x [b, c', bs, bs, h, w] = some y :=
      Option.isSome_iff_exists.1 (Burn.reshape_isSome.2 (by simp only [hx, prodShape]; ring))
    have hy := (Burn.reshape_get (i := []) h1).1
    obtain ⟨z, h2⟩ : ∃ z, Burn.reshape (Burn.permute y [0, 1, 4, 2, 5, 3])
        [b, c', h * bs, w * bs] = some z :=
      Option.isSome_iff_exists.1 (Burn.reshape_isSome.2 (by
        simp [-mul_eq_mul_left_iff, -mul_eq_mul_right_iff, -Nat.add_right_cancel_iff,
        -Nat.add_left_cancel_iff, Burn.permute, Tensor.transpose, Tensor.ofFn, hy, permShape, prodShape]; ring))
    refine ⟨z, by rw [h1]; exact h2, b, c', h, w, hx, (Burn.reshape_get (i := []) h2).1, ?_⟩
    intro n c i p j q hn hc hi hp hj hq
    refine step h1 h2 (i6 := [n, c, i, p, j, q]) ?_ ?_ ?_
    · simp [permShape, InRange, *]
    · simp [-mul_eq_mul_left_iff, -mul_eq_mul_right_iff, -Nat.add_right_cancel_iff,
        -Nat.add_left_cancel_iff, permShape, flatIdx, prodShape]; ring
    · simp [-mul_eq_mul_left_iff, -mul_eq_mul_right_iff, -Nat.add_right_cancel_iff,
        -Nat.add_left_cancel_iff, unpermute, List.range, List.range.loop, List.idxOf_cons, flatIdx, prodShape, hx,
        DepthMode.channel]; ring

/-- The same for SpaceToDepth. -/
theorem C48_space_to_depth {bs b c' h w : Nat} {x : Tensor α} (hbs : 0 < bs)
    (hx : x.shape = [b, c', h * bs, w * bs]) :
    ∃ y, Gen.spaceToDepth bs x = some y ∧ SpaceToDepth bs x y := by
  simp only [Gen.spaceToDepth, hx, Nat.mul_div_cancel _ hbs]
  obtain ⟨y, h1⟩ : ∃ y, Burn.reshape x [b, c', h, bs, w, bs] = some y :=
    Option.isSome_iff_exists.1 (Burn.reshape_isSome.2 (by simp only [hx, prodShape]; ring))
  have hy := (Burn.reshape_get (i := []) h1).1
  obtain ⟨z, h2⟩ : ∃ z, Burn.reshape (Burn.permute y [0, 3, 5, 1, 2, 4])
      [b, c' * bs * bs, h, w] = some z :=
    Option.isSome_iff_exists.1 (Burn.reshape_isSome.2 (by
      simp [-mul_eq_mul_left_iff, -mul_eq_mul_right_iff, -Nat.add_right_cancel_iff,
        -Nat.add_left_cancel_iff, Burn.permute, Tensor.transpose, Tensor.ofFn, hy, permShape, prodShape]; ring))
  refine ⟨z, by rw [h1]; exact h2, b, c', h, w, hx,
    by rw [(Burn.reshape_get (i := []) h2).1, Nat.mul_assoc], ?_⟩
  intro n c i p j q hn hc hi hp hj hq
  refine step h1 h2 (i6 := [n, p, q, c, i, j]) ?_ ?_ ?_
  · simp [permShape, InRange, *]
  · simp [-mul_eq_mul_left_iff, -mul_eq_mul_right_iff, -Nat.add_right_cancel_iff,
        -Nat.add_left_cancel_iff, permShape, flatIdx, prodShape]; ring
  · simp [-mul_eq_mul_left_iff, -mul_eq_mul_right_iff, -Nat.add_right_cancel_iff,
        -Nat.add_left_cancel_iff, unpermute, List.range, List.range.loop, List.idxOf_cons, flatIdx, prodShape, hx]; ring

/-- A DepthToSpace result is determined: two tensors satisfying the specification are equal. -/
theorem C48_depth_to_space_unique {m : DepthMode} {bs : Nat} (hbs : 0 < bs) {x y z : Tensor α}
    (hy : DepthToSpace m bs x y) (hz : DepthToSpace m bs x z) : y = z := by
  obtain ⟨b, c', h, w, e1, e2, e3⟩ := hy
  obtain ⟨b2, c2, h2, w2, f1, f2, f3⟩ := hz
  rw [e1] at f1
  simp only [List.cons.injEq, and_true] at f1
  obtain ⟨rfl, f12, rfl, rfl⟩ := f1
  have hc : c' = c2 := Nat.eq_of_mul_eq_mul_right (Nat.mul_pos hbs hbs) f12
  subst hc
  refine Tensor.eq_of_get (by rw [e2, f2]) ?_
  intro i hi
  rw [e2] at hi
  match i, hi with
  | [n, c, r, s], hi =>
    simp only [InRange, and_true] at hi
    obtain ⟨h1, h2, h3, h4⟩ := hi
    have hr : r = r / bs * bs + r % bs := (Nat.div_add_mod' r bs).symm
    have hs : s = s / bs * bs + s % bs := (Nat.div_add_mod' s bs).symm
    have hr' : r / bs < h := Nat.div_lt_of_lt_mul (by rwa [Nat.mul_comm] at h3)
    have hs' : s / bs < w := Nat.div_lt_of_lt_mul (by rwa [Nat.mul_comm] at h4)
    rw [hr, hs, e3 n c _ _ _ _ h1 h2 hr' (Nat.mod_lt _ hbs) hs' (Nat.mod_lt _ hbs),
      f3 n c _ _ _ _ h1 h2 hr' (Nat.mod_lt _ hbs) hs' (Nat.mod_lt _ hbs)]
  | [], hi => simp [InRange] at hi
  | [_], hi => simp [InRange] at hi
  | [_, _], hi => simp [InRange] at hi
  | [_, _, _], hi => simp [InRange] at hi
  | _ :: _ :: _ :: _ :: _ :: _, hi => simp [InRange] at hi

/-- SpaceToDepth undoes DepthToSpace (DCR), in the generated code: no element is lost or
duplicated. -/
theorem C48_inverse {bs b c' h w : Nat} {x : Tensor α} (hbs : 0 < bs)
    (hx : x.shape = [b, c', h * bs, w * bs]) :
    ((Gen.spaceToDepth bs x).bind (Gen.depthToSpace .dcr bs)) = some x := by
  obtain ⟨y, h1, b', c1, h', w', e1, e2, e3⟩ := C48_space_to_depth hbs hx
  obtain ⟨z, h2, hz⟩ := C48_depth_to_space .dcr hbs e2
  rw [h1, Option.bind_some, h2]
  refine congrArg some (C48_depth_to_space_unique hbs hz ⟨b', c1, h', w', e2, e1, ?_⟩)
  intro n c i p j q hn hc hi hp hj hq
  exact (e3 n c i p j q hn hc hi hp hj hq).symm

/-- What SpaceToDepth asks for settles the result. -/
theorem C48_space_to_depth_unique {bs : Nat} (hbs : 0 < bs) {x y z : Tensor α}
    (hy : SpaceToDepth bs x y) (hz : SpaceToDepth bs x z) : y = z := by
  obtain ⟨b, c', h, w, e1, e2, e3⟩ := hy
  obtain ⟨b2, c2, h2, w2, f1, f2, f3⟩ := hz
  rw [e1] at f1
  simp only [List.cons.injEq, and_true] at f1
  obtain ⟨rfl, rfl, g1, g2⟩ := f1
  obtain rfl : h = h2 := Nat.eq_of_mul_eq_mul_right hbs g1
  obtain rfl : w = w2 := Nat.eq_of_mul_eq_mul_right hbs g2
  refine Tensor.eq_of_get (by rw [e2, f2]) ?_
  intro i hi
  rw [e2] at hi
  match i, hi with
  | [n, c, r, s], hi =>
    simp only [InRange, and_true] at hi
    obtain ⟨h1, h2, h3, h4⟩ := hi
    have hc' : 0 < c' := Nat.pos_of_ne_zero fun e => by simp [e] at h2
    have hk : c / c' < bs * bs := Nat.div_lt_of_lt_mul h2
    have hc : c = (c / c' / bs * bs + c / c' % bs) * c' + c % c' := by
      rw [Nat.div_add_mod', Nat.div_add_mod']
    have hp : c / c' / bs < bs := Nat.div_lt_of_lt_mul hk
    rw [hc, e3 n _ _ _ _ _ h1 (Nat.mod_lt _ hc') h3 hp h4 (Nat.mod_lt _ hbs),
      f3 n _ _ _ _ _ h1 (Nat.mod_lt _ hc') h3 hp h4 (Nat.mod_lt _ hbs)]
  | [], hi => simp [InRange] at hi
  | [_], hi => simp [InRange] at hi
  | [_, _], hi => simp [InRange] at hi
  | [_, _, _], hi => simp [InRange] at hi
  | _ :: _ :: _ :: _ :: _ :: _, hi => simp [InRange] at hi

/-- The inferred types describe the results. -/
theorem C48_depth_to_space_type {m : DepthMode} {bs : Nat} {x y : Tensor α} {t u : ArgType}
    (hx : t.Admits x.shape) (hy : DepthToSpace m bs x y) (h : Infer.depthToSpace bs t = some u) :
    u.Admits y.shape := by
  obtain ⟨b, c', hh, w, e1, e2, -⟩ := hy
  cases t with
  | tensor t =>
    simp only [Infer.depthToSpace] at h
    rw [e1] at hx
    rw [e2]
    split at h
    · cases h
    · rename_i hg
      simp only [not_or, Decidable.not_not] at hg
      have hp : 0 < bs * bs := Nat.mul_pos (by omega) (by omega)
      split at h
      · cases h
        exact ⟨hx.1, by simp⟩
      · rename_i b0 c0 h0 w0 hs
        cases h
        have := hx.2 _ hs
        simp only [PShape.Describes, and_true] at this
        refine ⟨hx.1, ?_⟩
        intro p hp'
        cases hp'
        simp only [PShape.Describes, and_true, Option.map_eq_some_iff]
        refine ⟨this.1, ?_, ?_, ?_⟩
        · rintro k ⟨a, rfl, rfl⟩
          rw [this.2.1 a rfl, Nat.mul_div_cancel _ hp]
        · rintro k ⟨a, rfl, rfl⟩
          rw [this.2.2.1 a rfl]
        · rintro k ⟨a, rfl, rfl⟩
          rw [this.2.2.2 a rfl]
      · cases h
  | _ => simp [Infer.depthToSpace] at h

theorem C48_space_to_depth_type {bs : Nat} {x y : Tensor α} {t u : ArgType}
    (hx : t.Admits x.shape) (hy : SpaceToDepth bs x y) (h : Infer.spaceToDepth bs t = some u) :
    u.Admits y.shape := by
  obtain ⟨b, c', hh, w, e1, e2, -⟩ := hy
  cases t with
  | tensor t =>
    simp only [Infer.spaceToDepth] at h
    rw [e1] at hx
    rw [e2]
    split at h
    · cases h
    · rename_i hg
      simp only [not_or, Decidable.not_not] at hg
      have hp : 0 < bs := by omega
      split at h
      · cases h
        exact ⟨hx.1, by simp⟩
      · rename_i b0 c0 h0 w0 hs
        cases h
        have := hx.2 _ hs
        simp only [PShape.Describes, and_true] at this
        refine ⟨hx.1, ?_⟩
        intro p hp'
        cases hp'
        simp only [PShape.Describes, and_true, Option.map_eq_some_iff]
        refine ⟨this.1, ?_, ?_, ?_⟩
        · rintro k ⟨a, rfl, rfl⟩
          rw [this.2.1 a rfl, Nat.mul_assoc]
        · rintro k ⟨a, rfl, rfl⟩
          rw [this.2.2.1 a rfl, Nat.mul_div_cancel _ hp]
        · rintro k ⟨a, rfl, rfl⟩
          rw [this.2.2.2 a rfl, Nat.mul_div_cancel _ hp]
      · cases h
  | _ => simp [Infer.spaceToDepth] at h

/-- The hypotheses are met: four channels, block size two. -/
example : (Gen.depthToSpace .dcr 2 (⟨[1, 8, 1, 1], [0, 1, 2, 3, 4, 5, 6, 7], rfl⟩ : Tensor Nat)).map
    (fun y => (y.shape, y.data)) = some ([1, 2, 2, 2], [0, 2, 4, 6, 1, 3, 5, 7]) := by decide
example : (Gen.depthToSpace .crd 2 (⟨[1, 8, 1, 1], [0, 1, 2, 3, 4, 5, 6, 7], rfl⟩ : Tensor Nat)).map
    (fun y => (y.shape, y.data)) = some ([1, 2, 2, 2], [0, 1, 2, 3, 4, 5, 6, 7]) := by decide
example : (Gen.spaceToDepth 2 (⟨[1, 1, 2, 4], [0, 1, 2, 3, 4, 5, 6, 7], rfl⟩ : Tensor Nat)).map
    (fun y => (y.shape, y.data)) = some ([1, 4, 1, 2], [0, 2, 1, 3, 4, 6, 5, 7]) := by decide
example : Infer.depthToSpace 2 (.tensor ⟨.f32, 4, some [none, some 8, some 3, none]⟩) =
    some (.tensor ⟨.f32, 4, some [none, some 2, some 6, none]⟩) := rfl

end OnnxIR
