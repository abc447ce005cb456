import Verif.Model.GatherND
import Verif.Spec.GatherND
import Verif.Spec.Typing
import Verif.Lemmas.Flat
import Mathlib.Tactic.Ring

/-!
# C47: GatherND computes the elements ONNX defines
-/

namespace OnnxIR

open Onnx

variable {α : Type} [Inhabited α]

theorem flatIdx_append {a b i j : List Nat} (h : i.length = a.length) :
    flatIdx (a ++ b) (i ++ j) = flatIdx a i * prodShape b + flatIdx b j := by
  induction a generalizing i with
  | nil => cases i <;> simp_all [flatIdx]
  | cons d a ih =>
    cases i with
    | nil => simp at h
    | cons x i =>
      simp only [List.length_cons, Nat.add_right_cancel_iff] at h
      simp only [List.cons_append, flatIdx, ih h, prodShape_append]
      ring

theorem strides_eq (dims : List Nat) :
    ∀ j, (Gen.strides dims).getD j 0 = if j < dims.length then prodShape (dims.drop (j + 1)) else 0 := by
  induction dims with
  | nil => simp [Gen.strides]
  | cons d ds ih =>
    cases ds with
    | nil =>
      intro j
      cases j with
      | zero => simp [Gen.strides, prodShape]
      | succ j => simp [Gen.strides]
    | cons e ds =>
      intro j
      cases j with
      | zero =>
        have h0 := ih 0
        simp only [List.length_cons, Nat.zero_lt_succ, if_true, List.drop_succ_cons, List.drop_zero,
          Nat.zero_add] at h0
        simp only [Gen.strides, List.getD_cons_zero, List.length_cons, Nat.zero_lt_succ, if_true,
          Nat.zero_add, List.drop_succ_cons, List.drop_zero, prodShape]
        rw [Nat.mul_comm]
        congr 1
        rw [← h0]
        cases hs : Gen.strides (e :: ds) with
        | nil => cases ds <;> simp [Gen.strides] at hs
        | cons a as => simp
      | succ j =>
        have := ih j
        simp only [Gen.strides, List.getD_cons_succ, this, List.length_cons,
          Nat.add_lt_add_iff_right, List.drop_succ_cons]

theorem foldl_add (f : Nat → Nat) (l : List Nat) (a : Nat) :
    l.foldl (fun o j => o + f j) a = a + l.foldl (fun o j => o + f j) 0 := by
  induction l generalizing a with
  | nil => simp
  | cons x l ih => simp only [List.foldl_cons]; rw [ih, ih (0 + f x)]; omega

/-- The row-major position of an index is the sum of its components times the strides. -/
theorem sum_strides : ∀ (ks ss ik : List Nat), ik.length = ks.length →
    (List.range ks.length).foldl (fun o j => o + ik.getD j 0 * prodShape ((ks ++ ss).drop (j + 1))) 0
      = flatIdx ks ik * prodShape ss
  | [], ss, ik, h => by cases ik <;> simp_all [flatIdx]
  | d :: ks, ss, [], h => by simp at h
  | d :: ks, ss, x :: ik, h => by
    simp only [List.length_cons, Nat.add_right_cancel_iff] at h
    have ih := sum_strides ks ss ik h
    rw [List.length_cons, List.range_succ_eq_map, List.foldl_cons, List.foldl_map]
    rw [foldl_add]
    simp only [List.getD_cons_succ, List.cons_append, Nat.succ_eq_add_one, List.drop_succ_cons,
      List.getD_cons_zero, Nat.zero_add, List.drop_zero]
    rw [ih, flatIdx, prodShape_append]
    ring

theorem index_lt {d n : Nat} {i : Int} (h : index d i = some n) : n < d := by
  unfold index at h
  split at h
  · cases h; omega
  · split at h
    · cases h; omega
    · cases h

theorem wrapIdx_eq {d n : Nat} {i : Int} (h : index d i = some n) : Gen.wrapIdx d i = n := by
  unfold index at h
  unfold Gen.wrapIdx Infer.asUsize
  split at h
  · rename_i h1
    cases h
    have : ¬ i < 0 := by omega
    simp [this]
  · split at h
    · rename_i h1 h2
      cases h
      have : ¬ (i + (d : Int)) < 0 := by omega
      simp [h2.2, this]
    · cases h

theorem getD_append_right' {l m : List Nat} {b j : Nat} (h : l.length = b) :
    (l ++ m).getD (b + j) 0 = m.getD j 0 := by
  subst h
  simp [List.getD_eq_getElem?_getD, List.getElem?_append_right]

theorem foldl_congr_range {f g : Nat → Nat} (n a : Nat) (h : ∀ j, j < n → f j = g j) :
    (List.range n).foldl (fun o j => o + f j) a = (List.range n).foldl (fun o j => o + g j) a := by
  have : ∀ l : List Nat, (∀ j ∈ l, f j = g j) → ∀ a,
      l.foldl (fun o j => o + f j) a = l.foldl (fun o j => o + g j) a := by
    intro l
    induction l with
    | nil => intros; rfl
    | cons x l ih =>
      intro hl a
      simp only [List.foldl_cons]
      rw [hl x List.mem_cons_self]
      exact ih (fun j hj => hl j (List.mem_cons_of_mem _ hj)) _
  exact this _ (fun j hj => h j (List.mem_range.1 hj)) _

/-- The offset of a lookup is the position of the slice. -/
theorem lookupOffset_eq {bs ks ss ik : List Nat} {vals : List Int} {start lookup : Nat}
    (hl : ik.length = ks.length)
    (hv : ∀ j, j < ks.length →
      index (ks.getD j 0) (vals.getD (lookup * ks.length + j) 0) = some (ik.getD j 0)) :
    Gen.lookupOffset (bs ++ ks ++ ss) vals bs.length ks.length start lookup =
      start + flatIdx ks ik * prodShape ss := by
  unfold Gen.lookupOffset
  rw [foldl_add, ← sum_strides ks ss ik hl]
  congr 1
  refine foldl_congr_range _ _ ?_
  intro j hj
  rw [strides_eq, if_pos (by simp; omega), List.append_assoc, getD_append_right' rfl]
  have e1 : (ks ++ ss).getD j 0 = ks.getD j 0 := by
    simp [List.getD_eq_getElem?_getD, List.getElem?_append_left, hj]
  have e2 : (bs ++ (ks ++ ss)).drop (bs.length + j + 1) = (ks ++ ss).drop (j + 1) := by
    rw [Nat.add_assoc, List.drop_append]
    simp
  rw [e1, e2, wrapIdx_eq (hv j hj)]

theorem nested_indices (B L S : Nat) (f : Nat → Nat → Nat → Nat) :
    ((List.range B).flatMap fun b => (List.range L).flatMap fun l => (List.range S).map (f b l)) =
      (indices [B, L, S]).map fun i => f (i.getD 0 0) (i.getD 1 0) (i.getD 2 0) := by
  simp [indices, List.map_flatMap, Function.comp_def, ← List.map_eq_flatMap]

theorem index_lt_all {ks ik : List Nat} {v : Nat → Int} (hl : ik.length = ks.length)
    (hv : ∀ j, j < ks.length → index (ks.getD j 0) (v j) = some (ik.getD j 0)) : InRange ks ik := by
  induction ks generalizing ik v with
  | nil => cases ik <;> simp_all [InRange]
  | cons d ks ih =>
    cases ik with
    | nil => simp at hl
    | cons x ik =>
      refine ⟨?_, ih (v := fun j => v (j + 1)) (by simpa using hl) ?_⟩
      · have := index_lt (hv 0 (by simp))
        simpa using this
      · intro j hj
        simpa using hv (j + 1) (by simpa using hj)

theorem mapM_some {β γ : Type} {f : β → Option γ} {g : β → γ} :
    ∀ {l : List β}, (∀ x ∈ l, f x = some (g x)) → l.mapM f = some (l.map g)
  | [], _ => by simp
  | x :: l, h => by
    rw [List.mapM_cons, h x List.mem_cons_self,
      mapM_some (l := l) fun y hy => h y (List.mem_cons_of_mem _ hy)]
    rfl

/-- A component of an in-range index of a three-dimensional shape. -/
theorem inRange3 {B L S : Nat} {i : List Nat} (h : InRange [B, L, S] i) :
    ∃ b l s, i = [b, l, s] ∧ b < B ∧ l < L ∧ s < S := by
  match i, h with
  | [b, l, s], h => exact ⟨b, l, s, rfl, by simpa [InRange] using h⟩
  | [], h => simp [InRange] at h
  | [_], h => simp [InRange] at h
  | [_, _], h => simp [InRange] at h
  | _ :: _ :: _ :: _ :: _, h => simp [InRange] at h

/-- Every position below the size of a shape is the position of an index. -/
theorem exists_index {s : List Nat} {n : Nat} (h : n < prodShape s) :
    ∃ i, InRange s i ∧ flatIdx s i = n := by
  have : n ∈ (indices s).map (flatIdx s) := by rw [map_flatIdx_indices]; exact List.mem_range.2 h
  obtain ⟨i, hi, e⟩ := List.mem_map.1 this
  exact ⟨i, mem_indices.1 hi, e⟩

/-- GatherND, tensor result: for every data and index tensor on which ONNX defines the operator the
generated code runs and returns what ONNX defines. -/
theorem C47_gathernd_value {bs ls ks ss : List Nat} {data : Tensor α} {idx : Tensor Int}
    (hd : data.shape = bs ++ ks ++ ss) (hi : idx.shape = bs ++ ls ++ [ks.length])
    (hin : ∀ ib il, InRange bs ib → InRange ls il → ∀ j, j < ks.length →
      (index (ks.getD j 0) (idx.get (ib ++ il ++ [j]))).isSome) :
    ∃ y, Gen.gatherND bs.length data idx = some y ∧ GatherND bs.length data idx y := by
  -- the index tuple of a lookup
  have hik : ∀ ib il, InRange bs ib → InRange ls il → ∃ ik : List Nat, ik.length = ks.length ∧
      ∀ j, j < ks.length →
        index (ks.getD j 0) (idx.get (ib ++ il ++ [j])) = some (ik.getD j 0) := by
    intro ib il h1 h2
    refine ⟨(List.range ks.length).map fun j =>
      (index (ks.getD j 0) (idx.get (ib ++ il ++ [j]))).getD 0, by simp, ?_⟩
    intro j hj
    obtain ⟨n, hn⟩ := Option.isSome_iff_exists.1 (hin ib il h1 h2 j hj)
    rw [List.getD_eq_getElem?_getD (l := List.map _ _), List.getElem?_map, List.getElem?_range hj,
      Option.map_some, Option.getD_some, hn, Option.getD_some]
  have hq : idx.shape.length - 1 = bs.length + ls.length := by simp [hi]
  have hk : idx.shape.getD (idx.shape.length - 1) 0 = ks.length := by
    rw [hq, hi, List.append_assoc, getD_append_right' rfl]
    simp [List.getD_eq_getElem?_getD]
  have hB : data.shape.take bs.length = bs := by rw [hd, List.append_assoc, List.take_left']; rfl
  have hL : (idx.shape.take (idx.shape.length - 1)).drop bs.length = ls := by
    rw [hq, hi, List.take_left' (by simp), List.drop_left' rfl]
  have hS : data.shape.drop (bs.length + ks.length) = ss := by
    rw [hd, List.drop_left' (by simp)]
  have hT : data.shape.drop bs.length = ks ++ ss := by
    rw [hd, List.append_assoc, List.drop_left' rfl]
  have hshape : Gen.gatherNDShape data.shape idx.shape bs.length = bs ++ ls ++ ss := by
    simp only [Gen.gatherNDShape, hk, hB, hL, hS]
  -- positions of the index values
  have hval : ∀ ib il j, InRange bs ib → InRange ls il → j < ks.length →
      idx.data.getD ((flatIdx bs ib * prodShape ls + flatIdx ls il) * ks.length + j) 0 =
        idx.get (ib ++ il ++ [j]) := by
    intro ib il j h1 h2 hj
    unfold Tensor.get
    rw [hi, flatIdx_append (by simp [h1.length, h2.length]), flatIdx_append h1.length]
    simp only [prodShape, flatIdx, Nat.mul_one, Nat.add_zero]
    rfl
  -- the flat index of an output element
  have hflat : ∀ ib il is ik, InRange bs ib → InRange ls il → InRange ss is →
      ik.length = ks.length →
      (∀ j, j < ks.length →
        index (ks.getD j 0) (idx.get (ib ++ il ++ [j])) = some (ik.getD j 0)) →
      Gen.lookupOffset data.shape idx.data bs.length ks.length (flatIdx bs ib * prodShape (ks ++ ss))
        (flatIdx bs ib * prodShape ls + flatIdx ls il) + flatIdx ss is =
        flatIdx data.shape (ib ++ ik ++ is) := by
    intro ib il is ik h1 h2 h3 h4 h5
    rw [hd, lookupOffset_eq h4 fun j hj => by rw [hval ib il j h1 h2 hj]; exact h5 j hj]
    rw [List.append_assoc, List.append_assoc, flatIdx_append h1.length, flatIdx_append h4]
    ring
  have hfi : Gen.flatIndices data.shape idx.shape idx.data bs.length =
      (indices [prodShape bs, prodShape ls, prodShape ss]).map fun i =>
        Gen.lookupOffset data.shape idx.data bs.length ks.length
          (i.getD 0 0 * prodShape (ks ++ ss)) (i.getD 0 0 * prodShape ls + i.getD 1 0)
          + i.getD 2 0 := by
    simp only [Gen.flatIndices, hk, hB, hL, hS, hT]
    exact nested_indices _ _ _ fun b l s =>
      Gen.lookupOffset data.shape idx.data bs.length ks.length (b * prodShape (ks ++ ss))
        (b * prodShape ls + l) + s
  have hsel : Gen.select data.data (Gen.flatIndices data.shape idx.shape idx.data bs.length) =
      some ((Gen.flatIndices data.shape idx.shape idx.data bs.length).map
        (data.data.getD · default)) := by
    refine mapM_some ?_
    intro n hn
    rw [hfi] at hn
    obtain ⟨i, hi', rfl⟩ := List.mem_map.1 hn
    obtain ⟨b, l, s, rfl, hb, hl, hs⟩ := inRange3 (mem_indices.1 hi')
    obtain ⟨ib, r1, rfl⟩ := exists_index hb
    obtain ⟨il, r2, rfl⟩ := exists_index hl
    obtain ⟨is, r3, rfl⟩ := exists_index hs
    obtain ⟨ik, k1, k2⟩ := hik ib il r1 r2
    simp only [List.getD_cons_zero, List.getD_cons_succ]
    rw [hflat ib il is ik r1 r2 r3 k1 k2]
    have : flatIdx data.shape (ib ++ ik ++ is) < data.data.length := by
      rw [data.size]
      refine flatIdx_lt ?_
      rw [hd]
      rw [inRange_append (by simp [r1.length, k1]), inRange_append (by simp [r1.length])]
      exact ⟨⟨r1, index_lt_all k1 k2⟩, r3⟩
    rw [List.getD_eq_getElem?_getD, List.getElem?_eq_getElem this, Option.getD_some]
  have hlen : ((Gen.flatIndices data.shape idx.shape idx.data bs.length).map
      (data.data.getD · default)).length =
      prodShape (Gen.gatherNDShape data.shape idx.shape bs.length) := by
    rw [hshape, hfi, List.length_map, List.length_map, indices_length]
    simp only [prodShape_append, prodShape]
    ring
  refine ⟨⟨_, _, hlen⟩, ?_, bs, ls, ks, ss, rfl, hd, hi, hshape, ?_⟩
  · simp only [Gen.gatherND, hsel]
    rw [dif_pos hlen]
  · intro ib il is r1 r2 r3
    obtain ⟨ik, k1, k2⟩ := hik ib il r1 r2
    refine ⟨ik, k1, k2, ?_⟩
    rw [← show _ = data.get (ib ++ ik ++ is) from
      congrArg (data.data.getD · default) (hflat ib il is ik r1 r2 r3 k1 k2)]
    unfold Tensor.get
    simp only [hshape]
    rw [flatIdx_append (by simp [r1.length, r2.length]), flatIdx_append r1.length]
    have hr : InRange [prodShape bs, prodShape ls, prodShape ss]
        [flatIdx bs ib, flatIdx ls il, flatIdx ss is] := by
      simp [InRange, flatIdx_lt r1, flatIdx_lt r2, flatIdx_lt r3]
    have := Tensor.get_ofFn (f := fun i : List Nat => data.data.getD
      (Gen.lookupOffset data.shape idx.data bs.length ks.length
        (i.getD 0 0 * prodShape (ks ++ ss)) (i.getD 0 0 * prodShape ls + i.getD 1 0) + i.getD 2 0)
        default) hr
    simp only [Tensor.get, Tensor.ofFn, flatIdx, prodShape, Nat.mul_one, Nat.add_zero,
      List.getD_cons_zero, List.getD_cons_succ] at this
    rw [← this, hfi, List.map_map]
    congr 1
    ring

/-- GatherND, scalar result: one index tuple for all dimensions. -/
theorem C47_gathernd_scalar {data : Tensor α} {idx : Tensor Int} {ik : List Nat}
    (hl : ik.length = data.shape.length)
    (hin : ∀ j, j < data.shape.length →
      index (data.shape.getD j 0) (idx.data.getD j 0) = some (ik.getD j 0)) :
    Gen.gatherNDScalar 0 data idx = some (data.get ik) := by
  have h := lookupOffset_eq (bs := []) (ks := data.shape) (ss := []) (vals := idx.data) (start := 0)
    (lookup := 0) hl (by simpa using hin)
  simp only [List.nil_append, List.append_nil, List.length_nil, prodShape, Nat.mul_one,
    Nat.zero_add] at h
  unfold Gen.gatherNDScalar
  rw [Nat.sub_zero, h]
  have : flatIdx data.shape ik < data.data.length := by
    rw [data.size]; exact flatIdx_lt (index_lt_all hl hin)
  simp [Tensor.get, this, List.getD_eq_getElem?_getD]

/-- GatherND's inferred type: the rank of the ONNX result. -/
theorem C47_gathernd_type {b : Int} {data y : Tensor α} {idx : Tensor Int} {td ti u : ArgType}
    (hb : 0 ≤ b) (hd : td.Admits data.shape) (hi : ti.Admits idx.shape)
    (hy : GatherND b.toNat data idx y) (h : Infer.gatherND b td ti = some u) :
    u.Admits y.shape := by
  obtain ⟨bs, ls, ks, ss, e0, e1, e2, e3, -⟩ := hy
  have hbu : Infer.asUsize b = b.toNat := by simp [Infer.asUsize]; omega
  cases td with
  | tensor d =>
    cases ti with
    | tensor i =>
      simp only [Infer.gatherND, hbu] at h
      obtain ⟨hd1, -⟩ := hd
      obtain ⟨hi1, hi2⟩ := hi
      rw [e1] at hd1
      simp only [e2] at hi1 hi2
      simp only [List.length_append, List.length_cons, List.length_nil] at hd1 hi1
      split at h
      · cases h
      · split at h
        · cases h
        · rename_i k hk
          have hkk : k = ks.length := by
            rw [Option.bind_eq_some_iff] at hk
            obtain ⟨p, hp, hk⟩ := hk
            have hdes := hi2 p hp
            rw [Option.bind_eq_some_iff] at hk
            obtain ⟨o, ho, hk⟩ := hk
            simp only [id] at hk
            subst hk
            rw [List.getLast?_eq_getElem?] at ho
            have hlen : p.length = bs.length + ls.length + 1 := by
              have : ∀ {p : PShape} {s : List Nat}, p.Describes s → p.length = s.length := by
                intro p
                induction p with
                | nil => intro s hs; cases s <;> simp_all [PShape.Describes]
                | cons a p ih =>
                  intro s hs
                  cases s with
                  | nil => simp [PShape.Describes] at hs
                  | cons c s => simp [ih hs.2]
              rw [this hdes]; simp; omega
            have hget : ∀ {p : PShape} {s : List Nat} {n k : Nat}, p.Describes s →
                p[n]? = some (some k) → s[n]? = some k := by
              intro p
              induction p with
              | nil => intro s n k hs hp; simp at hp
              | cons a p ih =>
                intro s n k hs hp
                cases s with
                | nil => simp [PShape.Describes] at hs
                | cons c s =>
                  cases n with
                  | zero => simp at hp; simp [hs.1 k hp]
                  | succ n => simp at hp ⊢; exact ih hs.2 hp
            have := hget hdes ho
            rw [hlen] at this
            simp at this
            exact this.symm
          split at h
          · cases h
          · rw [e3]
            split at h
            · cases h
              have h1 : bs = [] := List.eq_nil_of_length_eq_zero (by omega)
              have h2 : ls = [] := List.eq_nil_of_length_eq_zero (by omega)
              have h3 : ss = [] := List.eq_nil_of_length_eq_zero (by omega)
              simp [ArgType.Admits, h1, h2, h3]
            · cases h
              refine ⟨?_, by simp⟩
              simp only [List.length_append]
              omega
    | _ => simp [Infer.gatherND] at h
  | _ => simp [Infer.gatherND] at h

/-- The hypotheses are met: one batch dimension, a negative index, slices of two elements. -/
example : (Gen.gatherND 1 (⟨[2, 2, 2], [0, 1, 2, 3, 4, 5, 6, 7], rfl⟩ : Tensor Nat)
    ⟨[2, 1, 1], [-1, 0], rfl⟩).map (fun y => (y.shape, y.data)) =
      some ([2, 1, 2], [2, 3, 4, 5]) := by decide
example : Gen.gatherNDScalar 0 (⟨[2, 2], [0, 1, 2, 3], rfl⟩ : Tensor Nat) ⟨[2], [1, -2], rfl⟩ =
    some 2 := by decide
example : Infer.gatherND 1 (.tensor ⟨.f32, 3, none⟩) (.tensor ⟨.i64, 3, some [none, none, some 1]⟩) =
    some (.tensor ⟨.f32, 3, none⟩) := rfl

end OnnxIR
