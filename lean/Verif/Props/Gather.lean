import Verif.Model.Gather
import Verif.Props.GatherND
import Verif.Props.Views

/-!
# C59: Gather and GatherElements
-/

namespace OnnxIR

open Gen

variable {α : Type} [Inhabited α]

theorem inRange_split {A s B i : List Nat} (h : InRange (A ++ s ++ B) i) :
    ∃ ia ii ib, i = ia ++ ii ++ ib ∧ InRange A ia ∧ InRange s ii ∧ InRange B ib := by
  have hl := h.length
  simp only [List.length_append] at hl
  have e : i = (i.take A.length ++ (i.drop A.length).take s.length) ++ (i.drop A.length).drop s.length := by
    rw [List.append_assoc, List.take_append_drop, List.take_append_drop]
  rw [e] at h
  have h1 := (inRange_append (by simp; omega)).1 h
  have h2 := (inRange_append (by simp; omega)).1 h1.1
  exact ⟨_, _, _, e, h2.1, h2.2, h1.2⟩

/-- ONNX's Gather determines its result. -/
theorem gather_unique {a : Nat} {X Z W : Tensor α} {I : Tensor Int} (h1 : Onnx.GatherT a X I Z) (h2 : Onnx.GatherT a X I W) :
    Z = W := by
  refine Tensor.eq_of_get (by rw [h1.shape, h2.shape]) ?_
  intro i hi
  rw [h1.shape] at hi
  obtain ⟨ia, ii, ib, rfl, q1, q2, q3⟩ := inRange_split hi
  obtain ⟨j, e1, e2⟩ := h1.elems ia ii ib q1 q2 q3
  obtain ⟨j', e3, e4⟩ := h2.elems ia ii ib q1 q2 q3
  rw [e1] at e3; cases e3
  rw [e2, e4]

theorem split_at {s : List Nat} {a : Nat} (h : a < s.length) : s = s.take a ++ s.getD a 0 :: s.drop (a + 1) := by
  have : s.getD a 0 = s[a] := by simp [h]
  rw [this, List.getElem_cons_drop, List.take_append_drop]

theorem Tensor.mem_data {t : Tensor α} {i : List Nat} (h : InRange t.shape i) : t.get i ∈ t.data := by
  rw [t.data_eq]
  exact List.mem_map_of_mem (mem_indices.2 h)

/-- Selecting with the indices in a row: the elements of Gather, in row-major order. -/
theorem select_gather {pick : Nat → Int → Option Nat} {a : Nat} {X Z : Tensor α} {I J : Tensor Int} (h : Onnx.GatherT a X I Z)
    (hJ : J.data = I.data) (hJr : J.shape.length = 1)
    (hp : ∀ x ∈ I.data, pick (X.shape.getD a 0) x = Onnx.index (X.shape.getD a 0) x) :
    ∃ u, Burn.select pick X a J = some u ∧ u.shape = X.shape.take a ++ prodShape I.shape :: X.shape.drop (a + 1) ∧
      u.data = Z.data := by
  have hs := split_at h.axis
  have hc : a < X.shape.length ∧ J.shape.length = 1 ∧ ∀ x ∈ J.data, (pick (X.shape.getD a 0) x).isSome :=
    ⟨h.axis, hJr, fun x hx => by rw [hJ] at hx; rw [hp x hx]; exact h.valid x hx⟩
  have hlen : (X.shape.take a).length = a := by simp; omega
  have hset : ∀ n, X.shape.set a n = X.shape.take a ++ n :: X.shape.drop (a + 1) := by
    intro n
    exact List.set_eq_take_append_cons_drop .. |>.trans (by simp [h.axis])
  have hdl : J.data.length = prodShape I.shape := by rw [hJ, I.size]
  refine ⟨_, if_pos hc, ?_, ?_⟩
  · simp only [Tensor.ofFn, hset, hdl]
  · have hsz : prodShape (X.shape.take a ++ I.shape ++ X.shape.drop (a + 1)) =
        prodShape (X.shape.take a ++ prodShape I.shape :: X.shape.drop (a + 1)) := by
      simp [prodShape_append, prodShape]
    generalize hu : Tensor.ofFn (X.shape.set a J.data.length) (fun i =>
      X.get (i.set a ((pick (X.shape.getD a 0) (J.data.getD (i.getD a 0) 0)).getD 0))) = u
    have hush : u.shape = X.shape.take a ++ prodShape I.shape :: X.shape.drop (a + 1) := by
      rw [← hu]; simp only [Tensor.ofFn, hset, hdl]
    have hre : Burn.reshape u (X.shape.take a ++ I.shape ++ X.shape.drop (a + 1)) =
        some ⟨X.shape.take a ++ I.shape ++ X.shape.drop (a + 1), u.data, by rw [u.size, hush, hsz]⟩ := by
      unfold Burn.reshape
      rw [dif_pos (by rw [hush, hsz])]
    have : (⟨X.shape.take a ++ I.shape ++ X.shape.drop (a + 1), u.data, by rw [u.size, hush, hsz]⟩ : Tensor α) = Z := by
      refine gather_unique ⟨h.axis, h.valid, rfl, ?_⟩ h
      intro ia ii ib q1 q2 q3
      obtain ⟨j, e1, _⟩ := h.elems ia ii ib q1 q2 q3
      refine ⟨j, e1, ?_⟩
      have hk := flatIdx_lt q2
      have hal : ia.length = a := by rw [q1.length, hlen]
      have hin : InRange u.shape (ia ++ flatIdx I.shape ii :: ib) := by
        rw [hush, inRange_append (by rw [q1.length])]
        exact ⟨q1, hk, q3⟩
      have e : flatIdx (X.shape.take a ++ I.shape ++ X.shape.drop (a + 1)) (ia ++ ii ++ ib) =
          flatIdx u.shape (ia ++ flatIdx I.shape ii :: ib) := by
        rw [hush, flatIdx_append (by simp [q1.length, q2.length]), flatIdx_append q1.length, flatIdx_append q1.length]
        simp only [flatIdx, prodShape, Nat.add_mul]
        rw [Nat.mul_assoc, Nat.add_assoc]
      rw [Burn.reshape_get_eq hre e]
      rw [← hu, Tensor.get_ofFn (by rw [← hu] at hin; exact hin)]
      have e2 : (ia ++ flatIdx I.shape ii :: ib).getD a 0 = flatIdx I.shape ii := by
        simp [List.getD_eq_getElem?_getD, ← hal]
      have e3 : J.data.getD (flatIdx I.shape ii) 0 = I.get ii := by
        rw [hJ]; rfl
      rw [e2, e3, hp _ (Tensor.mem_data q2), e1]
      congr 1
      rw [← hal]
      simp
    rw [← this]

/-- A result with the elements of ONNX's result and its own shape, seen at the shape that the indices give. -/
theorem gather_reshape {a : Nat} {X Z u : Tensor α} {I : Tensor Int} (h : Onnx.GatherT a X I Z) (hu : u.data = Z.data) :
    Burn.reshape u (X.shape.take a ++ I.shape ++ X.shape.drop (a + 1)) = some Z := by
  unfold Burn.reshape
  rw [dif_pos (by rw [← u.size, hu, Z.size, h.shape])]
  congr 1
  exact Tensor.ext h.shape.symm hu

/-- Slicing with one number is selecting it, negative numbers from the back. -/
theorem sliceAt_select (t : Tensor α) (a : Nat) (k : Int) : Burn.sliceAt t a k = Burn.select Onnx.index t a (indexTensor [k]) := by
  unfold Burn.sliceAt Burn.select
  by_cases h : a < t.shape.length ∧ -(t.shape.getD a 0 : Int) ≤ k ∧ k < t.shape.getD a 0
  · have hs : Onnx.index (t.shape.getD a 0) k = some (if 0 ≤ k then k.toNat else (k + t.shape.getD a 0).toNat) := by
      unfold Onnx.index
      by_cases h0 : 0 ≤ k
      · rw [if_pos ⟨h0, h.2.2⟩, if_pos h0]
      · rw [if_neg (by omega), if_pos ⟨h.2.1, by omega⟩, if_neg h0]
    have hc : a < t.shape.length ∧ (indexTensor [k]).shape.length = 1 ∧
        ∀ x ∈ (indexTensor [k]).data, (Onnx.index (t.shape.getD a 0) x).isSome := by
      refine ⟨h.1, rfl, fun x hx => ?_⟩
      have : x = k := by simpa [indexTensor] using hx
      rw [this, hs]; rfl
    rw [if_pos h, if_pos hc]
    congr 1
    refine Tensor.eq_of_get (by rfl) fun i hi => ?_
    have hi : InRange (t.shape.set a 1) i := hi
    rw [Tensor.get_ofFn hi, Tensor.get_ofFn (s := t.shape.set a (indexTensor [k]).data.length) hi]
    have h0 : i.getD a 0 = 0 := by
      have := (inRange_set h.1).1 hi
      omega
    have e : (indexTensor [k]).data.getD (i.getD a 0) 0 = k := by rw [h0]; rfl
    rw [e, hs]; rfl
  · rw [if_neg h, if_neg]
    rintro ⟨h1, _, h3⟩
    refine h ⟨h1, ?_⟩
    have := h3 k (by simp [indexTensor])
    unfold Onnx.index at this
    split at this
    · omega
    · split at this
      · omega
      · cases this

theorem indexScalar_ok {it : ArgType} {i : GVal Int} {I : Tensor Int} (hi : Reps id it i I) (hs : it.isScalar = true) :
    ∃ k, indexScalar i = some k ∧ I.shape = [] ∧ I.data = [k] := by
  cases it with
  | scalarNative d =>
    cases i with
    | native k => exact ⟨k, rfl, hi.1, hi.2⟩
    | _ => exact hi.elim
  | scalarTensor d =>
    cases i with
    | dev u =>
      obtain ⟨h1, h2, h3⟩ := hi
      have hl := I.size
      rw [h2] at hl
      obtain ⟨k, hk⟩ := List.length_eq_one_iff.1 hl
      exact ⟨k, by simp [indexScalar, Burn.intoScalar, h3, hk], h2, hk⟩
    | _ => exact hi.elim
  | _ => simp [ArgType.isScalar] at hs

/-- Looking up an array of sizes is ONNX's index. -/
theorem shapeAt_index (l : List Int) (i : Int) :
    shapeAt l i = (Onnx.index l.length i).map fun j => l.getD j 0 := by
  unfold shapeAt Onnx.index
  have key : ∀ k : Nat, k < l.length → l[k]? = some (l.getD k 0) := by intro k hk; simp [hk]
  by_cases h0 : i < 0
  · simp only [h0, if_true]
    by_cases h1 : -(l.length : Int) ≤ i
    · rw [if_neg (c := (l.length : Int) + i < 0) (by omega), if_neg (by omega), if_pos ⟨h1, trivial⟩, Option.map_some, Int.add_comm]
      exact key _ (by omega)
    · rw [if_pos (by omega), if_neg (by omega), if_neg (by omega)]; rfl
  · simp only [h0, if_false, and_false]
    by_cases h1 : i < l.length
    · rw [if_pos ⟨by omega, h1⟩]
      exact key _ (by omega)
    · rw [if_neg (by omega)]
      simp only [Option.map_none]
      exact List.getElem?_eq_none (by omega)

/-- Where an array of sizes is looked up. -/
theorem shape_lookups {ofInt : Int → α} {l : List Int} {X Z : Tensor α} {I : Tensor Int} (hX : X.shape = [l.length])
    (hXd : X.data = l.map ofInt) (h : Onnx.GatherT 0 X I Z) :
    ∃ xs, I.data.mapM (shapeAt l) = some xs ∧ xs.length = I.data.length ∧ Z.data = xs.map ofInt := by
  have hd : X.shape.getD 0 0 = l.length := by rw [hX]; rfl
  have hsome : ∀ x ∈ I.data, shapeAt l x = some (l.getD ((Onnx.index l.length x).getD 0) 0) := by
    intro x hx
    have := h.valid x hx
    rw [hd] at this
    obtain ⟨j, hj⟩ := Option.isSome_iff_exists.1 this
    rw [shapeAt_index, hj]; rfl
  have hmap : ∀ js : List Int, (∀ x ∈ js, x ∈ I.data) →
      js.mapM (shapeAt l) = some (js.map fun x => l.getD ((Onnx.index l.length x).getD 0) 0) := by
    intro js
    induction js with
    | nil => intro _; rfl
    | cons j js ih =>
      intro hm
      rw [List.mapM_cons, hsome j (hm j (by simp)), ih fun x hx => hm x (by simp [hx])]
      rfl
  refine ⟨_, hmap _ (fun _ hx => hx), by simp, ?_⟩
  have hZs : Z.shape = I.shape := by rw [h.shape, hX]; simp
  rw [Z.data_eq, I.data_eq, hZs, List.map_map, List.map_map]
  refine List.map_congr_left fun i hi => ?_
  have hi := mem_indices.1 hi
  obtain ⟨j, e1, e2⟩ := h.elems [] i [] (by simp [InRange]) hi (by rw [hX]; simp [InRange])
  rw [hd] at e1
  have hj := index_lt e1
  simp only [List.nil_append, List.append_nil] at e2
  rw [e2]
  simp only [Function.comp, e1, Option.getD_some]
  simp [Tensor.get, hX, hXd, flatIdx, prodShape, hj]

/-- What C59 asks of the types: a rank-1 index tensor into an array of sizes has one element, and a scalar index into one is
an `i64`. -/
def GatherOk (xt it : ArgType) (I : Tensor Int) : Prop :=
  match xt, it with
  | .shape _, .tensor _ => I.shape = [1]
  | .shape _, .scalarNative d => d = .i64
  | .shape _, .scalarTensor d => d = .i64
  | _, _ => True

/-- **C59, Gather.** For every axis, data and indices for which ONNX's Gather is defined the generated code runs and gives the
ONNX result at the inferred type. Indices are taken as Burn takes them (`pick`), which has to be ONNX's reading on the indices
that occur. -/
theorem C59_gather_partial {pick : Nat → Int → Option Nat} {ofInt : Int → α} {axis : Int} {a : Nat} {xt it ot : ArgType}
    {x : GVal α} {i : GVal Int} {X Z : Tensor α} {I : Tensor Int} (hx : Reps ofInt xt x X) (hi : Reps id it i I)
    (ho : Infer.gather axis xt it = some ot) (ha : Onnx.index X.shape.length axis = some a) (hZ : Onnx.GatherT a X I Z)
    (hok : GatherOk xt it I) (hp : ∀ k ∈ I.data, pick (X.shape.getD a 0) k = Onnx.index (X.shape.getD a 0) k) :
    ∃ z, genGather pick ofInt axis xt it ot x i = some z ∧ Reps ofInt ot z Z := by
  have halt := hZ.axis
  unfold Infer.gather at ho
  simp only at ho
  split at ho
  · cases ho
  next hrange =>
  cases xt with
  | scalarTensor d =>
    cases x with
    | dev u => obtain ⟨_, h2, _⟩ := hx; rw [h2] at halt; simp at halt
    | _ => exact hx.elim
  | scalarNative d =>
    cases x with
    | native u => obtain ⟨h2, _⟩ := hx; rw [h2] at halt; simp at halt
    | _ => exact hx.elim
  | shape n =>
    cases x with
    | dev u => exact hx.elim
    | native u => exact hx.elim
    | shape l =>
      obtain ⟨hx1, hx2, hx3⟩ := hx
      have ha0 : a = 0 := by rw [hx2] at halt; simp at halt; exact halt
      subst ha0
      obtain ⟨xs, m1, m2, m3⟩ := shape_lookups (by rw [hx2, hx1]) hx3 hZ
      have hZs : Z.shape = I.shape := by rw [hZ.shape, hx2]; simp
      cases it with
      | scalarNative d =>
        obtain ⟨k, k1, k2, k3⟩ := indexScalar_ok hi rfl
        have hok : d = .i64 := hok
        subst hok
        rw [k3] at m1 m2
        cases hk : shapeAt l k with
        | none => simp [hk] at m1
        | some y =>
          have e : xs = [y] := by simpa [hk] using m1.symm
          simp only [Infer.gatherIdxRank, if_true] at ho
          cases ho
          refine ⟨.native (ofInt y), ?_, by rw [hZs, k2], by rw [m3, e]; rfl⟩
          simp [genGather, gatherShape, ArgType.isScalar, ArgType.elemType, k1, hk]
      | scalarTensor d =>
        obtain ⟨k, k1, k2, k3⟩ := indexScalar_ok hi rfl
        have hok : d = .i64 := hok
        subst hok
        rw [k3] at m1 m2
        cases hk : shapeAt l k with
        | none => simp [hk] at m1
        | some y =>
          have e : xs = [y] := by simpa [hk] using m1.symm
          simp only [Infer.gatherIdxRank, if_true] at ho
          cases ho
          refine ⟨.native (ofInt y), ?_, by rw [hZs, k2], by rw [m3, e]; rfl⟩
          simp [genGather, gatherShape, ArgType.isScalar, ArgType.elemType, k1, hk]
      | shape m =>
        cases i with
        | dev u => exact hi.elim
        | native u => exact hi.elim
        | shape js =>
          obtain ⟨i1, i2, i3⟩ := hi
          simp only [List.map_id] at i3
          simp only [Infer.gatherIdxRank, Nat.one_ne_zero, if_false] at ho
          cases ho
          rw [i3] at m1 m2
          refine ⟨.shape xs, ?_, by omega, by rw [hZs, i2], m3⟩
          simp only [genGather, gatherShape, m1, Option.bind_some]
          rw [if_pos (by omega)]
      | tensor t =>
        cases i with
        | native u => exact hi.elim
        | shape u => exact hi.elim
        | dev u =>
          obtain ⟨rfl, i2, i3⟩ := hi
          have hok : u.shape = [1] := hok
          have hr : t.rank = 1 := by rw [← i2, hok]; rfl
          have hlen : u.data.length = 1 := by rw [u.size, hok]; rfl
          simp only [Infer.gatherIdxRank, hr, Nat.one_ne_zero, if_false] at ho
          cases ho
          refine ⟨.shape xs, ?_, by omega, by rw [hZs, hok], m3⟩
          simp only [genGather, gatherShape, m1, Option.bind_some, hr, if_true]
          rw [if_pos (by omega)]
  | tensor t =>
    cases x with
    | native u => exact hx.elim
    | shape u => exact hx.elim
    | dev u =>
      obtain ⟨rfl, hx2, hx3⟩ := hx
      have haa : (if axis < 0 then axis + t.rank else axis).toNat = a := by
        rw [hx2] at ha
        unfold Onnx.index at ha
        split at ha
        · cases ha; rw [if_neg (by omega)]
        · split at ha
          · cases ha; rw [if_pos (by omega)]
          · cases ha
      have hdrop : (u.shape.drop (a + 1)).length = t.rank - (a + 1) := by rw [List.length_drop, hx2]
      have htake : (u.shape.take a).length = a := by rw [List.length_take]; omega
      have hZl : Z.shape.length = I.shape.length + t.rank - 1 := by
        rw [hZ.shape]
        simp only [List.length_append, hdrop, htake]
        omega
      simp only [genGather, haa]
      have scal : it.isScalar = true → Infer.gatherIdxRank it = 0 := by
        cases it <;> simp [ArgType.isScalar, Infer.gatherIdxRank]
      by_cases hs : it.isScalar = true
      · obtain ⟨k, k1, k2, k3⟩ := indexScalar_ok hi hs
        rw [scal hs] at ho
        obtain ⟨s, e1, e2, e3⟩ := select_gather (J := indexTensor [k]) hZ (by rw [k3]; rfl) rfl hp
        have hp1 : prodShape I.shape = 1 := by rw [k2]; rfl
        by_cases hr1 : 0 + t.rank - 1 = 0
        · simp only [hr1, if_true] at ho
          cases ho
          refine ⟨.dev s, ?_, ?_, ?_, e3⟩
          · simp [gatherTensor, hs, k1, e1]
          · have : a = 0 := by omega
            subst this
            have hd : u.shape.drop 1 = [] := List.eq_nil_of_length_eq_zero (by rw [hdrop]; omega)
            rw [e2, hp1]; simp [hd]
          · refine List.eq_nil_of_length_eq_zero ?_
            rw [hZl, k2]; simp; omega
        · simp only [hr1, if_false] at ho
          cases ho
          obtain ⟨s', e1', e2', e3'⟩ := select_gather (pick := Onnx.index) (J := indexTensor [k]) hZ (by rw [k3]; rfl) rfl
            (fun _ _ => rfl)
          have hsq : Burn.squeezeDim s' a = some Z := by
            have hget : s'.shape[a]? = some 1 := by
              rw [e2', hp1, List.getElem?_append_right (by omega)]
              simp [htake]
            have her : s'.shape.eraseIdx a = u.shape.take a ++ I.shape ++ u.shape.drop (a + 1) := by
              rw [e2', k2, List.eraseIdx_append_of_length_le (by omega), htake]
              simp
            unfold Burn.squeezeDim
            rw [if_pos hget, her]
            exact gather_reshape hZ e3'
          refine ⟨.dev Z, ?_, rfl, ?_, ?_⟩
          · cases it <;> simp [ArgType.isScalar] at hs <;>
              simp [gatherTensor, k1, sliceAt_select, e1', hsq]
          · rw [hZl, k2]; simp
          · simp; omega
      · cases it with
        | scalarNative d => simp [ArgType.isScalar] at hs
        | scalarTensor d => simp [ArgType.isScalar] at hs
        | shape m =>
          cases i with
          | dev w => exact hi.elim
          | native w => exact hi.elim
          | shape js =>
            obtain ⟨i1, i2, i3⟩ := hi
            simp only [List.map_id] at i3
            obtain ⟨s, e1, e2, e3⟩ := select_gather (J := indexTensor js) hZ (by rw [i3]; rfl) rfl hp
            have hgr : Infer.gatherIdxRank (.shape m) = 1 := rfl
            simp only [hgr, show ¬ (1 + t.rank - 1 = 0) by omega, if_false] at ho
            cases ho
            have hsZ : s = Z := by
              refine Tensor.ext ?_ e3
              rw [e2, hZ.shape, i2]
              simp [prodShape]
            subst hsZ
            refine ⟨.dev s, by simp [gatherTensor, e1], rfl, ?_, ?_⟩
            · rw [hZl, i2]; simp
            · simp; omega
        | tensor ti =>
          cases i with
          | native w => exact hi.elim
          | shape w => exact hi.elim
          | dev w =>
            obtain ⟨rfl, i2, i3⟩ := hi
            have hgr : Infer.gatherIdxRank (.tensor ti) = ti.rank := rfl
            simp only [hgr, show ¬ (ti.rank + t.rank - 1 = 0) by omega, if_false] at ho
            cases ho
            have hfl : Burn.reshape w [prodShape w.shape] = some ⟨[prodShape w.shape], w.data, by simp [prodShape, w.size]⟩ := by
              unfold Burn.reshape
              rw [dif_pos (by simp [prodShape])]
            obtain ⟨s, e1, e2, e3⟩ := select_gather (J := ⟨[prodShape w.shape], w.data, by simp [prodShape, w.size]⟩) hZ rfl rfl hp
            refine ⟨.dev Z, ?_, rfl, ?_, ?_⟩
            · simp only [gatherTensor, Burn.take]
              rw [if_pos (by rw [hx2, i2]; omega), hfl, Option.bind_some, e1, Option.bind_some, gather_reshape hZ e3]
              rfl
            · rw [hZl, i2]
            · simp; omega

/-- Burn's documented indices, from 0 on, are enough: any reading `pick` that has them right. -/
theorem index_nonneg {pick : Nat → Int → Option Nat} (hp : ∀ (d : Nat) (i : Int), 0 ≤ i → i < d → pick d i = some i.toNat)
    {d : Nat} {k : Int} (h0 : 0 ≤ k) (hk : (Onnx.index d k).isSome) : pick d k = Onnx.index d k := by
  unfold Onnx.index at hk ⊢
  split at hk
  next h => rw [if_pos h]; exact hp d k h.1 h.2
  next h => rw [if_neg (by omega)] at hk; cases hk

/-- **C59, GatherElements** (partial: outside the axis the indices have the dimensions of the data, as Burn documents; ONNX allows
smaller ones). -/
theorem C59_gather_elements_partial {pick : Nat → Int → Option Nat} {axis : Int} {a : Nat} {X Z : Tensor α} {I : Tensor Int}
    (ha : Onnx.index X.shape.length axis = some a) (hZ : Onnx.GatherElementsT a X I Z)
    (hs : I.shape.set a 0 = X.shape.set a 0)
    (hp : ∀ k ∈ I.data, pick (X.shape.getD a 0) k = Onnx.index (X.shape.getD a 0) k) :
    genGatherElements pick axis X I = some Z := by
  have haa : (if axis < 0 then axis + X.shape.length else axis).toNat = a := by
    unfold Onnx.index at ha
    split at ha
    · cases ha; rw [if_neg (by omega)]
    · split at ha
      · cases ha; rw [if_pos (by omega)]
      · cases ha
  unfold genGatherElements Burn.gather
  rw [haa, if_pos]
  · congr 1
    refine Tensor.eq_of_get hZ.shape.symm fun i hi => ?_
    have hi : InRange I.shape i := hi
    rw [Tensor.get_ofFn hi]
    obtain ⟨j, e1, _, e3⟩ := hZ.elems i hi
    rw [hp _ (Tensor.mem_data hi), e1, e3]
    rfl
  · refine ⟨hZ.axis, hs, fun i hi => ?_⟩
    have hi := mem_indices.1 hi
    obtain ⟨j, e1, e2, _⟩ := hZ.elems i hi
    exact ⟨j, by rw [hp _ (Tensor.mem_data hi), e1]; rfl, mem_indices.2 e2⟩

/-- Burn's reading of indices from 0 on. -/
def plainIndex (d : Nat) (i : Int) : Option Nat := if 0 ≤ i ∧ i < d then some i.toNat else none

/-- The rows of a matrix in another order, one of them twice. -/
def gatherX : Tensor Int := ⟨[2, 3], [1, 2, 3, 4, 5, 6], rfl⟩
/-- See `gatherX`. -/
def gatherI : Tensor Int := ⟨[2, 2], [1, 0, 2, 1], rfl⟩
/-- See `gatherX`. -/
def gatherZ : Tensor Int := ⟨[2, 2, 2], [2, 1, 3, 2, 5, 4, 6, 5], rfl⟩

theorem gather_of_dec {a : Nat} {X Z : Tensor Int} {I : Tensor Int} (h1 : a < X.shape.length)
    (h2 : ∀ x ∈ I.data, (Onnx.index (X.shape.getD a 0) x).isSome)
    (h3 : Z.shape = X.shape.take a ++ I.shape ++ X.shape.drop (a + 1))
    (h4 : ∀ ia ∈ indices (X.shape.take a), ∀ ii ∈ indices I.shape, ∀ ib ∈ indices (X.shape.drop (a + 1)),
      (Onnx.index (X.shape.getD a 0) (I.get ii)).map (fun j => X.get (ia ++ j :: ib)) = some (Z.get (ia ++ ii ++ ib))) :
    Onnx.GatherT a X I Z :=
  ⟨h1, h2, h3, fun ia ii ib q1 q2 q3 => by
    obtain ⟨j, e1, e2⟩ := Option.map_eq_some_iff.1 (h4 ia (mem_indices.2 q1) ii (mem_indices.2 q2) ib (mem_indices.2 q3))
    exact ⟨j, e1, e2.symm⟩⟩

theorem gatherZ_spec : Onnx.GatherT 1 gatherX gatherI gatherZ :=
  gather_of_dec (by decide) (by decide) (by decide) (by decide +kernel)

example : ∃ z, genGather plainIndex id (-1) (.tensor ⟨.f32, 2, none⟩) (.tensor ⟨.i64, 2, none⟩) (.tensor ⟨.f32, 3, none⟩)
    (.dev gatherX) (.dev gatherI) = some z ∧ Reps id (.tensor ⟨.f32, 3, none⟩) z gatherZ :=
  C59_gather_partial ⟨rfl, rfl, by decide⟩ ⟨rfl, rfl, by decide⟩ (by decide) (a := 1) (by decide) gatherZ_spec trivial (by decide)

/-- One column with a negative index: any reading of negative indices by `select` will do, the code slices. -/
example : ∃ z, genGather Onnx.index id 1 (.tensor ⟨.f32, 2, none⟩) (.scalarNative .i64) (.tensor ⟨.f32, 1, none⟩)
    (.dev gatherX) (.native (-1)) = some z ∧ Reps id (.tensor ⟨.f32, 1, none⟩) z ⟨[2], [3, 6], rfl⟩ :=
  C59_gather_partial (I := ⟨[], [-1], rfl⟩) ⟨rfl, rfl, by decide⟩ ⟨rfl, rfl⟩ (by decide) (a := 1) (by decide)
    (gather_of_dec (by decide) (by decide) (by decide) (by decide +kernel)) trivial (fun _ _ => rfl)

/-- Two sizes of an array, one from the back. -/
example : ∃ z, genGather plainIndex id 0 (.shape 3) (.shape 2) (.shape 2) (.shape [7, 8, 9]) (.shape [-1, 0]) = some z ∧
    Reps id (.shape 2) z (⟨[2], [9, 7], rfl⟩ : Tensor Int) := by
  refine ⟨_, rfl, rfl, rfl, rfl⟩

/-- A tensor of several indices into an array of sizes: the result is typed as an array with as many items as the indices have
dimensions, and the conversion panics. -/
theorem C59_gather_shape_tensor_panics :
    Infer.gather 0 (.shape 3) (.tensor ⟨.i64, 1, some [some 2]⟩) = some (.shape 1) ∧
    Onnx.GatherT 0 (⟨[3], [7, 8, 9], rfl⟩ : Tensor Int) ⟨[2], [0, 2], rfl⟩ ⟨[2], [7, 9], rfl⟩ ∧
    ∀ pick, genGather pick id 0 (.shape 3) (.tensor ⟨.i64, 1, some [some 2]⟩) (.shape 1) (.shape [7, 8, 9])
      (.dev ⟨[2], [0, 2], rfl⟩) = none :=
  ⟨by decide, gather_of_dec (by decide) (by decide) (by decide) (by decide +kernel), fun _ => rfl⟩

/-- A scalar `i32` index, legal in ONNX, into an array of sizes: the generated sum of an `i64` and an `i32` does not compile. -/
theorem C59_gather_shape_i32_fails (pick : Nat → Int → Option Nat) (k : Int) (l : List Int) (n : Nat) (hn : 0 < n) :
    Infer.gather 0 (.shape n) (.scalarNative .i32) = some (.scalarNative .i64) ∧
    genGather pick (id : Int → Int) 0 (.shape n) (.scalarNative .i32) (.scalarNative .i64) (.shape l) (.native k) = none := by
  refine ⟨?_, rfl⟩
  have h : ¬ (Infer.normAxis (Infer.gatherDim (.shape n)) 0 < 0 ∨
      (Infer.gatherDim (.shape n) : Int) ≤ Infer.normAxis (Infer.gatherDim (.shape n)) 0) := by
    simp [Infer.normAxis, Infer.gatherDim]; omega
  simp only [Infer.gather, if_neg h]
  rfl

example : genGatherElements plainIndex (-1) gatherX ⟨[2, 2], [2, 0, 1, 1], rfl⟩ = some ⟨[2, 2], [3, 1, 5, 5], rfl⟩ := by
  refine C59_gather_elements_partial (a := 1) (by decide) ⟨by decide, rfl, rfl, fun i hi => ?_⟩ rfl (by decide)
  have : ∀ i ∈ indices [2, 2], ∃ j, j < 3 ∧ Onnx.index 3 ((⟨[2, 2], [2, 0, 1, 1], rfl⟩ : Tensor Int).get i) = some j ∧
      i.set 1 j ∈ indices [2, 3] ∧ (⟨[2, 2], [3, 1, 5, 5], rfl⟩ : Tensor Int).get i = gatherX.get (i.set 1 j) := by
    decide +kernel
  obtain ⟨j, _, h1, h2, h3⟩ := this i (mem_indices.2 hi)
  exact ⟨j, h1, mem_indices.1 h2, h3⟩

end OnnxIR
