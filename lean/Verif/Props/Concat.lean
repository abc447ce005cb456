import Verif.Model.Concat
import Verif.Props.Views

/-!
# C57: generated code of Concat
-/

namespace OnnxIR

open Gen

variable {α : Type} [Inhabited α]

/-! ### `ConcatT` determines the result -/

theorem split_pos : ∀ (l : List Nat) (p : Nat), p < l.sum →
    ∃ (m q d : Nat), l[m]? = some d ∧ q < d ∧ p = q + (l.take m).sum
  | [], p, h => by simp at h
  | d :: l, p, h => by
    by_cases hp : p < d
    · exact ⟨0, p, d, rfl, hp, by simp⟩
    · simp only [List.sum_cons] at h
      obtain ⟨m, q, e, h1, h2, h3⟩ := split_pos l (p - d) (by omega)
      exact ⟨m + 1, q, e, h1, h2, by simp only [List.take_succ_cons, List.sum_cons]; omega⟩

theorem getD_of_getElem? {l : List Nat} {k v : Nat} (h : l[k]? = some v) : l.getD k 0 = v := by
  simp [h]

/-- Every index of the concatenation comes from one of the inputs. -/
theorem concat_source {k : Nat} {Xs : List (Tensor α)} {out i : List Nat} (hc : Onnx.Concat k (Xs.map (·.shape)) out)
    (hi : InRange out i) : ∃ (m : Nat) (X : Tensor α) (j : List Nat), Xs[m]? = some X ∧ InRange X.shape j ∧
      i = j.set k (j.getD k 0 + ((Xs.take m).map (·.shape.getD k 0)).sum) := by
  obtain ⟨hk, hs, ho⟩ := hc
  have hil := hi.length
  have hik := hi.axis_lt hk
  rw [getD_of_getElem? ho, List.map_map] at hik
  obtain ⟨m, q, d, h1, h2, h3⟩ := split_pos _ _ hik
  rw [List.getElem?_map] at h1
  obtain ⟨X, hX, hd⟩ := Option.map_eq_some_iff.1 h1
  have hXs := hs X.shape (List.mem_map.2 ⟨X, List.mem_of_getElem? hX, rfl⟩)
  simp only [Function.comp] at hd
  refine ⟨m, X, i.set k q, hX, ?_, ?_⟩
  · rw [inRange_iff_get]
    refine ⟨by rw [List.length_set, hil, hXs.1], fun n hn => ?_⟩
    rw [getD_set]
    split
    · next e => rw [← e.1, hd]; exact h2
    · next e =>
      have hne : n ≠ k := fun e' => e ⟨e'.symm, by omega⟩
      have := (inRange_iff_get.1 hi).2 n (by rw [← hXs.1]; exact hn)
      have e2 := hXs.2 n hne
      rw [List.getD_eq_getElem?_getD (l := X.shape), e2, ← List.getD_eq_getElem?_getD]
      exact this
  · rw [← List.map_take] at h3
    have h3 : i.getD k 0 = q + ((Xs.take m).map (·.shape.getD k 0)).sum := h3
    rw [getD_set, if_pos ⟨rfl, by omega⟩, List.set_set, ← h3, set_getD_self]

theorem concat_unique {k : Nat} {Xs : List (Tensor α)} {Y Z : Tensor α} (hy : Onnx.ConcatT k Xs Y)
    (hz : Onnx.ConcatT k Xs Z) (hs : Y.shape = Z.shape) : Y = Z := by
  refine Tensor.eq_of_get hs fun i hi => ?_
  obtain ⟨m, X, j, h1, h2, rfl⟩ := concat_source hy.shape hi
  rw [hy.elems m X j h1 h2, hz.elems m X j h1 h2]

theorem concat_shape_unique {k : Nat} {ss : List (List Nat)} {a b : List Nat} (ha : Onnx.Concat k ss a)
    (hb : Onnx.Concat k ss b) (hne : ss ≠ []) : a = b := by
  obtain ⟨s, ss, rfl⟩ := List.exists_cons_of_ne_nil hne
  apply List.ext_getElem?
  intro n
  by_cases e : n = k
  · subst e; rw [ha.2.2, hb.2.2]
  · rw [← (ha.2.1 s (by simp)).2 n e, ← (hb.2.1 s (by simp)).2 n e]

/-! ### Burn's `cat` -/

theorem set_eq_of_agree {s t : List Nat} {k v : Nat} (hl : s.length = t.length) (h : ∀ i : Nat, i ≠ k → s[i]? = t[i]?) :
    s.set k v = t.set k v := by
  apply List.ext_getElem?
  intro n
  rw [List.getElem?_set, List.getElem?_set, hl]
  by_cases e : k = n
  · rw [if_pos e, if_pos e]
  · rw [if_neg e, if_neg e]; exact h n (fun e' => e e'.symm)

theorem cat_ok {k : Nat} : ∀ {Xs : List (Tensor α)} {out : List Nat}, Xs ≠ [] → Onnx.Concat k (Xs.map (·.shape)) out →
    ∃ z, Burn.cat Xs k = some z ∧ z.shape = out ∧ Onnx.ConcatT k Xs z
  | [], _, h, _ => absurd rfl h
  | [X], out, _, hc => by
    have hX := hc.2.1 X.shape (by simp)
    have hk := hc.1
    have e : X.shape = out := by
      refine concat_shape_unique (k := k) (ss := [X.shape]) ⟨by omega, ?_, ?_⟩ hc (by simp)
      · intro s hs; rw [List.mem_singleton.1 hs]; exact ⟨rfl, fun _ _ => rfl⟩
      · have : k < X.shape.length := by omega
        simp [this]
    refine ⟨X, by simp only [Burn.cat]; rw [if_pos (by omega)], e, by rw [e]; exact hc, ?_⟩
    intro m Y i h1 h2
    cases m with
    | succ m => simp at h1
    | zero =>
      cases h1
      simp only [List.take_zero, List.map_nil, List.sum_nil, Nat.add_zero]
      rw [set_getD_self]
  | X :: X' :: Xs, out, _, hc => by
    obtain ⟨hk, hs, ho⟩ := hc
    have hX := hs X.shape (by simp)
    have hk' : k < X.shape.length := by omega
    have hrest : Onnx.Concat k ((X' :: Xs).map (·.shape)) (out.set k (((X' :: Xs).map (·.shape)).map (·.getD k 0)).sum) := by
      refine ⟨by simpa using hk, ?_, ?_⟩
      · intro s hs'
        have := hs s (List.mem_cons_of_mem _ hs')
        refine ⟨by rw [this.1, List.length_set], fun i hi => ?_⟩
        rw [List.getElem?_set, if_neg (fun e => hi e.symm)]
        exact this.2 i hi
      · rw [List.getElem?_set, if_pos rfl, if_pos hk]
    obtain ⟨z, h1, h2, h3⟩ := cat_ok (by simp) hrest
    have hset : X.shape.set k 0 = z.shape.set k 0 := by
      rw [h2, List.set_set]
      exact set_eq_of_agree hX.1 hX.2
    have hzk : z.shape.getD k 0 = (((X' :: Xs).map (·.shape)).map (·.getD k 0)).sum := by
      rw [h2, getD_set, if_pos ⟨rfl, hk⟩]
    have hz : Burn.cat (X :: X' :: Xs) k = some (Tensor.ofFn (X.shape.set k (X.shape.getD k 0 + z.shape.getD k 0)) fun i =>
        if i.getD k 0 < X.shape.getD k 0 then X.get i else z.get (i.set k (i.getD k 0 - X.shape.getD k 0))) := by
      rw [Burn.cat, h1]
      · show Burn.cat2 X z k = _
        unfold Burn.cat2
        rw [if_pos ⟨hk', hset⟩]
      · simp
    have hout : X.shape.set k (X.shape.getD k 0 + z.shape.getD k 0) = out := by
      rw [set_eq_of_agree hX.1 hX.2, hzk]
      have : X.shape.getD k 0 + (((X' :: Xs).map (·.shape)).map (·.getD k 0)).sum = out.getD k 0 := by
        rw [getD_of_getElem? ho]; simp
      rw [this, set_getD_self]
    refine ⟨_, hz, hout, ⟨?_, ?_⟩⟩
    · show Onnx.Concat k _ (X.shape.set k _)
      rw [hout]; exact ⟨hk, hs, ho⟩
    · intro m Y i hm hi
      have hY := hs Y.shape (List.mem_map.2 ⟨Y, List.mem_of_getElem? hm, rfl⟩)
      have hil := hi.length
      have hik := hi.axis_lt (a := k) (by omega)
      have hoth : ∀ n, n < X.shape.length → n ≠ k → i.getD n 0 < X.shape.getD n 0 := by
        intro n hn hne
        have := (inRange_iff_get.1 hi).2 n (by omega)
        have e : X.shape[n]? = Y.shape[n]? := by rw [hX.2 n hne, hY.2 n hne]
        rw [List.getD_eq_getElem?_getD (l := X.shape), e, ← List.getD_eq_getElem?_getD]
        exact this
      cases m with
      | zero =>
        cases hm
        simp only [List.take_zero, List.map_nil, List.sum_nil, Nat.add_zero]
        rw [set_getD_self, Tensor.get_ofFn, if_pos hik]
        rw [inRange_set hk']
        exact ⟨hil, by omega, hoth⟩
      | succ m =>
        have hm' : (X' :: Xs)[m]? = some Y := hm
        have hget := h3.elems m Y i hm' hi
        have hlt : i.getD k 0 + (((X' :: Xs).take m).map (·.shape.getD k 0)).sum < z.shape.getD k 0 := by
          rw [hzk]
          clear hget hz h1 h2 h3 hzk hset hout hrest ho hs hm
          generalize X' :: Xs = L at hm'
          induction L generalizing m with
          | nil => simp at hm'
          | cons A L ih =>
            cases m with
            | zero => cases hm'; simp only [List.take_zero, List.map_nil, List.sum_nil, List.map_cons, List.sum_cons]; omega
            | succ m => have := ih m hm'; simp only [List.take_succ_cons, List.map_cons, List.sum_cons]; omega
        have key : ((X :: X' :: Xs).take (m + 1)).map (·.shape.getD k 0) =
            X.shape.getD k 0 :: ((X' :: Xs).take m).map (·.shape.getD k 0) := rfl
        rw [key, List.sum_cons, Tensor.get_ofFn]
        · have e : (i.set k (i.getD k 0 + (X.shape.getD k 0 + (((X' :: Xs).take m).map (·.shape.getD k 0)).sum))).getD k 0 =
              i.getD k 0 + (X.shape.getD k 0 + (((X' :: Xs).take m).map (·.shape.getD k 0)).sum) := by
            rw [getD_set, if_pos ⟨rfl, by omega⟩]
          rw [e, if_neg (by omega), List.set_set, ← hget]
          congr 2
          omega
        · rw [inRange_set hk']
          refine ⟨by rw [List.length_set]; omega, ?_, ?_⟩
          · rw [getD_set, if_pos ⟨rfl, by omega⟩]; omega
          · intro n hn hne
            rw [getD_set, if_neg (fun e => hne e.1.symm)]
            exact hoth n hn hne

/-- Burn's `cat` is ONNX's concatenation. -/
theorem cat_eq {k : Nat} {Xs : List (Tensor α)} {Z : Tensor α} (h : Onnx.ConcatT k Xs Z) (hne : Xs ≠ []) :
    Burn.cat Xs k = some Z := by
  obtain ⟨z, h1, h2, h3⟩ := cat_ok hne h.shape
  rw [h1, concat_unique h3 h h2]

/-! ### Vectors -/

theorem vec_eq {l : List α} {X : Tensor α} {n : Nat} (hs : X.shape = [n]) (hd : X.data = l) (q : Nat) :
    X.get [q] = l.getD q default := by
  simp [Tensor.get, hs, hd, flatIdx, prodShape]

/-- Concatenated vectors hold the elements one after the other. -/
theorem concat_vectors {Xs : List (Tensor α)} {Z : Tensor α} (h : Onnx.ConcatT 0 Xs Z) (hne : Xs ≠ [])
    (hv : ∀ X ∈ Xs, X.shape.length = 1) : Z.shape = [(Xs.map (·.data)).flatten.length] ∧ Z.data = (Xs.map (·.data)).flatten := by
  have hlen : ∀ X ∈ Xs, X.shape = [X.data.length] := by
    intro X hX
    have h1 := hv X hX
    match hs : X.shape, h1 with
    | [d], _ => rw [X.size, hs]; simp [prodShape]
  have hsum : (Xs.map (·.shape.getD 0 0)).sum = (Xs.map (·.data)).flatten.length := by
    clear h hne hv
    induction Xs with
    | nil => rfl
    | cons X Xs ih =>
      simp only [List.map_cons, List.sum_cons, List.flatten_cons, List.length_append]
      rw [ih (fun Y hY => hlen Y (List.mem_cons_of_mem _ hY)), hlen X (by simp)]
      simp
  obtain ⟨X, Xs', hX⟩ := List.exists_cons_of_ne_nil hne
  have hZl : Z.shape.length = 1 := by
    rw [← (h.shape.2.1 X.shape (by rw [hX]; simp)).1]
    exact hv X (by rw [hX]; simp)
  have hZs : Z.shape = [(Xs.map (·.data)).flatten.length] := by
    have h0 := h.shape.2.2
    match hs : Z.shape, hZl with
    | [d], _ =>
      rw [hs, List.map_map] at h0
      simp only [List.getElem?_cons_zero, Option.some.injEq] at h0
      rw [h0]
      congr 1
  refine ⟨hZs, ?_⟩
  have hW : ∃ W : Tensor α, W.shape = Z.shape ∧ W.data = (Xs.map (·.data)).flatten :=
    ⟨⟨Z.shape, (Xs.map (·.data)).flatten, by rw [hZs]; exact (Nat.mul_one _).symm⟩, rfl, rfl⟩
  obtain ⟨W, hW1, hW2⟩ := hW
  have hWc : Onnx.ConcatT 0 Xs W := by
    refine ⟨by rw [hW1]; exact h.shape, ?_⟩
    intro m Y i hm hi
    have hYm := List.mem_of_getElem? hm
    have hYs := hlen Y hYm
    rw [hYs] at hi
    match i, hi with
    | [q], hq =>
      simp only [InRange, and_true] at hq
      simp only [List.set_cons_zero, List.getD_cons_zero]
      rw [vec_eq hYs rfl, vec_eq (hW1.trans hZs) hW2]
      clear hW1 hW2 W hZs hZl h hsum hX X Xs' hne hv hYm hYs
      induction Xs generalizing m with
      | nil => simp at hm
      | cons A Xs ih =>
        have hA := hlen A (by simp)
        cases m with
        | zero =>
          cases hm
          simp [List.getElem?_append, hq]
        | succ m =>
          have := ih (fun X hX => hlen X (List.mem_cons_of_mem _ hX)) m hm
          rw [← this]
          have hA' : A.shape.getD 0 0 = A.data.length := by rw [hA]; rfl
          simp only [List.take_succ_cons, List.map_cons, List.sum_cons, List.flatten_cons]
          rw [hA', List.getD_eq_getElem?_getD, List.getElem?_append_right (by omega), List.getD_eq_getElem?_getD]
          congr 2
          omega
  rw [concat_unique h hWc hW1.symm, hW2]

/-! ### The generated code -/

theorem collect_map {β γ : Type} {f : β → Option γ} {g : β → γ} : ∀ {l : List β}, (∀ x ∈ l, f x = some (g x)) →
    collect (l.map f) = some (l.map g)
  | [], _ => rfl
  | x :: l, h => by
    simp only [List.map_cons, collect, h x (by simp), collect_map fun y hy => h y (List.mem_cons_of_mem _ hy)]

/-- No input is a scalar on the device (processing asks for native scalars), and tensors do not meet arrays (processing asks
for arrays). -/
structure ConcatOk (tys : List ArgType) : Prop where
  native : ∀ d, ArgType.scalarTensor d ∉ tys
  kinds : (∀ t, ArgType.tensor t ∉ tys) ∨ ∀ n, ArgType.shape n ∉ tys

theorem RepsAll.vecs {ofInt : Int → α} {tys : List ArgType} {vs : List (GVal α)} {Xs : List (Tensor α)}
    (h : RepsAll ofInt tys vs Xs) (hd : ∀ d, ArgType.scalarTensor d ∉ tys) (hs : ∀ n, ArgType.shape n ∉ tys) :
    collect (List.zipWith catInput tys vs) = some (Xs.map Tensor.vec) := by
  induction h with
  | nil => rfl
  | @cons ty tys v vs T Ts hr _ ih =>
    have ih := ih (fun d hm => hd d (List.mem_cons_of_mem _ hm)) (fun n hm => hs n (List.mem_cons_of_mem _ hm))
    have hv : catInput ty v = some T.vec := by
      cases ty with
      | tensor t =>
        cases v with
        | dev u =>
          obtain ⟨rfl, h1, h2⟩ := hr
          have : ¬ u.shape = [] := by intro e; rw [e] at h1; simp at h1; omega
          simp [catInput, ArgType.isScalar, Tensor.vec, this]
        | native x => exact hr.elim
        | shape l => exact hr.elim
      | scalarTensor d => exact absurd (by simp) (hd d)
      | scalarNative d =>
        cases v with
        | native x =>
          obtain ⟨h1, h2⟩ := hr
          simp only [catInput, ArgType.isScalar, scalarItem, if_true, Option.map_some, Option.some.injEq]
          unfold Tensor.vec
          rw [dif_pos h1]
          exact Tensor.ext rfl h2.symm
        | dev u => exact hr.elim
        | shape l => exact hr.elim
      | shape n => exact absurd (by simp) (hs n)
    simp only [List.zipWith_cons_cons, collect, hv, ih, List.map_cons]

theorem RepsAll.length {ofInt : Int → α} {tys : List ArgType} {vs : List (GVal α)} {Xs : List (Tensor α)}
    (h : RepsAll ofInt tys vs Xs) : tys.length = vs.length ∧ Xs.length = vs.length := by
  induction h with
  | nil => exact ⟨rfl, rfl⟩
  | cons _ _ ih => simp [ih.1, ih.2]

/-- Only native scalars. -/
theorem RepsAll.items {ofInt : Int → α} {tys : List ArgType} {vs : List (GVal α)} {Xs : List (Tensor α)}
    (h : RepsAll ofInt tys vs Xs) (hd : ∀ d, ArgType.scalarTensor d ∉ tys) (ha : ∀ ty ∈ tys, ty.isScalar = true) :
    ∃ xs, collect (vs.map scalarItem) = some xs ∧ xs = (Xs.map fun X => X.vec.data).flatten ∧
      ∀ X ∈ Xs, X.vec.shape.length = 1 := by
  induction h with
  | nil => exact ⟨[], rfl, rfl, by simp⟩
  | @cons ty tys v vs T Ts hr _ ih =>
    obtain ⟨xs, h1, h2, h3⟩ := ih (fun d hm => hd d (List.mem_cons_of_mem _ hm)) fun t ht => ha t (List.mem_cons_of_mem _ ht)
    cases ty with
    | tensor t => exact absurd (ha (.tensor t) (by simp)) (by simp [ArgType.isScalar])
    | shape n => exact absurd (ha (.shape n) (by simp)) (by simp [ArgType.isScalar])
    | scalarTensor d => exact absurd (by simp) (hd d)
    | scalarNative d =>
      cases v with
      | native x =>
        obtain ⟨e1, e2⟩ := hr
        have e3 : T.vec.shape = [1] ∧ T.vec.data = [x] := by
          unfold Tensor.vec; rw [dif_pos e1]; exact ⟨rfl, e2⟩
        refine ⟨x :: xs, by simp only [List.map_cons, collect, scalarItem, h1], ?_, ?_⟩
        · simp only [List.map_cons, List.flatten_cons, e3.2, ← h2]; rfl
        · intro X hX
          rcases List.mem_cons.1 hX with rfl | hX
          · rw [e3.1]; rfl
          · exact h3 X hX
      | dev u => exact hr.elim
      | shape l => exact hr.elim

/-- The number of elements of a scalar or an array. -/
def partLen : ArgType → Nat
  | .shape n => n
  | _ => 1

/-- Only native scalars and arrays. -/
theorem RepsAll.parts {ofInt : Int → α} {toInt : α → Int} {tys : List ArgType} {vs : List (GVal α)} {Xs : List (Tensor α)}
    (h : RepsAll ofInt tys vs Xs) (hd : ∀ d, ArgType.scalarTensor d ∉ tys) (ht : ∀ t, ArgType.tensor t ∉ tys)
    (he : ∀ d, ArgType.scalarNative d ∈ tys → d = .i64) (hi : ∀ x, GVal.native x ∈ vs → ofInt (toInt x) = x) :
    ∃ ls, collect (List.zipWith (shapePart toInt) tys vs) = some ls ∧
      ls.flatten.map ofInt = (Xs.map fun X => X.vec.data).flatten ∧ (∀ X ∈ Xs, X.vec.shape.length = 1) ∧
      ls.flatten.length = (tys.map partLen).sum := by
  induction h with
  | nil => exact ⟨[], rfl, rfl, by simp, rfl⟩
  | @cons ty tys v vs T Ts hr _ ih =>
    obtain ⟨ls, h1, h2, h3, h4⟩ := ih (fun d hm => hd d (List.mem_cons_of_mem _ hm))
      (fun n hm => ht n (List.mem_cons_of_mem _ hm)) (fun d hm => he d (List.mem_cons_of_mem _ hm))
      fun x hx => hi x (List.mem_cons_of_mem _ hx)
    cases ty with
    | tensor t => exact absurd (by simp) (ht t)
    | scalarTensor d => exact absurd (by simp) (hd d)
    | scalarNative d =>
      cases v with
      | native x =>
        obtain ⟨e1, e2⟩ := hr
        have hdi := he d (by simp)
        subst hdi
        have e3 : T.vec.shape = [1] ∧ T.vec.data = [x] := by
          unfold Tensor.vec; rw [dif_pos e1]; exact ⟨rfl, e2⟩
        refine ⟨[toInt x] :: ls, ?_, ?_, ?_, ?_⟩
        · simp only [List.zipWith_cons_cons, collect, shapePart, ArgType.elemType, if_true, h1]
        · simp only [List.flatten_cons, List.map_append, h2, List.map_cons, e3.2, List.map_nil, hi x (by simp)]
        · intro X hX
          rcases List.mem_cons.1 hX with rfl | hX
          · rw [e3.1]; rfl
          · exact h3 X hX
        · simp only [List.flatten_cons, List.length_append, h4, List.map_cons, List.sum_cons]; rfl
      | dev u => exact hr.elim
      | shape l => exact hr.elim
    | shape n =>
      cases v with
      | shape l =>
        obtain ⟨e1, e2, e3⟩ := hr
        have e4 : T.vec = T := by unfold Tensor.vec; rw [dif_neg (by rw [e2]; simp)]
        refine ⟨l :: ls, ?_, ?_, ?_, ?_⟩
        · simp only [List.zipWith_cons_cons, collect, shapePart, h1]
        · simp only [List.flatten_cons, List.map_append, h2, List.map_cons, e4, e3]
        · intro X hX
          rcases List.mem_cons.1 hX with rfl | hX
          · rw [e4, e2]; rfl
          · exact h3 X hX
        · simp only [List.flatten_cons, List.length_append, h4, List.map_cons, List.sum_cons, e1, partLen]
      | dev u => exact hr.elim
      | native x => exact hr.elim

theorem sumParts_sum {β : Type} {f : β → Option Nat} {g : β → Nat} : ∀ {l : List β} {n : Nat},
    Infer.sumParts (l.map f) = some n → (∀ x ∈ l, ∀ c, f x = some c → c = g x) → n = (l.map g).sum
  | [], n, h, _ => by simp [Infer.sumParts] at h; simp [h]
  | x :: l, n, h, hg => by
    simp only [List.map_cons, Infer.sumParts] at h
    split at h
    · next a b h1 h2 =>
      cases h
      rw [hg x (by simp) a h1, sumParts_sum h2 fun y hy => hg y (List.mem_cons_of_mem _ hy)]
      simp
    · cases h

theorem sumParts_some {β : Type} {f : β → Option Nat} : ∀ {l : List β} {n : Nat},
    Infer.sumParts (l.map f) = some n → ∀ x ∈ l, (f x).isSome
  | [], _, _, x, hx => by simp at hx
  | y :: l, n, h, x, hx => by
    simp only [List.map_cons, Infer.sumParts] at h
    split at h
    · next a b h1 h2 =>
      rcases List.mem_cons.1 hx with rfl | hx
      · rw [h1]; rfl
      · exact sumParts_some h2 x hx
    · cases h

/-- The inferred type, by kinds of the inputs. -/
theorem concat_out {inputs : List (ArgType × Option (List Nat))} {ot : ArgType} (h : Infer.concat inputs = some ot)
    (hok : ConcatOk (inputs.map Prod.fst)) :
    (∃ t, ot = .tensor t ∧ (∀ n, ArgType.shape n ∉ inputs.map Prod.fst) ∧
      ((∃ ty ∈ inputs.map Prod.fst, ty.isScalar = true) → t.rank = 1) ∧
      ((∀ ty ∈ inputs.map Prod.fst, ty.isScalar = false) → ∃ u, (inputs.map Prod.fst).head? = some (.tensor u) ∧ t.rank = u.rank)) ∨
    (∃ n, ot = .shape n ∧ (∀ t, ArgType.tensor t ∉ inputs.map Prod.fst) ∧
      n = ((inputs.map Prod.fst).map partLen).sum) := by
  have hsh : inputs.any (Infer.isShape ·.1) = true → ∀ t, ArgType.tensor t ∉ inputs.map Prod.fst := by
    intro hs
    rcases hok.kinds with hk | hk
    · exact hk
    · obtain ⟨i, hi, he⟩ := List.any_eq_true.1 hs
      cases e : i.1 with
      | shape n => exact absurd (List.mem_map.2 ⟨i, hi, e⟩) (hk n)
      | _ => rw [e] at he; simp [Infer.isShape] at he
  have hns : ¬ inputs.any (Infer.isShape ·.1) = true → ∀ n, ArgType.shape n ∉ inputs.map Prod.fst := by
    intro hs n hn
    obtain ⟨i, hi, he⟩ := List.mem_map.1 hn
    exact hs (List.any_eq_true.2 ⟨i, hi, by rw [he]; rfl⟩)
  have hparts : ∀ {b v n}, Infer.sumParts (inputs.map (Infer.concatPart b v)) = some n →
      (∀ t, ArgType.tensor t ∉ inputs.map Prod.fst) → n = ((inputs.map Prod.fst).map partLen).sum := by
    intro b v n hn ht
    rw [List.map_map]
    refine sumParts_sum hn fun x hx c hc => ?_
    have hm : x.1 ∈ inputs.map Prod.fst := List.mem_map.2 ⟨x, hx, rfl⟩
    unfold Infer.concatPart at hc
    simp only [Function.comp]
    cases e : x.1 with
    | tensor t => rw [e] at hm; exact absurd hm (ht t)
    | shape k => rw [e] at hc; cases hc; rfl
    | scalarNative d =>
      rw [e] at hc
      simp only at hc
      split at hc
      · cases hc; rfl
      · cases hc
    | scalarTensor d =>
      rw [e] at hc
      simp only at hc
      split at hc
      · cases hc; rfl
      · cases hc
  unfold Infer.concat at h
  by_cases hsc : inputs.any (·.1.isScalar) = true
  · rw [if_pos hsc] at h
    unfold Infer.concatScalars at h
    split at h
    · cases h
    · next n hn =>
      by_cases hs : inputs.any (Infer.isShape ·.1) = true
      · rw [if_pos hs] at h
        cases h
        exact .inr ⟨n, rfl, hsh hs, hparts hn (hsh hs)⟩
      · rw [if_neg hs] at h
        simp only at h
        split at h
        · cases h
          refine .inl ⟨_, rfl, hns hs, fun _ => rfl, fun hall => ?_⟩
          obtain ⟨i, hi, he⟩ := List.any_eq_true.1 hsc
          have := hall i.1 (List.mem_map.2 ⟨i, hi, rfl⟩)
          rw [this] at he; cases he
        · cases h
  · rw [if_neg hsc] at h
    have hnsc : ¬ ∃ ty ∈ inputs.map Prod.fst, ty.isScalar = true := by
      rintro ⟨ty, hty, he⟩
      obtain ⟨i, hi, rfl⟩ := List.mem_map.1 hty
      exact hsc (List.any_eq_true.2 ⟨i, hi, he⟩)
    split at h
    · cases h
    · split at h
      · next hb =>
        simp only [Bool.and_eq_true] at hb
        obtain ⟨n, hn, rfl⟩ := Option.map_eq_some_iff.1 h
        exact .inr ⟨n, rfl, hsh hb.1, hparts hn (hsh hb.1)⟩
      · split at h
        · next t rest hl =>
          cases h
          refine .inl ⟨_, rfl, ?_, fun h => absurd h hnsc, fun _ => ⟨t, by rw [hl]; rfl, rfl⟩⟩
          rcases hok.kinds with hk | hk
          · exact absurd (by rw [hl]; simp) (hk t)
          · exact hk
        · next n rest hl =>
          obtain ⟨m, hm, rfl⟩ := Option.map_eq_some_iff.1 h
          have ht : ∀ t, ArgType.tensor t ∉ inputs.map Prod.fst := by
            rcases hok.kinds with hk | hk
            · exact hk
            · exact absurd (by rw [hl]; simp) (hk n)
          refine .inr ⟨m, rfl, ht, ?_⟩
          rw [List.map_map]
          refine sumParts_sum hm fun x _ c hc => ?_
          simp only [Function.comp]
          cases e : x.1 with
          | shape k => rw [e] at hc; cases hc; rfl
          | _ => rw [e] at hc; cases hc
        · cases h

theorem concatAxis_ok {a : Int} {first : ArgType} {k r : Nat} (h : Onnx.axis r a = some k)
    (hr : a < 0 → concatRank first = r) : concatAxis a first = k := by
  unfold Onnx.axis at h
  unfold concatAxis
  split at h
  · next hb =>
    cases h
    by_cases hn : a < 0
    · simp only [hn, if_true, hr hn]
      rw [if_neg (by omega)]
    · simp only [hn, if_false]
  · cases h

/-- The shape of each input as a vector. -/
theorem RepsAll.lengths {ofInt : Int → α} {tys : List ArgType} {vs : List (GVal α)} {Xs : List (Tensor α)}
    (h : RepsAll ofInt tys vs Xs) {ty : ArgType} (hm : ty ∈ tys) :
    ∃ X ∈ Xs, X.vec.shape.length = (if ty.isScalar then 1 else concatRank ty) := by
  induction h with
  | nil => simp at hm
  | @cons ty' tys v vs T Ts hr _ ih =>
    rcases List.mem_cons.1 hm with rfl | hm
    · refine ⟨T, by simp, ?_⟩
      cases ty with
      | tensor t =>
        cases v with
        | dev u =>
          obtain ⟨rfl, h1, h2⟩ := hr
          have : ¬ u.shape = [] := by intro e; rw [e] at h1; simp at h1; omega
          simp [Tensor.vec, this, h1, ArgType.isScalar, concatRank]
        | native x => exact hr.elim
        | shape l => exact hr.elim
      | scalarTensor d =>
        cases v with
        | dev u => simp [Tensor.vec, hr.2.1, ArgType.isScalar]
        | native x => exact hr.elim
        | shape l => exact hr.elim
      | scalarNative d =>
        cases v with
        | native x => simp [Tensor.vec, hr.1, ArgType.isScalar]
        | dev u => exact hr.elim
        | shape l => exact hr.elim
      | shape n =>
        cases v with
        | shape l => simp [Tensor.vec, hr.2.1, ArgType.isScalar, concatRank]
        | native x => exact hr.elim
        | dev u => exact hr.elim
    · obtain ⟨X, h1, h2⟩ := ih hm
      exact ⟨X, List.mem_cons_of_mem _ h1, h2⟩

/-- Concat, for every list of inputs that the importer types, with any axis, provided scalars are native and arrays do not
meet tensors: the generated code computes the ONNX concatenation and holds it as the inferred type says. Scalars count as
vectors of one element (ONNX does not allow them); a negative axis needs a first input that is not one. -/
theorem C57_concat_partial {ofInt : Int → α} {toInt : α → Int} {inputs : List (ArgType × Option (List Nat))} {ot first : ArgType}
    {vs : List (GVal α)} {Xs : List (Tensor α)} {Z : Tensor α} {axis : Int} {k : Nat}
    (ht : Infer.concat inputs = some ot) (hok : ConcatOk (inputs.map Prod.fst)) (hr : RepsAll ofInt (inputs.map Prod.fst) vs Xs)
    (hf : (inputs.map Prod.fst).head? = some first) (hneg : axis < 0 → first.isScalar = false)
    (hi : ∀ n, ot = .shape n → (∀ d, ArgType.scalarNative d ∈ inputs.map Prod.fst → d = .i64) ∧
      ∀ x, GVal.native x ∈ vs → ofInt (toInt x) = x)
    (hk : Onnx.axis Z.shape.length axis = some k) (hZ : Onnx.ConcatT k (Xs.map Tensor.vec) Z) :
    ∃ z, genConcat toInt (concatAxis axis first) ot (inputs.map Prod.fst) vs = some z ∧ Reps ofInt ot z Z := by
  have hlen : ∀ ty ∈ inputs.map Prod.fst, Z.shape.length = (if ty.isScalar then 1 else concatRank ty) := by
    intro ty hty
    obtain ⟨X, h1, h2⟩ := hr.lengths hty
    rw [← h2]
    exact (hZ.shape.2.1 X.vec.shape (List.mem_map.2 ⟨X.vec, List.mem_map.2 ⟨X, h1, rfl⟩, rfl⟩)).1.symm
  have hfm : first ∈ inputs.map Prod.fst := List.mem_of_mem_head? hf
  have hax : concatAxis axis first = k := by
    refine concatAxis_ok hk fun hn => ?_
    have := hlen first hfm
    rw [hneg hn] at this
    exact this.symm
  have hne : Xs.map Tensor.vec ≠ [] := by
    obtain ⟨X, h1, _⟩ := hr.lengths hfm
    exact fun e => by rw [List.map_eq_nil_iff.1 e] at h1; simp at h1
  have hk1 : Z.shape.length = 1 → k = 0 := by
    intro e; have := hZ.shape.1; omega
  have vecdata : ∀ (Xs : List (Tensor α)), (Xs.map fun X => X.vec.data).flatten = ((Xs.map Tensor.vec).map (·.data)).flatten := by
    intro Xs; rw [List.map_map]; rfl
  rw [hax]
  rcases concat_out ht hok with ⟨t, rfl, hns, hrs, hrt⟩ | ⟨n, rfl, hnt, hn⟩
  · have hrank : Z.shape.length = t.rank := by
      by_cases hsc : ∃ ty ∈ inputs.map Prod.fst, ty.isScalar = true
      · obtain ⟨ty, h1, h2⟩ := hsc
        have := hlen ty h1
        rw [h2] at this
        rw [hrs ⟨ty, h1, h2⟩]; exact this
      · obtain ⟨u, h1, h2⟩ := hrt fun ty hty => by
          cases e : ty.isScalar with
          | false => rfl
          | true => exact absurd ⟨ty, hty, e⟩ hsc
        have := hlen (.tensor u) (List.mem_of_mem_head? h1)
        rw [h2]; exact this
    have hfin : Reps ofInt (.tensor t) (.dev Z) Z := ⟨rfl, hrank, by have := hZ.shape.1; omega⟩
    refine ⟨.dev Z, ?_, hfin⟩
    unfold genConcat
    simp only
    split
    · next hall =>
      simp only [Bool.and_eq_true] at hall
      obtain ⟨xs, h1, h2, h3⟩ := hr.items hok.native (List.all_eq_true.1 hall.2)
      have hZ1 : Z.shape.length = 1 := by
        have h := hlen first hfm
        rw [List.all_eq_true.1 hall.2 first hfm] at h
        exact h
      obtain rfl := hk1 hZ1
      obtain ⟨e1, e2⟩ := concat_vectors hZ hne (by
        intro X hX
        obtain ⟨Y, hY, rfl⟩ := List.mem_map.1 hX
        exact h3 Y hY)
      rw [← vecdata, ← h2] at e1 e2
      rw [h1]
      simp only [Option.map_some, Option.some.injEq, GVal.dev.injEq]
      exact Tensor.ext e1.symm e2.symm
    · rw [hr.vecs hok.native hns]
      show (Burn.cat (Xs.map Tensor.vec) k).map GVal.dev = _
      rw [cat_eq hZ hne]
      rfl
  · obtain ⟨hi1, hi2⟩ := hi n rfl
    obtain ⟨ls, h1, h2, h3, h4⟩ := hr.parts hok.native hnt hi1 hi2
    have hZ1 : Z.shape.length = 1 := by
      obtain ⟨X, hX1, hX2⟩ := hr.lengths hfm
      rw [← (hZ.shape.2.1 X.vec.shape (List.mem_map.2 ⟨X.vec, List.mem_map.2 ⟨X, hX1, rfl⟩, rfl⟩)).1]
      exact h3 X hX1
    obtain rfl := hk1 hZ1
    obtain ⟨e1, e2⟩ := concat_vectors hZ hne (by
      intro X hX
      obtain ⟨Y, hY, rfl⟩ := List.mem_map.1 hX
      exact h3 Y hY)
    rw [← vecdata, ← h2] at e1 e2
    refine ⟨.shape ls.flatten, ?_, ?_⟩
    · unfold genConcat
      simp only [ne_eq, not_true_eq_false, if_false, h1, Option.bind_some]
      rw [if_pos (by rw [h4, hn])]
    · refine ⟨by rw [h4, hn], ?_, e2⟩
      rw [e1, List.length_map, h4, hn]

/-! ### The theorem applies, and what fails outside it -/

/-- The result of `cat` is ONNX's concatenation. -/
theorem cat_spec {k : Nat} {Xs : List (Tensor α)} {out : List Nat} {z : Tensor α} (hne : Xs ≠ [])
    (hc : Onnx.Concat k (Xs.map (·.shape)) out) (h : Burn.cat Xs k = some z) : Onnx.ConcatT k Xs z := by
  obtain ⟨z', h1, _, h3⟩ := cat_ok hne hc
  rw [h] at h1; cases h1; exact h3

theorem concat_pair {k : Nat} {a b out : List Nat} (hk : k < out.length) (ha : a.length = out.length) (hb : b.length = out.length)
    (h : ∀ i < out.length, i ≠ k → a[i]? = out[i]? ∧ b[i]? = out[i]?) (ho : out[k]? = some (a.getD k 0 + b.getD k 0)) :
    Onnx.Concat k [a, b] out := by
  refine ⟨hk, ?_, by rw [ho]; simp⟩
  intro s hs
  have key : ∀ i : Nat, i ≠ k → a[i]? = out[i]? ∧ b[i]? = out[i]? := by
    intro i hi
    by_cases hl : i < out.length
    · exact h i hl hi
    · rw [List.getElem?_eq_none (by omega), List.getElem?_eq_none (l := b) (by omega), List.getElem?_eq_none (l := out) (by omega)]
      exact ⟨rfl, rfl⟩
  rcases List.mem_cons.1 hs with rfl | hs
  · exact ⟨ha, fun i hi => (key i hi).1⟩
  · obtain rfl := List.mem_singleton.1 hs
    exact ⟨hb, fun i hi => (key i hi).2⟩

/-- Two matrices along the last axis. -/
example : ∃ z Z, genConcat (α := Int) id (concatAxis (-1) (.tensor ⟨.f32, 2, none⟩)) (.tensor ⟨.f32, 2, none⟩)
      [.tensor ⟨.f32, 2, none⟩, .tensor ⟨.f32, 2, none⟩] [.dev concatA, .dev concatB] = some z ∧
    Reps id (.tensor ⟨.f32, 2, none⟩) z Z ∧ Z.shape = [2, 3] ∧ Z.data = [1, 3, 4, 2, 5, 6] := by
  have hc : Onnx.Concat 1 [[2, 1], [2, 2]] [2, 3] := concat_pair (by decide) rfl rfl (by decide) rfl
  have hz : ∃ z, Burn.cat [concatA, concatB] 1 = some z ∧ z.shape = [2, 3] ∧ z.data = [1, 3, 4, 2, 5, 6] :=
    ⟨⟨[2, 3], [1, 3, 4, 2, 5, 6], rfl⟩, by decide +kernel, rfl, rfl⟩
  obtain ⟨Z, h1, h2, h3⟩ := hz
  have hT := cat_spec (by simp) (show Onnx.Concat 1 ([concatA, concatB].map (·.shape)) [2, 3] from hc) h1
  obtain ⟨z, h4, h5⟩ := C57_concat_partial (ofInt := id) (toInt := id) (axis := -1) (k := 1) (first := .tensor ⟨.f32, 2, none⟩)
    (inputs := [(.tensor ⟨.f32, 2, none⟩, none), (.tensor ⟨.f32, 2, none⟩, none)]) (ot := .tensor ⟨.f32, 2, none⟩)
    (vs := [.dev concatA, .dev concatB]) (Xs := [concatA, concatB]) (Z := Z) (by decide +kernel)
    ⟨by simp, .inr (by simp)⟩ (.cons ⟨rfl, rfl, by decide⟩ (.cons ⟨rfl, rfl, by decide⟩ .nil)) rfl (fun _ => rfl)
    (by intro n hn; cases hn) (by rw [h2]; rfl) hT
  exact ⟨z, Z, h4, h5, h2, h3⟩

/-- A native `i64` and an array. -/
example : ∃ z Z, genConcat (α := Int) id (concatAxis 0 (.scalarNative .i64)) (.shape 3)
      [.scalarNative .i64, .shape 2] [.native 5, .shape [7, 8]] = some z ∧
    Reps id (.shape 3) z Z ∧ Z.data = [5, 7, 8] := by
  let A : Tensor Int := ⟨[], [5], rfl⟩
  let B : Tensor Int := ⟨[2], [7, 8], rfl⟩
  have hz : ∃ z, Burn.cat [A.vec, B.vec] 0 = some z ∧ z.shape = [3] ∧ z.data = [5, 7, 8] :=
    ⟨⟨[3], [5, 7, 8], rfl⟩, by decide +kernel, rfl, rfl⟩
  obtain ⟨Z, h1, h2, h3⟩ := hz
  have hc : Onnx.Concat 0 [[1], [2]] [3] := concat_pair (by decide) rfl rfl (by decide) rfl
  have hT := cat_spec (by simp) (show Onnx.Concat 0 ([A.vec, B.vec].map (·.shape)) [3] from hc) h1
  obtain ⟨z, h4, h5⟩ := C57_concat_partial (ofInt := id) (toInt := id) (axis := 0) (k := 0) (first := .scalarNative .i64)
    (inputs := [(.scalarNative .i64, none), (.shape 2, none)]) (ot := .shape 3)
    (vs := [.native 5, .shape [7, 8]]) (Xs := [A, B]) (Z := Z) (by decide +kernel)
    ⟨by simp, .inl (by simp)⟩ (.cons ⟨rfl, rfl⟩ (.cons ⟨rfl, rfl, rfl⟩ .nil)) rfl (fun h => absurd h (by decide))
    (fun n _ => ⟨by simp, fun _ _ => rfl⟩) (by rw [h2]; rfl) hT
  exact ⟨z, Z, h4, h5, h3⟩

/-- A shape computed at run time and a vector that is a tensor, such as a graph input: the importer gives the result the type of
an array, and the generated code takes a slice of the tensor, which does not compile. -/
theorem C57_shape_tensor_fails :
    Infer.concat [(.shape 2, none), (.tensor ⟨.i64, 1, some [some 1]⟩, none)] = some (.shape 3) ∧
    ∀ l u, (genConcat (α := Int) id 0 (.shape 3) [.shape 2, .tensor ⟨.i64, 1, some [some 1]⟩] [.shape l, .dev u]).isNone := by
  exact ⟨by decide +kernel, fun _ _ => rfl⟩

/-- Scalars that stay on the device (when the value is also used in a way that keeps it there) do not compile. -/
theorem C57_device_scalar_fails :
    (Infer.concat [(.scalarTensor .f32, none), (.scalarTensor .f32, none)]).isSome ∧
    ∀ u v : Tensor Int, (genConcat id 0 (.tensor ⟨.f32, 1, some [some 2]⟩) [.scalarTensor .f32, .scalarTensor .f32]
      [.dev u, .dev v]).isNone := by
  exact ⟨by decide +kernel, fun _ _ => rfl⟩

/-- A negative axis is counted from rank 0 when the first input is a scalar: the axis wraps around. -/
theorem C57_scalar_first_panics : ∀ x l, (genConcat (α := Int) id (concatAxis (-1) (.scalarNative .i64)) (.shape 3)
    [.scalarNative .i64, .shape 2] [.native x, .shape l]).isNone := fun _ _ => rfl

end OnnxIR
