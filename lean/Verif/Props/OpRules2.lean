import Verif.Model.OpRules2
import Verif.Spec.OpShapes2
import Verif.Props.OpRules

/-!
# Output types of Concat, Gather, Reduce*, Expand and linear layers
-/

namespace OnnxIR

open Infer

/-! ## Gather -/

/-- Gather on a tensor: the type describes the ONNX output for every axis and indices. -/
theorem C47_gather_tensor {axis : Int} {tt : TensorType} {idx t : ArgType} {s si out : List Nat}
    (hx : (ArgType.tensor tt).Admits s) (hi : idx.Admits si)
    (ht : Infer.gather axis (.tensor tt) idx = some t) (ho : Onnx.gather axis s si = some out) :
    t.Admits out := by
  have hir : Infer.gatherIdxRank idx = si.length := by
    cases idx with
    | tensor u => exact hi.1.symm
    | shape k => cases hi; rfl
    | scalarTensor d => cases hi; rfl
    | scalarNative d => cases hi; rfl
  simp only [ArgType.Admits] at hx
  obtain ⟨k, hk, rfl⟩ := Option.map_eq_some_iff.1 ho
  have hk' : k < s.length := by
    unfold Onnx.axis at hk
    split at hk
    · simp only [Option.some.injEq] at hk; split at hk <;> omega
    · cases hk
  have hl : (s.take k ++ si ++ s.drop (k + 1)).length = si.length + s.length - 1 := by
    simp; omega
  simp only [Infer.gather, hir, ← hx.1] at ht
  split at ht
  · cases ht
  · split at ht
    · simp at ht
      subst ht
      exact List.eq_nil_of_length_eq_zero (by omega)
    · simp at ht
      subst ht
      exact ⟨hl, by simp⟩

example : Infer.gather (-1) (.tensor ⟨.f32, 2, none⟩) (.shape 4) = some (.tensor ⟨.f32, 2, none⟩) ∧
    Onnx.gather (-1) [3, 5] [4] = some [3, 4] := by decide +kernel

/-- Gather on a `Shape` value with indices that are a scalar or a `Shape` value. -/
theorem C47_gather_shape_partial {axis : Int} {k : Nat} {idx t : ArgType} {si out : List Nat}
    (hi : idx.Admits si) (ht : Infer.gather axis (.shape k) idx = some t)
    (ho : Onnx.gather axis [k] si = some out) (hni : ∀ u, idx ≠ .tensor u) : t.Admits out := by
  obtain ⟨j, hj, rfl⟩ := Option.map_eq_some_iff.1 ho
  have hj0 : j = 0 := by
    unfold Onnx.axis at hj
    split at hj
    · rename_i h
      simp only [Option.some.injEq, List.length_singleton] at hj h
      split at hj <;> omega
    · cases hj
  subst hj0
  simp only [Infer.gather] at ht
  split at ht
  · cases ht
  · cases idx with
    | tensor u => exact absurd rfl (hni u)
    | shape n => cases hi; simp [Infer.gatherIdxRank] at ht; subst ht; rfl
    | scalarTensor d => cases hi; simp [Infer.gatherIdxRank] at ht; subst ht; rfl
    | scalarNative d => cases hi; simp [Infer.gatherIdxRank] at ht; subst ht; rfl

/-- Two run-time indices into a `Shape` value: the type says one element. -/
theorem C47_gather_shape_tensor_indices_wrong :
    ∃ idx t, ArgType.Admits idx [2] ∧ Infer.gather 0 (.shape 4) idx = some t ∧
      Onnx.gather 0 [4] [2] = some [2] ∧ ¬ t.Admits [2] := by
  refine ⟨.tensor ⟨.i64, 1, some [some 2]⟩, .shape 1, ⟨rfl, ?_⟩, by decide, by decide, ?_⟩
  · intro p hp; cases hp; simp [PShape.Describes]
  · intro h; cases h

/-! ## Expand -/

/-- Expand with a constant target: right when the target already is the broadcast shape. -/
theorem C29_expand_constant_partial {target s : List Nat} {shapeTy prev x t : ArgType}
    (ht : Infer.expand (some (target.map Int.ofNat)) shapeTy prev x = some t)
    {out : List Nat} (ho : Onnx.expand s target = some out) (hout : bcast s target = some target) :
    t.Admits out := by
  have : out = target := by
    have := ho.symm.trans hout
    simpa using this
  subst this
  simp only [Infer.expand] at ht
  split at ht
  · obtain ⟨dt, -, ht⟩ := Option.bind_eq_some_iff.1 ht
    simp at ht
    subst ht
    refine ⟨by simp, ?_⟩
    intro p hp
    simp at hp
    subst hp
    rw [show ((fun d => some (Infer.asUsize d)) ∘ Int.ofNat) = (some : Nat → Option Nat) from by
      funext d; simp [Infer.asUsize]; omega]
    exact PShape.describes_some.2 rfl
  · cases ht

/-- Expand with a run-time target: right when the target is at least as long as the input's rank. -/
theorem C29_expand_runtime_partial {target : List Nat} {shapeTy x t : ArgType} {d : DType}
    {s out : List Nat} (hs : shapeTy.Admits [target.length])
    (ht : Infer.expand none shapeTy (.scalarNative d) x = some t)
    (hlen : s.length ≤ target.length) (ho : Onnx.expand s target = some out) : t.Admits out := by
  have hl := bcast_length ho
  simp only [Infer.expand] at ht
  split at ht
  · obtain ⟨dt, -, ht⟩ := Option.bind_eq_some_iff.1 ht
    obtain ⟨r, hr, rfl⟩ := Option.map_eq_some_iff.1 ht
    refine ⟨?_, by simp⟩
    show out.length = r
    have : r = target.length := by
      unfold Infer.expandRank at hr
      split at hr
      · cases hs; simp at hr; omega
      · rename_i tt
        split at hr
        · rename_i k hk
          rw [Option.join_eq_some_iff, Option.bind_eq_some_iff] at hk
          obtain ⟨p, hp, hh⟩ := hk
          have hdesc := hs.2 p hp
          cases p with
          | nil => cases hh
          | cons e es =>
            simp at hh
            subst hh
            have := hdesc.1 k rfl
            simp at hr
            omega
        · cases hr
      · cases hr
    omega
  · cases ht

example : Infer.expand none (.shape 3) (.scalarNative .f32) (.tensor ⟨.f32, 2, none⟩) =
      some (.tensor ⟨.f32, 3, none⟩) ∧ Onnx.expand [3, 1] [2, 1, 6] = some [2, 3, 6] ∧
    Onnx.expand [3, 1] [2, 3, 6] = some [2, 3, 6] := by decide +kernel

/-- A target dimension of 1 keeps the input's dimension in ONNX; the type says 1. -/
theorem C29_target_one_wrong :
    ∃ x t, ArgType.Admits x [5] ∧ Infer.expand (some [1]) (.shape 1) x x = some t ∧
      Onnx.expand [5] [1] = some [5] ∧ ¬ t.Admits [5] := by
  refine ⟨.tensor ⟨.f32, 1, some [some 5]⟩, .tensor ⟨.f32, 1, some [some 1]⟩, ⟨rfl, ?_⟩, by decide,
    by decide, ?_⟩
  · intro p hp; cases hp; simp [PShape.Describes]
  · rintro ⟨-, h⟩; have := h _ rfl; simp [PShape.Describes] at this

/-- A target shorter than the input's rank: ONNX keeps the rank; the type says the target's length. -/
theorem C29_short_target_wrong :
    ∃ x t, ArgType.Admits x [2, 3] ∧ Infer.expand (some [3]) (.shape 1) x x = some t ∧
      Onnx.expand [2, 3] [3] = some [2, 3] ∧ ¬ t.Admits [2, 3] := by
  refine ⟨.tensor ⟨.f32, 2, some [some 2, some 3]⟩, .tensor ⟨.f32, 1, some [some 3]⟩, ⟨rfl, ?_⟩,
    by decide, by decide, ?_⟩
  · intro p hp; cases hp; simp [PShape.Describes]
  · rintro ⟨h, -⟩; cases h

/-! ## Reductions -/

theorem dropAtFrom_congr {α : Type} (l : List α) {is js : List Nat} (k : Nat)
    (h : ∀ j, k ≤ j → (j ∈ is ↔ j ∈ js)) : Onnx.dropAtFrom k is l = Onnx.dropAtFrom k js l := by
  induction l generalizing k with
  | nil => rfl
  | cons y ys ih =>
    simp only [Onnx.dropAtFrom, ih (k + 1) (fun j hj => h j (by omega)), h k (Nat.le_refl k)]

theorem dropAtFrom_none {α : Type} (l : List α) {is : List Nat} (k : Nat)
    (h : ∀ j ∈ is, j < k) : Onnx.dropAtFrom k is l = l := by
  induction l generalizing k with
  | nil => rfl
  | cons y ys ih =>
    simp only [Onnx.dropAtFrom]
    rw [if_neg (fun hk => absurd (h k hk) (by omega)), ih (k + 1) (fun j hj => by have := h j hj; omega)]

/-- Dropping the largest position first. -/
theorem dropAtFrom_last {α : Type} (l : List α) {is : List Nat} {m : Nat} (k : Nat) (hkm : k ≤ m)
    (hlt : ∀ j ∈ is, j < m) :
    Onnx.dropAtFrom k (is ++ [m]) l = Onnx.dropAtFrom k is (l.eraseIdx (m - k)) := by
  induction l generalizing k with
  | nil => rfl
  | cons y ys ih =>
    by_cases hk : k = m
    · subst hk
      rw [Nat.sub_self, List.eraseIdx_cons_zero]
      simp only [Onnx.dropAtFrom]
      rw [if_pos (by simp), dropAtFrom_none ys (k + 1) (fun j hj => by
        rcases List.mem_append.1 hj with h | h
        · have := hlt j h; omega
        · simp at h; omega)]
      rw [dropAtFrom_none ys k hlt]
    · obtain ⟨d, hd⟩ : ∃ d, m - k = d + 1 := ⟨m - k - 1, by omega⟩
      rw [hd, List.eraseIdx_cons_succ]
      have := ih (k + 1) (by omega)
      rw [show m - (k + 1) = d from by omega] at this
      simp only [Onnx.dropAtFrom, this]
      have hiff : k ∈ is ++ [m] ↔ k ∈ is := by simp [hk]
      simp only [hiff]

theorem removeDims_eq {p q : PShape} {is : List Nat} (hs : is.Pairwise (· < ·))
    (h : Infer.removeDims is.reverse p = some q) : q = Onnx.dropAt is p := by
  generalize hn : is.length = n
  induction n generalizing is p with
  | zero =>
    rw [List.eq_nil_of_length_eq_zero hn] at h ⊢
    simp [Infer.removeDims] at h
    rw [Onnx.dropAt, dropAtFrom_none p 0 (by simp)]
    exact h.symm
  | succ n ih =>
    have hne : is ≠ [] := by intro h; rw [h] at hn; cases hn
    obtain ⟨js, m, rfl⟩ : ∃ js m, is = js ++ [m] := ⟨_, _, (List.dropLast_concat_getLast hne).symm⟩
    rw [List.reverse_append] at h
    simp only [List.reverse_cons, List.reverse_nil, List.nil_append, List.singleton_append,
      Infer.removeDims] at h
    split at h
    · rw [List.pairwise_append] at hs
      rw [Onnx.dropAt, dropAtFrom_last p 0 (Nat.zero_le m) (fun j hj => hs.2.2 j hj m (by simp))]
      exact ih hs.1 h (by simpa using hn)
    · cases h

theorem dropAtFrom_describes {p : PShape} {s : List Nat} (h : p.Describes s) (is : List Nat) (k : Nat) :
    PShape.Describes (Onnx.dropAtFrom k is p) (Onnx.dropAtFrom k is s) := by
  induction p generalizing s k with
  | nil =>
    cases s with
    | nil => trivial
    | cons _ _ => simp [PShape.Describes] at h
  | cons o ps ih =>
    cases s with
    | nil => simp [PShape.Describes] at h
    | cons d ds =>
      simp only [PShape.Describes] at h
      simp only [Onnx.dropAtFrom]
      split
      · exact ih h.2 _
      · exact ⟨h.1, ih h.2 _⟩

theorem setOnes_eq {is : List Nat} {p q : PShape} (h : Infer.setOnes is p = some q) :
    q.length = p.length ∧ ∀ i : Nat, q[i]? = if i ∈ is then some (some 1) else p[i]? := by
  induction is generalizing p with
  | nil => simp [Infer.setOnes] at h; simp [h]
  | cons d ds ih =>
    simp only [Infer.setOnes] at h
    split at h
    · rename_i hd
      obtain ⟨h1, h2⟩ := ih h
      refine ⟨by simpa using h1, ?_⟩
      intro i
      rw [h2 i]
      by_cases hi : i ∈ ds
      · simp [hi]
      · rw [if_neg hi, List.getElem?_set]
        by_cases hid : d = i
        · subst hid; simp [hd]
        · rw [if_neg hid, if_neg (by simp [hi]; exact fun h => hid h.symm)]
    · cases h

theorem insertNat_perm (x : Nat) (l : List Nat) : (Infer.insertNat x l).Perm (x :: l) := by
  induction l with
  | nil => exact List.Perm.refl _
  | cons y ys ih =>
    simp only [Infer.insertNat]
    split
    · exact List.Perm.refl _
    · exact (List.Perm.cons y ih).trans (List.Perm.swap x y ys)

theorem sortNat_perm (l : List Nat) : (Infer.sortNat l).Perm l := by
  induction l with
  | nil => exact List.Perm.refl _
  | cons x xs ih => exact (insertNat_perm x _).trans (List.Perm.cons x ih)

theorem sortNat_sorted (l : List Nat) : (Infer.sortNat l).Pairwise (· ≤ ·) := by
  have hins : ∀ (x : Nat) (l : List Nat), l.Pairwise (· ≤ ·) → (Infer.insertNat x l).Pairwise (· ≤ ·) := by
    intro x l
    induction l with
    | nil => intro _; simp [Infer.insertNat]
    | cons y ys ih =>
      intro h
      rw [List.pairwise_cons] at h
      simp only [Infer.insertNat]
      split
      · rename_i hxy
        refine List.pairwise_cons.2 ⟨?_, List.pairwise_cons.2 h⟩
        intro z hz
        rcases List.mem_cons.1 hz with rfl | hz
        · exact hxy
        · exact Nat.le_trans hxy (h.1 z hz)
      · refine List.pairwise_cons.2 ⟨?_, ih h.2⟩
        intro z hz
        rcases List.mem_cons.1 ((insertNat_perm x ys).mem_iff.1 hz) with rfl | hz
        · omega
        · exact h.1 z hz
  induction l with
  | nil => exact List.Pairwise.nil
  | cons x xs ih => exact hins x _ ih

/-- The code's sorted axes are the ONNX axes, sorted. -/
theorem reduceDims_spec {r : Nat} {as : List Int} {is dims : List Nat} (h : Onnx.axes r as = some is)
    (hd : Infer.reduceDims r as = some dims) : dims.Perm is ∧ dims.Pairwise (· < ·) := by
  obtain ⟨l, hl, rfl⟩ := Option.map_eq_some_iff.1 hd
  have : l = is := by
    clear hd
    induction as generalizing is l with
    | nil => simp [Onnx.axes] at h; simp [Infer.normAxes] at hl; rw [h, hl]
    | cons a as ih =>
      simp only [Onnx.axes] at h
      split at h
      · split at h
        · cases h
        · rename_i i is' h1 h2 h3
          simp only [Option.some.injEq] at h
          simp only [Infer.normAxes, List.map_cons, List.mapM_cons, bind, Option.bind_eq_some_iff, pure,
            Option.some.injEq] at hl
          obtain ⟨b, hb, bs, hbs, rfl⟩ := hl
          rw [← h, ih h2 _ hbs]
          congr 1
          unfold Onnx.axis at h1
          split at h1
          · simp only [Option.some.injEq] at h1
            split at hb
            · cases hb
            · simp only [Option.some.injEq] at hb; rw [← hb, ← h1]; rfl
          · cases h1
      · cases h
  subst this
  have hperm := sortNat_perm l
  refine ⟨hperm, ?_⟩
  have hnd : (Infer.sortNat l).Nodup := hperm.nodup_iff.2 (axes_nodup h).1
  have := (sortNat_sorted l).and hnd
  exact this.imp (fun {a b} h => by simp at h; omega)

/-- Reduce over at least one given axis: the type describes the ONNX output. -/
theorem C32_reduce_axes_type {as : List Int} {keep : Bool} {x t : ArgType} {s out : List Nat}
    (hx : x.Admits s) (ht : Infer.reduce as keep x = some t) (hne : as ≠ [])
    (ho : Onnx.reduce as keep s = some out) : t.Admits out := by
  unfold Onnx.reduce at ho
  rw [if_neg hne] at ho
  obtain ⟨is, his, rfl⟩ := Option.map_eq_some_iff.1 ho
  cases x with
  | tensor tt =>
    simp only [ArgType.Admits] at hx
    simp only [Infer.reduce, ← hx.1] at ht
    split at ht
    · cases ht
    · rename_i dims hdims
      obtain ⟨hperm, hsort⟩ := reduceDims_spec his hdims
      have hlen : dims.length = as.length := by rw [hperm.length_eq, axes_length his]
      have hdrop := dropAt_length his
      have hpos : 0 < as.length := List.length_pos_iff.2 hne
      have hd0 : dims.isEmpty = false := by
        cases dims with
        | nil => simp at hlen; omega
        | cons _ _ => rfl
      cases keep with
      | false =>
        simp only [Bool.not_false, Bool.true_and, hd0, Bool.false_or, beq_iff_eq,
          Bool.false_eq_true, if_false, true_and] at ht ⊢
        split at ht
        · simp at ht
          subst ht
          exact List.eq_nil_of_length_eq_zero (by omega)
        · split at ht
          · cases ht
          · split at ht
            · simp at ht
              subst ht
              exact ⟨by simp only; omega, by simp⟩
            · rename_i sh hsh
              have hdesc := hx.2 sh hsh
              split at ht
              · simp at ht
                subst ht
                exact ⟨by simp only; omega, by simp⟩
              · obtain ⟨q, hq, rfl⟩ := Option.map_eq_some_iff.1 ht
                refine ⟨by simp only; omega, ?_⟩
                intro p hp
                simp only [Option.some.injEq] at hp
                subst hp
                rw [removeDims_eq hsort hq, Onnx.dropAt, Onnx.dropAt,
                  dropAtFrom_congr sh 0 (fun j _ => hperm.mem_iff)]
                exact dropAtFrom_describes hdesc is 0
      | true =>
        simp only [Bool.not_true, Bool.false_and, Bool.false_eq_true, if_false, if_true,
          Bool.true_eq_false, false_and] at ht ⊢
        split at ht
        · simp at ht
          subst ht
          exact ⟨by simp, by simp⟩
        · rename_i sh hsh
          have hdesc := hx.2 sh hsh
          split at ht
          · simp at ht
            subst ht
            exact ⟨by simp, by simp⟩
          · obtain ⟨q, hq, rfl⟩ := Option.map_eq_some_iff.1 ht
            refine ⟨by simp, ?_⟩
            intro p hp
            simp only [Option.some.injEq] at hp
            subst hp
            obtain ⟨h1, h2⟩ := setOnes_eq hq
            rw [PShape.describes_iff] at hdesc ⊢
            refine ⟨by simp [h1, hdesc.1], ?_⟩
            intro i k hk
            rw [h2 i] at hk
            rw [List.getElem?_mapIdx]
            have hmem : i ∈ dims ↔ i ∈ is := hperm.mem_iff
            by_cases hi : i ∈ is
            · rw [if_pos (hmem.2 hi)] at hk
              have hlt := (axes_nodup his).2 i hi
              rw [List.getElem?_eq_getElem hlt]
              simp [hi] at hk ⊢
              exact hk
            · rw [if_neg (fun h => hi (hmem.1 h))] at hk
              rw [hdesc.2 i k hk]
              simp [hi]
  | shape k => simp [Infer.reduce] at ht
  | scalarTensor d => simp [Infer.reduce] at ht
  | scalarNative d => simp [Infer.reduce] at ht

example : Infer.reduce [-1, 0] false (.tensor ⟨.f32, 3, some [some 2, none, some 4]⟩) =
      some (.tensor ⟨.f32, 1, some [none]⟩) ∧ Onnx.reduce [-1, 0] false [2, 3, 4] = some [3] ∧
    Infer.reduce [1] true (.tensor ⟨.f32, 3, some [some 2, none, some 4]⟩) =
      some (.tensor ⟨.f32, 3, some [some 2, some 1, some 4]⟩) := by decide +kernel

/-- Reduce over all axes, dropping them: a scalar. -/
theorem C32_reduce_all_drop_type {x t : ArgType} {s : List Nat} (hx : x.Admits s)
    (ht : Infer.reduce [] false x = some t) : Onnx.reduce [] false s = some [] ∧ t.Admits [] := by
  refine ⟨?_, ?_⟩
  · simp only [Onnx.reduce, if_true, Option.map_some, Bool.false_eq_true, if_false, Option.some.injEq]
    refine List.eq_nil_of_length_eq_zero ?_
    have := dropAtFrom_length s (List.range s.length) 0 List.nodup_range (fun i hi => by simp at hi; omega)
    simp [Onnx.dropAt] at this ⊢
    exact this
  · cases x with
    | tensor tt =>
      have h0 : Infer.reduceDims tt.rank [] = some [] := by simp [Infer.reduceDims, Infer.normAxes, Infer.sortNat]
      simp [Infer.reduce, h0] at ht
      subst ht
      rfl
    | shape k => simp [Infer.reduce] at ht
    | scalarTensor d => simp [Infer.reduce] at ht
    | scalarNative d => simp [Infer.reduce] at ht

/-- Reduce over all axes, keeping them: ONNX returns ones, the type keeps the input's dimensions. -/
theorem C32_reduce_all_keep_wrong :
    ∃ x t, ArgType.Admits x [2, 3] ∧ Infer.reduce [] true x = some t ∧
      Onnx.reduce [] true [2, 3] = some [1, 1] ∧ ¬ t.Admits [1, 1] := by
  refine ⟨.tensor ⟨.f32, 2, some [some 2, some 3]⟩, .tensor ⟨.f32, 2, some [some 2, some 3]⟩,
    ⟨rfl, ?_⟩, by decide +kernel, by decide +kernel, ?_⟩
  · intro p hp; cases hp; simp [PShape.Describes]
  · rintro ⟨-, h⟩; have := h _ rfl; simp [PShape.Describes] at this

/-- Axes known only at run time are read as "all axes": with axes `[0]` and `keepdims = 0` ONNX
returns a vector, the type says scalar. -/
theorem C32_reduce_runtime_axes_wrong :
    ∃ x t, ArgType.Admits x [2, 3] ∧ Infer.reduce [] false x = some t ∧
      Onnx.reduce [0] false [2, 3] = some [3] ∧ ¬ t.Admits [3] := by
  refine ⟨.tensor ⟨.f32, 2, none⟩, .scalarTensor .f32, ⟨rfl, by simp⟩, by decide +kernel,
    by decide +kernel, ?_⟩
  intro h; cases h

/-! ## Concat -/

theorem sumParts_eq {l : List (Option Nat)} {n : Nat} (h : Infer.sumParts l = some n) :
    ∃ ns : List Nat, l = ns.map some ∧ n = ns.sum := by
  induction l generalizing n with
  | nil => simp [Infer.sumParts] at h; exact ⟨[], rfl, by simp [← h]⟩
  | cons p ps ih =>
    simp only [Infer.sumParts] at h
    split at h
    · rename_i a b hb
      obtain ⟨ns, h1, h2⟩ := ih hb
      simp at h
      exact ⟨a :: ns, by simp [h1], by simp [← h, h2]⟩
    · cases h

/-- The lengths the code adds up are the lengths of the inputs. -/
theorem concat_lengths {inputs : List (ArgType × Option (List Nat))} {shapes : List (List Nat)}
    {f : ArgType × Option (List Nat) → Option Nat} {ns : List Nat}
    {P : ArgType × Option (List Nat) → List Nat → Prop}
    (hadm : AdmitsAll (inputs.map Prod.fst) shapes)
    (hf : ∀ i s n, i ∈ inputs → s ∈ shapes → i.1.Admits s → P i s → f i = some n → s = [n])
    (hval : ∀ (j : Nat) i s, inputs[j]? = some i → shapes[j]? = some s → P i s)
    (hns : inputs.map f = ns.map some) : shapes = ns.map ([·]) := by
  induction inputs generalizing shapes ns with
  | nil =>
    cases hadm
    cases ns with
    | nil => rfl
    | cons _ _ => simp at hns
  | cons i is ih =>
    cases ns with
    | nil => simp at hns
    | cons n ns =>
      simp only [List.map_cons] at hadm hns ⊢
      cases hadm with
      | cons h1 h2 =>
        rename_i s ss
        simp only [List.cons.injEq] at hns
        rw [hf i s n (by simp) (by simp) h1 (hval 0 i s rfl rfl) hns.1]
        rw [ih h2 (fun i s n hi hs => hf i s n (by simp [hi]) (by simp [hs]))
          (fun j i s hj hs => hval (j + 1) i s (by simpa using hj) (by simpa using hs)) hns.2]

theorem Onnx.Concat.vectors {k : Nat} {ns : List Nat} {out : List Nat} (hne : ns ≠ [])
    (h : Onnx.Concat k (ns.map ([·])) out) : out = [ns.sum] := by
  obtain ⟨h1, h2, h3⟩ := h
  cases ns with
  | nil => exact absurd rfl hne
  | cons n ns =>
    have hl := (h2 [n] (by simp)).1
    match out, hl with
    | [d], _ =>
      have : k = 0 := by simp at h1; exact h1
      subst this
      simp only [List.getElem?_cons_zero, Option.some.injEq, List.map_map] at h3
      rw [h3]
      congr 1
      congr 1
      rw [List.map_congr_left (g := id)]
      · simp
      · intro a _; rfl

/-- Concat: the type describes the ONNX output; when a `Shape` value takes part, the length of every
rank-1 tensor is stored, or in its type, or is 1 (the value the code assumes). -/
theorem concat_type {k : Nat} {inputs : List (ArgType × Option (List Nat))} {t : ArgType}
    {shapes : List (List Nat)} {out : List Nat}
    (hadm : AdmitsAll (inputs.map Prod.fst) shapes)
    (hval : ∀ (j : Nat) i s, inputs[j]? = some i → shapes[j]? = some s →
      (∀ v, i.2 = some v → s = v) ∧ (inputs.any (Infer.isShape ·.1) = true →
        ∀ u, i.1 = .tensor u → u.rank = 1 →
          i.2 ≠ none ∨ (∃ d, u.staticShape = some [some d]) ∨ s = [1]))
    (ht : Infer.concat inputs = some t) (ho : Onnx.Concat k shapes out) : t.Admits out := by
  have hne : inputs ≠ [] := by
    intro h; subst h; simp [Infer.concat, Infer.concatCheck] at ht
  have hlen1 : ∀ s ∈ shapes, s.length = out.length := fun s hs => (ho.2.1 s hs).1
  have hpos : 1 ≤ out.length := by have := ho.1; omega
  have hpair : ∀ i ∈ inputs, ∃ s ∈ shapes, i.1.Admits s := by
    clear hval ht hne ho hlen1 hpos
    induction inputs generalizing shapes with
    | nil => simp
    | cons i is ih =>
      simp only [List.map_cons] at hadm
      cases hadm with
      | cons h1 h2 =>
        intro j hj
        rcases List.mem_cons.1 hj with rfl | hj
        · exact ⟨_, by simp, h1⟩
        · obtain ⟨s, hs, h⟩ := ih h2 j hj
          exact ⟨s, by simp [hs], h⟩
  have hscalar : inputs.any (·.1.isScalar) = false := by
    rw [List.any_eq_false]
    intro i hi h
    obtain ⟨s, hs, hadm'⟩ := hpair i hi
    have : s = [] := by
      cases hty : i.1 <;> rw [hty] at h hadm' <;> simp [ArgType.isScalar] at h <;> exact hadm'
    have := hlen1 s hs
    rw [‹s = []›] at this
    simp at this
    omega
  have hvec : ∀ (f : ArgType × Option (List Nat) → Option Nat),
      (∀ i s n, i ∈ inputs → s ∈ shapes → i.1.Admits s →
      ((∀ v, i.2 = some v → s = v) ∧ (inputs.any (Infer.isShape ·.1) = true →
        ∀ u, i.1 = .tensor u → u.rank = 1 →
          i.2 ≠ none ∨ (∃ d, u.staticShape = some [some d]) ∨ s = [1])) → f i = some n → s = [n]) →
      ∀ t, (Infer.sumParts (inputs.map f)).map ArgType.shape = some t → t.Admits out := by
    intro f hf t ht
    obtain ⟨n, hn, rfl⟩ := Option.map_eq_some_iff.1 ht
    obtain ⟨ns, h1, h2⟩ := sumParts_eq hn
    have h3 := concat_lengths hadm hf hval h1
    subst h3
    have hns : ns ≠ [] := by
      intro h; subst h
      cases inputs with
      | nil => exact hne rfl
      | cons _ _ => simp at h1
    rw [ho.vectors hns, h2]
    rfl
  unfold Infer.concat at ht
  rw [hscalar] at ht
  simp only [Bool.false_eq_true, if_false] at ht
  split at ht
  · cases ht
  · split at ht
    · rename_i hboth
      rw [Bool.and_eq_true] at hboth
      refine hvec _ ?_ t ht
      intro i s n hi hs hadm' hv hpart
      unfold Infer.concatPart at hpart
      split at hpart
      · simp at hpart
      · simp at hpart
      · rename_i u hu
        split at hpart
        · rename_i hr
          rw [hu] at hadm'
          simp only [ArgType.Admits, hr] at hadm'
          match s, hadm'.1 with
          | [d], _ =>
            simp only [Infer.concatLen, if_true, Option.some.injEq] at hpart
            rw [← hpart]
            cases hi2 : i.2 with
            | some v =>
              have := hv.1 v hi2
              subst this
              simp
            | none =>
              rcases hv.2 hboth.1 u hu hr with h | ⟨d', hd'⟩ | h1
              · exact absurd hi2 h
              · have := (hadm'.2 _ hd').1 d' rfl
                subst this
                simp [hd', allKnown]
              · cases h1
                cases hp : u.staticShape with
                | none => simp
                | some p =>
                  have hd := hadm'.2 p hp
                  match p, hd with
                  | [none], _ => simp [allKnown]
                  | [some e], hd =>
                    have := hd.1 e rfl
                    subst this
                    simp [allKnown]
        · cases hpart
      · rename_i m hm
        rw [hm] at hadm'
        simp at hpart
        rw [← hpart]
        exact hadm'
    · rename_i hcheck hboth
      split at ht
      · rename_i tt rest heq
        simp at ht
        subst ht
        have hmem : ∃ i ∈ inputs, i.1 = .tensor tt := by
          have : ArgType.tensor tt ∈ inputs.map Prod.fst := by rw [heq]; simp
          simpa using this
        obtain ⟨i, hi, hity⟩ := hmem
        obtain ⟨s, hs, h⟩ := hpair i hi
        rw [hity] at h
        refine ⟨?_, by simp⟩
        rw [← hlen1 s hs]
        exact h.1
      · refine hvec _ ?_ t ht
        intro i s n hi hs hadm' hv hpart
        split at hpart
        · rename_i m hm
          rw [hm] at hadm'
          simp at hpart
          rw [← hpart]
          exact hadm'
        · cases hpart
      · cases ht

/-- Concat: the type describes the ONNX output, unless a rank-1 tensor of unknown length is combined
with a `Shape` value. `inputs` carries the shape of each constant input, which is its true shape. -/
theorem C47_concat_partial {k : Nat} {inputs : List (ArgType × Option (List Nat))} {t : ArgType}
    {shapes : List (List Nat)} {out : List Nat}
    (hadm : AdmitsAll (inputs.map Prod.fst) shapes)
    (hval : ∀ (j : Nat) i s, inputs[j]? = some i → shapes[j]? = some s → ∀ v, i.2 = some v → s = v)
    (hknown : inputs.any (Infer.isShape ·.1) = true → ∀ i ∈ inputs, ∀ u, i.1 = .tensor u → u.rank = 1 →
      i.2 ≠ none ∨ ∃ d, u.staticShape = some [some d])
    (ht : Infer.concat inputs = some t) (ho : Onnx.Concat k shapes out) : t.Admits out := by
  refine concat_type hadm (fun j i s hi hs => ⟨hval j i s hi hs, fun h u hu hr => ?_⟩) ht ho
  rcases hknown h i (List.mem_of_getElem? hi) u hu hr with h | h
  · exact Or.inl h
  · exact Or.inr (Or.inl h)

/-- A `Shape(2)` and a vector whose length (3) is unknown at import: the type says 3 elements. -/
theorem C47_concat_unknown_length_wrong :
    ∃ inputs t, AdmitsAll (inputs.map Prod.fst) [[2], [3]] ∧ Infer.concat inputs = some t ∧
      Onnx.Concat 0 [[2], [3]] [5] ∧ ¬ t.Admits [5] := by
  refine ⟨[(.shape 2, none), (.tensor ⟨.i64, 1, some [none]⟩, none)], .shape 3, ?_, by decide, ?_, ?_⟩
  · exact .cons rfl (.cons ⟨rfl, by intro p hp; cases hp; simp [PShape.Describes]⟩ .nil)
  · refine ⟨by decide, ?_, by decide⟩
    intro s hs
    have : s = [2] ∨ s = [3] := by simpa using hs
    rcases this with rfl | rfl
    · exact ⟨rfl, fun i hi => by cases i with | zero => exact absurd rfl hi | succ i => rfl⟩
    · exact ⟨rfl, fun i hi => by cases i with | zero => exact absurd rfl hi | succ i => rfl⟩
  · intro h; cases h

/-! ## Linear layers -/

theorem setLast_append (x y : Option Nat) (l : PShape) : Infer.setLast x (l ++ [y]) = l ++ [x] := by
  induction l with
  | nil => rfl
  | cons z zs ih =>
    cases zs with
    | nil => rfl
    | cons w ws =>
      simp only [List.cons_append] at ih ⊢
      simp only [Infer.setLast, ih]

/-- A linear layer: the type describes the output, taking the number of features from the weight's
value or its type. -/
theorem C13_linear_type {transposed : Bool} {weightDims : Option (List Nat)} {x w t : ArgType}
    {s sw out : List Nat} (hx : x.Admits s) (hw : w.Admits sw)
    (hv : ∀ v, weightDims = some v → v = sw)
    (ht : Infer.linear transposed weightDims x w = some t)
    (ho : Onnx.linear transposed s sw = some out) : t.Admits out := by
  unfold Onnx.linear at ho
  split at ho
  · rename_i d batch w0 w1 hs
    have hs' : s = batch.reverse ++ [d] := by
      have := congrArg List.reverse hs
      simpa using this
    generalize hcond : (if transposed then w1 else w0) = wi at ho
    split at ho
    · simp only [Option.some.injEq] at ho
      subst ho
      cases x with
      | tensor tt =>
        simp only [ArgType.Admits] at hx
        simp only [Infer.linear, Option.some.injEq] at ht
        subst ht
        refine ⟨by rw [← hx.1, hs']; simp, ?_⟩
        intro p hp
        simp only [Option.some.injEq] at hp
        subst hp
        have hdesc : PShape.Describes (tt.staticShape.getD (List.replicate tt.rank none)) s := by
          cases hsh : tt.staticShape with
          | none => rw [← hx.1]; exact PShape.describes_none
          | some sh => exact hx.2 sh hsh
        rw [hs'] at hdesc
        obtain ⟨p1, p2, hp12, hd1, hd2⟩ := hdesc.split
        have hl2 := hd2.length
        match p2, hl2 with
        | [e], _ =>
          rw [hp12, setLast_append]
          rw [PShape.describes_append hd1.length]
          refine ⟨hd1, ?_, trivial⟩
          intro k hk
          cases hwd : weightDims.bind (·[if transposed then 0 else 1]?) with
          | some f =>
            rw [hwd] at hk
            simp only [Option.some.injEq] at hk
            subst hk
            obtain ⟨v, hv1, hv2⟩ := Option.bind_eq_some_iff.1 hwd
            have := hv v hv1
            subst this
            cases transposed <;> simp at hv2 ⊢ <;> exact hv2.symm
          | none =>
            rw [hwd] at hk
            simp only at hk
            split at hk
            · rename_i wt
              rw [Option.join_eq_some_iff, Option.bind_eq_some_iff] at hk
              obtain ⟨q, hq, hqk⟩ := hk
              have := (PShape.describes_iff.1 (hw.2 q hq)).2 _ k hqk
              cases transposed <;> simp at this ⊢ <;> exact this.symm
            · cases hk
      | shape k => simp [Infer.linear] at ht
      | scalarTensor d => simp [Infer.linear] at ht
      | scalarNative d => simp [Infer.linear] at ht
    · cases ho
  · cases ho

example : Infer.linear true (some [5, 3]) (.tensor ⟨.f32, 2, none⟩) (.tensor ⟨.f32, 2, none⟩) =
      some (.tensor ⟨.f32, 2, some [none, some 5]⟩) ∧ Onnx.linear true [8, 3] [5, 3] = some [8, 5] := by
  decide +kernel

end OnnxIR
