import Verif.Model.OpRules
import Verif.Spec.OpShapes
import Verif.Spec.ShapeOps
import Verif.Lemmas.Shapes

/-!
# Output types of individual operators describe the ONNX output shape
-/

namespace OnnxIR

open Infer

/-! ## Constants -/

theorem C14_constant_sound (dt : DType) (dims : List Nat) (ws wn : Bool) :
    (Infer.constant dt dims ws wn).Admits dims := by
  unfold Infer.constant
  split
  · split <;> rfl
  · rename_i d
    split
    · rfl
    · refine ⟨rfl, ?_⟩
      intro p hp
      cases hp
      exact PShape.describes_some (s := [d]).2 rfl
  · refine ⟨rfl, ?_⟩
    intro p hp
    cases hp
    exact PShape.describes_some.2 rfl

/-! ## MatMul and Gemm -/

theorem Onnx.matmul_rank {a b out : List Nat} (h : Onnx.matmul a b = some out) :
    1 ≤ a.length ∧ 1 ≤ b.length ∧
    out.length = if a.length = 1 ∧ b.length = 1 then 0
      else if a.length = 1 ∨ b.length = 1 then max a.length b.length - 1 else max a.length b.length := by
  unfold Onnx.matmul at h
  rw [← a.length_reverse, ← b.length_reverse]
  split at h
  · rename_i h1 h2
    rw [h1, h2]
    split at h <;> simp at h
    simp [← h]
  · rename_i h1 h2
    rw [h1, h2]
    split at h <;> simp at h
    simp [← h]
  · rename_i h1 h2
    rw [h1, h2]
    split at h <;> simp at h
    simp [← h]
  · rename_i h1 h2
    rw [h1, h2]
    split at h <;> simp at h
    obtain ⟨s, hs, rfl⟩ := h
    have := bcast_length hs
    simp at this ⊢
    omega
  · cases h

/-- MatMul's output type is right unless both operands are vectors. -/
theorem C30_matmul_type_partial {a b t : ArgType} {sa sb out : List Nat} (ha : a.Admits sa)
    (hb : b.Admits sb) (ht : Infer.matmul a b = some t) (ho : Onnx.matmul sa sb = some out)
    (hvec : ¬ (sa.length = 1 ∧ sb.length = 1)) : t.Admits out := by
  obtain ⟨h1, h2, h3⟩ := Onnx.matmul_rank ho
  rw [if_neg hvec] at h3
  unfold Infer.matmul at ht
  split at ht
  · rename_i ta tb
    simp only [ArgType.Admits] at ha hb
    split at ht
    · cases ht
    · split at ht
      · cases ht
      · simp only [Option.some.injEq] at ht
        subst ht
        refine ⟨?_, by simp⟩
        simp only [h3, ← ha.1, ← hb.1]
        split <;> split <;> omega
  · cases ht

theorem C30_matmulinteger_type_partial {a b t : ArgType} {sa sb out : List Nat} (ha : a.Admits sa)
    (hb : b.Admits sb) (ht : Infer.matmulInteger a b = some t) (ho : Onnx.matmul sa sb = some out)
    (hvec : ¬ (sa.length = 1 ∧ sb.length = 1)) : t.Admits out := by
  obtain ⟨h1, h2, h3⟩ := Onnx.matmul_rank ho
  rw [if_neg hvec] at h3
  unfold Infer.matmulInteger at ht
  split at ht
  · rename_i ta tb
    simp only [ArgType.Admits] at ha hb
    simp only [Option.some.injEq] at ht
    subst ht
    refine ⟨?_, by simp⟩
    simp only [h3, ← ha.1, ← hb.1]
    split <;> split <;> omega
  · cases ht

/-- The product of two vectors has rank 0 in ONNX, and the type says rank 1. -/
theorem C30_vector_vector_wrong :
    ∃ a b t, ArgType.Admits a [3] ∧ ArgType.Admits b [3] ∧ Infer.matmul a b = some t ∧
      Onnx.matmul [3] [3] = some [] ∧ ¬ t.Admits [] := by
  refine ⟨.tensor ⟨.f32, 1, none⟩, .tensor ⟨.f32, 1, none⟩, .tensor ⟨.f32, 1, none⟩,
    ⟨rfl, by simp⟩, ⟨rfl, by simp⟩, rfl, by decide, ?_⟩
  rintro ⟨h, -⟩
  cases h

/-- The hypotheses hold for a batched product. -/
example : ∃ t, Infer.matmul (.tensor ⟨.f32, 3, some [none, some 2, some 3]⟩) (.tensor ⟨.f32, 1, none⟩) = some t ∧
    Onnx.matmul [5, 2, 3] [3] = some [5, 2] ∧ t.Admits [5, 2] := by
  refine ⟨_, rfl, by decide, rfl, ?_⟩
  simp

theorem C14_gemm_sound {ta tb : Bool} {a b t : ArgType} {sa sb out : List Nat} (ha : a.Admits sa)
    (hb : b.Admits sb) (ht : Infer.gemm a b = some t) (ho : Onnx.gemm ta tb sa sb = some out) :
    t.Admits out := by
  unfold Onnx.gemm at ho
  split at ho
  · unfold Infer.gemm at ht
    split at ht
    · simp only [Option.some.injEq] at ht
      subst ht
      simp only [ArgType.Admits, List.length_cons, List.length_nil] at ha hb
      refine ⟨?_, by simp⟩
      simp only [← ha.1, ← hb.1]
      cases ta <;> cases tb <;> simp at ho <;> simp [← ho.2]
    · cases ht
  · cases ho

/-! ## Transpose -/

theorem mapM_some_getElem? {α β : Type} {f : α → Option β} {l : List α} {r : List β}
    (h : l.mapM f = some r) : r.length = l.length ∧ ∀ (i : Nat) a, l[i]? = some a → ∃ b, r[i]? = some b ∧ f a = some b := by
  induction l generalizing r with
  | nil => simp at h; simp [h]
  | cons x xs ih =>
    simp only [List.mapM_cons, bind, Option.bind_eq_some_iff, pure, Option.some.injEq] at h
    obtain ⟨y, hy, ys, hys, rfl⟩ := h
    obtain ⟨h1, h2⟩ := ih hys
    refine ⟨by simp [h1], ?_⟩
    intro i a hi
    cases i with
    | zero => simp at hi ⊢; rw [← hi]; exact hy
    | succ i => simpa using h2 i a (by simpa using hi)

/-- Transpose with `perm` given as non-negative axes, or absent and then reversed. -/
theorem C14_transpose_sound {perm : List Nat} {given : Option (List Int)} {x t : ArgType}
    {s out : List Nat} (hx : x.Admits s) (ht : Infer.transpose given x = some t)
    (hp : given.getD ((List.range s.length).reverse.map Int.ofNat) = perm.map Int.ofNat)
    (ho : Onnx.transpose perm s = some out) : t.Admits out := by
  unfold Infer.transpose at ht
  split at ht
  · rename_i tt
    simp only [ArgType.Admits] at hx
    simp only [← hx.1, hp] at ht
    unfold Onnx.transpose at ho
    split at ho
    · rename_i hlen
      obtain ⟨h1, h2⟩ := mapM_some_getElem? ho
      split at ht
      · cases ht
      · split at ht
        · simp only [Option.some.injEq] at ht
          subst ht
          exact ⟨by simp only [h1, hlen.1], by simp⟩
        · rename_i sh hsh
          simp only [Option.map_eq_some_iff] at ht
          obtain ⟨q, hq, rfl⟩ := ht
          refine ⟨by simp only [h1, hlen.1], ?_⟩
          intro p hpq
          simp only [Option.some.injEq] at hpq
          subst hpq
          obtain ⟨h3, h4⟩ := mapM_some_getElem? hq
          rw [PShape.describes_iff]
          refine ⟨by rw [h3, List.length_map, h1], ?_⟩
          intro i k hk
          have hi : i < perm.length := by
            have := (List.getElem?_eq_some_iff.1 hk).1
            rw [h3, List.length_map] at this
            exact this
          obtain ⟨b, hb, hb'⟩ := h2 i perm[i] (List.getElem?_eq_getElem hi)
          obtain ⟨c, hc, hc'⟩ := h4 i (Int.ofNat perm[i]) (by simp [hi])
          rw [hk] at hc
          cases hc
          rw [if_neg (by simp)] at hc'
          have := (PShape.describes_iff.1 (hx.2 sh hsh)).2 perm[i] k (by simpa using hc')
          rw [hb'] at this
          rw [hb, this]
    · cases ho
  · cases ht

example : Infer.transpose none (.tensor ⟨.f32, 3, some [some 2, none, some 4]⟩) =
      some (.tensor ⟨.f32, 3, some [some 4, none, some 2]⟩) ∧
    Onnx.transpose [2, 1, 0] [2, 7, 4] = some [4, 7, 2] := by decide +kernel

/-! ## Flatten -/

theorem knownProd_describes {p : PShape} {s : List Nat} (h : p.Describes s) {k : Nat}
    (hk : Infer.knownProd p = some k) : k = prodShape s := by
  induction p generalizing s k with
  | nil =>
    cases s with
    | nil => simp [Infer.knownProd] at hk; simp [← hk, prodShape]
    | cons _ _ => simp [PShape.Describes] at h
  | cons o ps ih =>
    cases s with
    | nil => simp [PShape.Describes] at h
    | cons d ds =>
      simp only [PShape.Describes] at h
      simp only [Infer.knownProd] at hk
      split at hk
      · rename_i d' p' hp'
        simp only [Option.some.injEq] at hk
        rw [← hk, ih h.2 hp', h.1 d' rfl]
        simp [prodShape]
      · cases hk

theorem PShape.Describes.take {p : PShape} {s : List Nat} (h : p.Describes s) (k : Nat) :
    PShape.Describes (p.take k) (s.take k) := by
  rw [PShape.describes_iff] at h ⊢
  refine ⟨by simp [h.1], ?_⟩
  intro i d hd
  rw [List.getElem?_take] at hd ⊢
  split at hd
  · rw [if_pos (by assumption)]; exact h.2 i d hd
  · cases hd

theorem PShape.Describes.drop {p : PShape} {s : List Nat} (h : p.Describes s) (k : Nat) :
    PShape.Describes (p.drop k) (s.drop k) := by
  rw [PShape.describes_iff] at h ⊢
  refine ⟨by simp [h.1], ?_⟩
  intro i d hd
  rw [List.getElem?_drop] at hd ⊢
  exact h.2 _ d hd

/-- Flatten's output type describes the two products around the axis, for every axis in range. -/
theorem C50_flatten_type {a : Option Int} {x t : ArgType} {s out : List Nat} (hx : x.Admits s)
    (ht : Infer.flatten a x = some t) (ho : Onnx.flatten (a.getD 1) s = some out) : t.Admits out := by
  unfold Infer.flatten at ht
  split at ht
  · rename_i tt
    simp only [ArgType.Admits] at hx
    split at ht
    · cases ht
    · unfold Onnx.flatten at ho
      split at ho
      · simp only [Option.some.injEq] at ho
        dsimp only at ht
        split at ht
        · simp only [Option.some.injEq] at ht
          subst ht
          subst ho
          refine ⟨rfl, ?_⟩
          intro p hp
          cases hp
          simp [PShape.Describes]
        · rename_i sh hsh
          rw [← hx.1] at ht
          rw [show (if a.getD 1 < 0 then a.getD 1 + (s.length : Int) else a.getD 1) =
            Infer.normAxis s.length (a.getD 1) from rfl] at ho
          split at ht
          · cases ht
          · simp only [Option.some.injEq] at ht
            subst ht
            subst ho
            refine ⟨rfl, ?_⟩
            intro p hp
            cases hp
            have hd := hx.2 sh hsh
            exact ⟨fun k hk => knownProd_describes (hd.take _) hk,
              fun k hk => knownProd_describes (hd.drop _) hk, trivial⟩
      · cases ho
  · cases ht

example : Infer.flatten (some (-1)) (.tensor ⟨.f32, 3, some [some 2, some 3, none]⟩) =
      some (.tensor ⟨.f32, 2, some [some 6, none]⟩) ∧ Onnx.flatten (-1) [2, 3, 4] = some [6, 4] := by
  decide +kernel

/-- A vector cannot be flattened although ONNX allows it; axis 0 of a matrix can. -/
example : Infer.flatten none (.tensor ⟨.f32, 1, some [some 2]⟩) = none ∧
    Onnx.flatten 1 [2] = some [2, 1] := by decide +kernel

/-! ## Squeeze and Unsqueeze -/

theorem axes_length {r : Nat} {as : List Int} {is : List Nat} (h : Onnx.axes r as = some is) :
    is.length = as.length := by
  induction as generalizing is with
  | nil => simp [Onnx.axes] at h; simp [← h]
  | cons a as ih =>
    simp only [Onnx.axes] at h
    split at h
    · split at h
      · cases h
      · simp only [Option.some.injEq] at h
        rename_i _ _ _ h2 _
        simp [← h, ih h2]
    · cases h

theorem axes_nodup {r : Nat} {as : List Int} {is : List Nat} (h : Onnx.axes r as = some is) :
    is.Nodup ∧ ∀ i ∈ is, i < r := by
  induction as generalizing is with
  | nil => simp [Onnx.axes] at h; simp [h]
  | cons a as ih =>
    simp only [Onnx.axes] at h
    split at h
    · split at h
      · cases h
      · rename_i i is' h1 h2 h3
        simp only [Option.some.injEq] at h
        subst h
        obtain ⟨h4, h5⟩ := ih h2
        refine ⟨List.nodup_cons.2 ⟨h3, h4⟩, ?_⟩
        intro j hj
        rcases List.mem_cons.1 hj with rfl | hj
        · unfold Onnx.axis at h1
          split at h1
          · simp only [Option.some.injEq] at h1
            split at h1 <;> omega
          · cases h1
        · exact h5 j hj
    · cases h

/-- The code's normalised axes are the legal ONNX axes. -/
theorem mem_normAxes {r : Nat} {as : List Int} {is : List Nat} (h : Onnx.axes r as = some is) (k : Nat) :
    (k : Int) ∈ Infer.normAxes r as ↔ k ∈ is := by
  induction as generalizing is with
  | nil => simp [Onnx.axes] at h; simp [Infer.normAxes, h]
  | cons a as ih =>
    simp only [Onnx.axes] at h
    split at h
    · split at h
      · cases h
      · rename_i i is' h1 h2 h3
        simp only [Option.some.injEq] at h
        subst h
        have := ih h2
        simp only [Infer.normAxes, List.map_cons, List.mem_cons] at this ⊢
        rw [this]
        unfold Onnx.axis at h1
        split at h1
        · simp only [Option.some.injEq] at h1
          have : ((k : Int) = Infer.normAxis r a) ↔ k = i := by
            unfold Infer.normAxis
            split at h1 <;> simp_all <;> omega
          rw [this]
        · cases h1
    · cases h

theorem keepDims_describes {p : PShape} {s : List Nat} (h : p.Describes s) {rem : List Int}
    {is : List Nat} (hm : ∀ k : Nat, (k : Int) ∈ rem ↔ k ∈ is) (k : Nat) :
    PShape.Describes (Infer.keepDims k rem p) (Onnx.dropAtFrom k is s) := by
  induction p generalizing s k with
  | nil =>
    cases s with
    | nil => trivial
    | cons _ _ => simp [PShape.Describes] at h
  | cons o ps ih =>
    cases s with
    | nil => simp [PShape.Describes] at h
    | cons d ds =>
      simp only [PShape.Describes] at h
      simp only [Infer.keepDims, Onnx.dropAtFrom]
      by_cases hk : k ∈ is
      · rw [if_pos hk, if_pos ((hm k).2 hk)]; exact ih h.2 _
      · rw [if_neg hk, if_neg (fun h => hk ((hm k).1 h))]; exact ⟨h.1, ih h.2 _⟩

theorem dropAtFrom_length {α : Type} (l : List α) (is : List Nat) (k : Nat) (hn : is.Nodup)
    (hr : ∀ i ∈ is, k ≤ i ∧ i < k + l.length) :
    (Onnx.dropAtFrom k is l).length + is.length = l.length := by
  induction l generalizing is k with
  | nil =>
    cases is with
    | nil => rfl
    | cons i is => have := hr i (by simp); simp at this; omega
  | cons x xs ih =>
    simp only [Onnx.dropAtFrom]
    have hsame : ∀ (js : List Nat) (m k : Nat), (∀ j, m ≤ j → (j ∈ is ↔ j ∈ js)) → m ≤ k →
        Onnx.dropAtFrom k is xs = Onnx.dropAtFrom k js xs := by
      intro js m k
      clear ih hr
      induction xs generalizing k with
      | nil => intros; rfl
      | cons y ys ih =>
        intro hj hk
        simp only [Onnx.dropAtFrom, ih (k + 1) hj (by omega), hj k hk]
    by_cases hk : k ∈ is
    · rw [if_pos hk]
      rw [hsame (is.erase k) (k + 1) (k + 1) (fun j hj => by
        rw [List.mem_erase_of_ne (by omega)]) (Nat.le_refl _)]
      have := ih (is.erase k) (k + 1) (hn.erase k) (fun i hi => by
        have h1 := (List.Nodup.mem_erase_iff hn).1 hi
        have h2 := hr i h1.2
        simp at h2
        omega)
      rw [List.length_erase_of_mem hk] at this
      have := List.length_pos_of_mem hk
      simp
      omega
    · rw [if_neg hk]
      have := ih is (k + 1) hn (fun i hi => by
        have h2 := hr i hi
        have : i ≠ k := fun h => hk (h ▸ hi)
        simp at h2
        omega)
      simp
      omega

theorem dropAt_length {α : Type} {l : List α} {as : List Int} {is : List Nat}
    (h : Onnx.axes l.length as = some is) : (Onnx.dropAt is l).length + as.length = l.length := by
  have h1 := axes_nodup h
  rw [← axes_length h]
  exact dropAtFrom_length l is 0 h1.1 (fun i hi => ⟨Nat.zero_le _, by simpa using h1.2 i hi⟩)

/-- Squeeze with constant axes: the output type describes what ONNX returns. -/
theorem C22_squeeze_axes {as : List Int} {x t : ArgType} {s out : List Nat} (hx : x.Admits s)
    (ht : Infer.squeeze (some as) x = some t) (hne : as ≠ []) (ho : Onnx.squeeze as s = some out) :
    t.Admits out := by
  unfold Onnx.squeeze at ho
  split at ho
  · rename_i is his
    split at ho
    · rename_i hones
      simp only [Option.some.injEq] at ho
      subst ho
      have hl := dropAt_length his
      cases x with
      | tensor tt =>
        simp only [ArgType.Admits] at hx
        simp only [Infer.squeeze] at ht
        split at ht
        · cases ht
        · simp only [Option.some.injEq] at ht
          subst ht
          split
          · exact List.eq_nil_of_length_eq_zero (by omega)
          · refine ⟨by simp only; omega, ?_⟩
            intro p hp
            simp only [Option.some.injEq] at hp
            subst hp
            refine keepDims_describes ?_ (fun k => by rw [← hx.1]; exact mem_normAxes his k) 0
            cases hsh : tt.staticShape with
            | none => simp only [Option.getD_none, ← hx.1]; exact PShape.describes_none
            | some sh => exact hx.2 sh hsh
      | shape k =>
        cases hx
        simp only [Infer.squeeze] at ht
        split at ht
        · cases ht
        · rename_i has
          have has : as = [0] := by
            by_cases h : as = [0]
            · exact h
            · exact absurd ⟨hne, h⟩ has
          subst has
          have : is = [0] := by
            have := his
            simp [Onnx.axes, Onnx.axis] at this
            exact this.symm
          subst this
          simp at hones
          subst hones
          simp at ht
          subst ht
          rfl
      | scalarTensor d =>
        cases hx
        cases as with
        | nil => exact absurd rfl hne
        | cons a as =>
          simp at hl
      | scalarNative d =>
        cases hx
        cases as with
        | nil => exact absurd rfl hne
        | cons a as =>
          simp at hl
    · cases ho
  · cases ho

theorem PShape.describes_filter_ones {p : PShape} {s dims : List Nat} (h : p.Describes s)
    (hk : allKnown p = some dims) :
    PShape.Describes (p.filter (· ≠ some 1)) (Onnx.squeezeAll s) := by
  have hs := PShape.describes_known h hk
  have hp : p = dims.map some := by
    clear h hs
    induction p generalizing dims with
    | nil => simp [allKnown] at hk; simp [← hk]
    | cons o ps ih =>
      cases o with
      | none => simp [allKnown] at hk
      | some k =>
        simp only [allKnown, Option.map_eq_some_iff] at hk
        obtain ⟨ds, h1, rfl⟩ := hk
        simp [ih h1]
  subst hp hs
  rw [show (s.map some).filter (fun x => decide (x ≠ some 1)) = (Onnx.squeezeAll s).map some from by
    rw [List.filter_map]; unfold Onnx.squeezeAll; congr 1; apply List.filter_congr; intro a _; simp]
  exact PShape.describes_some.2 rfl

/-- Squeeze without axes: right when every dimension of the input is known. -/
theorem C22_squeeze_all_partial {x t : ArgType} {s dims : List Nat} (hx : x.Admits s)
    (ht : Infer.squeeze none x = some t)
    (hk : ∀ tt p, x = .tensor tt → tt.staticShape = some p → allKnown p = some dims) :
    t.Admits (Onnx.squeezeAll s) := by
  cases x with
  | tensor tt =>
    simp only [ArgType.Admits] at hx
    simp only [Infer.squeeze] at ht
    split at ht
    · cases ht
    · rename_i sh hsh
      have hd := PShape.describes_filter_ones (hx.2 sh hsh) (hk tt sh rfl hsh)
      have hl := hd.length
      simp only [Option.some.injEq] at ht
      subst ht
      split
      · rename_i h0
        exact List.eq_nil_of_length_eq_zero (by rw [← hl]; exact h0)
      · refine ⟨hl.symm, ?_⟩
        intro p hp
        simp only [Option.some.injEq] at hp
        subst hp
        exact hd
  | shape k =>
    cases hx
    simp only [Infer.squeeze, Option.some.injEq] at ht
    subst ht
    split
    · rename_i h; subst h; rfl
    · rename_i h; simp [ArgType.Admits, Onnx.squeezeAll, h]
  | scalarTensor d => cases hx; simp [Infer.squeeze] at ht; subst ht; rfl
  | scalarNative d => cases hx; simp [Infer.squeeze] at ht; subst ht; rfl

/-- A dimension unknown at import that is 1 at run time: ONNX drops it, the type keeps it. -/
theorem C22_unknown_one_wrong :
    ∃ x t, ArgType.Admits x [1, 3] ∧ Infer.squeeze none x = some t ∧ Onnx.squeezeAll [1, 3] = [3] ∧
      ¬ t.Admits [3] := by
  refine ⟨.tensor ⟨.f32, 2, some [none, some 3]⟩, .tensor ⟨.f32, 2, some [none, some 3]⟩,
    ⟨rfl, ?_⟩, by decide, by decide, ?_⟩
  · intro p hp; cases hp; simp [PShape.Describes]
  · rintro ⟨h, -⟩; cases h

/-- Axes known only at run time are treated as if there were none: with axes `[0]` ONNX turns
`[1, 1, 3]` into `[1, 3]`, the type says `[3]`. -/
theorem C22_runtime_axes_wrong :
    ∃ x t, ArgType.Admits x [1, 1, 3] ∧ Infer.squeeze none x = some t ∧
      Onnx.squeeze [0] [1, 1, 3] = some [1, 3] ∧ ¬ t.Admits [1, 3] := by
  refine ⟨.tensor ⟨.f32, 3, some [some 1, some 1, some 3]⟩, .tensor ⟨.f32, 1, some [some 3]⟩,
    ⟨rfl, ?_⟩, by decide, by decide, ?_⟩
  · intro p hp; cases hp; simp [PShape.Describes]
  · rintro ⟨h, -⟩; cases h

theorem unsqueezeDims_describes {n k : Nat} {norm : List Int} {is : List Nat} {dims q : PShape}
    {out : List Nat} (hm : ∀ k : Nat, (k : Int) ∈ norm ↔ k ∈ is) (hn : out.length = n)
    (hones : ∀ (i : Nat), k + i ∈ is → i < n → out[i]? = some 1)
    (hd : dims.Describes (Onnx.dropAtFrom k is out))
    (hq : Infer.unsqueezeDims k norm n dims = some q) : q.Describes out := by
  induction n generalizing k dims q out with
  | zero =>
    simp [Infer.unsqueezeDims] at hq
    subst hq
    rw [List.eq_nil_of_length_eq_zero hn]
    trivial
  | succ n ih =>
    cases out with
    | nil => cases hn
    | cons d ds =>
      simp only [Infer.unsqueezeDims] at hq
      simp only [Onnx.dropAtFrom] at hd
      by_cases hk : k ∈ is
      · rw [if_pos ((hm k).2 hk)] at hq
        rw [if_pos hk] at hd
        obtain ⟨q', hq', rfl⟩ := Option.map_eq_some_iff.1 hq
        have h1 := hones 0 hk (Nat.succ_pos n)
        simp at h1
        refine ⟨by intro k hk; cases hk; exact h1.symm, ?_⟩
        exact ih (by simpa using hn) (fun i hi hlt => by
          have := hones (i + 1) (by rw [← Nat.add_assoc, Nat.add_right_comm]; exact hi) (by omega)
          simpa using this) hd hq'
      · rw [if_neg (fun h => hk ((hm k).1 h))] at hq
        rw [if_neg hk] at hd
        cases dims with
        | nil => simp [PShape.Describes] at hd
        | cons e es =>
          obtain ⟨q', hq', rfl⟩ := Option.map_eq_some_iff.1 hq
          refine ⟨hd.1, ?_⟩
          exact ih (by simpa using hn) (fun i hi hlt => by
            have := hones (i + 1) (by rw [← Nat.add_assoc, Nat.add_right_comm]; exact hi) (by omega)
            simpa using this) hd.2 hq'

/-- Unsqueeze: the output type describes what ONNX returns, with axes known at import (`some as`) or
at run time (then their number comes from the axes input's type). -/
theorem C22_unsqueeze {as : List Int} {known : Bool} {axesTy : Option ArgType} {prev x t : ArgType}
    {s out : List Nat} (hx : x.Admits s)
    (hax : ∀ ty, axesTy = some ty → ty.Admits [as.length])
    (ht : Infer.unsqueeze (if known then some as else none) axesTy prev x = some t)
    (ho : Onnx.Unsqueeze as s out) : t.Admits out := by
  obtain ⟨hl, is, his, hones, hdrop⟩ := ho
  -- the rank the code computes
  have key : ∀ o : Nat, Infer.unsqueezeRank s.length (if known then some as else none) axesTy = some o →
      o = out.length := by
    intro o h
    cases known with
    | true => simp [Infer.unsqueezeRank] at h; omega
    | false =>
      simp only [Bool.false_eq_true, if_false, Infer.unsqueezeRank] at h
      split at h
      · rename_i tt
        have := hax _ rfl
        simp only [ArgType.Admits] at this
        obtain ⟨d, hd, rfl⟩ := Option.map_eq_some_iff.1 h
        rw [Option.join_eq_some_iff, Option.bind_eq_some_iff] at hd
        obtain ⟨p, hp, hh⟩ := hd
        have hdesc := this.2 p hp
        cases p with
        | nil => cases hh
        | cons e es =>
          cases es with
          | nil =>
            simp at hh
            subst hh
            have := hdesc.1 d rfl
            omega
          | cons _ _ => simp [PShape.Describes] at hdesc
      · cases h
  have hgen : ∀ (o : Nat) (dims : PShape) (dt : DType) (t : ArgType), o = out.length → dims.Describes s →
      Infer.unsqueezeTensor o (if known then some as else none) dims dt = some t → t.Admits out := by
    intro o dims dt t ho hd h
    subst ho
    cases known with
    | true =>
      simp only [if_true, Infer.unsqueezeTensor] at h
      obtain ⟨q, hq, rfl⟩ := Option.map_eq_some_iff.1 h
      refine ⟨rfl, ?_⟩
      intro p hp
      simp only [Option.some.injEq] at hp
      subst hp
      refine unsqueezeDims_describes (fun k => mem_normAxes his k) rfl ?_ (by rw [← hdrop] at hd; exact hd) hq
      intro i hi _
      exact hones i (by simpa using hi)
    | false =>
      simp [Infer.unsqueezeTensor] at h
      subst h
      refine ⟨rfl, ?_⟩
      intro p hp
      simp only [Option.some.injEq] at hp
      subst hp
      exact PShape.describes_none
  -- a scalar input whose output has rank 1
  have hone : s = [] → out.length = 1 → out = [1] := by
    intro hs h1
    have has : as.length = 1 := by rw [hs] at hl; simp at hl; omega
    have := axes_length his
    have h2 := axes_nodup his
    match is, this with
    | [i], _ =>
      have h3 := h2.2 i (by simp)
      have : i = 0 := by omega
      subst this
      have := hones 0 (by simp)
      match out, h1, this with
      | [d], _, h => simp at h; rw [h]
    | [], h => simp at h; omega
    | _ :: _ :: _, h => simp at h; omega
  have hscalar : s = [] → ∀ o d dt t, o = out.length →
      Infer.unsqueezeScalar o (if known then some as else none) d dt = some t → t.Admits out := by
    intro hs o d dt t hoo h
    unfold Infer.unsqueezeScalar at h
    split at h
    · rename_i h1
      rw [hone hs (by omega)]
      simp only [Option.some.injEq] at h
      subst h
      split
      · rfl
      · exact ⟨rfl, by intro p hp; cases hp; simp [PShape.Describes]⟩
    · obtain ⟨dt, -, h⟩ := Option.bind_eq_some_iff.1 h
      exact hgen o [] dt t hoo (by rw [hs]; trivial) h
  unfold Infer.unsqueeze at ht
  cases x with
  | tensor tt =>
    simp only [ArgType.Admits] at hx
    simp only [← hx.1] at ht
    obtain ⟨o, ho, ht⟩ := Option.bind_eq_some_iff.1 ht
    obtain ⟨dt, -, ht⟩ := Option.bind_eq_some_iff.1 ht
    refine hgen o _ dt t (key o ho) ?_ ht
    cases hsh : tt.staticShape with
    | none => exact PShape.describes_none
    | some sh => exact hx.2 sh hsh
  | shape k => simp at ht
  | scalarTensor d =>
    have hs : s = [] := hx
    obtain ⟨o, ho, ht⟩ := Option.bind_eq_some_iff.1 ht
    exact hscalar hs o d _ t (key o (by rw [hs]; exact ho)) ht
  | scalarNative d =>
    have hs : s = [] := hx
    obtain ⟨o, ho, ht⟩ := Option.bind_eq_some_iff.1 ht
    exact hscalar hs o d _ t (key o (by rw [hs]; exact ho)) ht

example : Infer.unsqueeze (some [0, -1]) none (.tensor ⟨.f32, 0, none⟩)
      (.tensor ⟨.f32, 2, some [some 3, none]⟩) =
      some (.tensor ⟨.f32, 4, some [some 1, some 3, none, some 1]⟩) ∧
    Onnx.Unsqueeze [0, -1] [3, 4] [1, 3, 4, 1] := by
  refine ⟨by decide +kernel, by decide, [0, 3], by decide, by decide, by decide⟩

theorem dropAtFrom_range (is : List Nat) (k n : Nat) :
    Onnx.dropAtFrom k is (List.range' k n) = (List.range' k n).filter (· ∉ is) := by
  induction n generalizing k with
  | zero => rfl
  | succ n ih =>
    rw [List.range'_succ]
    simp only [Onnx.dropAtFrom, List.filter_cons, ih]
    by_cases hk : k ∈ is <;> simp [hk]

theorem unsqueezeDims_total {norm : List Int} {is : List Nat} (hm : ∀ k : Nat, (k : Int) ∈ norm ↔ k ∈ is)
    (n k : Nat) (dims : PShape) (hl : ((List.range' k n).filter (· ∉ is)).length = dims.length) :
    ∃ q, Infer.unsqueezeDims k norm n dims = some q ∧ q.length = n ∧ Infer.keepDims k norm q = dims := by
  induction n generalizing k dims with
  | zero =>
    cases dims with
    | nil => exact ⟨[], rfl, rfl, rfl⟩
    | cons d ds => simp at hl
  | succ n ih =>
    rw [List.range'_succ, List.filter_cons] at hl
    by_cases hk : k ∈ is
    · rw [if_neg (by simpa using hk)] at hl
      obtain ⟨q, q1, q2, q3⟩ := ih (k + 1) dims hl
      exact ⟨some 1 :: q, by simp [Infer.unsqueezeDims, (hm k).2 hk, q1], by simp [q2],
        by simp [Infer.keepDims, (hm k).2 hk, q3]⟩
    · have hk' : (k : Int) ∉ norm := fun h => hk ((hm k).1 h)
      rw [if_pos (by simpa using hk)] at hl
      cases dims with
      | nil => simp at hl
      | cons d ds =>
        obtain ⟨q, q1, q2, q3⟩ := ih (k + 1) ds (by simpa using hl)
        exact ⟨d :: q, by simp [Infer.unsqueezeDims, hk', q1], by simp [q2],
          by simp [Infer.keepDims, hk', q3]⟩

/-- **C22.** Unsqueeze followed by Squeeze on the same legal axes, negative or not, gives back the rank
and the static shape, whichever dimensions are known. -/
theorem C22_round_trip {as : List Int} {is : List Nat} {axesTy : Option ArgType} {p t : TensorType}
    (hr : t.rank ≠ 0) (hs : ∀ sh, t.staticShape = some sh → sh.length = t.rank)
    (hl : Onnx.axes (t.rank + as.length) as = some is) :
    ∃ u, Infer.unsqueeze (some as) axesTy (.tensor p) (.tensor t) = some u ∧
      Infer.squeeze (some as) u = some (.tensor ⟨t.dtype, t.rank,
        some (t.staticShape.getD (List.replicate t.rank none))⟩) := by
  have hdl : (t.staticShape.getD (List.replicate t.rank none)).length = t.rank := by
    cases h : t.staticShape with
    | none => simp
    | some sh => exact hs sh h
  have hcount : ((List.range' 0 (t.rank + as.length)).filter (· ∉ is)).length =
      (t.staticShape.getD (List.replicate t.rank none)).length := by
    have := dropAt_length (l := List.range' 0 (t.rank + as.length)) (as := as) (is := is) (by simpa using hl)
    rw [Onnx.dropAt, dropAtFrom_range] at this
    simp only [List.length_range'] at this
    omega
  obtain ⟨q, q1, q2, q3⟩ := unsqueezeDims_total (fun k => mem_normAxes hl k) _ 0 _ hcount
  refine ⟨.tensor ⟨t.dtype, t.rank + as.length, some q⟩, ?_, ?_⟩
  · simp [Infer.unsqueeze, Infer.unsqueezeRank, Infer.unsqueezeElem, Infer.unsqueezeTensor, ArgType.elemType, q1]
  · simp [Infer.squeeze, Nat.add_sub_cancel, hr, q3]

example : Onnx.axes (2 + [0, -1].length) [0, -1] = some [0, 3] := by decide

end OnnxIR
