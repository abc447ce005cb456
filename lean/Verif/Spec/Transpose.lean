import Verif.Spec.Tensor
import Mathlib.Data.List.Perm.Subperm

/-!
# Transposition

`Transpose` with permutation `perm`: dimension `k` of the result is dimension `perm[k]` of the
input, and so is component `k` of every index.
-/

namespace OnnxIR

/-- `perm` lists `0, …, n - 1`, each once. -/
def IsPerm (n : Nat) (perm : List Nat) : Prop := perm.Nodup ∧ ∀ a, a ∈ perm ↔ a < n

/-- The dimensions in the order of the permutation. -/
def permShape (s perm : List Nat) : List Nat := perm.map (s.getD · 0)

/-- The input index read for an output index: component `a` of the input index is the component of
the output index at the place where `perm` holds `a`. -/
def unpermute (n : Nat) (perm i : List Nat) : List Nat :=
  (List.range n).map fun a => i.getD (perm.idxOf a) 0

/-- ONNX `Transpose`. -/
def Tensor.transpose {α : Type} [Inhabited α] (t : Tensor α) (perm : List Nat) : Tensor α :=
  Tensor.ofFn (permShape t.shape perm) fun i => t.get (unpermute t.shape.length perm i)

/-- The permutation leaves the order of the dimensions that are not 1 alone. -/
def KeepsOrder (s perm : List Nat) : Prop :=
  (perm.filter fun a => s.getD a 0 != 1).Pairwise (· < ·)

/-! ## When transposing does not move data -/

/-- `prodShape` and `flatIdx` on a list of (dimension, index) pairs. -/
def flatP : List (Nat × Nat) → Nat
  | [] => 0
  | (_, i) :: l => i * prodShape (l.map Prod.fst) + flatP l

theorem flatIdx_zip : ∀ {s i : List Nat}, i.length = s.length → flatIdx s i = flatP (s.zip i)
  | [], [], _ => rfl
  | [], _ :: _, h => by simp at h
  | _ :: _, [], h => by simp at h
  | d :: s, i :: is, h => by
    simp only [List.length_cons, Nat.add_right_cancel_iff] at h
    simp only [flatIdx, List.zip_cons_cons, flatP, flatIdx_zip h]
    rw [List.map_fst_zip (by omega)]

theorem prod_filter_one : ∀ l : List (Nat × Nat),
    prodShape ((l.filter fun p => p.1 != 1).map Prod.fst) = prodShape (l.map Prod.fst)
  | [] => rfl
  | (d, i) :: l => by
    by_cases hd : d = 1
    · subst hd; simp [prodShape, prod_filter_one l]
    · simp [hd, prodShape, prod_filter_one l]

theorem flatP_filter_one : ∀ {l : List (Nat × Nat)}, (∀ p ∈ l, p.2 < p.1) →
    flatP (l.filter fun p => p.1 != 1) = flatP l
  | [], _ => rfl
  | (d, i) :: l, h => by
    have ih := flatP_filter_one (l := l) fun p hp => h p (List.mem_cons_of_mem _ hp)
    have h0 := h (d, i) List.mem_cons_self
    by_cases hd : d = 1
    · subst hd
      simp only at h0
      have : i = 0 := by omega
      subst this
      simp [flatP, ih]
    · simp [hd, flatP, ih, prod_filter_one]

theorem sorted_ext : ∀ {l m : List Nat}, l.Pairwise (· < ·) → m.Pairwise (· < ·) →
    (∀ a, a ∈ l ↔ a ∈ m) → l = m
  | [], [], _, _, _ => rfl
  | [], b :: m, _, _, h => by have := (h b).2 List.mem_cons_self; simp at this
  | a :: l, [], _, _, h => by have := (h a).1 List.mem_cons_self; simp at this
  | a :: l, b :: m, hl, hm, h => by
    rw [List.pairwise_cons] at hl hm
    have hab : a = b := by
      rcases List.mem_cons.1 ((h a).1 List.mem_cons_self) with hab | hab
      · exact hab
      · rcases List.mem_cons.1 ((h b).2 List.mem_cons_self) with hba | hba
        · exact hba.symm
        · have := hm.1 a hab; have := hl.1 b hba; omega
    subst hab
    rw [sorted_ext hl.2 hm.2]
    intro c
    constructor
    · intro hc
      rcases List.mem_cons.1 ((h c).1 (List.mem_cons_of_mem _ hc)) with e | e
      · have := hl.1 c hc; omega
      · exact e
    · intro hc
      rcases List.mem_cons.1 ((h c).2 (List.mem_cons_of_mem _ hc)) with e | e
      · have := hm.1 c hc; omega
      · exact e

theorem inRange_iff_get {s i : List Nat} : InRange s i ↔
    i.length = s.length ∧ ∀ k, k < s.length → i.getD k 0 < s.getD k 0 := by
  induction s generalizing i with
  | nil => cases i <;> simp [InRange]
  | cons d s ih =>
    cases i with
    | nil => simp [InRange]
    | cons j i =>
      simp only [InRange, ih, List.length_cons, Nat.add_right_cancel_iff]
      constructor
      · rintro ⟨h1, h2, h3⟩
        refine ⟨h2, ?_⟩
        intro k hk
        cases k with
        | zero => simpa using h1
        | succ k => simpa using h3 k (by omega)
      · rintro ⟨h2, h3⟩
        refine ⟨by simpa using h3 0 (by omega), h2, ?_⟩
        intro k hk
        simpa using h3 (k + 1) (by omega)

theorem IsPerm.perm {n : Nat} {perm : List Nat} (h : IsPerm n perm) :
    perm.Perm (List.range n) :=
  (List.perm_ext_iff_of_nodup h.1 List.nodup_range).2 fun a => by rw [h.2, List.mem_range]

theorem IsPerm.length {n : Nat} {perm : List Nat} (h : IsPerm n perm) : perm.length = n := by
  simpa using h.perm.length_eq

theorem prodShape_perm {s t : List Nat} (h : s.Perm t) : prodShape s = prodShape t := by
  induction h with
  | nil => rfl
  | cons x _ ih => simp [prodShape, ih]
  | swap x y l => simp [prodShape, Nat.mul_left_comm]
  | trans _ _ ih1 ih2 => rw [ih1, ih2]

theorem map_getD_range (s : List Nat) : (List.range s.length).map (s.getD · 0) = s := by
  refine List.ext_getElem (by simp) ?_
  intro k h1 h2
  simp [h2]

theorem permShape_prod {s perm : List Nat} (h : IsPerm s.length perm) :
    prodShape (permShape s perm) = prodShape s := by
  have := prodShape_perm (h.perm.map (s.getD · 0))
  rw [map_getD_range] at this
  exact this

/-- The output index as read off the input index. -/
theorem unpermute_perm {n : Nat} {perm i : List Nat} (h : IsPerm n perm) (hl : i.length = n) :
    perm.map (fun a => (unpermute n perm i).getD a 0) = i := by
  refine List.ext_getElem (by simp [h.length, hl]) ?_
  intro k h1 h2
  have hk : k < perm.length := by simpa using h1
  have hlt : perm[k] < n := (h.2 _).1 (List.getElem_mem hk)
  simp only [List.getElem_map, unpermute]
  rw [List.getD_eq_getElem?_getD, List.getElem?_map, List.getElem?_range hlt]
  simp only [Option.map_some, Option.getD_some]
  rw [h.1.idxOf_getElem k hk]
  simp [h2]

theorem unpermute_length {n : Nat} {perm i : List Nat} : (unpermute n perm i).length = n := by
  simp [unpermute]

/-- Output indices in range read input indices in range. -/
theorem unpermute_inRange {s perm i : List Nat} (h : IsPerm s.length perm)
    (hi : InRange (permShape s perm) i) : InRange s (unpermute s.length perm i) := by
  rw [inRange_iff_get] at hi ⊢
  refine ⟨unpermute_length, ?_⟩
  intro a ha
  have hm : a ∈ perm := (h.2 a).2 ha
  have hx : perm.idxOf a < perm.length := List.idxOf_lt_length_iff.2 hm
  have := hi.2 (perm.idxOf a) (by simpa [permShape] using hx)
  simp only [permShape, List.getD_eq_getElem?_getD, List.getElem?_map,
    List.getElem?_eq_getElem hx, List.getElem_idxOf, Option.map_some, Option.getD_some] at this
  simp only [unpermute, List.getD_eq_getElem?_getD, List.getElem?_map, List.getElem?_range ha,
    Option.map_some, Option.getD_some]
  exact this

theorem zip_map_self {α β γ : Type} (f : α → β) (g : α → γ) (l : List α) :
    (l.map f).zip (l.map g) = l.map fun a => (f a, g a) := by
  induction l with
  | nil => rfl
  | cons a l ih => simp [ih]

/-- A permutation that keeps the order of the dimensions other than 1 keeps positions. -/
theorem flatIdx_unpermute {s perm i : List Nat} (h : IsPerm s.length perm) (hk : KeepsOrder s perm)
    (hi : InRange (permShape s perm) i) :
    flatIdx s (unpermute s.length perm i) = flatIdx (permShape s perm) i := by
  have hil : i.length = s.length := by rw [hi.length]; simp [permShape, h.length]
  have hj := unpermute_inRange h hi
  have hjl : (unpermute s.length perm i).length = s.length := unpermute_length
  rw [flatIdx_zip hjl, flatIdx_zip hi.length]
  generalize hje : unpermute s.length perm i = j at *
  have e1 : s.zip j = (List.range s.length).map fun a => (s.getD a 0, j.getD a 0) := by
    rw [← zip_map_self, map_getD_range]
    conv => rhs; rw [← hjl, map_getD_range]
  have e2 : (permShape s perm).zip i = perm.map fun a => (s.getD a 0, j.getD a 0) := by
    rw [← zip_map_self, ← hje, unpermute_perm h hil]; rfl
  have hb : ∀ a, a < s.length → j.getD a 0 < s.getD a 0 := (inRange_iff_get.1 hj).2
  rw [e1, e2]
  rw [← flatP_filter_one (l := (List.range s.length).map _), ← flatP_filter_one (l := perm.map _)]
  · rw [List.filter_map, List.filter_map]
    congr 2
    refine sorted_ext ?_ hk ?_
    · exact List.Pairwise.filter _ List.pairwise_lt_range
    · intro a
      simp [h.2]
  · intro p hp
    obtain ⟨a, ha, rfl⟩ := List.mem_map.1 hp
    exact hb a ((h.2 a).1 ha)
  · intro p hp
    obtain ⟨a, ha, rfl⟩ := List.mem_map.1 hp
    exact hb a (List.mem_range.1 ha)

/-- Then transposing leaves the elements where they are: it is a reshape. -/
theorem Tensor.transpose_data {α : Type} [Inhabited α] {t : Tensor α} {perm : List Nat}
    (h : IsPerm t.shape.length perm) (hk : KeepsOrder t.shape perm) :
    (t.transpose perm).data = t.data := by
  have h1 : (t.transpose perm).data = (indices (permShape t.shape perm)).map
      (fun i => t.data.getD (flatIdx (permShape t.shape perm) i) default) := by
    refine List.map_congr_left ?_
    intro i hi
    unfold Tensor.get
    rw [flatIdx_unpermute h hk (mem_indices.1 hi)]
  have h2 : (fun i => t.data.getD (flatIdx (permShape t.shape perm) i) default) =
      (fun k => t.data.getD k default) ∘ flatIdx (permShape t.shape perm) := rfl
  rw [h1, h2, ← List.map_map, map_flatIdx_indices, permShape_prod h, ← t.size]
  refine List.ext_getElem (by simp) ?_
  intro n h1 h2
  simp [h2]

end OnnxIR
