import Verif.Model.Reduce
import Verif.Props.OpRules2
import Verif.Props.Elementwise
import Verif.Spec.BurnAxis
import Mathlib.Algebra.Field.Rat
import Mathlib.Tactic.Ring
import Mathlib.Tactic.FieldSimp

/-!
# C32: generated reductions compute ONNX's
-/

namespace OnnxIR

open Gen

variable {α : Type} [Inhabited α]

/-! ### Reductions of lists -/

/-- What is needed of a reduction of lists: the order does not matter, one element is itself, and parts of equal length
can be reduced first. `e`: are empty parts allowed (there is a neutral element)? -/
structure Reduction (red : List α → α) (e : Bool) : Prop where
  perm : ∀ {l m : List α}, l.Perm m → red l = red m
  single : ∀ a, red [a] = a
  join : ∀ (n : Nat) (ls : List (List α)), e = true ∨ 0 < n → (∀ l ∈ ls, l.length = n) → red (ls.map red) = red ls.flatten

/-! ### Splitting a list by a coordinate -/

theorem flatMap_insert_perm {β : Type} (ks : List Nat) (F : Nat → List β) (k : Nat) (a : β) (hn : ks.Nodup)
    (hk : k ∈ ks) : (ks.flatMap fun q => if q = k then a :: F q else F q).Perm (a :: ks.flatMap F) := by
  induction ks with
  | nil => simp at hk
  | cons q ks ih =>
    simp only [List.flatMap_cons]
    rw [List.nodup_cons] at hn
    by_cases e : q = k
    · subst e
      have : (ks.flatMap fun p => if p = q then a :: F p else F p) = ks.flatMap F := by
        have key : ∀ l : List Nat, q ∉ l → (l.flatMap fun p => if p = q then a :: F p else F p) = l.flatMap F := by
          intro l hl
          induction l with
          | nil => rfl
          | cons b l ih =>
            simp only [List.mem_cons, not_or] at hl
            simp only [List.flatMap_cons, ih hl.2, if_neg (fun e => hl.1 (Eq.symm e))]
        exact key ks hn.1
      rw [this, if_pos rfl]
      exact List.Perm.refl _
    · rw [if_neg e]
      have hk' : k ∈ ks := by
        rcases List.mem_cons.1 hk with h | h
        · exact absurd h.symm e
        · exact h
      refine ((ih hn.2 hk').append_left (F q)).trans ?_
      exact List.perm_middle

theorem split_perm {β : Type} (L : List β) (g : β → Nat) (n : Nat) (h : ∀ b ∈ L, g b < n) :
    L.Perm ((List.range n).flatMap fun k => L.filter fun b => g b = k) := by
  induction L with
  | nil => simp
  | cons b L ih =>
    have := flatMap_insert_perm (List.range n) (fun k => L.filter fun b => g b = k) (g b) b List.nodup_range
      (List.mem_range.2 (h b (by simp)))
    refine (List.Perm.cons b (ih fun c hc => h c (by simp [hc]))).trans (this.symm.trans ?_)
    apply List.Perm.of_eq
    congr 1
    funext k
    rw [List.filter_cons]
    by_cases e : k = g b
    · simp [e]
    · have e' : ¬ g b = k := fun h => e h.symm
      simp [e, e']

theorem indices_nodup (s : List Nat) : (indices s).Nodup := by
  have h := map_flatIdx_indices s
  have hn : ((indices s).map (flatIdx s)).Nodup := by rw [h]; exact List.nodup_range
  exact (List.pairwise_map.1 hn).imp fun h e => h (by rw [e])

/-! ### The invariant of reducing one axis after the other -/

theorem zeroAt_length (is j : List Nat) : (zeroAt is j).length = j.length := by simp [zeroAt]

theorem zeroAt_getD (is j : List Nat) (k : Nat) : (zeroAt is j).getD k 0 = if k ∈ is then 0 else j.getD k 0 := by
  simp only [zeroAt, List.getD_eq_getElem?_getD, List.getElem?_mapIdx]
  by_cases h : k < j.length
  · simp only [h, List.getElem?_eq_getElem, Option.map_some, Option.getD_some]
  · simp [Nat.not_lt.1 h]

/-- The shape with ones at the positions `is`. -/
def onesAt (is s : List Nat) : List Nat := s.mapIdx fun k d => if k ∈ is then 1 else d

theorem onesAt_length (is s : List Nat) : (onesAt is s).length = s.length := by simp [onesAt]

theorem onesAt_getD {is s : List Nat} {k : Nat} (h : k < s.length) :
    (onesAt is s).getD k 0 = if k ∈ is then 1 else s.getD k 0 := by
  simp only [onesAt, List.getD_eq_getElem?_getD, List.getElem?_mapIdx, h, List.getElem?_eq_getElem, Option.map_some,
    Option.getD_some]

theorem ext_getD {l m : List Nat} (hl : l.length = m.length) (h : ∀ k, k < l.length → l.getD k 0 = m.getD k 0) : l = m := by
  apply List.ext_getElem hl
  intro k h1 h2
  have := h k h1
  simpa [List.getD_eq_getElem?_getD, h1, h2] using this

theorem onesAt_set (is s : List Nat) (d : Nat) : (onesAt is s).set d 1 = onesAt (d :: is) s := by
  apply ext_getD
  · simp [onesAt_length]
  · intro k hk
    simp only [List.length_set, onesAt_length] at hk
    rw [getD_set, onesAt_getD hk, onesAt_getD hk]
    by_cases e : d = k
    · subst e; rw [if_pos ⟨rfl, by rw [onesAt_length]; exact hk⟩, if_pos (by simp)]
    · have e' : ¬ k = d := fun h => e h.symm
      rw [if_neg (fun h => e h.1)]
      simp only [List.mem_cons, e', false_or]

/-- The indices that are `i` once the positions `is` are set to zero. -/
def sel (s is i : List Nat) : List (List Nat) := (indices s).filter fun j => zeroAt is j = i

theorem zeroAt_cons_iff {s is i j : List Nat} {d k : Nat} (hi : InRange (onesAt (d :: is) s) i) (hj : InRange s j)
    (hd : d < s.length) (hn : d ∉ is) :
    (zeroAt (d :: is) j = i ∧ j.getD d 0 = k) ↔ zeroAt is j = i.set d k := by
  have hil : i.length = s.length := by rw [hi.length, onesAt_length]
  have hjl := hj.length
  have hid : i.getD d 0 = 0 := by
    have := hi.axis_lt (a := d) (by rw [onesAt_length]; exact hd)
    rw [onesAt_getD hd] at this
    simp at this
    simpa using this
  constructor
  · rintro ⟨h1, h2⟩
    apply ext_getD
    · simp [zeroAt_length, hjl, hil]
    · intro q hq
      rw [zeroAt_length] at hq
      rw [zeroAt_getD, getD_set]
      by_cases e : d = q
      · subst e; rw [if_neg hn, if_pos ⟨rfl, by omega⟩, h2]
      · have e' : ¬ q = d := fun h => e h.symm
        rw [if_neg (c := d = q ∧ _) (fun h => e h.1), ← h1, zeroAt_getD]
        simp only [List.mem_cons, e', false_or]
  · intro h
    constructor
    · apply ext_getD
      · rw [zeroAt_length]; omega
      · intro q hq
        rw [zeroAt_length] at hq
        rw [zeroAt_getD]
        by_cases e : d = q
        · subst e; rw [hid, if_pos (by simp)]
        · have := congrArg (·.getD q 0) h
          rw [zeroAt_getD, getD_set, if_neg (c := d = q ∧ _) (fun h => e h.1)] at this
          have e' : ¬ q = d := fun h => e h.symm
          rw [← this]; simp only [List.mem_cons, e', false_or]
    · have := congrArg (·.getD d 0) h
      rw [zeroAt_getD, getD_set, if_neg hn, if_pos ⟨rfl, by omega⟩] at this
      exact this

theorem sel_split {s is i : List Nat} {d : Nat} (hi : InRange (onesAt (d :: is) s) i) (hd : d < s.length) (hn : d ∉ is) :
    (sel s (d :: is) i).Perm ((List.range (s.getD d 0)).flatMap fun k => sel s is (i.set d k)) := by
  refine (split_perm (sel s (d :: is) i) (fun j => j.getD d 0) (s.getD d 0) ?_).trans (List.Perm.of_eq ?_)
  · intro j hj
    exact (mem_indices.1 (List.mem_filter.1 hj).1).axis_lt hd
  · congr 1
    funext k
    unfold sel
    rw [List.filter_filter]
    apply List.filter_congr
    intro j hj
    have := zeroAt_cons_iff (k := k) hi (mem_indices.1 hj) hd hn
    rw [Bool.eq_iff_iff]
    simp only [Bool.and_eq_true, decide_eq_true_eq]
    rw [← this]
    exact And.comm

theorem inRange_onesAt_set {s is i : List Nat} {d k : Nat} (hi : InRange (onesAt (d :: is) s) i) (hd : d < s.length)
    (hn : d ∉ is) (hk : k < s.getD d 0) : InRange (onesAt is s) (i.set d k) := by
  have hil : i.length = s.length := by rw [hi.length, onesAt_length]
  rw [inRange_iff_get]
  refine ⟨by simp [hil, onesAt_length], ?_⟩
  intro q hq
  rw [onesAt_length] at hq
  rw [getD_set, onesAt_getD hq]
  by_cases e : d = q
  · subst e; rw [if_pos ⟨rfl, by omega⟩, if_neg hn]; exact hk
  · rw [if_neg (by simp [e])]
    have := hi.axis_lt (a := q) (by rw [onesAt_length]; exact hq)
    rw [onesAt_getD hq] at this
    have e' : ¬ q = d := fun h => e h.symm
    simpa [e'] using this

theorem sel_nil {s i : List Nat} (hi : InRange s i) : sel s [] i = [i] := by
  have h0 : ∀ j : List Nat, zeroAt [] j = j := by
    intro j
    exact ext_getD (zeroAt_length _ _) fun k _ => by rw [zeroAt_getD]; simp
  unfold sel
  simp only [h0]
  have hm := mem_indices.2 hi
  have hn := indices_nodup s
  generalize indices s = L at hm hn
  induction L with
  | nil => simp at hm
  | cons a L ih =>
    rw [List.nodup_cons] at hn
    by_cases e : a = i
    · subst e
      have : L.filter (fun j => decide (j = a)) = [] := by
        rw [List.filter_eq_nil_iff]
        intro j hj
        simp only [decide_eq_true_eq]
        rintro rfl
        exact hn.1 hj
      simp [this]
    · have hm' : i ∈ L := by
        rcases List.mem_cons.1 hm with h | h
        · exact absurd h.symm e
        · exact h
      simp [e, ih hm' hn.2]

theorem onesAt_nil (s : List Nat) : onesAt [] s = s := by
  exact ext_getD (onesAt_length _ _) fun k hk => by
    rw [onesAt_length] at hk
    rw [onesAt_getD hk]; simp

/-- How many elements meet in one output element. -/
def meet (s is : List Nat) : Nat := (is.map fun d => s.getD d 0).prod

theorem sum_map_const {β : Type} (l : List β) (f : β → Nat) (n : Nat) (h : ∀ b ∈ l, f b = n) : (l.map f).sum = l.length * n := by
  induction l with
  | nil => simp
  | cons b l ih =>
    rw [List.map_cons, List.sum_cons, h b (by simp), ih fun c hc => h c (by simp [hc]), List.length_cons, Nat.succ_mul]
    omega

theorem sel_length {s : List Nat} : ∀ {is : List Nat} {i : List Nat}, is.Nodup → (∀ d ∈ is, d < s.length) →
    InRange (onesAt is s) i → (sel s is i).length = meet s is
  | [], i, _, _, hi => by
    rw [onesAt_nil] at hi
    rw [sel_nil hi]; rfl
  | d :: is, i, hn, hd, hi => by
    rw [List.nodup_cons] at hn
    rw [(sel_split hi (hd d (by simp)) hn.1).length_eq, List.length_flatMap]
    rw [sum_map_const _ _ (meet s is)]
    · simp [meet]
    · intro k hk
      exact sel_length hn.2 (fun d h => hd d (by simp [h])) (inRange_onesAt_set hi (hd d (by simp)) hn.1 (List.mem_range.1 hk))

/-- The value after reducing the axes `is`. -/
structure Reduced (red : List α → α) (x : Tensor α) (is : List Nat) (u : Tensor α) : Prop where
  shape : u.shape = onesAt is x.shape
  value : ∀ i, InRange (onesAt is x.shape) i → u.get i = red ((sel x.shape is i).map x.get)

theorem Reduced.nil {red : List α → α} {e : Bool} (hr : Reduction red e) (x : Tensor α) : Reduced red x [] x where
  shape := (onesAt_nil _).symm
  value i hi := by
    rw [onesAt_nil] at hi
    rw [sel_nil hi]
    exact (hr.single _).symm

theorem Reduced.step {red : List α → α} {e : Bool} (hr : Reduction red e) {x u : Tensor α} {is : List Nat} {d : Nat}
    (h : Reduced red x is u) (hn : (d :: is).Nodup) (hd : ∀ k ∈ d :: is, k < x.shape.length)
    (he : e = true ∨ ∀ k ∈ d :: is, 0 < x.shape.getD k 0) :
    ∃ v, Burn.reduceDim red u d = some v ∧ Reduced red x (d :: is) v := by
  rw [List.nodup_cons] at hn
  have hdl := hd d (by simp)
  have hul : u.shape.length = x.shape.length := by rw [h.shape, onesAt_length]
  have hsd : u.shape.getD d 0 = x.shape.getD d 0 := by rw [h.shape, onesAt_getD hdl, if_neg hn.1]
  have hsh : u.shape.set d 1 = onesAt (d :: is) x.shape := by rw [h.shape, onesAt_set]
  refine ⟨_, if_pos (by omega), ?_, ?_⟩
  · exact hsh
  · intro i hi
    rw [Tensor.get_ofFn (by rw [hsh]; exact hi), hsd]
    have h1 : (List.range (x.shape.getD d 0)).map (fun k => u.get (i.set d k)) =
        ((List.range (x.shape.getD d 0)).map fun k => (sel x.shape is (i.set d k)).map x.get).map red := by
      rw [List.map_map]
      apply List.map_congr_left
      intro k hk
      exact h.value _ (inRange_onesAt_set hi hdl hn.1 (List.mem_range.1 hk))
    rw [h1, hr.join (meet x.shape is)]
    · apply hr.perm
      have := (sel_split hi hdl hn.1).map x.get
      rw [List.map_flatMap, List.flatMap_def] at this
      exact this.symm
    · rcases he with he | he
      · exact .inl he
      · refine .inr ?_
        have : ∀ l : List Nat, (∀ k ∈ l, 0 < x.shape.getD k 0) → 0 < meet x.shape l := by
          intro l hl
          induction l with
          | nil => simp [meet]
          | cons a l ih =>
            have := ih fun k hk => hl k (by simp [hk])
            simp only [meet, List.map_cons, List.prod_cons] at this ⊢
            exact Nat.mul_pos (hl a (by simp)) this
        exact this is fun k hk => he k (by simp [hk])
    · intro l hl
      obtain ⟨k, hk, rfl⟩ := List.mem_map.1 hl
      rw [List.length_map]
      exact sel_length hn.2 (fun q hq => hd q (by simp [hq])) (inRange_onesAt_set hi hdl hn.1 (List.mem_range.1 hk))

theorem sel_congr {s is is' i : List Nat} (h : ∀ k, k ∈ is ↔ k ∈ is') : sel s is i = sel s is' i := by
  unfold sel zeroAt
  simp only [h]

theorem onesAt_congr {s is is' : List Nat} (h : ∀ k, k ∈ is ↔ k ∈ is') : onesAt is s = onesAt is' s := by
  unfold onesAt
  simp only [h]

theorem Reduced.congr {red : List α → α} {x u : Tensor α} {is is' : List Nat} (h : Reduced red x is u)
    (e : ∀ k, k ∈ is ↔ k ∈ is') : Reduced red x is' u where
  shape := by rw [h.shape, onesAt_congr e]
  value i hi := by rw [← onesAt_congr e] at hi; rw [h.value i hi, sel_congr e]

/-- The fold over the axes. -/
theorem reduceFold_ok {red : List α → α} {e : Bool} (hr : Reduction red e) {x : Tensor α} {dims : List Nat}
    (hn : dims.Nodup) (hd : ∀ k ∈ dims, k < x.shape.length) (he : e = true ∨ ∀ k ∈ dims, 0 < x.shape.getD k 0) :
    ∃ u, reduceFold red dims x = some u ∧ Reduced red x dims u := by
  suffices H : ∀ (rest done : List Nat) (u : Tensor α), Reduced red x done u → (∀ k, k ∈ dims ↔ k ∈ rest ∨ k ∈ done) →
      (rest ++ done).Nodup → ∃ v, reduceFold red rest u = some v ∧ Reduced red x dims v by
    exact H dims [] x (.nil hr x) (by simp) (by simpa using hn)
  intro rest
  induction rest with
  | nil =>
    intro done u h e' _
    exact ⟨u, rfl, h.congr fun k => by simpa using (e' k).symm⟩
  | cons d rest ih =>
    intro done u h e' hnd
    have hnd' : (rest ++ d :: done).Nodup := (List.perm_middle.nodup_iff).2 (by simpa using hnd)
    have hsub : ∀ k ∈ d :: done, k ∈ dims := by
      intro k hk
      rw [e' k]
      rcases List.mem_cons.1 hk with rfl | hk
      · exact .inl (by simp)
      · exact .inr hk
    obtain ⟨v, hv1, hv2⟩ := h.step hr (List.nodup_append.1 hnd').2.1 (fun k hk => hd k (hsub k hk))
      (he.imp_right fun h k hk => h k (hsub k hk))
    obtain ⟨w, hw1, hw2⟩ := ih (d :: done) v hv2 (fun k => by rw [e' k, List.mem_cons, List.mem_cons, or_assoc, or_left_comm]) hnd'
    refine ⟨w, ?_, hw2⟩
    show (Burn.reduceDim red u d).bind _ = _
    rw [hv1]
    exact hw1

/-! ### Dropping the reduced axes -/

/-- `v` at the positions `is`, counted from `k`. -/
def putFrom (v k : Nat) (is : List Nat) : List Nat → List Nat
  | [] => []
  | x :: xs => (if k ∈ is then v else x) :: putFrom v (k + 1) is xs

theorem putFrom_eq (v : Nat) (is : List Nat) : ∀ (l : List Nat) (k : Nat),
    putFrom v k is l = l.mapIdx fun q d => if k + q ∈ is then v else d
  | [], _ => rfl
  | x :: xs, k => by
    rw [putFrom, putFrom_eq v is xs, List.mapIdx_cons]
    simp only [Nat.add_zero, Nat.add_assoc, Nat.add_comm 1]

theorem onesAt_put (is s : List Nat) : onesAt is s = putFrom 1 0 is s := by
  rw [putFrom_eq]; simp [onesAt]

theorem zeroAt_put (is j : List Nat) : zeroAt is j = putFrom 0 0 is j := by
  rw [putFrom_eq]; simp [zeroAt]

theorem put_prod (is : List Nat) : ∀ (s : List Nat) (k : Nat),
    prodShape (Onnx.dropAtFrom k is s) = prodShape (putFrom 1 k is s)
  | [], _ => rfl
  | d :: s, k => by
    have := put_prod is s (k + 1)
    by_cases h : k ∈ is
    · simp [Onnx.dropAtFrom, putFrom, h, prodShape, this]
    · simp [Onnx.dropAtFrom, putFrom, h, prodShape, this]

theorem drop_index (is : List Nat) : ∀ (s : List Nat) (k : Nat) (i : List Nat), InRange (Onnx.dropAtFrom k is s) i →
    ∃ i', InRange (putFrom 1 k is s) i' ∧ flatIdx (putFrom 1 k is s) i' = flatIdx (Onnx.dropAtFrom k is s) i ∧
      ∀ j : List Nat, j.length = s.length → (putFrom 0 k is j = i' ↔ Onnx.dropAtFrom k is j = i)
  | [], k, i, h => by
    cases i with
    | nil =>
      refine ⟨[], trivial, rfl, ?_⟩
      intro j hj
      have : j = [] := List.eq_nil_of_length_eq_zero hj
      subst this
      simp [putFrom, Onnx.dropAtFrom]
    | cons a i => simp [Onnx.dropAtFrom, InRange] at h
  | d :: s, k, i, h => by
    by_cases hk : k ∈ is
    · simp only [Onnx.dropAtFrom, if_pos hk] at h
      obtain ⟨i', h1, h2, h3⟩ := drop_index is s (k + 1) i h
      refine ⟨0 :: i', ?_, ?_, ?_⟩
      · simp only [putFrom, if_pos hk]; exact ⟨Nat.one_pos, h1⟩
      · simp only [putFrom, Onnx.dropAtFrom, if_pos hk, flatIdx, h2]; omega
      · intro j hj
        cases j with
        | nil => simp at hj
        | cons a j =>
          have := h3 j (by simpa using hj)
          simp only [putFrom, Onnx.dropAtFrom, if_pos hk, List.cons.injEq, true_and]
          exact this
    · simp only [Onnx.dropAtFrom, if_neg hk] at h
      cases i with
      | nil => simp [InRange] at h
      | cons a i =>
        obtain ⟨i', h1, h2, h3⟩ := drop_index is s (k + 1) i h.2
        refine ⟨a :: i', ?_, ?_, ?_⟩
        · simp only [putFrom, if_neg hk]; exact ⟨h.1, h1⟩
        · simp only [putFrom, Onnx.dropAtFrom, if_neg hk, flatIdx, h2, put_prod is s (k + 1)]
        · intro j hj
          cases j with
          | nil => simp at hj
          | cons b j =>
            have := h3 j (by simpa using hj)
            simp only [putFrom, Onnx.dropAtFrom, if_neg hk, List.cons.injEq]
            rw [this]

/-- The reduced tensor without the reduced axes. -/
theorem Reduced.drop {red : List α → α} {x u v : Tensor α} {is : List Nat} (h : Reduced red x is u)
    (hv : Burn.reshape u (Onnx.dropAt is x.shape) = some v) :
    v = Tensor.ofFn (Onnx.dropAt is x.shape) fun i =>
      red (((indices x.shape).filter fun j => Onnx.dropAt is j = i).map x.get) := by
  have hs : v.shape = Onnx.dropAt is x.shape := (Burn.reshape_get (i := []) hv).1
  apply Tensor.eq_of_get
  · exact hs
  · intro i hi
    rw [hs] at hi
    rw [Tensor.get_ofFn hi]
    obtain ⟨i', h1, h2, h3⟩ := drop_index is x.shape 0 i hi
    rw [← onesAt_put] at h1 h2
    rw [Burn.reshape_get_eq (j := i') hv (by rw [h.shape]; exact h2.symm), h.value i' h1]
    congr 2
    unfold sel
    apply List.filter_congr
    intro j hj
    rw [decide_eq_decide, zeroAt_put]
    exact h3 j (mem_indices.1 hj).length

theorem Reduced.keep {red : List α → α} {x u : Tensor α} {is : List Nat} (h : Reduced red x is u) :
    u = Tensor.ofFn (x.shape.mapIdx fun i d => if i ∈ is then 1 else d) fun i =>
      red (((indices x.shape).filter fun j => zeroAt is j = i).map x.get) := by
  apply Tensor.eq_of_get
  · exact h.shape
  · intro i hi
    rw [h.shape] at hi
    rw [h.value i hi]
    exact (Tensor.get_ofFn (f := fun i => red (((indices x.shape).filter fun j => zeroAt is j = i).map x.get)) hi).symm

/-- Squeezing the reduced axes works unless all axes were reduced. -/
theorem Reduced.squeeze {red : List α → α} {x u : Tensor α} {is : List Nat} (h : Reduced red x is u)
    (hl : is.length < x.shape.length) (hd : ∀ k ∈ is, k < x.shape.length) :
    Burn.squeezeDims u is (Onnx.dropAt is x.shape).length = Burn.reshape u (Onnx.dropAt is x.shape) := by
  have hdrop : Onnx.dropAt is u.shape = Onnx.dropAt is x.shape := by
    have : ∀ (s : List Nat) (k : Nat), Onnx.dropAtFrom k is (putFrom 1 k is s) = Onnx.dropAtFrom k is s := by
      intro s
      induction s with
      | nil => intro k; rfl
      | cons d s ih =>
        intro k
        by_cases hk : k ∈ is
        · simp only [putFrom, Onnx.dropAtFrom, if_pos hk, ih]
        · simp only [putFrom, Onnx.dropAtFrom, if_neg hk, ih]
    rw [h.shape, onesAt_put]
    exact this _ _
  unfold Burn.squeezeDims
  rw [if_pos, hdrop]
  refine ⟨by rw [h.shape, onesAt_length]; exact hl, ?_, by rw [hdrop]⟩
  intro k hk
  rw [h.shape]
  simp [onesAt, hk, hd k hk]

/-! ### Reducing everything -/

theorem indices_ones (r : Nat) : indices (List.replicate r 1) = [List.replicate r 0] := by
  induction r with
  | zero => rfl
  | succ n ih => simp [List.replicate_succ, indices, ih, List.range_one]

theorem zeroAt_range (s j : List Nat) (h : j.length = s.length) :
    zeroAt (List.range s.length) j = List.replicate s.length 0 := by
  apply ext_getD
  · simp [zeroAt_length, h]
  · intro k hk
    rw [zeroAt_length] at hk
    rw [zeroAt_getD, if_pos (List.mem_range.2 (by omega))]
    have : k < s.length := by omega
    simp [List.getD_eq_getElem?_getD, this]

theorem dropAt_range {β : Type} (n : Nat) (l : List β) (h : l.length = n) : Onnx.dropAt (List.range n) l = [] := by
  have : ∀ (l : List β) (k : Nat), k + l.length ≤ n → Onnx.dropAtFrom k (List.range n) l = [] := by
    intro l
    induction l with
    | nil => intro k _; rfl
    | cons a l ih =>
      intro k hk
      simp only [List.length_cons] at hk
      rw [Onnx.dropAtFrom, if_pos (List.mem_range.2 (by omega))]
      exact ih (k + 1) (by omega)
  exact this l 0 (by omega)

theorem onesAt_range (s : List Nat) : (s.mapIdx fun i d => if i ∈ List.range s.length then 1 else d) = List.replicate s.length 1 := by
  have := ext_getD (l := onesAt (List.range s.length) s) (m := List.replicate s.length 1) (by simp [onesAt_length]) (by
    intro k hk
    rw [onesAt_length] at hk
    rw [onesAt_getD hk, if_pos (List.mem_range.2 hk)]
    simp [List.getD_eq_getElem?_getD, hk])
  exact this

theorem reduceAll_drop (red : List α → α) (x : Tensor α) :
    (Tensor.ofFn (Onnx.dropAt (List.range x.shape.length) x.shape) fun i =>
      red (((indices x.shape).filter fun j => Onnx.dropAt (List.range x.shape.length) j = i).map x.get)) =
      ⟨[], [red x.data], rfl⟩ := by
  have h0 := dropAt_range x.shape.length x.shape rfl
  apply Tensor.ext
  · exact h0
  · show (indices _).map _ = _
    rw [h0]
    simp only [indices, List.map_cons, List.map_nil, List.cons.injEq, and_true]
    rw [List.filter_eq_self.2, ← Tensor.data_eq]
    intro j hj
    simp only [decide_eq_true_eq]
    exact dropAt_range _ j (mem_indices.1 hj).length

theorem reduceAll_keep (red : List α → α) (x : Tensor α) :
    (Tensor.ofFn (x.shape.mapIdx fun i d => if i ∈ List.range x.shape.length then 1 else d) fun i =>
      red (((indices x.shape).filter fun j => zeroAt (List.range x.shape.length) j = i).map x.get)) =
      ⟨List.replicate x.shape.length 1, [red x.data], by simp [prodShape_replicate_one]⟩ := by
  have h0 := onesAt_range x.shape
  apply Tensor.ext
  · exact h0
  · show (indices _).map _ = _
    rw [h0, indices_ones]
    simp only [List.map_cons, List.map_nil, List.cons.injEq, and_true]
    rw [List.filter_eq_self.2, ← Tensor.data_eq]
    intro j hj
    simp only [decide_eq_true_eq]
    exact zeroAt_range _ j (mem_indices.1 hj).length

theorem expand_ones {a : α} {r : Nat} (hr : 1 ≤ r) :
    Burn.expand (⟨[1], [a], rfl⟩ : Tensor α) (List.replicate r 1) =
      some ⟨List.replicate r 1, [a], by simp [prodShape_replicate_one]⟩ := by
  obtain ⟨n, rfl⟩ : ∃ n, r = n + 1 := ⟨r - 1, by omega⟩
  have hb : bcast [1] (List.replicate (n + 1) 1) = some (List.replicate (n + 1) 1) := by
    simp [bcast, List.replicate_succ, ← List.replicate_succ', bcastRev]
  unfold Burn.expand
  rw [if_pos hb]
  congr 1
  apply Tensor.ext
  · rfl
  · show (indices _).map _ = _
    rw [indices_ones]
    simp only [List.map_cons, List.map_nil, List.cons.injEq, and_true]
    have : proj [1] (List.replicate (n + 1) 0) = [0] := by
      simp [proj, List.replicate_succ, ← List.replicate_succ', projRev]
    rw [this]
    rfl

/-! ### The generated code -/

/-- The output type has the rank of the result. -/
def OutFits (ty : ArgType) (Z : Tensor α) : Prop :=
  match ty with
  | .tensor t => Z.shape.length = t.rank ∧ 1 ≤ t.rank
  | .scalarTensor _ => Z.shape = []
  | .scalarNative _ => Z.shape = []
  | .shape _ => False

theorem dropAt_congr {β : Type} {is is' : List Nat} (h : ∀ k, k ∈ is ↔ k ∈ is') (l : List β) :
    Onnx.dropAt is l = Onnx.dropAt is' l := by
  have : ∀ (l : List β) (k : Nat), Onnx.dropAtFrom k is l = Onnx.dropAtFrom k is' l := by
    intro l
    induction l with
    | nil => intro k; rfl
    | cons a l ih =>
      intro k
      simp only [Onnx.dropAtFrom, h k, ih]
  exact this l 0

omit [Inhabited α] in
theorem handReps {ofInt : Int → α} {post : α → α} {outTy : ArgType} {u Z : Tensor α} (hf : OutFits outTy Z)
    (hd : u.data = Z.data) (ht : ∀ t, outTy = .tensor t → u = Z) (hu : ∀ d, outTy = .scalarTensor d → prodShape u.shape = 1) :
    ∃ z, reduceHand outTy (u.map post) = some z ∧ Reps ofInt outTy z (Z.map post) := by
  have one : Z.shape = [] → ∃ a, Z.data = [a] := by
    intro h
    have hs := Z.size
    rw [h] at hs
    cases hz : Z.data with
    | nil => rw [hz] at hs; simp [prodShape] at hs
    | cons a l =>
      rw [hz] at hs
      cases l with
      | nil => exact ⟨a, rfl⟩
      | cons b l => simp [prodShape] at hs
  cases outTy with
  | tensor t =>
    have := ht t rfl
    subst this
    exact ⟨_, rfl, rfl, hf⟩
  | scalarTensor d =>
    have h1 : prodShape [1] = prodShape (u.map post).shape := by
      rw [show (u.map post).shape = u.shape from rfl, hu d rfl]; rfl
    refine ⟨.dev ⟨[1], (u.map post).data, by rw [(u.map post).size, h1]⟩, ?_, rfl, hf, ?_⟩
    · simp only [reduceHand, Burn.reshape, dif_pos h1, Option.map_some]
    · show u.data.map post = Z.data.map post
      rw [hd]
  | scalarNative d =>
    obtain ⟨a, ha⟩ := one hf
    refine ⟨.native (post a), ?_, hf, ?_⟩
    · have : (u.map post).data = [post a] := by show u.data.map post = _; rw [hd, ha]; rfl
      simp only [reduceHand, Burn.intoScalar, this, Option.map_some]
    · show Z.data.map post = _
      rw [ha]; rfl
  | shape n => exact hf.elim

/-- **C32, values.** The code generated for a reduction (sum, product, minimum, maximum, mean, L1, L2, sum of squares, log
of sum) returns ONNX's result, in the form the output type announces: for every shape, all axes, both settings of
`keepdims`. Excluded: a scalar kept on the device whose axes were all listed (`C32_all_axes_listed_panics`); empty axes if
the reduction has no neutral element. -/
theorem C32_reduce_values_partial {red : List α → α} {e : Bool} (hr : Reduction red e) {pre post : α → α} {ofInt : Int → α}
    {as : List Int} {dims : List Nat} {keep : Bool} {outTy : ArgType} {X Z : Tensor α}
    (hd : Infer.reduceDims X.shape.length as = some dims) (hZ : Onnx.reduceT red as keep (X.map pre) = some Z)
    (he : e = true ∨ ∀ k ∈ dims, 0 < X.shape.getD k 0) (hrank : 1 ≤ X.shape.length) (hfit : OutFits outTy Z)
    (hall : dims = [] ∨ ∀ d, outTy ≠ .scalarTensor d) :
    ∃ z, genReduce red pre post dims keep outTy X = some z ∧ Reps ofInt outTy z (Z.map post) := by
  have hxs : (X.map pre).shape = X.shape := rfl
  obtain ⟨r, hro⟩ : ∃ r, reduceOutRank outTy = some r := by
    cases outTy <;> first | exact hfit.elim | exact ⟨_, rfl⟩
  have goal : ∀ {u : Tensor α}, forwardReduce red dims keep r (X.map pre) = some u → u.data = Z.data →
      (∀ t, outTy = .tensor t → u = Z) → (∀ d, outTy = .scalarTensor d → prodShape u.shape = 1) →
      ∃ z, genReduce red pre post dims keep outTy X = some z ∧ Reps ofInt outTy z (Z.map post) := by
    intro u h1 h2 h3 h4
    obtain ⟨z, hz1, hz2⟩ := handReps (ofInt := ofInt) (post := post) hfit h2 h3 h4
    exact ⟨z, by simp only [genReduce, hro, h1, Option.bind_some, hz1], hz2⟩
  unfold Onnx.reduceT at hZ
  rw [hxs] at hZ
  by_cases has : as = []
  · subst has
    have : dims = [] := by
      have h0 : Infer.reduceDims X.shape.length [] = some [] := by simp [Infer.reduceDims, Infer.normAxes, Infer.sortNat]
      rw [h0] at hd
      exact (Option.some.inj hd).symm
    subst this
    rw [if_pos rfl, Option.map_some, Option.some.injEq] at hZ
    cases keep with
    | true =>
      rw [if_pos rfl] at hZ
      have hk := reduceAll_keep red (X.map pre)
      rw [hxs] at hk
      rw [hk] at hZ
      subst hZ
      have ht : ∃ t, outTy = .tensor t ∧ t.rank = X.shape.length := by
        cases outTy with
        | tensor t => exact ⟨t, rfl, by have := hfit.1; simpa using this.symm⟩
        | scalarTensor d => have : List.replicate X.shape.length 1 = [] := hfit; simp at this; simp [this] at hrank
        | scalarNative d => have : List.replicate X.shape.length 1 = [] := hfit; simp at this; simp [this] at hrank
        | shape n => exact hfit.elim
      obtain ⟨t, rfl, htr⟩ := ht
      have : r = X.shape.length := by have := Option.some.inj hro; omega
      subst this
      refine goal (u := ⟨List.replicate X.shape.length 1, [red (X.map pre).data], by simp [prodShape_replicate_one]⟩) ?_ rfl
        (fun _ _ => rfl) (fun _ h => by cases h)
      simp only [forwardReduce, if_true, Burn.reduceAll]
      exact expand_ones hrank
    | false =>
      rw [if_neg (by simp)] at hZ
      have hk := reduceAll_drop red (X.map pre)
      rw [hxs] at hk
      rw [hk] at hZ
      subst hZ
      refine goal (u := ⟨[1], [red (X.map pre).data], rfl⟩) ?_ rfl ?_ (fun _ _ => rfl)
      · simp [forwardReduce, Burn.reduceAll]
      · rintro t rfl
        have h1 : 0 = t.rank := hfit.1
        have h2 := hfit.2
        omega
  · rw [if_neg has] at hZ
    obtain ⟨is, his, hZ'⟩ := Option.map_eq_some_iff.1 hZ
    obtain ⟨hperm, hsort⟩ := reduceDims_spec his hd
    have hmem : ∀ k, k ∈ dims ↔ k ∈ is := fun k => hperm.mem_iff
    have hax := axes_nodup his
    have hdn : dims.Nodup := hperm.nodup_iff.2 hax.1
    have hdl : ∀ k ∈ dims, k < (X.map pre).shape.length := fun k hk => hax.2 k ((hmem k).1 hk)
    have hne : dims ≠ [] := by
      rintro rfl
      have : is = [] := hperm.symm.eq_nil
      subst this
      cases as with
      | nil => exact has rfl
      | cons a as =>
        simp only [Onnx.axes] at his
        split at his
        · split at his <;> cases his
        · cases his
    obtain ⟨u, hu1, hu2⟩ := reduceFold_ok hr hdn hdl (by rw [hxs]; exact he)
    have hu3 := hu2.congr hmem
    cases keep with
    | true =>
      rw [if_pos rfl] at hZ'
      have huZ : u = Z := by rw [← hZ']; exact hu3.keep
      refine goal (u := u) ?_ (by rw [huZ]) (fun _ _ => huZ) (fun d h => ?_)
      · simp only [forwardReduce, if_neg hne, reduceByDims, hu1, Option.bind_some, if_true]
      · subst h
        have h0 : Z.shape = [] := hfit
        rw [huZ, h0]; rfl
    | false =>
      rw [if_neg (by simp)] at hZ'
      have hprod : prodShape (Onnx.dropAt is X.shape) = prodShape u.shape := by
        rw [hu3.shape, onesAt_put]; exact put_prod is _ 0
      obtain ⟨v, hv⟩ : ∃ v, Burn.reshape u (Onnx.dropAt is X.shape) = some v := ⟨_, dif_pos hprod⟩
      have hvZ : v = Z := by rw [← hZ']; exact hu3.drop hv
      have hud : u.data = v.data := by
        unfold Burn.reshape at hv
        rw [dif_pos hprod] at hv
        cases hv; rfl
      cases outTy with
      | shape n => exact hfit.elim
      | scalarTensor d => exact absurd rfl ((hall.resolve_left hne) d)
      | scalarNative d =>
        have : r = 0 := (Option.some.inj hro).symm
        subst this
        refine goal (u := u) ?_ (by rw [hud, hvZ]) (fun t h => by cases h) (fun d h => by cases h)
        simp only [forwardReduce, if_neg hne, reduceByDims, hu1, Option.bind_some, if_true]
        simp
      | tensor t =>
        have hrt : r = t.rank := (Option.some.inj hro).symm
        have hZs : Z.shape = Onnx.dropAt is X.shape := by rw [← hZ']; rfl
        have hlen : (Onnx.dropAt is X.shape).length = t.rank := by rw [← hZs]; exact hfit.1
        have hdd : Onnx.dropAt dims X.shape = Onnx.dropAt is X.shape := dropAt_congr hmem _
        have hlt : dims.length < X.shape.length := by
          have := dropAtFrom_length X.shape is 0 hax.1 (fun i hi => ⟨Nat.zero_le _, by simpa using hax.2 i hi⟩)
          have h1 := hfit.2
          have h2 := hperm.length_eq
          have h3 : (Onnx.dropAtFrom 0 is X.shape).length = t.rank := hlen
          omega
        refine goal (u := v) ?_ (by rw [hvZ]) (fun _ _ => hvZ) (fun d h => by cases h)
        have hsq := hu2.squeeze hlt hdl
        rw [hxs, hdd, hlen, hv] at hsq
        have h1 := hfit.2
        simp only [forwardReduce, if_neg hne, reduceByDims, hu1, Option.bind_some, hrt, if_neg (show ¬ t.rank = 0 by omega)]
        simpa using hsq

/-! ### The reductions -/

/-- Sums, products, conjunctions, disjunctions: folds of an associative and commutative operation with a neutral
element. -/
theorem Reduction.monoid {op : α → α → α} {z : α} (assoc : ∀ a b c, op (op a b) c = op a (op b c))
    (comm : ∀ a b, op a b = op b a) (unit : ∀ a, op a z = a) : Reduction (fun l : List α => l.foldr op z) true where
  perm := by
    intro l m h
    induction h with
    | nil => rfl
    | cons a _ ih => simp only [List.foldr_cons] at *; rw [ih]
    | swap a b l => simp only [List.foldr_cons]; rw [← assoc, ← assoc, comm b a]
    | trans _ _ h1 h2 => exact h1.trans h2
  single a := by simpa using unit a
  join := by
    intro n ls _ _
    induction ls with
    | nil => rfl
    | cons l ls ih =>
      have app : ∀ l m : List α, (l ++ m).foldr op z = op (l.foldr op z) (m.foldr op z) := by
        intro l m
        induction l with
        | nil => simp only [List.nil_append, List.foldr_nil]; rw [comm, unit]
        | cons a l ih => simp only [List.cons_append, List.foldr_cons, ih, assoc]
      simp only [List.map_cons, List.foldr_cons, List.flatten_cons, app]
      rename_i h2
      rw [ih fun l hl => h2 l (by simp [hl])]

/-- The greatest element of a list for an order given by `pick` (maximum or minimum of two). -/
def pickList (pick : α → α → α) : List α → α
  | [] => default
  | a :: l => l.foldl pick a

theorem pickList_spec {pick : α → α → α} {le : α → α → Prop} (refl : ∀ a, le a a)
    (trans : ∀ a b c, le a b → le b c → le a c) (sel : ∀ a b, pick a b = a ∨ pick a b = b)
    (left : ∀ a b, le a (pick a b)) (right : ∀ a b, le b (pick a b)) {l : List α} (h : l ≠ []) :
    pickList pick l ∈ l ∧ ∀ b ∈ l, le b (pickList pick l) := by
  cases l with
  | nil => exact absurd rfl h
  | cons a l =>
    have : ∀ (l : List α) (a : α), (l.foldl pick a = a ∨ l.foldl pick a ∈ l) ∧ le a (l.foldl pick a) ∧
        ∀ b ∈ l, le b (l.foldl pick a) := by
      intro l
      induction l with
      | nil => intro a; exact ⟨.inl rfl, refl a, by simp⟩
      | cons c l ih =>
        intro a
        obtain ⟨h1, h2, h3⟩ := ih (pick a c)
        simp only [List.foldl_cons]
        refine ⟨?_, trans _ _ _ (left a c) h2, ?_⟩
        · rcases h1 with h1 | h1
          · rw [h1]
            rcases sel a c with h | h
            · exact .inl h
            · exact .inr (by rw [h]; simp)
          · exact .inr (by simp [h1])
        · intro b hb
          rcases List.mem_cons.1 hb with rfl | hb
          · exact trans _ _ _ (right a b) h2
          · exact h3 b hb
    obtain ⟨h1, h2, h3⟩ := this l a
    refine ⟨?_, ?_⟩
    · rcases h1 with h1 | h1
      · exact List.mem_cons.2 (.inl h1)
      · exact List.mem_cons.2 (.inr h1)
    · intro b hb
      rcases List.mem_cons.1 hb with rfl | hb
      · exact h2
      · exact h3 b hb

/-- Maximum and minimum. -/
theorem Reduction.order {pick : α → α → α} {le : α → α → Prop} (refl : ∀ a, le a a)
    (trans : ∀ a b c, le a b → le b c → le a c) (antisymm : ∀ a b, le a b → le b a → a = b)
    (sel : ∀ a b, pick a b = a ∨ pick a b = b) (left : ∀ a b, le a (pick a b)) (right : ∀ a b, le b (pick a b)) :
    Reduction (pickList pick) false where
  perm := by
    intro l m h
    by_cases hl : l = []
    · subst hl; rw [h.symm.eq_nil]
    · have hm : m ≠ [] := fun e => hl (by subst e; exact h.eq_nil)
      obtain ⟨a1, a2⟩ := pickList_spec refl trans sel left right hl
      obtain ⟨b1, b2⟩ := pickList_spec refl trans sel left right hm
      exact antisymm _ _ (b2 _ (h.mem_iff.1 a1)) (a2 _ (h.mem_iff.2 b1))
  single _ := rfl
  join := by
    intro n ls hn hls
    have hn : 0 < n := hn.resolve_left (by simp)
    by_cases hl : ls = []
    · subst hl; rfl
    · have hne : ∀ l ∈ ls, l ≠ [] := by
        rintro l hl' rfl
        have := hls _ hl'
        simp at this; omega
      have h1 : ls.map (pickList pick) ≠ [] := by simpa using hl
      have h2 : ls.flatten ≠ [] := by
        cases ls with
        | nil => exact absurd rfl hl
        | cons l ls =>
          have := hne l (by simp)
          simp [this]
      obtain ⟨a1, a2⟩ := pickList_spec refl trans sel left right h1
      obtain ⟨b1, b2⟩ := pickList_spec refl trans sel left right h2
      obtain ⟨l, hl1, hl2⟩ := List.mem_map.1 a1
      obtain ⟨m, hm1, hm2⟩ := List.mem_flatten.1 b1
      apply antisymm
      · apply b2
        rw [← hl2]
        exact List.mem_flatten.2 ⟨l, hl1, (pickList_spec refl trans sel left right (hne l hl1)).1⟩
      · exact trans _ _ _ ((pickList_spec refl trans sel left right (hne m hm1)).2 _ hm2)
          (a2 _ (List.mem_map.2 ⟨m, hm1, rfl⟩))

/-- The mean of a list of exact numbers. -/
def meanList (l : List Rat) : Rat := l.sum / l.length

theorem Reduction.mean : Reduction meanList false where
  perm h := by unfold meanList; rw [h.sum_eq, h.length_eq]
  single a := by simp [meanList]
  join := by
    intro n ls hn hls
    have hn : 0 < n := hn.resolve_left (by simp)
    have h1 : (ls.map meanList).sum = ls.flatten.sum / n := by
      induction ls with
      | nil => simp
      | cons l ls ih =>
        rw [List.map_cons, List.sum_cons, List.flatten_cons, List.sum_append, ih fun l hl => hls l (by simp [hl])]
        simp only [meanList, hls l (by simp)]
        ring
    have h2 : ls.flatten.length = ls.length * n := by
      rw [List.length_flatten]
      exact sum_map_const ls List.length n hls
    unfold meanList
    rw [h2, List.length_map]
    show (ls.map meanList).sum / _ = _
    rw [h1]
    push_cast
    rw [div_div, mul_comm]

theorem Reduction.sumInt : Reduction (fun l : List Int => l.foldr (· + ·) 0) true :=
  .monoid Int.add_assoc Int.add_comm Int.add_zero

theorem Reduction.maxInt : Reduction (pickList (max : Int → Int → Int)) false :=
  .order (le := (· ≤ ·)) Int.le_refl (fun _ _ _ => Int.le_trans) (fun _ _ => Int.le_antisymm) (fun a b => by omega)
    (fun a b => by omega) (fun a b => by omega)

theorem Reduction.minInt : Reduction (pickList (min : Int → Int → Int)) false :=
  .order (le := (· ≥ ·)) Int.le_refl (fun a b c h1 h2 => Int.le_trans h2 h1) (fun a b h1 h2 => Int.le_antisymm h2 h1)
    (fun a b => by omega) (fun a b => by show min a b ≤ a; omega) (fun a b => by show min a b ≤ b; omega)

/-! ### Where the generated code fails -/

theorem reduceFold_length {red : List α → α} : ∀ {dims : List Nat} {x u : Tensor α}, reduceFold red dims x = some u →
    u.shape.length = x.shape.length
  | [], x, u, h => by cases h; rfl
  | d :: dims, x, u, h => by
    have h : (Burn.reduceDim red x d).bind (fun v => reduceFold red dims v) = some u := h
    obtain ⟨v, h1, h2⟩ := Option.bind_eq_some_iff.1 h
    rw [reduceFold_length h2]
    unfold Burn.reduceDim at h1
    split at h1
    · cases h1; simp [Tensor.ofFn]
    · cases h1

/-- When all axes are listed and dropped, the output type is a scalar on the device and the generated `squeeze_dims`
panics: for every input, every reduction and every such list of axes. -/
theorem C32_all_axes_listed_panics {red : List α → α} {pre post : α → α} {t : TensorType} {x : Tensor α} {as : List Int}
    {dims : List Nat} (h : 1 ≤ t.rank) (hx : x.shape.length = t.rank) (hd : Infer.reduceDims t.rank as = some dims)
    (hl : dims.length = t.rank) :
    Infer.reduce as false (.tensor t) = some (.scalarTensor t.dtype) ∧
    genReduce red pre post dims false (.scalarTensor t.dtype) x = none := by
  constructor
  · simp [Infer.reduce, hd, hl]
  · have hne : dims ≠ [] := by rintro rfl; simp at hl; omega
    simp only [genReduce, reduceOutRank, Option.bind_some, forwardReduce, if_neg hne, reduceByDims]
    cases hu : reduceFold red dims (x.map pre) with
    | none => rfl
    | some u =>
      have h1 := reduceFold_length hu
      have h2 : (x.map pre).shape.length = x.shape.length := rfl
      have : Burn.squeezeDims u dims 1 = none := by
        unfold Burn.squeezeDims
        rw [if_neg]
        rintro ⟨h3, _⟩
        omega
      simp [this]

/-- … while ONNX returns a scalar, e.g. the sum of a vector over axis 0. -/
example : Infer.reduceDims 1 [0] = some [0] ∧
    Onnx.reduceT (fun l : List Int => l.foldr (· + ·) 0) [0] false ⟨[3], [1, 2, 3], rfl⟩ = some ⟨[], [6], rfl⟩ := by
  decide +kernel

/-- The mean of whole numbers is cut off after every axis: for `[[0, 1], [1, 2]]` ONNX's mean is 1, the generated code
returns 0. -/
theorem C32_int_mean_wrong :
    let mean : List Int → Int := fun l => l.sum.tdiv l.length
    let x : Tensor Int := ⟨[2, 2], [0, 1, 1, 2], rfl⟩
    Onnx.reduceT mean [0, 1] true x = some ⟨[1, 1], [1], rfl⟩ ∧
    (genReduce mean id id [0, 1] true (.tensor ⟨.i64, 2, none⟩) x) = some (.dev ⟨[1, 1], [0], rfl⟩) := by
  constructor
  · decide +kernel
  · rfl

/-! ### The hypotheses can be met -/

/-- Maximum over the last axis of a matrix, dropped. -/
example : ∃ z, genReduce (pickList max) id id [1] false (.tensor ⟨.i64, 1, none⟩) (⟨[2, 3], [3, 1, 2, 4, 6, 5], rfl⟩ : Tensor Int)
      = some z ∧ Reps id (.tensor ⟨.i64, 1, none⟩) z ⟨[2], [3, 6], rfl⟩ :=
  C32_reduce_values_partial (as := [-1]) (Z := ⟨[2], [3, 6], rfl⟩) .maxInt (by decide +kernel) (by decide +kernel)
    (.inr (by decide)) (by decide) ⟨rfl, Nat.le_refl _⟩ (.inr (by simp))

/-- Sum of squares of everything, as a scalar on the device. -/
example : ∃ z, genReduce (fun l : List Int => l.foldr (· + ·) 0) (fun a => a * a) id [] false (.scalarTensor .i64)
      ⟨[2, 2], [1, 2, 3, 4], rfl⟩ = some z ∧ Reps id (.scalarTensor .i64) z ⟨[], [30], rfl⟩ :=
  C32_reduce_values_partial (as := []) (Z := ⟨[], [30], rfl⟩) .sumInt (by decide +kernel) (by decide +kernel)
    (.inl rfl) (by decide) rfl (.inl rfl)

end OnnxIR
