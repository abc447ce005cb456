import Verif.Spec.Tensor

/-! When broadcasting is the same as working on the flat elements. -/

namespace OnnxIR

theorem prodShape_append (a b : List Nat) : prodShape (a ++ b) = prodShape a * prodShape b := by
  induction a with
  | nil => simp [prodShape]
  | cons x a ih => simp [prodShape, ih, Nat.mul_assoc]

theorem prodShape_reverse (a : List Nat) : prodShape a.reverse = prodShape a := by
  induction a with
  | nil => rfl
  | cons x a ih => simp [prodShape_append, prodShape, ih, Nat.mul_comm]

theorem prodShape_replicate_one (k : Nat) : prodShape (List.replicate k 1) = 1 := by
  induction k with
  | zero => rfl
  | succ k ih => simp [List.replicate_succ, prodShape, ih]

theorem prodShape_eq_one {s : List Nat} (h : prodShape s = 1) : s = List.replicate s.length 1 := by
  induction s with
  | nil => rfl
  | cons d ds ih =>
    simp only [prodShape] at h
    replace h : d = 1 ∧ prodShape ds = 1 :=
      ⟨Nat.eq_one_of_mul_eq_one_right h, Nat.eq_one_of_mul_eq_one_left h⟩
    rw [List.length_cons, List.replicate_succ, ← ih h.2, h.1]

/-- A broadcast result with as many elements as one operand is that operand's shape, up to leading
dimensions of size one. -/
theorem bcastRev_same_size : ∀ {a b s : List Nat}, bcastRev a b = some s → 0 < prodShape s →
    prodShape a ≤ prodShape s ∧ (prodShape a = prodShape s → ∃ k, s = a ++ List.replicate k 1) := by
  intro a
  induction a with
  | nil =>
    intro b s h hp
    simp [bcastRev] at h
    subst h
    refine ⟨hp, fun he => ⟨b.length, ?_⟩⟩
    simpa using prodShape_eq_one he.symm
  | cons x a ih =>
    intro b s h hp
    cases b with
    | nil =>
      simp [bcastRev] at h
      subst h
      exact ⟨Nat.le_refl _, fun _ => ⟨0, by simp⟩⟩
    | cons y b =>
      have fin : ∀ z s', bcastRev a b = some s' → s = z :: s' → (x = z ∨ x = 1) →
          prodShape (x :: a) ≤ prodShape s ∧
            (prodShape (x :: a) = prodShape s → ∃ k, s = (x :: a) ++ List.replicate k 1) := by
        intro z s' hs' hs hx
        subst hs
        simp only [prodShape] at hp ⊢
        have hz : 0 < z := Nat.pos_of_mul_pos_right hp
        have hs'p : 0 < prodShape s' := Nat.pos_of_mul_pos_left hp
        obtain ⟨h1, h2⟩ := ih hs' hs'p
        have hxz : x ≤ z := by omega
        refine ⟨Nat.mul_le_mul hxz h1, fun he => ?_⟩
        have hxz' : x = z := by
          rcases Nat.lt_or_ge x z with hlt | hge
          · exfalso
            have h3 : x * prodShape a ≤ x * prodShape s' := Nat.mul_le_mul_left _ h1
            have h4 : x * prodShape s' < z * prodShape s' := Nat.mul_lt_mul_of_pos_right hlt hs'p
            omega
          · omega
        subst hxz'
        obtain ⟨k, hk⟩ := h2 (Nat.eq_of_mul_eq_mul_left hz he)
        exact ⟨k, by rw [hk]; rfl⟩
      simp only [bcastRev] at h
      split at h
      · obtain ⟨s', hs', rfl⟩ := Option.map_eq_some_iff.1 h
        exact fin x s' hs' rfl (Or.inl rfl)
      · split at h
        · next h1 =>
          obtain ⟨s', hs', rfl⟩ := Option.map_eq_some_iff.1 h
          exact fin y s' hs' rfl (Or.inr h1)
        · split at h
          · obtain ⟨s', hs', rfl⟩ := Option.map_eq_some_iff.1 h
            exact fin x s' hs' rfl (Or.inl rfl)
          · cases h

theorem flatIdx_ones : ∀ (k : Nat) {a z i : List Nat}, z.length = k →
    InRange (List.replicate k 1 ++ a) (z ++ i) →
    flatIdx (List.replicate k 1 ++ a) (z ++ i) = flatIdx a i
  | 0, a, z, i, hz, _ => by
    have : z = [] := List.length_eq_zero_iff.1 hz
    subst this; rfl
  | k + 1, a, z, i, hz, h => by
    cases z with
    | nil => simp at hz
    | cons j z =>
      simp only [List.replicate_succ, List.cons_append, InRange] at h
      simp only [List.replicate_succ, List.cons_append, flatIdx]
      have : j = 0 := by omega
      rw [this, flatIdx_ones k (by simpa using hz) h.2]
      simp

theorem projRev_append : ∀ {a i j : List Nat}, i.length = a.length →
    projRev a (i ++ j) = projRev a i
  | [], [], j, _ => by cases j <;> rfl
  | [], _ :: _, _, h => by simp at h
  | _ :: _, [], _, h => by simp at h
  | d :: a, i :: is, j, h => by
    simp only [List.cons_append, projRev]
    rw [projRev_append (by simpa using h)]

/-- Reading an operand that has as many elements as the broadcast result: same flat position. -/
theorem flatIdx_proj_same {a b s i : List Nat} (h : bcast a b = some s)
    (hs : prodShape a = prodShape s) (hi : InRange s i) : flatIdx a (proj a i) = flatIdx s i := by
  have hp : 0 < prodShape s := by have := flatIdx_lt hi; omega
  obtain ⟨s', hs', rfl⟩ := Option.map_eq_some_iff.1 h
  rw [prodShape_reverse] at hs hp
  obtain ⟨k, hk⟩ := (bcastRev_same_size hs' hp).2 (by rw [prodShape_reverse]; exact hs)
  subst hk
  simp only [List.reverse_append, List.reverse_replicate, List.reverse_reverse] at hi ⊢
  have hlen := InRange.length hi
  have hz : i = i.take k ++ i.drop k := (List.take_append_drop k i).symm
  have hzl : (i.take k).length = k := by simp at hlen ⊢; omega
  have hdl : (i.drop k).length = a.length := by simp at hlen ⊢; omega
  have hr : InRange a (i.drop k) := by
    rw [hz] at hi
    exact ((inRange_append (by simp [hzl])).1 hi).2
  have hpr : proj a i = i.drop k := by
    unfold proj
    rw [hz, List.reverse_append, projRev_append (by simp [hdl])]
    rw [projRev_self (inRange_reverse.2 hr), List.reverse_reverse]
    simp
  rw [hpr]
  rw [hz] at hi
  conv => rhs; rw [hz]
  exact (flatIdx_ones k hzl hi).symm

/-- Element-wise operation on flat data: an operand with one element is repeated. -/
def flatGet {α : Type} [Inhabited α] (l : List α) (k : Nat) : α :=
  if l.length = 1 then l.getD 0 default else l.getD k default

/-- If each operand has one element or as many as the result, broadcasting is element-wise on the
flat data. -/
theorem zipBcast_data {α β γ : Type} [Inhabited α] [Inhabited β] {f : α → β → γ} {x : Tensor α}
    {y : Tensor β} {z : Tensor γ} (h : x.zipBcast f y = some z)
    (hx : x.data.length = 1 ∨ x.data.length = prodShape z.shape)
    (hy : y.data.length = 1 ∨ y.data.length = prodShape z.shape) :
    z.data = (List.range (prodShape z.shape)).map fun k => f (flatGet x.data k) (flatGet y.data k) := by
  unfold Tensor.zipBcast at h
  obtain ⟨s, hs, rfl⟩ := Option.map_eq_some_iff.1 h
  simp only [Tensor.ofFn] at hx hy ⊢
  rw [← map_flatIdx_indices, List.map_map]
  refine List.map_congr_left fun i hi => ?_
  have hi' := mem_indices.1 hi
  have hs' : bcast y.shape x.shape = some s := by rw [bcast_comm]; exact hs
  obtain ⟨hpx, hpy⟩ := proj_inRange hs hi'
  have key : ∀ {δ : Type} [Inhabited δ] (t : Tensor δ) (b : List Nat),
      bcast t.shape b = some s → InRange t.shape (proj t.shape i) →
      (t.data.length = 1 ∨ t.data.length = prodShape s) →
      t.get (proj t.shape i) = flatGet t.data (flatIdx s i) := by
    intro δ _ t b hb hr hl
    unfold Tensor.get flatGet
    split
    · next h1 =>
      have := flatIdx_lt hr
      rw [← t.size, h1] at this
      rw [show flatIdx t.shape (proj t.shape i) = 0 by omega]
    · next h1 =>
      rw [flatIdx_proj_same hb (by rw [← t.size]; omega) hi']
  simp only [Function.comp]
  rw [key x y.shape hs hpx hx, key y x.shape hs' hpy hy]

end OnnxIR
