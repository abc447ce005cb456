import Verif.Spec.Broadcast

/-!
# Lemmas on partially known shapes and broadcasting
-/

namespace OnnxIR

theorem PShape.Describes.length {p : PShape} {s : List Nat} (h : p.Describes s) :
    p.length = s.length := by
  induction p generalizing s with
  | nil => cases s <;> simp_all [PShape.Describes]
  | cons o ps ih =>
    cases s with
    | nil => simp [PShape.Describes] at h
    | cons d ds => simp only [PShape.Describes] at h; simp [ih h.2]

theorem PShape.describes_append {p q : PShape} {s t : List Nat} (h : p.length = s.length) :
    PShape.Describes (p ++ q) (s ++ t) ↔ p.Describes s ∧ q.Describes t := by
  induction p generalizing s with
  | nil => cases s <;> simp_all [PShape.Describes]
  | cons o ps ih =>
    cases s with
    | nil => simp at h
    | cons d ds =>
      simp at h
      simp only [List.cons_append, PShape.Describes, ih h, and_assoc]

/-- A partially known shape that describes an appended shape splits. -/
theorem PShape.Describes.split {p : PShape} {s t : List Nat} (h : p.Describes (s ++ t)) :
    ∃ p1 p2, p = p1 ++ p2 ∧ p1.Describes s ∧ p2.Describes t := by
  refine ⟨p.take s.length, p.drop s.length, (List.take_append_drop _ _).symm, ?_⟩
  have hl := h.length
  rw [List.length_append] at hl
  have h1 : (p.take s.length).length = s.length := by rw [List.length_take]; omega
  rw [← PShape.describes_append h1, List.take_append_drop]
  exact h

theorem PShape.describes_reverse {p : PShape} {s : List Nat} :
    PShape.Describes p.reverse s.reverse ↔ p.Describes s := by
  induction p generalizing s with
  | nil =>
    cases s with
    | nil => simp [PShape.Describes]
    | cons d ds =>
      constructor
      · intro h; have := h.length; simp at this
      · intro h; have := h.length; simp at this
  | cons o ps ih =>
    cases s with
    | nil =>
      constructor
      · intro h; have := h.length; simp at this
      · intro h; have := h.length; simp at this
    | cons d ds =>
      rw [List.reverse_cons, List.reverse_cons]
      by_cases hl : ps.length = ds.length
      · rw [PShape.describes_append (by simpa using hl), ih]
        simp [PShape.Describes, and_comm]
      · constructor
        · intro h; have := h.length; simp at this; omega
        · intro h; have := h.length; simp at this; omega

/-- Position-wise characterisation. -/
theorem PShape.describes_iff {p : PShape} {s : List Nat} :
    p.Describes s ↔ p.length = s.length ∧ ∀ (i k : Nat), p[i]? = some (some k) → s[i]? = some k := by
  induction p generalizing s with
  | nil => cases s <;> simp [PShape.Describes]
  | cons o ps ih =>
    cases s with
    | nil => simp [PShape.Describes]
    | cons d ds =>
      simp only [PShape.Describes, ih, List.length_cons, Nat.add_right_cancel_iff]
      constructor
      · rintro ⟨h1, h2, h3⟩
        refine ⟨h2, fun i k hk => ?_⟩
        cases i with
        | zero => simp at hk ⊢; exact (h1 k hk).symm
        | succ i => simpa using h3 i k (by simpa using hk)
      · rintro ⟨h2, h3⟩
        refine ⟨fun k hk => ?_, h2, fun i k hk => ?_⟩
        · have := h3 0 k (by simp [hk]); simp at this; exact this.symm
        · simpa using h3 (i + 1) k (by simpa using hk)

/-- Dimensions known exactly describe only that shape. -/
theorem PShape.describes_some {s t : List Nat} :
    PShape.Describes (s.map some) t ↔ t = s := by
  induction s generalizing t with
  | nil => cases t <;> simp [PShape.Describes]
  | cons d ds ih => cases t <;> simp [PShape.Describes, ih, eq_comm]

theorem PShape.describes_none {s : List Nat} :
    PShape.Describes (List.replicate s.length none) s := by
  induction s with
  | nil => trivial
  | cons d ds ih => exact ⟨by simp, ih⟩

theorem bcastRev_length {a b s : List Nat} (h : bcastRev a b = some s) :
    s.length = max a.length b.length := by
  induction a generalizing b s with
  | nil => simp [bcastRev] at h; simp [h]
  | cons x a ih =>
    cases b with
    | nil => simp [bcastRev] at h; simp [← h]
    | cons y b =>
      simp only [bcastRev] at h
      split at h
      · obtain ⟨s', hs, rfl⟩ := Option.map_eq_some_iff.1 h; simp [ih hs]
      · split at h
        · obtain ⟨s', hs, rfl⟩ := Option.map_eq_some_iff.1 h; simp [ih hs]
        · split at h
          · obtain ⟨s', hs, rfl⟩ := Option.map_eq_some_iff.1 h; simp [ih hs]
          · cases h

/-- The rank of a broadcast is the larger rank. -/
theorem bcast_length {a b s : List Nat} (h : bcast a b = some s) :
    s.length = max a.length b.length := by
  obtain ⟨s', hs, rfl⟩ := Option.map_eq_some_iff.1 h
  have := bcastRev_length hs
  simpa using this

theorem bcast_nil_left (b : List Nat) : bcast [] b = some b := by simp [bcast, bcastRev]

theorem bcast_nil_right (a : List Nat) : bcast a [] = some a := by
  rw [bcast_comm]; exact bcast_nil_left a

/-- Leading ones change nothing but the rank (reversed: trailing ones). -/
theorem bcastRev_pad {a b s : List Nat} (h : bcastRev a b = some s) (k : Nat)
    (hb : b.length ≤ a.length + k) :
    bcastRev (a ++ List.replicate k 1) b = some (s ++ List.replicate (a.length + k - s.length) 1) := by
  induction a generalizing b s with
  | nil =>
    simp [bcastRev] at h
    subst h
    simp only [List.nil_append, List.length_nil, Nat.zero_add]
    simp only [List.length_nil, Nat.zero_add] at hb
    induction k generalizing b with
    | zero =>
      cases b with
      | nil => simp [bcastRev]
      | cons _ _ => simp at hb
    | succ k ih =>
      cases b with
      | nil => simp [List.replicate_succ, bcastRev]
      | cons y b =>
        simp at hb
        rw [List.replicate_succ]
        simp only [bcastRev]
        rw [ih hb]
        by_cases hy : 1 = y
        · subst hy; simp
        · simp [hy]
  | cons x a ih =>
    cases b with
    | nil =>
      simp [bcastRev] at h
      subst h
      simp [bcastRev]
    | cons y b =>
      simp only [List.cons_append, bcastRev] at h ⊢
      simp at hb
      have hb' : b.length ≤ a.length + k := by omega
      have fin : ∀ z s', bcastRev a b = some s' → s = z :: s' →
          some (z :: (s' ++ List.replicate (a.length + k - s'.length) 1)) =
            some (s ++ List.replicate ((x :: a).length + k - s.length) 1) := by
        intro z s' _ hs; subst hs
        simp only [List.length_cons, List.cons_append]
        rw [show a.length + 1 + k - (s'.length + 1) = a.length + k - s'.length by omega]
      split at h
      · obtain ⟨s', hs, rfl⟩ := Option.map_eq_some_iff.1 h
        rw [if_pos ‹_›, ih hs hb']; exact fin _ _ hs rfl
      · rw [if_neg ‹_›]
        split at h
        · obtain ⟨s', hs, rfl⟩ := Option.map_eq_some_iff.1 h
          rw [if_pos ‹_›, ih hs hb']; exact fin _ _ hs rfl
        · rw [if_neg ‹_›]
          split at h
          · obtain ⟨s', hs, rfl⟩ := Option.map_eq_some_iff.1 h
            rw [if_pos ‹_›, ih hs hb']; exact fin _ _ hs rfl
          · cases h

theorem bcast_pad {a b s : List Nat} (h : bcast a b = some s) (k : Nat)
    (hb : b.length ≤ a.length + k) :
    bcast (List.replicate k 1 ++ a) b =
      some (List.replicate (a.length + k - s.length) 1 ++ s) := by
  obtain ⟨s', hs, rfl⟩ := Option.map_eq_some_iff.1 h
  have := bcastRev_pad hs k (by simpa using hb)
  simp only [bcast, List.reverse_append, List.reverse_replicate, this, Option.map_some,
    List.length_reverse]

/-- Broadcast of two shapes of the same rank, dimension by dimension. -/
def zipDims : List Nat → List Nat → Option (List Nat)
  | x :: xs, y :: ys =>
    match (if x = y then some x else if x = 1 then some y else if y = 1 then some x else none),
      zipDims xs ys with
    | some z, some zs => some (z :: zs)
    | _, _ => none
  | [], [] => some []
  | _, _ => none

theorem zipDims_length {a b s : List Nat} (h : zipDims a b = some s) :
    s.length = a.length ∧ s.length = b.length := by
  induction a generalizing b s with
  | nil => cases b <;> simp [zipDims] at h; simp [h]
  | cons x a ih =>
    cases b with
    | nil => simp [zipDims] at h
    | cons y b =>
      simp only [zipDims] at h
      split at h
      · next hz => cases h; have := ih hz; simp; omega
      · cases h

theorem zipDims_append {a b c d : List Nat} (h : a.length = b.length) :
    zipDims (a ++ c) (b ++ d) = (zipDims a b).bind fun s => (zipDims c d).map (s ++ ·) := by
  induction a generalizing b with
  | nil => cases b <;> simp_all [zipDims]
  | cons x a ih =>
    cases b with
    | nil => simp at h
    | cons y b =>
      simp at h
      simp only [List.cons_append, zipDims, ih h]
      generalize (if x = y then some x else if x = 1 then some y else if y = 1 then some x else none) = z
      cases z with
      | none => simp
      | some z =>
        cases zipDims a b with
        | none => simp
        | some s => cases zipDims c d <;> simp

theorem zipDims_reverse {a b : List Nat} :
    zipDims a.reverse b.reverse = (zipDims a b).map List.reverse := by
  induction a generalizing b with
  | nil =>
    cases b with
    | nil => simp [zipDims]
    | cons y b =>
      cases h : (y :: b).reverse with
      | nil => simp at h
      | cons _ _ => simp [zipDims]
  | cons x a ih =>
    cases b with
    | nil =>
      cases h : (x :: a).reverse with
      | nil => simp at h
      | cons _ _ => simp [zipDims]
    | cons y b =>
      by_cases hl : a.length = b.length
      · rw [List.reverse_cons, List.reverse_cons, zipDims_append (by simpa using hl), ih]
        simp only [zipDims]
        generalize (if x = y then some x else if x = 1 then some y else if y = 1 then some x else none) = z
        cases z with
        | none => cases zipDims a b <;> simp
        | some z => cases zipDims a b <;> simp
      · have h1 : zipDims (x :: a) (y :: b) = none := by
          cases h : zipDims (x :: a) (y :: b) with
          | none => rfl
          | some s => have := zipDims_length h; simp at this; omega
        have h2 : zipDims (x :: a).reverse (y :: b).reverse = none := by
          cases h : zipDims (x :: a).reverse (y :: b).reverse with
          | none => rfl
          | some s => have := zipDims_length h; simp at this; omega
        rw [h1, h2]; rfl

theorem bcastRev_zip {a b p : List Nat} (h : a.length = b.length) :
    bcastRev (a ++ p) b = (zipDims a b).map (· ++ p) := by
  induction a generalizing b with
  | nil =>
    cases b with
    | nil => cases p <;> simp [bcastRev, zipDims]
    | cons _ _ => simp at h
  | cons x a ih =>
    cases b with
    | nil => simp at h
    | cons y b =>
      simp at h
      simp only [List.cons_append, bcastRev, zipDims, ih h]
      by_cases h1 : x = y
      · simp only [h1, if_true]; cases zipDims a b <;> simp
      · simp only [h1, if_false]
        by_cases h2 : x = 1
        · simp only [h2, if_true]; cases zipDims a b <;> simp
        · simp only [h2, if_false]
          by_cases h3 : y = 1
          · simp only [h3, if_true]; cases zipDims a b <;> simp
          · simp [h3]

/-- A broadcast with a shape of lower rank leaves the leading dimensions and combines the rest. -/
theorem bcast_zip {a b p : List Nat} (h : a.length = b.length) :
    bcast (p ++ a) b = (zipDims a b).map (p ++ ·) := by
  unfold bcast
  rw [List.reverse_append, bcastRev_zip (by simpa using h), zipDims_reverse]
  cases zipDims a b <;> simp

end OnnxIR
