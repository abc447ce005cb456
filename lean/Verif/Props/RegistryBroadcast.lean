import Verif.Props.Broadcast

/-!
# Broadcasting when annotations are only partly known

`C16_broadcast_sound_partial` asks that all static shapes are known or none. Here the shapes of the
run decide instead: equal shapes and scalars, or two operands of which one has the shape of the result
and the other fewer dimensions.
-/

namespace OnnxIR

theorem zipDims_self (s : List Nat) : zipDims s s = some s := by
  induction s with
  | nil => rfl
  | cons d ds ih => simp [zipDims, ih]

theorem broadcastInto_same {r sh r' : PShape} {out : List Nat} (hr : r.Describes out)
    (hs : sh.Describes out) (h : broadcastInto r sh = some r') : r'.Describes out := by
  have h1 := (PShape.describes_iff.1 hr).1
  have h2 := (PShape.describes_iff.1 hs).1
  simp only [broadcastInto, show r.length - sh.length = 0 by omega, List.drop_zero, List.take_zero,
    List.nil_append, Option.map_id'] at h
  exact broadcastDims_describes hr hs h (zipDims_self out)

theorem broadcastAllInto_same {shs : List PShape} {r r' : PShape} {out : List Nat}
    (hr : r.Describes out) (hs : ∀ p ∈ shs, p.Describes out) (h : broadcastAllInto r shs = some r') :
    r'.Describes out := by
  induction shs generalizing r with
  | nil => simp [broadcastAllInto] at h; rwa [← h]
  | cons p ps ih =>
    simp only [broadcastAllInto, Option.bind_eq_some_iff] at h
    obtain ⟨q, hq, h⟩ := h
    exact ih (broadcastInto_same hr (hs p (by simp)) hq) (fun p hp => hs p (by simp [hp])) h

theorem broadcastDims_ones (s : PShape) : broadcastDims (List.replicate s.length (some 1)) s = some s := by
  induction s with
  | nil => rfl
  | cons d ds ih =>
    simp only [List.length_cons, List.replicate_succ, broadcastDims, ih]
    cases d <;> simp [broadcastDim]

theorem maxLength_const {shs : List PShape} {k : Nat} (hne : shs ≠ []) (h : ∀ p ∈ shs, p.length = k) :
    maxLength shs = k := by
  have : ∀ (l : List PShape) (a : Nat), (∀ p ∈ l, p.length = k) → a ≤ k →
      l.foldl (fun acc s => max acc s.length) a ≤ k ∧
      (l ≠ [] → l.foldl (fun acc s => max acc s.length) a = k) := by
    intro l
    induction l with
    | nil => intro a _ ha; simp [ha]
    | cons p ps ih =>
      intro a hp ha
      have hpk := hp p (by simp)
      have := ih (max a p.length) (fun q hq => hp q (by simp [hq])) (by omega)
      refine ⟨this.1, fun _ => ?_⟩
      cases ps with
      | nil => simp; omega
      | cons q qs => exact this.2 (by simp)
  exact (this shs 0 h (Nat.zero_le _)).2 hne

/-- If every static shape describes the result, so does the inferred one. -/
theorem static_of_same {inputs : List ArgType} {out : List Nat}
    (h : ∀ p ∈ inputs.filterMap ArgType.staticShape, PShape.Describes p out) {q : PShape}
    (hq : computeBroadcastStaticShape inputs = some q) : q.Describes out := by
  unfold computeBroadcastStaticShape at hq
  split at hq
  · cases hq
  · next s hl =>
    split at hq
    · simp only [Option.some.injEq] at hq; rw [← hq]; exact h s (by simp [hl])
    · cases hq
  · next s s' ss hl =>
    rw [hl] at h
    split at hq
    · simp only [Option.some.injEq] at hq; rw [← hq]; exact h s (by simp)
    · rw [maxLength_const (k := s.length) (by simp) (fun p hp => by
        rw [(PShape.describes_iff.1 (h p hp)).1, (PShape.describes_iff.1 (h s (by simp))).1])] at hq
      rw [broadcastAllInto, broadcastInto] at hq
      simp only [List.length_replicate, Nat.sub_self, List.drop_zero, List.take_zero, List.nil_append,
        Option.map_id', broadcastDims_ones, Option.bind_some] at hq
      exact broadcastAllInto_same (h s (by simp)) (fun p hp => h p (by simp [hp])) hq

theorem admitsAll_mem {ts : List ArgType} {ss : List (List Nat)} (h : AdmitsAll ts ss) :
    ∀ t ∈ ts, ∃ s ∈ ss, t.Admits s := by
  induction h with
  | nil => simp
  | @cons t ts s ss h1 _ ih =>
    intro u hu
    rcases List.mem_cons.1 hu with rfl | hu
    · exact ⟨s, by simp, h1⟩
    · obtain ⟨r, hr, h⟩ := ih u hu
      exact ⟨r, by simp [hr], h⟩

theorem static_tensor {t : ArgType} {p : PShape} (h : t.staticShape = some p) :
    ∃ u, t = .tensor u ∧ u.staticShape = some p := by
  cases t <;> simp [ArgType.staticShape] at h
  exact ⟨_, rfl, h⟩

/-- **C16, equal shapes and scalars.** Whatever is known about the inputs, the annotation is right when
every input has the shape of the result or no dimension. -/
theorem C16_equal_or_scalar {inputs : List ArgType} {shapes : List (List Nat)} {out : List Nat}
    {d : Option DType} {ty : ArgType} (ha : AdmitsAll inputs shapes) (hz : NoRankZero inputs)
    (he : ∀ s ∈ shapes, s = out ∨ s = []) (ho : bcastAll shapes = some out)
    (hty : broadcastOutputType inputs d = some ty) : ty.Admits out := by
  refine broadcast_of_static ha hz (fun q hq => static_of_same ?_ hq) ?_ ho hty
  · intro p hp
    obtain ⟨a, ham, hap⟩ := List.mem_filterMap.1 hp
    obtain ⟨u, rfl, hu⟩ := static_tensor hap
    obtain ⟨s, hs, h1⟩ := admitsAll_mem ha _ ham
    have h2 := hz u ham
    rcases he s hs with rfl | rfl
    · exact h1.2 p hu
    · have := h1.1; simp at this; omega
  · intro j k hj hk
    obtain ⟨s, hs, h1⟩ := admitsAll_mem ha _ hj
    obtain ⟨r, hr, h2⟩ := admitsAll_mem ha _ hk
    simp only [ArgType.Admits] at h1 h2
    subst h1 h2
    rcases he _ hs with h | h <;> rcases he _ hr with h' | h' <;> first | (simp at h h'; done) | skip
    · have := h.trans h'.symm
      simpa using this
    all_goals simp_all

/-- **C16, two operands.** Whatever is known about the inputs, the annotation is right when one operand
has the shape of the result and the other fewer dimensions. -/
theorem C16_two_operands {x y ty : ArgType} {sx sy out : List Nat} {d : Option DType}
    (hx : x.Admits sx) (hy : y.Admits sy) (hz : NoRankZero [x, y])
    (he : sx = out ∧ sy.length < out.length ∨ sy = out ∧ sx.length < out.length)
    (ho : bcastAll [sx, sy] = some out) (hty : broadcastOutputType [x, y] d = some ty) : ty.Admits out := by
  have ha : AdmitsAll [x, y] [sx, sy] := .cons hx (.cons hy .nil)
  refine broadcast_of_static ha hz (fun q hq => ?_) ?_ ho hty
  · cases h1 : x.staticShape with
    | none =>
      cases h2 : y.staticShape with
      | none => simp [computeBroadcastStaticShape, h1, h2] at hq
      | some p =>
        obtain ⟨u, rfl, hu⟩ := static_tensor h2
        have hr := C16_rank _ _ out ha hz (by simp [ArgType.isTensor]) ho
        simp only [computeBroadcastStaticShape, List.filterMap_cons, h1, h2, List.filterMap_nil] at hq
        have h3 := (PShape.describes_iff.1 (hy.2 p hu)).1
        split at hq
        · cases hq
          rcases he with ⟨rfl, hl⟩ | ⟨rfl, hl⟩
          · omega
          · exact hy.2 _ hu
        · cases hq
    | some p =>
      obtain ⟨u, rfl, hu⟩ := static_tensor h1
      cases h2 : y.staticShape with
      | none =>
        have hr := C16_rank _ _ out ha hz (by simp [ArgType.isTensor]) ho
        simp only [computeBroadcastStaticShape, List.filterMap_cons, h1, h2, List.filterMap_nil] at hq
        have h3 := (PShape.describes_iff.1 (hx.2 p hu)).1
        split at hq
        · cases hq
          rcases he with ⟨rfl, hl⟩ | ⟨rfl, hl⟩
          · exact hx.2 _ hu
          · omega
        · cases hq
      | some p' =>
        obtain ⟨v, rfl, hv⟩ := static_tensor h2
        refine C16_static_shape_partial _ _ out q ha ?_ ho hq
        intro a hm
        simp only [List.mem_cons, List.not_mem_nil, or_false] at hm
        rcases hm with rfl | rfl
        · exact ⟨fun t ht => by cases ht; simp [hu], by simp⟩
        · exact ⟨fun t ht => by cases ht; simp [hv], by simp⟩
  · intro j k hj hk
    have hlen : sx.length ≠ sy.length := by rcases he with ⟨rfl, h⟩ | ⟨rfl, h⟩ <;> omega
    simp only [List.mem_cons, List.not_mem_nil, or_false] at hj hk
    rcases hj with rfl | rfl <;> rcases hk with hk | hk
    · cases hk; rfl
    · subst hk; simp only [ArgType.Admits] at hx hy; subst hx hy; simp at hlen
    · subst hk; simp only [ArgType.Admits] at hx hy; subst hx hy; simp at hlen
    · cases hk; rfl

/-- A matrix of unknown shape plus a known bias, and a partly known one plus a scalar. -/
example : ∃ t u, broadcastOutputType [.tensor ⟨.f32, 2, none⟩, .tensor ⟨.f32, 1, some [some 3]⟩] none = some t ∧
    t.Admits [2, 3] ∧
    broadcastOutputType [.tensor ⟨.f32, 2, some [none, some 3]⟩, .scalarTensor .f32,
      .tensor ⟨.f32, 2, none⟩] none = some u ∧ u.Admits [2, 3] := by
  refine ⟨_, _, rfl, ?_, rfl, ?_⟩
  · exact C16_two_operands (x := .tensor ⟨.f32, 2, none⟩) (y := .tensor ⟨.f32, 1, some [some 3]⟩)
      (sx := [2, 3]) (sy := [3]) (d := none) ⟨rfl, by simp⟩
      ⟨rfl, by intro p hp; cases hp; simp [PShape.Describes]⟩ (by intro t ht; simp at ht; rcases ht with rfl | rfl <;> simp)
      (.inl ⟨rfl, by decide⟩) (by decide) rfl
  · exact ⟨rfl, by intro p hp; cases hp; simp [PShape.Describes]⟩

end OnnxIR
