import Verif.Spec.Boundary
import Verif.Lemmas.Eval

/-!
# C46: scalars crossing the graph boundary
-/

namespace OnnxIR.Boundary

open Gen

variable {X W V : Type}

/-- The element type of a device scalar. -/
def devOf : ArgType → Option DType
  | .scalarTensor d => some d
  | _ => none

/-- No device scalar is listed under the name of another argument of the list. -/
def ScalarsOnce (as : List (Arg V)) : Prop :=
  as.Pairwise fun a b => a.name = b.name → devOf a.ty = none ∧ devOf b.ty = none

theorem scalarsOnce_of_nodup {as : List (Arg V)} (h : (as.map Arg.name).Nodup) : ScalarsOnce as := by
  unfold List.Nodup at h
  rw [List.pairwise_map] at h
  exact h.imp fun hne he => absurd he hne

theorem ScalarsOnce.eq {as : List (Arg V)} (h : ScalarsOnce as) {a b : Arg V} (ha : a ∈ as) (hb : b ∈ as)
    (hn : a.name = b.name) : a = b ∨ devOf a.ty = none ∧ devOf b.ty = none := by
  induction as with
  | nil => cases ha
  | cons c as ih =>
    have h' : (∀ x ∈ as, c.name = x.name → devOf c.ty = none ∧ devOf x.ty = none) ∧ ScalarsOnce as := by
      simpa [ScalarsOnce] using h
    simp only [List.mem_cons] at ha hb
    rcases ha with rfl | ha <;> rcases hb with rfl | hb
    · exact .inl rfl
    · exact .inr (h'.1 _ hb hn)
    · exact .inr (h'.1 _ ha hn.symm).symm
    · exact ih h'.2 ha hb

theorem mem_conversions {as : List (Arg V)} {x : String} {d : DType} :
    (x, d) ∈ conversions as ↔ ∃ a ∈ as, a.name = x ∧ devOf a.ty = some d := by
  simp only [conversions, List.mem_reverse, List.mem_filterMap]
  constructor
  · rintro ⟨a, ha, h⟩
    refine ⟨a, ha, ?_⟩
    cases ht : a.ty <;> simp_all [devOf]
  · rintro ⟨a, ha, hx, hd⟩
    refine ⟨a, ha, ?_⟩
    cases ht : a.ty <;> simp_all [devOf]

theorem conversions_get {as : List (Arg V)} (h : ScalarsOnce as) {a : Arg V} (ha : a ∈ as) :
    mapGet (conversions as) a.name = devOf a.ty := by
  cases hm : mapGet (conversions as) a.name with
  | some d =>
    obtain ⟨b, hb, hn, hd⟩ := mem_conversions.1 (mapGet_mem hm)
    rcases h.eq ha hb hn.symm with rfl | ⟨_, h2⟩
    · exact hd.symm
    · rw [h2] at hd; cases hd
  | none =>
    cases hd : devOf a.ty with
    | none => rfl
    | some d =>
      obtain ⟨w, hw⟩ := mapGet_isSome_of_mem (mem_conversions.2 ⟨a, ha, rfl, hd⟩)
      rw [hw] at hm; cases hm

/-- The value of an argument after its conversion. -/
def converted (conv : DType → RVal X W → Option (RVal X W)) (t : ArgType) (v : RVal X W) :
    Option (RVal X W) :=
  match devOf t with
  | none => some v
  | some d => conv d v

theorem converted_enter (t : ArgType) (v : RVal X W) : converted toDevice t v = enter t v := by
  cases t <;> cases v <;> rfl

theorem converted_leave (t : ArgType) (v : RVal X W) : converted toNativeScalar t v = leave t v := by
  cases t <;> cases v <;> rfl

/-- The loop, argument by argument. `as'` are the arguments with the types of the signature. -/
theorem convertLoop_some {conv : DType → RVal X W → Option (RVal X W)} {m : List (String × DType)} :
    ∀ {as as' : List (Arg V)} {e e' : Locals X W}, ScalarsOnce as → as'.map Arg.name = as.map Arg.name →
      (∀ a ∈ as, mapGet m a.name = devOf a.ty) → convertLoop conv m as' e = some e' →
      (∀ a ∈ as, (e a.name).bind (converted conv a.ty) = e' a.name) ∧
      ∀ y, (∀ a ∈ as, a.name = y → devOf a.ty = none) → e' y = e y := by
  intro as
  induction as with
  | nil =>
    intro as' e e' _ hn _ h
    have : as' = [] := by simpa using hn
    subst this
    simp only [convertLoop, Option.some.injEq] at h
    subst h
    simp
  | cons a as ih =>
    intro as' e e' hone hn hm h
    cases as' with
    | nil => simp at hn
    | cons b bs =>
    simp only [List.map_cons, List.cons.injEq] at hn
    have hone' : (∀ x ∈ as, a.name = x.name → devOf a.ty = none ∧ devOf x.ty = none) ∧ ScalarsOnce as := by
      simpa [ScalarsOnce] using hone
    have hma := hm a List.mem_cons_self
    have hm' : ∀ x ∈ as, mapGet m x.name = devOf x.ty := fun x hx => hm x (List.mem_cons_of_mem _ hx)
    simp only [convertLoop, hn.1, hma] at h
    cases hd : devOf a.ty with
    | none =>
      simp only [hd] at h
      obtain ⟨h1, h2⟩ := ih hone'.2 hn.2 hm' h
      refine ⟨?_, ?_⟩
      · intro x hx
        rcases List.mem_cons.1 hx with rfl | hx
        · rw [h2 x.name (fun y hy he => (hone'.1 y hy he.symm).2)]
          cases hv : e x.name <;> simp [converted, hd]
        · exact h1 x hx
      · intro y hy
        exact h2 y fun x hx => hy x (List.mem_cons_of_mem _ hx)
    | some d =>
      simp only [hd] at h
      cases hv : (e a.name).bind (conv d) with
      | none => simp [hv] at h
      | some v =>
        simp only [hv] at h
        obtain ⟨h1, h2⟩ := ih hone'.2 hn.2 hm' h
        have hne : ∀ x ∈ as, x.name ≠ a.name := by
          intro x hx he
          have := (hone'.1 x hx he.symm).1
          rw [hd] at this; cases this
        refine ⟨?_, ?_⟩
        · intro x hx
          rcases List.mem_cons.1 hx with rfl | hx
          · rw [h2 x.name fun y hy he => absurd he (hne y hy)]
            simp only [Locals.bind, if_true]
            rw [← hv]
            cases he : e x.name <;> simp [converted, hd]
          · rw [← h1 x hx]
            simp [Locals.bind, hne x hx]
        · intro y hy
          have hya : y ≠ a.name := by
            intro he
            have := hy a List.mem_cons_self he.symm
            rw [hd] at this; cases this
          rw [h2 y fun x hx => hy x (List.mem_cons_of_mem _ hx)]
          simp [Locals.bind, hya]

theorem convertLoop_none {conv : DType → RVal X W → Option (RVal X W)} {m : List (String × DType)} :
    ∀ {as as' : List (Arg V)} {e : Locals X W}, ScalarsOnce as → as'.map Arg.name = as.map Arg.name →
      (∀ a ∈ as, mapGet m a.name = devOf a.ty) → convertLoop conv m as' e = none →
      ∃ a ∈ as, (e a.name).bind (converted conv a.ty) = none := by
  intro as
  induction as with
  | nil =>
    intro as' e _ hn _ h
    have : as' = [] := by simpa using hn
    subst this
    simp [convertLoop] at h
  | cons a as ih =>
    intro as' e hone hn hm h
    cases as' with
    | nil => simp at hn
    | cons b bs =>
    simp only [List.map_cons, List.cons.injEq] at hn
    have hone' : (∀ x ∈ as, a.name = x.name → devOf a.ty = none ∧ devOf x.ty = none) ∧ ScalarsOnce as := by
      simpa [ScalarsOnce] using hone
    have hma := hm a List.mem_cons_self
    have hm' : ∀ x ∈ as, mapGet m x.name = devOf x.ty := fun x hx => hm x (List.mem_cons_of_mem _ hx)
    simp only [convertLoop, hn.1, hma] at h
    cases hd : devOf a.ty with
    | none =>
      simp only [hd] at h
      obtain ⟨x, hx, h1⟩ := ih hone'.2 hn.2 hm' h
      exact ⟨x, List.mem_cons_of_mem _ hx, h1⟩
    | some d =>
      simp only [hd] at h
      cases hv : (e a.name).bind (conv d) with
      | none => exact ⟨a, List.mem_cons_self, by cases he : e a.name <;> simp_all [converted]⟩
      | some v =>
        simp only [hv] at h
        obtain ⟨x, hx, h1⟩ := ih hone'.2 hn.2 hm' h
        have hne : x.name ≠ a.name := by
          intro he
          have := (hone'.1 x hx he.symm).1
          rw [hd] at this; cases this
        refine ⟨x, List.mem_cons_of_mem _ hx, ?_⟩
        rw [← h1]
        simp [Locals.bind, hne]

/-! ## Outputs -/

theorem cross_exits {f : ArgType → RVal X W → Option (RVal X W)} : ∀ {as as' : List (Arg V)} {e e' : Locals X W},
    as'.map Arg.name = as.map Arg.name →
    (∀ a ∈ as, (e a.name).bind (f a.ty) = e' a.name) →
    returnAll as' e' = (exits as e).bind (cross f as) := by
  intro as
  induction as with
  | nil =>
    intro as' e e' hn _
    have : as' = [] := by simpa using hn
    subst this
    rfl
  | cons a as ih =>
    intro as' e e' hn h
    cases as' with
    | nil => simp at hn
    | cons b bs =>
    simp only [List.map_cons, List.cons.injEq] at hn
    have h1 := h a List.mem_cons_self
    have h2 := ih (e := e) (e' := e') hn.2 fun x hx => h x (List.mem_cons_of_mem _ hx)
    simp only [returnAll, exits, hn.1, ← h1, h2]
    cases he : e a.name with
    | none => simp
    | some v =>
      cases hx : exits as e with
      | none => cases f a.ty v <;> simp
      | some vs => simp only [Option.bind_some, cross]; rfl

theorem cross_exits_none {f : ArgType → RVal X W → Option (RVal X W)} : ∀ {as : List (Arg V)} {e : Locals X W}
    {a : Arg V}, a ∈ as → (e a.name).bind (f a.ty) = none → (exits as e).bind (cross f as) = none := by
  intro as
  induction as with
  | nil => intro e a ha; cases ha
  | cons b as ih =>
    intro e a ha h
    simp only [exits]
    cases he : e b.name with
    | none => simp
    | some v =>
      cases hx : exits as e with
      | none => simp
      | some vs =>
        simp only [Option.bind_some, cross]
        rcases List.mem_cons.1 ha with rfl | ha
        · rw [he] at h
          simp only [Option.bind_some] at h
          rw [h]
        · have := ih ha h
          rw [hx] at this
          simp only [Option.bind_some] at this
          rw [this]
          cases f b.ty v <;> rfl

theorem signature_names (as : List (Arg V)) : (convertScalars as).1.map Arg.name = as.map Arg.name := by
  simp [convertScalars, Function.comp_def]

theorem outputs_leave {outs : List (Arg V)} (h : ScalarsOnce outs) (e : Locals X W) :
    ((convertLoop toNativeScalar (convertScalars outs).2 (convertScalars outs).1 e).bind fun e' =>
        returnAll (convertScalars outs).1 e') = (exits outs e).bind (cross leave outs) := by
  have hf : ∀ t, converted toNativeScalar t = (leave t : RVal X W → _) := fun t => funext (converted_leave t)
  have hget : ∀ a ∈ outs, mapGet (convertScalars outs).2 a.name = devOf a.ty := fun a ha => conversions_get h ha
  cases hc : convertLoop toNativeScalar (convertScalars outs).2 (convertScalars outs).1 e with
  | some e' =>
    have h1 := (convertLoop_some h (signature_names outs) hget hc).1
    simp only [hf] at h1
    exact cross_exits (signature_names outs) h1
  | none =>
    obtain ⟨a, ha, hn⟩ := convertLoop_none h (signature_names outs) hget hc
    rw [hf] at hn
    rw [cross_exits_none ha hn]
    rfl

/-! ## Inputs -/

/-- Binding in order gives each parameter its value. -/
theorem bindParams_spec : ∀ {as as' : List (Arg V)} {xs : List (RVal X W)} {e : Locals X W},
    (as.map Arg.name).Nodup → as'.map Arg.name = as.map Arg.name →
    bindParams as' xs e = if xs.length = as.length then
      some fun y => if y ∈ as.map Arg.name then entry as xs y else e y else none := by
  intro as
  induction as with
  | nil =>
    intro as' xs e _ hn
    have : as' = [] := by simpa using hn
    subst this
    cases xs <;> simp [bindParams]
  | cons a as ih =>
    intro as' xs e hd hn
    cases as' with
    | nil => simp at hn
    | cons b bs =>
    simp only [List.map_cons, List.cons.injEq] at hn
    simp only [List.map_cons, List.nodup_cons] at hd
    cases xs with
    | nil => simp [bindParams]
    | cons x xs =>
      simp only [bindParams, ih hd.2 hn.2, List.length_cons, Nat.add_right_cancel_iff, hn.1]
      split
      · congr 1
        funext y
        simp only [List.map_cons, List.mem_cons, entry, Locals.bind]
        by_cases hy : y = a.name
        · subst hy; simp [hd.1]
        · simp [hy]
      · rfl

theorem cross_length {f : ArgType → RVal X W → Option (RVal X W)} : ∀ {as : List (Arg V)} {xs ys : List (RVal X W)},
    cross f as xs = some ys → xs.length = as.length ∧ ys.length = as.length := by
  intro as
  induction as with
  | nil =>
    intro xs ys h
    cases xs with
    | nil => simp only [cross, Option.some.injEq] at h; subst h; simp
    | cons x xs => simp [cross] at h
  | cons a as ih =>
    intro xs ys h
    cases xs with
    | nil => simp [cross] at h
    | cons x xs =>
      simp only [cross] at h
      split at h
      · next w ws _ hw =>
        simp only [Option.some.injEq] at h; subst h
        have := ih hw
        simp [this]
      · cases h

/-- Each input, converted, is what entered. -/
theorem cross_entry {f : ArgType → RVal X W → Option (RVal X W)} : ∀ {as : List (Arg V)} {xs : List (RVal X W)}
    {e' : Locals X W}, (as.map Arg.name).Nodup → xs.length = as.length →
    (∀ a ∈ as, (entry as xs a.name).bind (f a.ty) = e' a.name) → (∀ a ∈ as, e' a.name ≠ none) →
    ∃ ys, cross f as xs = some ys ∧ ∀ y ∈ as.map Arg.name, e' y = entry as ys y := by
  intro as
  induction as with
  | nil =>
    intro xs e' _ hl _ _
    have : xs = [] := by simpa using hl
    subst this
    exact ⟨[], rfl, by simp⟩
  | cons a as ih =>
    intro xs e' hd hl h hne
    cases xs with
    | nil => simp at hl
    | cons x xs =>
      simp only [List.map_cons, List.nodup_cons] at hd
      have hother : ∀ b ∈ as, b.name ≠ a.name := by
        intro b hb he
        exact hd.1 (by rw [← he]; exact List.mem_map_of_mem hb)
      obtain ⟨ys, hys, hent⟩ := ih (e' := e') hd.2 (by simpa using hl) (by
        intro b hb
        rw [← h b (List.mem_cons_of_mem _ hb)]
        simp [entry, hother b hb]) (fun b hb => hne b (List.mem_cons_of_mem _ hb))
      have ha := h a List.mem_cons_self
      simp only [entry, if_true, Option.bind_some] at ha
      cases hf : f a.ty x with
      | none => rw [hf] at ha; exact absurd ha.symm (hne a List.mem_cons_self)
      | some w =>
        refine ⟨w :: ys, by simp [cross, hf, hys], ?_⟩
        intro y hy
        simp only [List.map_cons, List.mem_cons] at hy
        simp only [entry]
        by_cases hya : y = a.name
        · subst hya; rw [← ha, hf]; simp
        · rcases hy with hy | hy
          · exact absurd hy hya
          · simp [hya, hent y hy]

theorem cross_none {f : ArgType → RVal X W → Option (RVal X W)} : ∀ {as : List (Arg V)} {xs : List (RVal X W)}
    {a : Arg V}, (as.map Arg.name).Nodup → a ∈ as → (entry as xs a.name).bind (f a.ty) = none →
    cross f as xs = none := by
  intro as
  induction as with
  | nil => intro xs a _ ha; cases ha
  | cons b as ih =>
    intro xs a hd ha h
    simp only [List.map_cons, List.nodup_cons] at hd
    cases xs with
    | nil => rfl
    | cons x xs =>
      simp only [cross]
      rcases List.mem_cons.1 ha with rfl | ha
      · simp only [entry, if_true, Option.bind_some] at h
        rw [h]
      · have hne : a.name ≠ b.name := by
          intro he
          exact hd.1 (by rw [← he]; exact List.mem_map_of_mem ha)
        rw [ih hd.2 ha (by simpa [entry, hne] using h)]
        cases f b.ty x <;> rfl

theorem entry_out : ∀ {as : List (Arg V)} {ys : List (RVal X W)} {y : String}, y ∉ as.map Arg.name →
    entry as ys y = none := by
  intro as
  induction as with
  | nil => intro ys y _; simp [entry]
  | cons a as ih =>
    intro ys y h
    simp only [List.map_cons, List.mem_cons, not_or] at h
    cases ys with
    | nil => simp [entry]
    | cons v vs => simp [entry, h.1, ih h.2]

theorem entry_mem : ∀ {as : List (Arg V)} {ys : List (RVal X W)}, ys.length = as.length →
    ∀ a ∈ as, entry as ys a.name ≠ none := by
  intro as
  induction as with
  | nil => intro ys _ a ha; cases ha
  | cons b as ih =>
    intro ys hl a ha
    cases ys with
    | nil => simp at hl
    | cons v vs =>
      simp only [entry]
      split
      · simp
      · next hne =>
        rcases List.mem_cons.1 ha with rfl | ha
        · exact absurd rfl hne
        · exact ih (by simpa using hl) a ha

theorem inputs_enter {ins : List (Arg V)} (hd : (ins.map Arg.name).Nodup) (xs : List (RVal X W)) :
    ((bindParams (convertScalars ins).1 xs fun _ => none).bind fun e =>
        convertLoop toDevice (convertScalars ins).2 (convertScalars ins).1 e) =
      (cross enter ins xs).map (entry ins) := by
  have h := scalarsOnce_of_nodup hd
  have hf : ∀ t, converted toDevice t = (enter t : RVal X W → _) := fun t => funext (converted_enter t)
  have hget : ∀ a ∈ ins, mapGet (convertScalars ins).2 a.name = devOf a.ty := fun a ha => conversions_get h ha
  rw [bindParams_spec hd (signature_names ins)]
  by_cases hl : xs.length = ins.length
  · simp only [hl, if_true, Option.bind_some]
    have he0 : (fun y => if y ∈ ins.map Arg.name then entry ins xs y else none) = entry ins xs := by
      funext y
      split
      · rfl
      · next hy => exact (entry_out hy).symm
    rw [he0]
    cases hc : convertLoop toDevice (convertScalars ins).2 (convertScalars ins).1 (entry ins xs) with
    | some e' =>
      obtain ⟨h1, h2⟩ := convertLoop_some h (signature_names ins) hget hc
      simp only [hf] at h1
      by_cases hne : ∀ a ∈ ins, e' a.name ≠ none
      · obtain ⟨ys, hys, hent⟩ := cross_entry hd hl h1 hne
        rw [hys]
        simp only [Option.map_some, Option.some.injEq]
        funext y
        by_cases hy : y ∈ ins.map Arg.name
        · exact hent y hy
        · rw [entry_out hy, h2 y (fun a ha he => absurd (by rw [← he]; exact List.mem_map_of_mem ha) hy), entry_out hy]
      · exfalso
        apply hne
        intro a ha hn
        have h3 := h1 a ha
        rw [hn] at h3
        cases hd' : devOf a.ty with
        | none =>
          obtain ⟨v, hv⟩ := Option.ne_none_iff_exists'.1 (entry_mem hl a ha)
          rw [hv] at h3
          rw [← hf] at h3
          simp [converted, hd'] at h3
        | some d =>
          -- the loop would have stopped
          have hs : ∀ {as as' : List (Arg V)} {e e' : Locals X W}, (∀ b ∈ as, mapGet (convertScalars ins).2 b.name = devOf b.ty) →
              as'.map Arg.name = as.map Arg.name →
              convertLoop toDevice (convertScalars ins).2 as' e = some e' →
              (∀ y, e y ≠ none → e' y ≠ none) ∧ ∀ b ∈ as, devOf b.ty ≠ none → e' b.name ≠ none := by
            intro as
            induction as with
            | nil =>
              intro as' e e' _ hn hc
              have : as' = [] := by simpa using hn
              subst this
              simp only [convertLoop, Option.some.injEq] at hc
              subst hc
              simp
            | cons c as ih =>
              intro as' e e' hg hn hc
              cases as' with
              | nil => simp at hn
              | cons b bs =>
                simp only [List.map_cons, List.cons.injEq] at hn
                have hg' : ∀ b ∈ as, mapGet (convertScalars ins).2 b.name = devOf b.ty :=
                  fun b hb => hg b (List.mem_cons_of_mem _ hb)
                simp only [convertLoop, hn.1, hg c List.mem_cons_self] at hc
                cases hdc : devOf c.ty with
                | none =>
                  simp only [hdc] at hc
                  obtain ⟨i1, i2⟩ := ih hg' hn.2 hc
                  refine ⟨i1, fun x hx => ?_⟩
                  rcases List.mem_cons.1 hx with rfl | hx
                  · exact fun h => absurd hdc h
                  · exact i2 x hx
                | some d' =>
                  simp only [hdc] at hc
                  cases hv : (e c.name).bind (toDevice d') with
                  | none => simp [hv] at hc
                  | some v =>
                    simp only [hv] at hc
                    obtain ⟨i1, i2⟩ := ih hg' hn.2 hc
                    refine ⟨fun y hy => i1 y ?_, fun x hx => ?_⟩
                    · simp only [Locals.bind]; split <;> simp_all
                    rcases List.mem_cons.1 hx with rfl | hx
                    · exact fun _ => i1 _ (by simp [Locals.bind])
                    · exact i2 x hx
          exact (hs hget (signature_names ins) hc).2 a ha (by simp [hd']) hn
    | none =>
      obtain ⟨a, ha, hn⟩ := convertLoop_none h (signature_names ins) hget hc
      rw [hf] at hn
      rw [cross_none hd ha hn]
      rfl
  · simp only [hl, if_false, Option.bind_none]
    cases hc : cross enter ins xs with
    | none => rfl
    | some ys => exact absurd (cross_length hc).1 hl

/-! ## The property -/

/-- **C46.** A call of the generated function is: native scalars enter as device scalars exactly where the
graph wants them on the device, the nodes run, device scalars leave as native ones exactly where the graph
returns them; every other value passes as it is. For every body, every list of inputs and outputs and all
arguments of the call.

Partial: input names must be distinct (otherwise the function does not compile), and a device scalar must not be
listed twice among the outputs (see `C46_repeated_scalar_output`). -/
theorem C46_boundary_partial (body : Locals X W → Option (Locals X W)) (ins outs : List (Arg V))
    (hin : (ins.map Arg.name).Nodup)
    (hout : outs.Pairwise fun a b => a.name = b.name →
      (∀ d, a.ty ≠ .scalarTensor d) ∧ ∀ d, b.ty ≠ .scalarTensor d)
    (xs : List (RVal X W)) : forwardCall body ins outs xs = call body ins outs xs := by
  have hout' : ScalarsOnce outs := by
    refine hout.imp fun {a b} h he => ?_
    have := h he
    constructor
    · cases ht : a.ty <;> simp_all [devOf]
    · cases ht : b.ty <;> simp_all [devOf]
  have h1 := inputs_enter hin xs
  simp only [forwardCall, call, Option.bind_eq_bind]
  rw [← Option.bind_assoc, h1]
  cases hc : cross enter ins xs with
  | none => rfl
  | some ys =>
    simp only [Option.map_some, Option.bind_some]
    cases hb : body (entry ins ys) with
    | none => rfl
    | some e =>
      simp only [Option.bind_some]
      exact outputs_leave hout' e

/-- **C46.** No device scalar appears in the signature; every other type is kept, and so are names and order. -/
theorem C46_signature (as : List (Arg V)) :
    (convertScalars as).1.map Arg.name = as.map Arg.name ∧
    (∀ a ∈ (convertScalars as).1, ∀ d, a.ty ≠ .scalarTensor d) ∧
    ∀ (k : Nat) (a b : Arg V), as[k]? = some a → (convertScalars as).1[k]? = some b →
      (∀ d, a.ty = .scalarTensor d → b.ty = .scalarNative d) ∧
      ((∀ d, a.ty ≠ .scalarTensor d) → b.ty = a.ty) := by
  refine ⟨signature_names as, ?_, ?_⟩
  · intro a ha d
    simp only [convertScalars, List.mem_map] at ha
    obtain ⟨b, _, rfl⟩ := ha
    cases hb : b.ty <;> simp [boundaryType, hb]
  · intro k a b ha hb
    simp only [convertScalars, List.getElem?_map, ha, Option.map_some, Option.some.injEq] at hb
    subst hb
    refine ⟨fun d h => by simp [boundaryType, h], fun h => ?_⟩
    cases ht : a.ty <;> simp_all [boundaryType]

/-- **C46.** If the nodes return values of the types they were annotated with, the caller gets values of the
types in the signature. -/
theorem C46_well_typed (outs : List (Arg V)) (zs ws : List (RVal X W))
    (hz : ∀ (k : Nat) (a : Arg V) (z : RVal X W), outs[k]? = some a → zs[k]? = some z → HasType z a.ty)
    (h : cross leave outs zs = some ws) (k : Nat) (a : Arg V) (w : RVal X W)
    (ha : (convertScalars outs).1[k]? = some a) (hw : ws[k]? = some w) : HasType w a.ty := by
  induction outs generalizing zs ws k with
  | nil => simp [convertScalars] at ha
  | cons o os ih =>
    cases zs with
    | nil => simp [cross] at h
    | cons z zs =>
      simp only [cross] at h
      split at h
      · next w' ws' h1 h2 =>
        simp only [Option.some.injEq] at h
        subst h
        cases k with
        | zero =>
          simp only [convertScalars, List.map_cons, List.getElem?_cons_zero, Option.some.injEq] at ha hw
          subst ha; subst hw
          have ht := hz 0 o z rfl rfl
          cases hot : o.ty <;> cases z <;> simp_all [leave, HasType, boundaryType]
          · obtain ⟨_, rfl⟩ := h1
            simp
          all_goals (subst h1; simp)
        | succ k =>
          exact ih zs ws' (fun k a z h h' => hz (k + 1) a z (by simpa using h) (by simpa using h')) h2 k
            (by simpa [convertScalars] using ha) (by simpa using hw)
      · cases h

/-! ## Cases -/

/-- A graph that doubles the device scalar `n` into `m`, and returns `m`, a tensor and `n`. -/
def caseIns : List (Arg Unit) :=
  [⟨"x", .tensor ⟨.f32, 2, none⟩, .dynamic⟩, ⟨"n", .scalarTensor .i64, .dynamic⟩,
    ⟨"k", .scalarNative .i64, .dynamic⟩]

def caseOuts : List (Arg Unit) :=
  [⟨"m", .scalarTensor .i64, .dynamic⟩, ⟨"x", .tensor ⟨.f32, 2, none⟩, .dynamic⟩,
    ⟨"x", .tensor ⟨.f32, 2, none⟩, .dynamic⟩, ⟨"n", .scalarTensor .i64, .dynamic⟩]

def caseBody (e : Locals Int String) : Option (Locals Int String) :=
  match e "n", e "k" with
  | some (.dev .i64 n), some (.native .i64 k) => some (e.bind "m" (.dev .i64 (n * k)))
  | _, _ => none

/-- The hypotheses hold and the call succeeds. -/
example : (caseIns.map Arg.name).Nodup ∧
    (caseOuts.Pairwise fun a b => a.name = b.name →
      (∀ d, a.ty ≠ .scalarTensor d) ∧ ∀ d, b.ty ≠ .scalarTensor d) ∧
    forwardCall caseBody caseIns caseOuts [.other "t", .native .i64 7, .native .i64 3] =
      some [.native .i64 21, .other "t", .other "t", .native .i64 7] := by
  refine ⟨by decide, ?_, by decide +kernel⟩
  simp [caseOuts]

/-- A device scalar listed twice among the outputs (which happens when the second output was an Identity of the
first) is converted twice, and the generated function does not compile: the second conversion is applied to
a native scalar. -/
theorem C46_repeated_scalar_output :
    let outs : List (Arg Unit) := [⟨"n", .scalarTensor .i64, .dynamic⟩, ⟨"n", .scalarTensor .i64, .dynamic⟩]
    let xs : List (RVal Int String) := [.other "t", .native .i64 7, .native .i64 3]
    forwardCall caseBody caseIns outs xs = none ∧
      call caseBody caseIns outs xs = some [.native .i64 7, .native .i64 7] := by
  decide +kernel

end OnnxIR.Boundary
