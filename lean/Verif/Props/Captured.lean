import Verif.Model.Captured
import Verif.Lemmas.Eval

/-!
# C89: values of the enclosing graph in a subgraph

A value a subgraph takes from the enclosing graph has there the type and the source it has in the enclosing graph, unless the node
also has it as an input of its own: then its type is forgotten.
-/

namespace OnnxIR.Captured

variable {V : Type}

theorem addRefs_spec (st : GState V) : ∀ (refs : List String) (ins : List (Arg V)) {p : List (Arg V) × List String},
    addRefs st ins refs = some p →
      ∃ caps, p.1 = ins ++ caps ∧ caps.length = p.2.length ∧ (∀ s ∈ p.2, s ∈ refs ∧ ∀ a ∈ ins, a.name ≠ s) ∧
        ∀ (k : Nat) r a, p.2[k]? = some r → caps[k]? = some a → st.initIn r = some a
  | [], ins, p, h => by
    simp only [addRefs, Option.some.injEq] at h
    subst h
    exact ⟨[], by simp, rfl, by simp, by simp⟩
  | r :: rs, ins, p, h => by
    unfold addRefs at h
    split at h
    · obtain ⟨caps, h1, h2, h3, h4⟩ := addRefs_spec st rs ins h
      exact ⟨caps, h1, h2, fun s hs => ⟨List.mem_cons_of_mem _ (h3 s hs).1, (h3 s hs).2⟩, h4⟩
    · next hn =>
      cases hi : st.initIn r with
      | none => simp [hi] at h
      | some a =>
        simp only [hi] at h
        cases hr : addRefs st (ins ++ [a]) rs with
        | none => simp [hr] at h
        | some q =>
          simp only [hr, Option.map_some, Option.some.injEq] at h
          subst h
          obtain ⟨caps, h1, h2, h3, h4⟩ := addRefs_spec st rs (ins ++ [a]) hr
          refine ⟨a :: caps, by simp [h1], by simp [h2], ?_, ?_⟩
          · intro s hs
            rcases List.mem_cons.1 hs with rfl | hs
            · refine ⟨List.mem_cons_self, fun b hb he => hn ?_⟩
              simpa using ⟨b, hb, he⟩
            · exact ⟨List.mem_cons_of_mem _ (h3 s hs).1, fun b hb => (h3 s hs).2 b (List.mem_append_left _ hb)⟩
          · intro k r' b hk hb
            cases k with
            | zero =>
              simp only [List.getElem?_cons_zero, Option.some.injEq] at hk hb
              rw [← hk, ← hb, hi]
            | succ k => exact h4 k r' b (by simpa using hk) (by simpa using hb)

theorem addRefs_mem (st : GState V) {r : String} : ∀ (refs : List String) (ins : List (Arg V)) {p : List (Arg V) × List String},
    addRefs st ins refs = some p → r ∈ refs → (∀ a ∈ ins, a.name ≠ r) →
      (∀ s ∈ refs, s ≠ r → ∀ a, st.initIn s = some a → a.name ≠ r) → r ∈ p.2
  | [], ins, p, _, hr, _, _ => by simp at hr
  | s :: rs, ins, p, h, hr, hins, ho => by
    unfold addRefs at h
    split at h
    · next hany =>
      have hsr : r ≠ s := by
        rintro rfl
        simp only [List.any_eq_true, beq_iff_eq] at hany
        obtain ⟨a, ha, he⟩ := hany
        exact hins a ha he
      exact addRefs_mem st rs ins h ((List.mem_cons.1 hr).resolve_left hsr) hins fun t ht => ho t (List.mem_cons_of_mem _ ht)
    · cases hi : st.initIn s with
      | none => simp [hi] at h
      | some a =>
        simp only [hi] at h
        cases hq : addRefs st (ins ++ [a]) rs with
        | none => simp [hq] at h
        | some q =>
          simp only [hq, Option.map_some, Option.some.injEq] at h
          subst h
          by_cases hsr : r = s
          · exact hsr ▸ List.mem_cons_self
          · refine List.mem_cons_of_mem _ (addRefs_mem st rs (ins ++ [a]) hq ((List.mem_cons.1 hr).resolve_left hsr) ?_
              fun t ht => ho t (List.mem_cons_of_mem _ ht))
            intro b hb
            rcases List.mem_append.1 hb with hb | hb
            · exact hins b hb
            · rw [List.mem_singleton.1 hb]
              exact ho s List.mem_cons_self (Ne.symm hsr) a hi

theorem scopeEntries_mem : ∀ {as : List (Arg V)} {rs : List String} {r : String} {a : Arg V}, as.length = rs.length →
    ((r, a) ∈ scopeEntries as rs ↔ ∃ k : Nat, rs[k]? = some r ∧ as[k]? = some a)
  | [], [], r, a, _ => by simp [scopeEntries]
  | [], _ :: _, _, _, h => by simp at h
  | _ :: _, [], _, _, h => by simp at h
  | b :: as, s :: rs, r, a, h => by
    have ih := scopeEntries_mem (as := as) (rs := rs) (r := r) (a := a) (by simpa using h)
    unfold scopeEntries
    rw [List.mem_cons, ih]
    constructor
    · rintro (h | ⟨k, h1, h2⟩)
      · cases h
        exact ⟨0, rfl, rfl⟩
      · exact ⟨k + 1, by simpa using h1, by simpa using h2⟩
    · rintro ⟨k, h1, h2⟩
      cases k with
      | zero =>
        simp only [List.getElem?_cons_zero, Option.some.injEq] at h1 h2
        exact .inl (by rw [h1, h2])
      | succ k => exact .inr ⟨k, by simpa using h1, by simpa using h2⟩

/-- What the scope holds: for each name handed over, the argument of the enclosing graph as it is now. -/
theorem outerScope_mem {st : GState V} {refs : List String} {own : List (Arg V)} {p : List (Arg V) × List String}
    (h : addRefs st own refs = some p) (cur : Arg V → Arg V) :
    (∀ r b, mapGet (outerScope (ownInputs p) (p.1.map cur) p.2) r = some b → r ∈ p.2 ∧ ∃ a, st.initIn r = some a ∧ b = cur a) ∧
      ∀ r ∈ p.2, (mapGet (outerScope (ownInputs p) (p.1.map cur) p.2) r).isSome := by
  obtain ⟨caps, h1, h2, _, h4⟩ := addRefs_spec st refs own h
  have hd : (p.1.map cur).drop (ownInputs p) = caps.map cur := by
    have : ownInputs p = (own.map cur).length := by simp [ownInputs, h1, h2]
    rw [h1, List.map_append, this, List.drop_left]
  have hl : (caps.map cur).length = p.2.length := by simp [h2]
  constructor
  · intro r b hb
    have hm := mapGet_mem hb
    rw [outerScope, hd, List.mem_reverse, scopeEntries_mem hl] at hm
    obtain ⟨k, hk, hc⟩ := hm
    rw [List.getElem?_map] at hc
    cases hc' : caps[k]? with
    | none => simp [hc'] at hc
    | some a =>
      simp only [hc', Option.map_some, Option.some.injEq] at hc
      exact ⟨List.mem_of_getElem? hk, a, h4 k r a hk hc', hc.symm⟩
  · intro r hr
    obtain ⟨k, hk, he⟩ := List.getElem_of_mem hr
    have hlt : k < (caps.map cur).length := by rw [hl]; exact hk
    refine Option.isSome_iff_exists.2 (mapGet_isSome_of_mem (v := (caps.map cur)[k]) ?_)
    rw [outerScope, hd, List.mem_reverse, scopeEntries_mem hl]
    exact ⟨k, by rw [List.getElem?_eq_getElem hk, he], List.getElem?_eq_getElem hlt⟩

/-- The subgraph does not define the name itself. -/
def FreeIn (body : GState V) (x : String) : Prop :=
  mapGet body.inputMap x = none ∧ mapGet body.outMap (sanitizeName x) = none ∧ mapGet body.outMap x = none

/-- **C89.** A name `x` that a subgraph takes from the enclosing graph (`r` is its sanitised form, one of the references found, in
whatever order they are visited) denotes in the subgraph an argument with the type and the source the value has in the enclosing graph,
as inference has made it by then (`cur`); a constant keeps its name, other values get the sanitised one. Missing: a value whose name
the node's own inputs, or another captured value, has. -/
theorem C89_captured_partial {st : GState V} {own : List (Arg V)} {refs : List String} {p : List (Arg V) × List String}
    (h : addRefs st own refs = some p) (cur : Arg V → Arg V) {body : GState V}
    (hbody : body.outer = outerScope (ownInputs p) (p.1.map cur) p.2) {x : String} (hx : FreeIn body x)
    (hr : sanitizeName x ∈ refs) (hown : ∀ a ∈ own, a.name ≠ sanitizeName x)
    (hother : ∀ s ∈ refs, s ≠ sanitizeName x → ∀ a, st.initIn s = some a → a.name ≠ sanitizeName x) :
    ∃ a b, st.initIn (sanitizeName x) = some a ∧ body.initIn x = some b ∧ b.ty = (cur a).ty ∧ b.src = (cur a).src ∧
      (b.src = .constant → b.name = (cur a).name) ∧ (b.src ≠ .constant → b.name = sanitizeName x) := by
  obtain ⟨hx1, hx2, hx3⟩ := hx
  obtain ⟨hs1, hs2⟩ := outerScope_mem h cur
  have hm := hs2 _ (addRefs_mem st refs own h hr hown hother)
  obtain ⟨b, hb⟩ := Option.isSome_iff_exists.1 hm
  obtain ⟨_, a, ha, rfl⟩ := hs1 _ _ hb
  refine ⟨a, scopeArg (cur a) (sanitizeName x), ha, ?_, ?_⟩
  · simp [GState.initIn, hx1, hx2, hx3, GState.fromOuter, hbody, hb]
  · unfold scopeArg
    cases hs : (cur a).src <;> simp [hs]

/-- **C89 fails for a value the node has as an input of its own.** Whatever it is in the enclosing graph, in the subgraph it is taken
for a tensor of floats of rank 0. -/
theorem C89_own_input_wrong {st : GState V} {own : List (Arg V)} {refs : List String} {p : List (Arg V) × List String}
    (h : addRefs st own refs = some p) (hrefs : ∀ s ∈ refs, sanitizeName s = s) (cur : Arg V → Arg V) {body : GState V}
    (hbody : body.outer = outerScope (ownInputs p) (p.1.map cur) p.2) {x : String} (hx : FreeIn body x)
    (hne : sanitizeName x ≠ "") {a : Arg V} (ha : a ∈ own) (hn : a.name = sanitizeName x) :
    body.initIn x = some ⟨sanitizeName x, .tensor ⟨.f32, 0, none⟩, .dynamic⟩ := by
  obtain ⟨hx1, hx2, hx3⟩ := hx
  obtain ⟨hs1, _⟩ := outerScope_mem h cur
  obtain ⟨_, _, _, h3, _⟩ := addRefs_spec st refs own h
  have hno : sanitizeName x ∉ p.2 := fun hm => (h3 _ hm).2 a ha hn
  have h1 : mapGet (outerScope (ownInputs p) (p.1.map cur) p.2) (sanitizeName x) = none := by
    cases hg : mapGet (outerScope (ownInputs p) (p.1.map cur) p.2) (sanitizeName x) with
    | none => rfl
    | some b => exact absurd (hs1 _ _ hg).1 hno
  have h2 : mapGet (outerScope (ownInputs p) (p.1.map cur) p.2) x = none := by
    cases hg : mapGet (outerScope (ownInputs p) (p.1.map cur) p.2) x with
    | none => rfl
    | some b =>
      have hm := (hs1 _ _ hg).1
      exact absurd (by rwa [hrefs x (h3 x hm).1]) hno
  simp [GState.initIn, hx1, hx2, hx3, GState.fromOuter, hbody, h1, h2, argFromName, hne, ArgType.default]

/-! ### The hypotheses are met -/

/-- A graph with a Boolean input `cond`, an input `data` of rank 2 and a constant `w`. -/
def outerState : GState Nat where
  nodes := [constNode 0 7]
  inputs := [⟨"cond", .scalarNative .bool, .dynamic⟩, ⟨"data", .tensor ⟨.f32, 2, none⟩, .dynamic⟩]
  inputMap := [("cond", 0), ("data", 1)]
  outMap := [("w", (0, 0))]
  outer := []
  counters := initCounters 1

/-- The state of a branch whose own values are none of these. -/
def innerState (outer : List (String × Arg Nat)) : GState Nat where
  nodes := []
  inputs := []
  inputMap := []
  outMap := []
  outer := outer
  counters := initCounters 0

/-- An If on `cond` whose branch reads `data`, `w` and `cond` itself: `data` is of rank 2 in the branch, `w` is the constant, and
`cond` is a tensor of floats. -/
example :
    let own : List (Arg Nat) := [⟨"cond", .scalarNative .bool, .dynamic⟩]
    ∃ p, addRefs outerState own ["w", "cond", "data"] = some p ∧ p.2 = ["w", "data"] ∧ ownInputs p = 1 ∧
      let body := innerState (outerScope (ownInputs p) (p.1.map id) p.2)
      body.initIn "data" = some ⟨"data", .tensor ⟨.f32, 2, none⟩, .dynamic⟩ ∧
      body.initIn "w" = some ⟨"constant1_out1", .default, .constant⟩ ∧
      body.initIn "cond" = some ⟨"cond", .tensor ⟨.f32, 0, none⟩, .dynamic⟩ ∧ FreeIn body "data" ∧ FreeIn body "cond" :=
  ⟨_, rfl, by decide +kernel, by decide +kernel, by decide +kernel, by decide +kernel, by decide +kernel,
    ⟨by decide +kernel, by decide +kernel, by decide +kernel⟩, by decide +kernel, by decide +kernel, by decide +kernel⟩

end OnnxIR.Captured
