import Verif.Model.HashOrder
import Verif.Props.PostProcess

/-!
# C77: the result of an import does not depend on the iteration order of hash tables

Rust's hash tables are seeded at random in every process, so two runs of the importer on the same
file visit the entries of a table in different orders. Below, two orders are two lists that are
permutations of each other (`List.Perm`) or that list the same entries.
-/

namespace OnnxIR

variable {V F : Type}

/-! ## Attribute loops -/

/-- No two arms of a loop set the same variable, and no attribute has two arms. -/
def AttrLoop.Separate (l : AttrLoop) : Prop :=
  ∀ k k' x, mapGet l.arms k = some x → mapGet l.arms k' = some x → x ≠ "" → k = k'

theorem separate_of_nodup {l : AttrLoop}
    (h : ((l.arms.filter fun p => p.2 ≠ "").map Prod.snd).Nodup) : l.Separate := by
  intro k k' x hk hk' hx
  have h1 := mapGet_mem hk
  have h2 := mapGet_mem hk'
  have aux : ∀ (m : List (String × String)), (m.map Prod.snd).Nodup → (k, x) ∈ m → (k', x) ∈ m →
      k = k' := by
    intro m
    induction m with
    | nil => intro _ h; cases h
    | cons p m ih =>
      intro hn a b
      rw [List.map_cons, List.nodup_cons] at hn
      rcases List.mem_cons.1 a with a | a <;> rcases List.mem_cons.1 b with b | b
      · rw [← a] at b; cases b; rfl
      · exact absurd (List.mem_map.2 ⟨_, b, by rw [← a]⟩) hn.1
      · exact absurd (List.mem_map.2 ⟨_, a, by rw [← b]⟩) hn.1
      · exact ih hn.2 a b
  exact aux _ h (List.mem_filter.2 ⟨h1, by simpa using hx⟩)
    (List.mem_filter.2 ⟨h2, by simpa using hx⟩)

theorem attrLoops_separate : ∀ l ∈ attrLoops, l.Separate := by
  have : ∀ l ∈ attrLoops, ((l.arms.filter fun p => p.2 ≠ "").map Prod.snd).Nodup := by
    decide +kernel
  exact fun l hl => separate_of_nodup (this l hl)

theorem runAttrs_perm {l : AttrLoop} (hl : l.Separate) (conv : String → AttrVal V → Option F)
    {attrs attrs' : List (String × AttrVal V)} (hp : attrs.Perm attrs') :
    (attrs.map Prod.fst).Nodup → ∀ env, runAttrs l conv attrs env = runAttrs l conv attrs' env := by
  induction hp with
  | nil => intro _ _; rfl
  | cons p _ ih =>
    obtain ⟨k, v⟩ := p
    intro hn env
    rw [List.map_cons, List.nodup_cons] at hn
    simp only [runAttrs, ih hn.2]
  | swap p q rest =>
    obtain ⟨k, v⟩ := p
    obtain ⟨k', v'⟩ := q
    intro hn env
    have hne : k' ≠ k := by
      intro h
      simp [h] at hn
    simp only [runAttrs]
    cases h1 : mapGet l.arms k with
    | none =>
      cases h2 : mapGet l.arms k' with
      | none => rfl
      | some y =>
        cases h4 : conv k' v' <;> cases l.strict <;> simp
    | some x =>
      cases h2 : mapGet l.arms k' with
      | none =>
        cases h3 : conv k v <;> cases l.strict <;> simp
      | some y =>
        cases h3 : conv k v <;> cases h4 : conv k' v' <;> simp only
        · split <;> rfl
        · split <;> rfl
        · by_cases hx : x = "" <;> by_cases hy : y = "" <;> simp only [hx, hy, if_true, if_false]
          have hxy : x ≠ y := fun h => hne (hl k' k x (by rw [h2, h]) h1 hx)
          congr 1
          funext z
          by_cases a : z = x
          · subst a; simp [hxy]
          · simp [a]
  | trans h1 h2 ih1 ih2 =>
    intro hn env
    rw [ih1 hn, ih2 ((h1.map Prod.fst).nodup_iff.1 hn)]

/-- What a loop leaves in its variables. -/
theorem runAttrs_values {l : AttrLoop} (hl : l.Separate) (conv : String → AttrVal V → Option F) :
    ∀ (attrs : List (String × AttrVal V)) (env e : String → Option F),
      (attrs.map Prod.fst).Nodup → runAttrs l conv attrs env = some e →
      (∀ k v x, (k, v) ∈ attrs → mapGet l.arms k = some x → x ≠ "" → e x = conv k v) ∧
      (∀ z, (∀ k v, (k, v) ∈ attrs → mapGet l.arms k ≠ some z) → e z = env z) ∧
      (l.strict = true → ∀ k v, (k, v) ∈ attrs → (mapGet l.arms k).isSome) := by
  intro attrs
  induction attrs with
  | nil =>
    intro env e _ h
    cases h
    exact ⟨fun _ _ _ h => (by cases h), fun _ _ => rfl, fun _ _ _ h => (by cases h)⟩
  | cons p rest ih =>
    obtain ⟨k, v⟩ := p
    intro env e hn h
    rw [List.map_cons, List.nodup_cons] at hn
    simp only [runAttrs] at h
    cases hk : mapGet l.arms k with
    | none =>
      rw [hk] at h
      simp only at h
      split at h
      · cases h
      · next hs =>
        obtain ⟨h1, h2, h3⟩ := ih env e hn.2 h
        refine ⟨?_, ?_, fun hs' => absurd hs' hs⟩
        · intro k' v' x hm hx
          rcases List.mem_cons.1 hm with hm | hm
          · cases hm; rw [hk] at hx; cases hx
          · exact h1 k' v' x hm hx
        · intro z hz
          exact h2 z (fun k' v' hm => hz k' v' (List.mem_cons_of_mem _ hm))
    | some x =>
      rw [hk] at h
      simp only at h
      cases hc : conv k v with
      | none => rw [hc] at h; cases h
      | some y =>
        rw [hc] at h
        simp only at h
        have hstrict : (l.strict = true → ∀ k v, (k, v) ∈ rest → (mapGet l.arms k).isSome) →
            l.strict = true → ∀ k' v', (k', v') ∈ (k, v) :: rest → (mapGet l.arms k').isSome := by
          intro h3 hs k' v' hm
          rcases List.mem_cons.1 hm with hm | hm
          · cases hm; simp [hk]
          · exact h3 hs k' v' hm
        split at h
        · next hx =>
          obtain ⟨h1, h2, h3⟩ := ih env e hn.2 h
          refine ⟨?_, ?_, hstrict h3⟩
          · intro k' v' x' hm hx' hne
            rcases List.mem_cons.1 hm with hm | hm
            · cases hm; rw [hk] at hx'; cases hx'; exact absurd hx hne
            · exact h1 k' v' x' hm hx' hne
          · intro z hz
            exact h2 z (fun k' v' hm => hz k' v' (List.mem_cons_of_mem _ hm))
        · next hx =>
          obtain ⟨h1, h2, h3⟩ := ih _ e hn.2 h
          refine ⟨?_, ?_, hstrict h3⟩
          · intro k' v' x' hm hx' hne
            rcases List.mem_cons.1 hm with hm | hm
            · cases hm
              rw [hk] at hx'; cases hx'
              rw [h2 x, if_pos rfl, hc]
              intro k2 v2 hm2 hk2
              have := hl k2 k x hk2 hk hne
              subst this
              exact hn.1 (List.mem_map.2 ⟨_, hm2, rfl⟩)
            · exact h1 k' v' x' hm hx' hne
          · intro z hz
            have hzx : z ≠ x := fun h' => hz k v List.mem_cons_self (by rw [hk, h'])
            rw [h2 z (fun k' v' hm => hz k' v' (List.mem_cons_of_mem _ hm)), if_neg hzx]

/-! ## Captured values -/

theorem addCaptures_eq (resolve : String → Arg V) (ins0 : List (Arg V)) :
    ∀ (refs done names : List String) , (done ++ refs).Nodup →
      (∀ r ∈ done, ∀ s ∈ refs, (resolve r).name = s → s = r) →
      (∀ r ∈ refs, ∀ s ∈ refs, (resolve r).name = s → s = r) →
      (∀ r ∈ done, r ∉ ins0.map Arg.name) →
      addCaptures resolve refs (ins0 ++ done.map resolve) names =
        (ins0 ++ (done ++ refs.filter fun r => !(ins0.map Arg.name).contains r).map resolve,
          names ++ refs.filter fun r => !(ins0.map Arg.name).contains r) := by
  intro refs
  induction refs with
  | nil => intro done names _ _ _ _; simp [addCaptures]
  | cons r rest ih =>
    intro done names hn hd hr h0
    have hn' := List.nodup_append.1 hn
    have hany : ((ins0 ++ done.map resolve).any fun i => i.name == r) =
        (ins0.map Arg.name).contains r := by
      rw [Bool.eq_iff_iff]
      simp only [List.any_append, List.any_map, Bool.or_eq_true, List.any_eq_true, beq_iff_eq,
        List.contains_eq_mem, decide_eq_true_eq, List.mem_map, Function.comp]
      constructor
      · rintro (⟨a, ha, h⟩ | ⟨s, hs, h⟩)
        · exact ⟨a, ha, h⟩
        · exact absurd (hd s hs r List.mem_cons_self h) (fun h' => hn'.2.2 s hs r List.mem_cons_self h'.symm)
      · rintro ⟨a, ha, h⟩
        exact Or.inl ⟨a, ha, h⟩
    simp only [addCaptures, hany]
    by_cases hc : (ins0.map Arg.name).contains r = true
    · rw [if_pos hc, List.filter_cons_of_neg (by simp only [hc]; simp)]
      apply ih
      · exact List.nodup_append.2 ⟨hn'.1, (List.nodup_cons.1 hn'.2.1).2,
          fun a ha b hb => hn'.2.2 a ha b (List.mem_cons_of_mem _ hb)⟩
      · exact fun a ha b hb => hd a ha b (List.mem_cons_of_mem _ hb)
      · exact fun a ha b hb => hr a (List.mem_cons_of_mem _ ha) b (List.mem_cons_of_mem _ hb)
      · exact h0
    · have hc' : (ins0.map Arg.name).contains r = false := by simpa using hc
      rw [if_neg hc, List.filter_cons_of_pos (by simp only [hc']; simp)]
      have := ih (done ++ [r]) (names ++ [r]) (by simpa using hn) (by
          intro a ha b hb
          rcases List.mem_append.1 ha with ha | ha
          · exact hd a ha b (List.mem_cons_of_mem _ hb)
          · rw [List.mem_singleton.1 ha]
            exact hr r List.mem_cons_self b (List.mem_cons_of_mem _ hb))
        (fun a ha b hb => hr a (List.mem_cons_of_mem _ ha) b (List.mem_cons_of_mem _ hb))
        (by
          intro a ha
          rcases List.mem_append.1 ha with ha | ha
          · exact h0 a ha
          · rw [List.mem_singleton.1 ha]; simpa using hc)
      simpa using this

theorem scopeBindings_map (resolve : String → Arg V) (keep : String → Bool) :
    ∀ (refs : List String), (∀ r ∈ refs, keep r = true → ∀ n, (resolve r).ty ≠ .shape n) →
      scopeBindings keep refs (refs.map resolve) =
        (refs.filter keep).map fun r => (r, (resolve r).name) := by
  intro refs
  induction refs with
  | nil => intro _; rfl
  | cons r rest ih =>
    intro h
    have ih := ih (fun s hs => h s (List.mem_cons_of_mem _ hs))
    simp only [List.map_cons, scopeBindings, ih]
    by_cases hk : keep r = true
    · rw [if_pos hk, List.filter_cons_of_pos hk]
      have := h r List.mem_cons_self hk
      split
      · next n hn => exact absurd hn (this n)
      · rfl
    · rw [if_neg hk, List.filter_cons_of_neg hk]

theorem runLets_values {α : Type} (f : String → String) :
    ∀ (refs : List String) (env : String → Option α), refs.Nodup →
      (∀ r ∈ refs, ∀ s ∈ refs, f r = s → s = r) →
      (∀ r ∈ refs, runLets (refs.map fun r => (r, f r)) env r = env (f r)) ∧
      (∀ z, z ∉ refs → runLets (refs.map fun r => (r, f r)) env z = env z) := by
  intro refs
  induction refs with
  | nil => intro env _ _; exact ⟨fun _ h => (by cases h), fun _ _ => rfl⟩
  | cons r rest ih =>
    intro env hn hf
    rw [List.nodup_cons] at hn
    obtain ⟨h1, h2⟩ := ih (fun z => if z = r then env (f r) else env z) hn.2
      (fun a ha b hb => hf a (List.mem_cons_of_mem _ ha) b (List.mem_cons_of_mem _ hb))
    simp only [List.map_cons, runLets]
    constructor
    · intro s hs
      rcases List.mem_cons.1 hs with rfl | hs
      · rw [h2 s hn.1, if_pos rfl]
      · rw [h1 s hs, if_neg]
        intro h
        have := hf s (List.mem_cons_of_mem _ hs) r List.mem_cons_self h
        exact hn.1 (this ▸ hs)
    · intro z hz
      rw [List.mem_cons, not_or] at hz
      rw [h2 z hz.2, if_neg hz.1]

/-! ## Sorted traversals -/

theorem sort_perm {α : Type} (key : α → String) {a b : List α} (hp : a.Perm b)
    (hn : (a.map key).Nodup) :
    a.mergeSort (fun x y => decide (key x ≤ key y)) =
      b.mergeSort (fun x y => decide (key x ≤ key y)) := by
  have sorted : ∀ l : List α, (l.mergeSort (fun x y => decide (key x ≤ key y))).Pairwise
      fun x y => decide (key x ≤ key y) = true :=
    List.pairwise_mergeSort
      (fun x y z h1 h2 => by
        simp only [decide_eq_true_eq] at *
        exact String.le_trans h1 h2)
      (fun x y => by
        simp only [Bool.or_eq_true, decide_eq_true_eq]
        exact String.le_total _ _)
  refine List.Perm.eq_of_pairwise (le := fun x y => decide (key x ≤ key y) = true) ?_
    (sorted a) (sorted b)
    ((List.mergeSort_perm _ _).trans (hp.trans (List.mergeSort_perm _ _).symm))
  intro x y hx hy h1 h2
  simp only [decide_eq_true_eq] at h1 h2
  have hk := String.le_antisymm h1 h2
  have hxa := (List.mergeSort_perm a _).mem_iff.1 hx
  have hya := hp.mem_iff.2 ((List.mergeSort_perm b _).mem_iff.1 hy)
  have aux : ∀ l : List α, (l.map key).Nodup → x ∈ l → y ∈ l → x = y := by
    intro l
    induction l with
    | nil => intro _ h; cases h
    | cons c l ih =>
      intro hn hx hy
      rw [List.map_cons, List.nodup_cons] at hn
      rcases List.mem_cons.1 hx with rfl | hx <;> rcases List.mem_cons.1 hy with rfl | hy
      · rfl
      · exact absurd (List.mem_map.2 ⟨y, hy, hk.symm⟩) hn.1
      · exact absurd (List.mem_map.2 ⟨x, by assumption, hk⟩) hn.1
      · exact ih hn.2 (by assumption) hy
  exact aux a hn hxa hya

/-! ## The properties -/

/-- **C77, attributes.** Whatever the order in which the attributes of a node are visited, each of
the loops over attributes ends in the same way: it fails in both orders, or it leaves the same
values in its local variables. -/
theorem C77_attribute_loops (l : AttrLoop) (hl : l ∈ attrLoops)
    (conv : String → AttrVal V → Option F) (attrs attrs' : List (String × AttrVal V))
    (hp : attrs.Perm attrs') (hn : (attrs.map Prod.fst).Nodup) (env : String → Option F) :
    runAttrs l conv attrs env = runAttrs l conv attrs' env :=
  runAttrs_perm (attrLoops_separate l hl) conv hp hn env

/-- **C77, attributes: the values.** After a loop, the variable of an arm holds what the arm
computes from its attribute; a variable of no given attribute keeps its default; and a strict loop
ends normally only if it knows every attribute. -/
theorem C77_attribute_values (l : AttrLoop) (hl : l ∈ attrLoops)
    (conv : String → AttrVal V → Option F) (attrs : List (String × AttrVal V))
    (hn : (attrs.map Prod.fst).Nodup) (env e : String → Option F)
    (h : runAttrs l conv attrs env = some e) :
    (∀ k v x, (k, v) ∈ attrs → (k, x) ∈ l.arms → x ≠ "" → e x = conv k v) ∧
    (∀ z, (∀ k v, (k, v) ∈ attrs → (k, z) ∉ l.arms) → e z = env z) ∧
    (l.strict = true → ∀ k v, (k, v) ∈ attrs → ∃ x, (k, x) ∈ l.arms) := by
  obtain ⟨h1, h2, h3⟩ := runAttrs_values (attrLoops_separate l hl) conv attrs env e hn h
  have hkeys : ∀ l ∈ attrLoops, (l.arms.map Prod.fst).Nodup := by decide +kernel
  have hget : ∀ k x, (k, x) ∈ l.arms → mapGet l.arms k = some x := by
    have aux : ∀ (m : List (String × String)), (m.map Prod.fst).Nodup → ∀ k x, (k, x) ∈ m →
        mapGet m k = some x := by
      intro m
      induction m with
      | nil => intro _ _ _ h; cases h
      | cons p m ih =>
        obtain ⟨a, b⟩ := p
        intro hn k x hm
        rw [List.map_cons, List.nodup_cons] at hn
        rcases List.mem_cons.1 hm with hm | hm
        · cases hm; simp [mapGet]
        · have : a ≠ k := fun h => hn.1 (List.mem_map.2 ⟨_, hm, h.symm⟩)
          simp [mapGet, this, ih hn.2 k x hm]
    exact aux l.arms (hkeys l hl)
  refine ⟨fun k v x hm hx => h1 k v x hm (hget k x hx),
    fun z hz => h2 z (fun k v hm hg => hz k v hm (mapGet_mem hg)), fun hs k v hm => ?_⟩
  obtain ⟨x, hx⟩ := Option.isSome_iff_exists.1 (h3 hs k v hm)
  exact ⟨x, mapGet_mem hx⟩

/-- The loops of the table are not trivial: there are 73, and the one of `Gemm` reads four
attributes and rejects others. -/
example : attrLoops.length = 73 ∧
    ⟨"gemm.rs:134-147", true, [("alpha", "alpha"), ("beta", "beta"), ("transA", "trans_a"),
      ("transB", "trans_b")]⟩ ∈ attrLoops := by
  refine ⟨by decide +kernel, ?_⟩
  simp [attrLoops]

/-- Two attributes of `Gemm` in both orders, and an unknown one. -/
example :
    let l : AttrLoop := ⟨"gemm.rs:134-147", true, [("alpha", "alpha"), ("beta", "beta"),
      ("transA", "trans_a"), ("transB", "trans_b")]⟩
    let conv : String → AttrVal Unit → Option Int := fun _ v => match v with | .i64 n => some n | _ => none
    ((runAttrs l conv [("transA", .i64 1), ("transB", .i64 0)] (fun _ => none)).bind
      fun e => e "trans_a") = some 1 ∧
    ((runAttrs l conv [("transB", .i64 0), ("transA", .i64 1)] (fun _ => none)).bind
      fun e => e "trans_a") = some 1 ∧
    (runAttrs l conv [("axis", .i64 1)] (fun _ => none)).isNone := by
  decide +kernel

/-- **C77, attributes that end the loop.** A loop that returns at the first attribute with one
given name returns the value of that attribute in every order. -/
theorem C77_first_attribute (k : String) (attrs attrs' : List (String × AttrVal V))
    (hp : attrs.Perm attrs') (hn : (attrs.map Prod.fst).Nodup) :
    firstAttr [k] attrs = firstAttr [k] attrs' ∧
    ∀ v, firstAttr [k] attrs = some v ↔ (k, v) ∈ attrs := by
  have spec : ∀ a : List (String × AttrVal V), (a.map Prod.fst).Nodup →
      ∀ v, firstAttr [k] a = some v ↔ (k, v) ∈ a := by
    intro a
    induction a with
    | nil => intro _ v; simp [firstAttr]
    | cons p a ih =>
      obtain ⟨k', v'⟩ := p
      intro hn v
      rw [List.map_cons, List.nodup_cons] at hn
      have ih := ih hn.2 v
      simp only [firstAttr] at ih ⊢
      by_cases hk : k' = k
      · subst hk
        simp only [List.find?_cons, List.contains_cons, beq_self_eq_true, Bool.true_or,
          Option.map_some, Option.some.injEq, List.mem_cons, Prod.mk.injEq, true_and]
        constructor
        · intro h; exact Or.inl h.symm
        · rintro (h | h)
          · exact h.symm
          · exact absurd (List.mem_map.2 ⟨_, h, rfl⟩) hn.1
      · have hk' : ¬ k = k' := fun h => hk h.symm
        rw [List.find?_cons_of_neg (by simpa using hk), ih]
        simp [hk']
  refine ⟨?_, spec attrs hn⟩
  apply Option.ext
  intro v
  rw [spec attrs hn v, spec attrs' ((hp.map Prod.fst).nodup hn) v, hp.mem_iff]

/-- **C77 fails for `Pad` with both `pads` and `paddings`**: the attribute that is visited first
wins (pad.rs:228-234), so the padding depends on the order. -/
theorem C77_pads_and_paddings_wrong :
    let a : List (String × AttrVal Unit) := [("pads", .i64s [0, 1]), ("paddings", .i64s [0, 2])]
    let b : List (String × AttrVal Unit) := [("paddings", .i64s [0, 2]), ("pads", .i64s [0, 1])]
    a.Perm b ∧ padAttr a = some (.i64s [0, 1]) ∧ padAttr b = some (.i64s [0, 2]) :=
  ⟨List.Perm.swap _ _ _, by decide +kernel, by decide +kernel⟩

/-- **C77, captured values.** The values the body of an If, Loop or Scan node takes from outside
are visited in an arbitrary order `refs`. After the generated bindings, every captured name that
the body uses holds the value of the variable it stands for, and no other variable has changed;
so the result is the same in every order.

Guards: the variable that stands for a reference is not called like another reference
(`C77_captured_values_wrong`), an input of the node called like a reference is that reference,
and a captured value is not a `Shape` (those are never bound). -/
theorem C77_captured_values_partial {α : Type} (resolve : String → Arg V) (ins : List (Arg V))
    (keep : String → Bool) (refs : List String) (env : String → Option α) (hn : refs.Nodup)
    (hclash : ∀ r ∈ refs, ∀ s ∈ refs, (resolve r).name = s → s = r)
    (hins : ∀ a ∈ ins, ∀ r ∈ refs, a.name = r → (resolve r).name = r)
    (hty : ∀ r ∈ refs, keep r = true → ∀ n, (resolve r).ty ≠ .shape n) :
    (∀ r ∈ refs, keep r = true →
      runLets (captureBindings resolve ins keep refs) env r = env (resolve r).name) ∧
    (∀ z, z ∉ refs ∨ keep z = false →
      runLets (captureBindings resolve ins keep refs) env z = env z) ∧
    (∀ refs', refs.Perm refs' →
      runLets (captureBindings resolve ins keep refs') env =
        runLets (captureBindings resolve ins keep refs) env) := by
  have main : ∀ refs : List String, refs.Nodup →
      (∀ r ∈ refs, ∀ s ∈ refs, (resolve r).name = s → s = r) →
      (∀ a ∈ ins, ∀ r ∈ refs, a.name = r → (resolve r).name = r) →
      (∀ r ∈ refs, keep r = true → ∀ n, (resolve r).ty ≠ .shape n) →
      (∀ r ∈ refs, keep r = true →
        runLets (captureBindings resolve ins keep refs) env r = env (resolve r).name) ∧
      (∀ z, z ∉ refs ∨ keep z = false →
        runLets (captureBindings resolve ins keep refs) env z = env z) := by
    intro refs hn hclash hins hty
    have heq := addCaptures_eq resolve ins refs [] [] (by simpa using hn) (by simp) hclash (by simp)
    simp only [List.map_nil, List.append_nil, List.nil_append] at heq
    let kept := refs.filter fun r => !(ins.map Arg.name).contains r
    have hsub : ∀ r ∈ kept, r ∈ refs := fun r hr => (List.mem_filter.1 hr).1
    have hb : captureBindings resolve ins keep refs =
        (kept.filter keep).map fun r => (r, (resolve r).name) := by
      simp only [captureBindings, captureInputs, heq]
      have : (ins ++ kept.map resolve).drop ((ins ++ kept.map resolve).length - kept.length) =
          kept.map resolve := by
        rw [List.length_append, List.length_map, Nat.add_sub_cancel, List.drop_left]
      show scopeBindings keep kept ((ins ++ kept.map resolve).drop _) = _
      rw [this]
      exact scopeBindings_map resolve keep kept (fun r hr => hty r (hsub r hr))
    have hsub' : ∀ r ∈ kept.filter keep, r ∈ refs := fun r hr => hsub r (List.mem_filter.1 hr).1
    obtain ⟨h1, h2⟩ := runLets_values (fun r => (resolve r).name) (kept.filter keep) env
      ((hn.filter _).filter _) (fun r hr s hs => hclash r (hsub' r hr) s (hsub' s hs))
    rw [hb]
    constructor
    · intro r hr hk
      by_cases hm : r ∈ kept
      · exact h1 r (List.mem_filter.2 ⟨hm, hk⟩)
      · have hin : r ∈ ins.map Arg.name := by
          rcases Decidable.em (r ∈ ins.map Arg.name) with hc | hc
          · exact hc
          · exact absurd (List.mem_filter.2 ⟨hr, by simpa using hc⟩) hm
        obtain ⟨a, ha, hra⟩ := List.mem_map.1 hin
        rw [hins a ha r hr hra]
        exact h2 r (fun h => hm (List.mem_filter.1 h).1)
    · intro z hz
      apply h2 z
      intro hm
      rcases hz with hz | hz
      · exact hz (hsub' z hm)
      · have := (List.mem_filter.1 hm).2
        rw [hz] at this
        cases this
  obtain ⟨h1, h2⟩ := main refs hn hclash hins hty
  refine ⟨h1, h2, ?_⟩
  intro refs' hp
  obtain ⟨g1, g2⟩ := main refs' (hp.nodup hn)
    (fun r hr s hs => hclash r (hp.mem_iff.2 hr) s (hp.mem_iff.2 hs))
    (fun a ha r hr => hins a ha r (hp.mem_iff.2 hr)) (fun r hr => hty r (hp.mem_iff.2 hr))
  funext z
  by_cases hz : z ∈ refs
  · cases hk : keep z with
    | true => rw [h1 z hz hk, g1 z (hp.mem_iff.1 hz) hk]
    | false => rw [h2 z (Or.inr hk), g2 z (Or.inr hk)]
  · rw [h2 z (Or.inl hz), g2 z (Or.inl (fun h => hz (hp.mem_iff.2 h)))]

/-- **C77, inputs of the node.** In every order the node gets the same captured inputs (up to
their order), its ONNX inputs stay in front and are counted right, and the body finds under each
captured name the argument it stands for. -/
theorem C77_captured_inputs_partial (resolve : String → Arg V) (ins : List (Arg V))
    (refs refs' : List String) (hn : refs.Nodup) (hp : refs.Perm refs')
    (hclash : ∀ r ∈ refs, ∀ s ∈ refs, (resolve r).name = s → s = r) :
    (captureInputs resolve ins refs).2.1 = ins.length ∧
    (captureInputs resolve ins refs).1.take ins.length = ins ∧
    (captureInputs resolve ins refs).1.Perm (captureInputs resolve ins refs').1 ∧
    (∀ r, mapGet (outerScope (captureInputs resolve ins refs)) r =
      if r ∈ refs ∧ ∀ a ∈ ins, a.name ≠ r then some (resolve r) else none) ∧
    (∀ r, mapGet (outerScope (captureInputs resolve ins refs')) r =
      mapGet (outerScope (captureInputs resolve ins refs)) r) := by
  have shape : ∀ refs : List String, refs.Nodup →
      (∀ r ∈ refs, ∀ s ∈ refs, (resolve r).name = s → s = r) →
      captureInputs resolve ins refs =
        (ins ++ (refs.filter fun r => !(ins.map Arg.name).contains r).map resolve, ins.length,
          refs.filter fun r => !(ins.map Arg.name).contains r) := by
    intro refs hn hclash
    have heq := addCaptures_eq resolve ins refs [] [] (by simpa using hn) (by simp) hclash (by simp)
    simp only [List.map_nil, List.append_nil, List.nil_append] at heq
    simp only [captureInputs, heq, List.length_append, List.length_map, Nat.add_sub_cancel]
  have hn' := hp.nodup hn
  have hclash' : ∀ r ∈ refs', ∀ s ∈ refs', (resolve r).name = s → s = r :=
    fun r hr s hs => hclash r (hp.mem_iff.2 hr) s (hp.mem_iff.2 hs)
  have lookup : ∀ refs : List String, refs.Nodup →
      (∀ r ∈ refs, ∀ s ∈ refs, (resolve r).name = s → s = r) → ∀ r,
      mapGet (outerScope (captureInputs resolve ins refs)) r =
        if r ∈ refs ∧ ∀ a ∈ ins, a.name ≠ r then some (resolve r) else none := by
    intro refs hn hclash r
    rw [shape refs hn hclash]
    simp only [outerScope, List.drop_left]
    generalize hk : (refs.filter fun r => !(ins.map Arg.name).contains r) = kept
    have hkn : kept.Nodup := hk ▸ hn.filter _
    have hmap : ((kept.map resolve).zipIdx.map fun p => ((kept[p.2]?).getD p.1.name, p.1)) =
        kept.map fun r => (r, resolve r) := by
      apply List.ext_getElem?
      intro (i : Nat)
      simp only [List.getElem?_map, List.getElem?_zipIdx, Nat.zero_add]
      cases hki : kept[i]? <;> simp [hki]
    rw [hmap, ← List.map_reverse]
    have hmem : r ∈ kept.reverse ↔ (r ∈ refs ∧ ∀ a ∈ ins, a.name ≠ r) := by
      rw [List.mem_reverse, ← hk, List.mem_filter]
      simp
    have aux : ∀ l : List String, mapGet (l.map fun r => (r, resolve r)) r =
        if r ∈ l then some (resolve r) else none := by
      intro l
      induction l with
      | nil => simp [mapGet]
      | cons s l ih =>
        simp only [List.map_cons, mapGet, ih, List.mem_cons]
        by_cases h : s = r
        · subst h; simp
        · have : ¬ r = s := fun h' => h h'.symm
          simp [h, this]
    rw [aux]
    simp only [hmem]
  refine ⟨by rw [shape refs hn hclash], ?_, ?_, lookup refs hn hclash, ?_⟩
  · rw [shape refs hn hclash, List.take_left]
  · rw [shape refs hn hclash, shape refs' hn' hclash']
    exact List.Perm.append_left _ ((hp.filter _).map _)
  · intro r
    rw [lookup refs hn hclash, lookup refs' hn' hclash']
    simp only [hp.mem_iff]

/-- The guards are met: a body that uses `x`, `w` and the node's own input `c`. -/
example :
    let t : ArgType := .tensor ⟨.f32, 1, none⟩
    let resolve : String → Arg Unit := fun r =>
      if r = "x" then ⟨"relu1_out1", t, .dynamic⟩ else if r = "w" then ⟨"add1_out1", t, .dynamic⟩
      else ⟨r, t, .dynamic⟩
    let ins : List (Arg Unit) := [⟨"c", t, .dynamic⟩]
    let env : String → Option Nat := fun s =>
      if s = "relu1_out1" then some 1 else if s = "add1_out1" then some 2
      else if s = "c" then some 3 else none
    let e := runLets (captureBindings resolve ins (fun _ => true) ["w", "c", "x"]) env
    (∀ r ∈ ["x", "w", "c"], ∀ s ∈ ["x", "w", "c"], (resolve r).name = s → s = r) ∧
    (∀ a ∈ ins, ∀ r ∈ ["x", "w", "c"], a.name = r → (resolve r).name = r) ∧
    [e "x", e "w", e "c"] = [some 1, some 2, some 3] := by
  decide +kernel

/-- **C77 fails when an outer variable is called like another captured name.** The graph has a
value `x` whose variable is `relu1_out1` and a value the file calls `relu1_out1` whose variable is
`relu2_out1`. If `x` is visited first, the second reference is taken for an input the node already
has and is not captured: the body reads `x`'s value for it. In the other order both are captured,
but the first binding hides the variable the second one copies, and `x` gets the wrong value. -/
theorem C77_captured_values_wrong :
    let t : ArgType := .tensor ⟨.f32, 1, none⟩
    let resolve : String → Arg Unit := fun r =>
      if r = "x" then ⟨"relu1_out1", t, .dynamic⟩ else ⟨"relu2_out1", t, .dynamic⟩
    let env : String → Option Nat := fun s =>
      if s = "relu1_out1" then some 1 else if s = "relu2_out1" then some 2 else none
    let e (refs : List String) := runLets (captureBindings resolve [] (fun _ => true) refs) env
    -- expected: `x` is 1 and `relu1_out1` is 2
    [e ["x", "relu1_out1"] "x", e ["x", "relu1_out1"] "relu1_out1"] = [some 1, some 1] ∧
    [e ["relu1_out1", "x"] "x", e ["relu1_out1", "x"] "relu1_out1"] = [some 2, some 2] := by
  decide +kernel

/-- **C77 fails for the text of the generated code**: the captured inputs of a node, and the
bindings in front of its body, come in the order of the traversal, so two runs on the same file
can print different code. -/
theorem C77_generated_text_wrong :
    let t : ArgType := .tensor ⟨.f32, 1, none⟩
    let resolve : String → Arg Unit := fun r => ⟨r ++ "_out1", t, .dynamic⟩
    captureBindings resolve [] (fun _ => true) ["a", "b"] = [("a", "a_out1"), ("b", "b_out1")] ∧
    captureBindings resolve [] (fun _ => true) ["b", "a"] = [("b", "b_out1"), ("a", "a_out1")] := by
  decide +kernel

/-- **C77, keys of common subexpression elimination.** Two attribute tables give the same sorted
list exactly if they have the same entries, in whatever orders they are read. -/
theorem C77_sorted_attributes (a b : List (String × AttrVal V)) (ha : (a.map Prod.fst).Nodup) :
    sortedAttrs a = sortedAttrs b ↔ a.Perm b := by
  constructor
  · intro h
    have h1 := List.mergeSort_perm a fun x y => decide (x.1 ≤ y.1)
    have h2 := List.mergeSort_perm b fun x y => decide (x.1 ≤ y.1)
    simp only [sortedAttrs] at h
    rw [h] at h1
    exact h1.symm.trans h2
  · intro hp
    exact sort_perm Prod.fst hp ha

/-- **C77, imports.** The list of imports of the generated file is the same in every order of the
set they are kept in; it has exactly the registered imports, in increasing order. -/
theorem C77_imports (a b : List String) (hn : a.Nodup) (hp : a.Perm b) :
    importLines a = importLines b ∧ (∀ x, x ∈ importLines a ↔ x ∈ a) ∧
    (importLines a).Pairwise (· < ·) := by
  refine ⟨sort_perm id hp (by simpa using hn), fun x => (List.mergeSort_perm _ _).mem_iff, ?_⟩
  have h1 : (importLines a).Pairwise fun x y => decide (x ≤ y) = true :=
    List.pairwise_mergeSort
      (fun x y z h1 h2 => by
        simp only [decide_eq_true_eq] at *
        exact String.le_trans h1 h2)
      (fun x y => by
        simp only [Bool.or_eq_true, decide_eq_true_eq]
        exact String.le_total _ _) a
  have h2 : (importLines a).Nodup := (List.mergeSort_perm a _).symm.nodup hn
  refine (h1.and h2).imp ?_
  rintro x y ⟨h, hne⟩
  simp only [decide_eq_true_eq] at h
  exact Decidable.byContradiction fun hlt => hne (String.le_antisymm h (String.not_lt.1 hlt))

example : importLines ["burn::tensor::Tensor", "burn::nn::Linear", "burn::nn::Gelu"] =
    ["burn::nn::Gelu", "burn::nn::Linear", "burn::tensor::Tensor"] := by
  rw [(C77_imports _ ["burn::nn::Gelu", "burn::nn::Linear", "burn::tensor::Tensor"]
    (by decide +kernel) (by decide +kernel)).1]
  exact List.mergeSort_of_pairwise (by decide +kernel)

/-! ## The rewire map of no-op elimination -/

theorem Root.unique {m : List (String × String)} {x s t : String} (h : Root m x s)
    (h' : Root m x t) : s = t := by
  induction h with
  | stop h =>
    cases h' with
    | stop => rfl
    | step g _ => rw [h] at g; cases g
  | step h _ ih =>
    cases h' with
    | stop g => rw [h] at g; cases g
    | step g r => rw [h] at g; cases g; exact ih r

/-- **C77, no-op nodes: the plan.** The table of original output names may be read in any order:
the plan is the same, provided each output has one original name. -/
theorem C77_noop_plan (noop : Node V → Bool) (omap omap' : List (String × Nat × Nat))
    (nodes : List (Node V)) (hp : omap.Perm omap')
    (hone : ∀ x y i j, (x, i, j) ∈ omap → (y, i, j) ∈ omap → x = y) :
    planNoop noop omap nodes = planNoop noop omap' nodes := by
  have hfind : ∀ idx : Nat, omap.find? (fun p => p.2.1 = idx && p.2.2 = 0) =
      omap'.find? (fun p => p.2.1 = idx && p.2.2 = 0) := by
    intro idx
    cases h1 : omap.find? (fun p => p.2.1 = idx && p.2.2 = 0) with
    | none =>
      symm
      rw [List.find?_eq_none] at h1 ⊢
      exact fun x hx => h1 x (hp.mem_iff.2 hx)
    | some p =>
      cases h2 : omap'.find? (fun p => p.2.1 = idx && p.2.2 = 0) with
      | none =>
        rw [List.find?_eq_none] at h2
        exact absurd (List.find?_some h1) (h2 p (hp.mem_iff.1 (List.mem_of_find?_eq_some h1)))
      | some q =>
        obtain ⟨x, i, j⟩ := p
        obtain ⟨y, i', j'⟩ := q
        have a := List.find?_some h1
        have b := List.find?_some h2
        simp only [Bool.and_eq_true, decide_eq_true_eq] at a b
        obtain ⟨rfl, rfl⟩ := a
        obtain ⟨rfl, rfl⟩ := b
        rw [hone x y _ _ (List.mem_of_find?_eq_some h1)
          (hp.mem_iff.2 (List.mem_of_find?_eq_some h2))]
  have : noopBindings (V := V) omap = noopBindings omap' := by
    funext idx n
    simp only [noopBindings, hfind]
  simp only [planNoop, this]

/-- **C77, no-op nodes: the rewiring.** The map of rewirings is resolved in place while it is
being read; every reading order gives the same graph.

`env` holds the graph's inputs. Guards: single assignment; the first input of a removed node is a
graph input or an output of an earlier node; original names are bound nowhere. -/
theorem C77_noop_rewiring (env : Env V) (nodes : List (Node V)) (outs : List (Arg V))
    (noop : Node V → Bool) (omap : List (String × Nat × Nat)) (hssa : SSA env nodes)
    (horig : OriginalNamesUnused noop omap env nodes)
    (hdef : ∀ p n q, nodes = p ++ n :: q → noop n = true → ∀ i is, n.inputs = i :: is →
      env i.name ≠ none ∨ ∃ m ∈ p, i.name ∈ m.outNames)
    (order order' : List (String × String))
    (ho : ∀ k v, (k, v) ∈ order ↔ mapGet (planNoop noop omap nodes).rewire k = some v)
    (ho' : ∀ k v, (k, v) ∈ order' ↔ mapGet (planNoop noop omap nodes).rewire k = some v) :
    applyNoop (planNoop noop omap nodes) order nodes outs =
      applyNoop (planNoop noop omap nodes) order' nodes outs := by
  generalize hm : (planNoop noop omap nodes).rewire = m0 at ho ho'
  have hbind : ∀ x v, mapGet m0 x = some v → ∃ (idx : Nat) (n : Node V) (i : Arg V)
      (is : List (Arg V)) (o : Arg V) (os : List (Arg V)), nodes[idx]? = some n ∧
      noop n = true ∧ n.inputs = i :: is ∧ n.outputs = o :: os ∧ v = i.name ∧
      (x = o.name ∨ (x ≠ "" ∧ env x = none ∧ ∀ m ∈ nodes, x ∉ m.outNames)) := by
    intro x v hxv
    rw [← hm] at hxv
    obtain ⟨idx, n, hn, h1, _, h3⟩ := mem_planRewire.1 (mapGet_mem hxv)
    obtain ⟨i, is, o, os, hi, ho, hv, hx⟩ := mem_noopBindings h3
    refine ⟨idx, n, i, is, o, os, hn, h1, hi, ho, hv, ?_⟩
    rcases hx with hx | hx
    · exact Or.inl hx
    · rcases horig x idx n hx hn h1 with ⟨o', os', ho', rfl⟩ | h
      · rw [ho] at ho'; cases ho'; exact Or.inl rfl
      · exact Or.inr h
  have hdec : ∀ k v, mapGet m0 k = some v →
      nameRank nodes m0 v < nameRank nodes m0 k ∧ nameRank nodes m0 v < nodes.length + 2 := by
    intro k v hkv
    obtain ⟨idx, n, i, is, o, os, hn, hnn, hi, ho, rfl, hx⟩ := hbind _ _ hkv
    have hnm := List.mem_of_getElem? hn
    obtain ⟨a, b, hab⟩ := List.append_of_mem hnm
    have hlen : nodes.length = a.length + b.length + 1 := by simp [hab]; omega
    have hlow : nameRank nodes m0 i.name ≤ a.length := by
      by_cases hp : ∃ m ∈ a, i.name ∈ m.outNames
      · obtain ⟨m, hm, hxm⟩ := hp
        obtain ⟨a1, a2, rfl⟩ := List.append_of_mem hm
        have hs : SSA env (a1 ++ m :: (a2 ++ n :: b)) := by
          have := hssa; rw [hab] at this; simpa using this
        have := findIdx_of_SSA hs hxm
        have hh : nodes.findIdx? (fun n => n.outNames.contains i.name) = some a1.length := by
          rw [hab]; simpa using this
        simp only [nameRank, hh, List.length_append, List.length_cons]
        omega
      · have hw : env i.name ≠ none := by
          rcases hdef a n b hab hnn i is hi with h | h
          · exact h
          · exact absurd h hp
        have hno : ∀ m ∈ nodes, i.name ∉ m.outNames :=
          fun m hm hxm => hw (hssa.fresh m hm _ hxm)
        have hh : nodes.findIdx? (fun n => n.outNames.contains i.name) = none := by
          rw [List.findIdx?_eq_none_iff]
          intro m hm; simpa using hno m hm
        have hk0 : mapGet m0 i.name = none := by
          cases hc : mapGet m0 i.name with
          | none => rfl
          | some u =>
            obtain ⟨idx', n', i', is', o', os', hn', _, _, ho', _, hx'⟩ := hbind _ _ hc
            rcases hx' with hx' | hx'
            · exact absurd (hx' ▸ (by simp [Node.outNames, ho']) : i.name ∈ n'.outNames)
                (hno n' (List.mem_of_getElem? hn'))
            · exact absurd hx'.2.1 hw
        unfold nameRank
        rw [hh]
        simp [hk0]
    refine ⟨?_, by omega⟩
    rcases hx with rfl | hx
    · have hs : SSA env (a ++ n :: b) := by have := hssa; rwa [hab] at this
      have := findIdx_of_SSA hs (x := o.name) (by simp [Node.outNames, ho])
      have hh : nodes.findIdx? (fun n => n.outNames.contains o.name) = some a.length := by
        rw [hab]; exact this
      have hk : nameRank nodes m0 o.name = a.length + 1 := by simp only [nameRank, hh]
      omega
    · have hh : nodes.findIdx? (fun n => n.outNames.contains k) = none := by
        rw [List.findIdx?_eq_none_iff]
        intro m hm; simpa using hx.2.2 m hm
      have hk : nameRank nodes m0 k = nodes.length + 1 := by
        simp only [nameRank, hh, hkv, Option.isSome_some, if_true]
      omega
  have inv0 : ResInv m0 m0 (nameRank nodes m0) :=
    ⟨fun _ => Iff.rfl, fun k v hkv => (hdec k v hkv).1, fun k v t hkv hr => .step hkv hr⟩
  have res : ∀ order : List (String × String),
      (∀ k v, (k, v) ∈ order ↔ mapGet m0 k = some v) →
      (∀ k, (mapGet (resolveRewire (nodes.length + 2) order m0) k).isSome ↔ (mapGet m0 k).isSome) ∧
      ∀ k t, mapGet (resolveRewire (nodes.length + 2) order m0) k = some t → Root m0 k t := by
    intro order horder
    obtain ⟨inv, hres⟩ := resolveRewire_spec (m0 := m0) (r := nameRank nodes m0)
      (fuel := nodes.length + 2) order m0 inv0 (fun k v hkv => by
        have := (horder k v).1 hkv
        exact ⟨this, hdec k v this⟩)
    refine ⟨inv.keys, fun k t hkt => hres k t (Or.inl ?_) hkt⟩
    have : (mapGet m0 k).isSome := (inv.keys k).1 (by simp [hkt])
    obtain ⟨v, hv⟩ := Option.isSome_iff_exists.1 this
    exact List.mem_map.2 ⟨(k, v), (horder k v).2 hv, rfl⟩
  obtain ⟨k1, r1⟩ := res order ho
  obtain ⟨k2, r2⟩ := res order' ho'
  have hsame : mapGet (resolveRewire (nodes.length + 2) order m0) =
      mapGet (resolveRewire (nodes.length + 2) order' m0) := by
    funext k
    cases h1 : mapGet (resolveRewire (nodes.length + 2) order m0) k with
    | none =>
      have := none_of_iff ((k1 k).trans (k2 k).symm) h1
      exact this.symm
    | some s =>
      cases h2 : mapGet (resolveRewire (nodes.length + 2) order' m0) k with
      | none =>
        have := none_of_iff ((k2 k).trans (k1 k).symm) h2
        rw [h1] at this; cases this
      | some t => rw [(r1 k s h1).unique (r2 k t h2)]
  have harg : ∀ oam : List (String × Arg V),
      rewireArg (resolveRewire (nodes.length + 2) order m0) oam =
        rewireArg (resolveRewire (nodes.length + 2) order' m0) oam := by
    intro oam
    funext a
    simp only [rewireArg, hsame]
  have hnode : ∀ oam : List (String × Arg V),
      rewireNode (resolveRewire (nodes.length + 2) order m0) oam =
        rewireNode (resolveRewire (nodes.length + 2) order' m0) oam := by
    intro oam
    funext n
    simp only [rewireNode, harg]
  simp only [applyNoop, hm, hnode, harg]

/-- A chain of two no-ops whose map is read in both orders: the hypotheses of
`C77_noop_rewiring` hold and the last node ends up reading the graph input. -/
example :
    let t : ArgType := .tensor ⟨.f32, 1, none⟩
    let mk (ty : NodeType) (i o : String) : Node Unit :=
      ⟨ty, o ++ "_node", [⟨i, t, .dynamic⟩], [⟨o, t, .dynamic⟩], []⟩
    let nodes := [mk .identity "x" "a", mk .identity "a" "b", mk .relu "b" "y"]
    let noop : Node Unit → Bool := fun n => n.ty = .identity
    let plan := planNoop noop [] nodes
    SSA (fun s => if s = "x" then some () else none) nodes ∧
    plan.rewire = [("b", "a"), ("a", "x")] ∧
    applyNoop plan [("b", "a"), ("a", "x")] nodes [] =
      ([mk .relu "x" "y"], []) ∧
    applyNoop plan [("a", "x"), ("b", "a")] nodes [] =
      ([mk .relu "x" "y"], []) := by
  refine ⟨⟨by decide +kernel, by decide +kernel⟩, by decide +kernel, by decide +kernel,
    by decide +kernel⟩

end OnnxIR
