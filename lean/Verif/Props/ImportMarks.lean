import Verif.Props.GraphBuildCases
import Verif.Lemmas.Pipeline

/-!
# C88: who reads a constant is marked

The hypothesis `Marked` of `C88_results_partial` is what the importer establishes: every argument that reads the output of a constant
of the same graph, and every argument that reads a constant of an enclosing graph, is marked as a constant.
-/

namespace OnnxIR.Nested

variable {V : Type}

/-- Where an argument comes from. -/
def Origin (g : GraphProto V) (st : GState V) (a : Arg V) : Prop :=
  (∃ n ∈ st.nodes, a ∈ n.outputs) ∨ a.src = .constant ∨ a.name = "" ∨ ∃ x ∈ allNames g, a.name = sanitizeName x

/-- What holds while nodes are added. -/
structure Marks (g : GraphProto V) (st : GState V) : Prop where
  consts : ∀ n ∈ st.nodes, n.ty = .constant → ∀ o ∈ n.outputs, o.src = .constant
  ins : ∀ n ∈ st.nodes, ∀ a ∈ n.inputs, Origin g st a

theorem Origin.mono {g : GraphProto V} {st st' : GState V} (h : ∀ n ∈ st.nodes, n ∈ st'.nodes) {a : Arg V}
    (ha : Origin g st a) : Origin g st' a := by
  rcases ha with ⟨n, hn, ha⟩ | ha
  · exact .inl ⟨n, h n hn, ha⟩
  · exact .inr ha

theorem initIn_origin {g : GraphProto V} (hg : NamesOk g) {outer done} {st : GState V} (h : Inv g outer done st) {x : String}
    (hx : x ∈ allNames g) {a : Arg V} (ha : st.initIn x = some a) : Origin g st a := by
  have out : ∀ p, st.output p = some a → Origin g st a := by
    intro p hpa
    simp only [GState.output, Option.bind_eq_some_iff] at hpa
    obtain ⟨n, hn, ha⟩ := hpa
    exact .inl ⟨n, List.mem_of_getElem? hn, List.mem_of_getElem? ha⟩
  have scope : ∀ b : Arg V, Origin g st (scopeArg b (sanitizeName x)) := by
    intro b
    unfold scopeArg
    split
    · next hb => exact .inr (.inl hb)
    · exact .inr (.inr (.inr ⟨x, hx, rfl⟩))
  unfold GState.initIn at ha
  rw [h.inputMap, h.inputs] at ha
  split at ha
  · next i hi =>
    obtain ⟨-, -, h2⟩ := start_inputs hg outer hx (.inl rfl) hi
    rw [h2] at ha
    cases ha
    exact .inr (.inr (.inr ⟨x, hx, rfl⟩))
  · split at ha
    · exact out _ ha
    · split at ha
      · exact out _ ha
      · simp only [Option.some.injEq] at ha
        subst ha
        unfold GState.fromOuter
        split
        · exact scope _
        · split
          · exact scope _
          · exact .inr (.inr (.inr ⟨x, hx, rfl⟩))

theorem renameOutputs_src (node : String) : ∀ (as : List (Arg V)) (k : Nat), ∀ o ∈ renameOutputs node k as,
    ∃ a ∈ as, o.src = a.src
  | [], _, o, h => by cases h
  | a :: as, k, o, h => by
    simp only [renameOutputs, List.mem_cons] at h
    rcases h with rfl | h
    · exact ⟨a, List.mem_cons_self, rfl⟩
    · obtain ⟨b, hb, he⟩ := renameOutputs_src node as (k + 1) o h
      exact ⟨b, List.mem_cons_of_mem _ hb, he⟩

/-- A constant in the file has its value and one output. -/
def Valued (np : NodeProto V) : Prop :=
  np.ty = .constant → (∃ v, attrGet np.attrs "value" = some (.tensor v)) ∧ ∃ o, np.outputs = [o]

theorem marks_step {g : GraphProto V} (hg : NamesOk g) {outer done} {st : GState V} (hi : Inv g outer done st) (h : Marks g st)
    {np : NodeProto V} (hf : NodeFits g np) (hv : Valued np) {args} (hargs : st.initAll np.inputs = some args) {st' : GState V}
    (hn : st'.nodes = st.nodes ++ [storedNode st np args]) : Marks g st' := by
  have hsub : ∀ n ∈ st.nodes, n ∈ st'.nodes := fun n hm => by rw [hn]; exact List.mem_append_left _ hm
  constructor
  · intro n hm ht o ho
    rw [hn] at hm
    rcases List.mem_append.1 hm with hm | hm
    · exact h.consts n hm ht o ho
    · simp only [List.mem_singleton] at hm
      subst hm
      have ht' : np.ty = .constant := by
        simpa [storedNode, rawNode, extractConstant_ty] using ht
      obtain ⟨⟨v, hval⟩, q, hq⟩ := hv ht'
      obtain ⟨b, hb, he⟩ := renameOutputs_src _ _ _ _ ho
      rw [he]
      simp only [rawNode, extractConstant, ht', hval, hq, List.map_cons, List.map_nil, List.mem_singleton] at hb
      subst hb; rfl
  · intro n hm a ha
    rw [hn] at hm
    rcases List.mem_append.1 hm with hm | hm
    · exact (h.ins n hm a ha).mono hsub
    · simp only [List.mem_singleton] at hm
      subst hm
      have : a ∈ args ∨ a.name = "" := by
        simp only [storedNode, rawNode, extractConstant] at ha
        split at ha
        · simp only [List.mem_append, List.mem_singleton] at ha
          rcases ha with ha | rfl
          · exact .inl ha
          · exact .inr rfl
        · exact .inl ha
      rcases this with ha | ha
      · obtain ⟨x, hx, hxa⟩ := initAll_mem hargs a ha
        exact (initIn_origin hg hi (hf.ins x hx) hxa).mono hsub
      · exact .inr (.inr (.inl ha))

theorem marks_loop {g : GraphProto V} (hg : NamesOk g) {outer} : ∀ (nps : List (NodeProto V)) {done} {st st' : GState V},
    Inv g outer done st → Marks g st → (∀ np ∈ nps, NodeFits g np ∧ Valued np) → st.convertNodes nps = some st' →
    Marks g st' ∧ ∃ done', Inv g outer done' st'
  | [], done, st, st', hi, hm, _, h => by cases h; exact ⟨hm, done, hi⟩
  | np :: nps, done, st, st', hi, hm, hp, h => by
    obtain ⟨hf, hv⟩ := hp np List.mem_cons_self
    obtain ⟨args, hargs⟩ := initAll_exists (st := st) (xs := np.inputs) fun x hx => hi.resolves hg (hf.ins x hx)
    obtain ⟨st1, h1, hinv, -, hn⟩ := inv_step hg hi hf hargs
    simp only [GState.convertNodes, h1] at h
    exact marks_loop hg nps hinv (marks_step hg hi hm hf hv hargs hn) (fun x hx => hp x (List.mem_cons_of_mem _ hx)) h

theorem marks_start {g : GraphProto V} (outer : List (String × Arg V)) : Marks g (GState.start outer g) := by
  constructor
  · intro n hn _ o ho
    obtain ⟨j, v, rfl⟩ := initializerNodes_mem g.inits 0 n hn
    simp only [constNode, List.mem_singleton] at ho
    subst ho; rfl
  · intro n hn a ha
    obtain ⟨j, v, rfl⟩ := initializerNodes_mem g.inits 0 n hn
    simp only [constNode, List.mem_singleton] at ha
    subst ha; exact .inr (.inr (.inl rfl))

theorem results_origin {g : GraphProto V} {outer done} {st : GState V} (hg : NamesOk g) (h : Inv g outer done st) :
    ∀ {xs : List String} {outs : List (Arg V)}, (∀ x ∈ xs, x ∈ allNames g) → st.results xs = some outs →
      ∀ a ∈ outs, Origin g st a
  | [], outs, _, ho, a, ha => by cases ho; cases ha
  | x :: xs, outs, hx, ho, a, ha => by
    have ih := @results_origin g outer done st hg h xs
    have hxs : ∀ y ∈ xs, y ∈ allNames g := fun y hy => hx y (List.mem_cons_of_mem _ hy)
    simp only [GState.results] at ho
    split at ho
    · split at ho
      · next p _ b bs h1 h2 =>
        cases ho
        rcases List.mem_cons.1 ha with rfl | ha
        · simp only [GState.output, Option.bind_eq_some_iff] at h1
          obtain ⟨n, hn, hb⟩ := h1
          exact .inl ⟨n, List.mem_of_getElem? hn, List.mem_of_getElem? hb⟩
        · exact ih hxs h2 a ha
      · cases ho
    · split at ho
      · next i hi =>
        split at ho
        · next b bs h1 h2 =>
          cases ho
          rcases List.mem_cons.1 ha with rfl | ha
          · rw [h.inputMap] at hi
            rw [h.inputs] at h1
            obtain ⟨-, -, h3⟩ := start_inputs hg outer (hx x List.mem_cons_self) (.inr rfl) hi
            rw [h3] at h1; cases h1
            exact .inr (.inr (.inr ⟨x, hx x List.mem_cons_self, rfl⟩))
          · exact ih hxs h2 a ha
        · cases ho
      · exact ih hxs ho a ha

/-- C88: in an imported graph every argument that reads the output of a constant is marked as a constant, whether it is an input of a
node or an output of the graph, provided no name in the file is, when sanitised, a name the importer makes. -/
theorem C88_import_marks {g : GraphProto V} (hg : NamesOk g) (hv : ∀ np ∈ g.nodes, Valued np) {outer : List (String × Arg V)}
    {nodes : List (Node V)} {ins outs : List (Arg V)} (h : importGraph outer g = some (nodes, ins, outs))
    (hfresh : ∀ x ∈ allNames g, ∀ n ∈ nodes, sanitizeName x ∉ n.outNames)
    {c : Node V} (hc : c ∈ nodes) (ht : c.ty = .constant) {x : String} (hx : x ∈ c.outNames) :
    (∀ n ∈ nodes, ∀ a ∈ n.inputs, a.name = x → a.src = .constant) ∧ ∀ a ∈ outs, a.name = x → a.src = .constant := by
  unfold importGraph at h
  split at h
  · cases h
  · next st hst =>
    split at h
    · cases h
    · next os hos =>
      cases h
      obtain ⟨hm, done, hi⟩ := marks_loop hg g.nodes (inv_start hg outer) (marks_start outer)
        (fun np hn => ⟨hg.fits hn, hv np hn⟩) hst
      have key : ∀ a, Origin g st a → a.name = x → a.src = .constant := by
        rintro a (⟨n, hn, ha⟩ | ha | ha | ⟨y, hy, ha⟩) hax
        · have hxn : x ∈ n.outNames := hax ▸ List.mem_map_of_mem ha
          have := outNames_unique hi.nodup hc hn hx hxn
          subst this
          exact hm.consts c hc ht a ha
        · exact ha
        · rw [hi.outNames c hc] at hx
          rw [← hax, ha] at hx
          simp only [outNamesOf, List.mem_map] at hx
          obtain ⟨i, -, he⟩ := hx
          exact absurd he (outName_ne_empty _ _)
        · exact absurd (ha.symm.trans hax ▸ hx) (hfresh y hy c hc)
      exact ⟨fun n hn a ha => key a (hm.ins n hn a ha),
        fun a ha => key a (results_origin hg hi (fun y hy => mem_all_out hy) hos a ha)⟩

theorem initAll_get {st : GState V} : ∀ {xs : List String} {as : List (Arg V)}, st.initAll xs = some as → ∀ {j : Nat} {x : String},
    xs[j]? = some x → ∃ a, as[j]? = some a ∧ st.initIn x = some a
  | [], as, h, j, x, hj => by simp at hj
  | y :: xs, as, h, j, x, hj => by
    simp only [GState.initAll] at h
    split at h
    · next b bs h1 h2 =>
      cases h
      cases j with
      | zero => simp at hj; subst hj; exact ⟨b, rfl, h1⟩
      | succ j => simpa using initAll_get h2 (by simpa using hj)
    · cases h

theorem initIn_outer {g : GraphProto V} (hg : NamesOk g) {outer done} {st : GState V} (h : Inv g outer done st) {x : String}
    (hx : x ∈ allNames g) (hi : x ∉ g.inputs) (hb : x ∉ boundNames g) : st.initIn x = some (st.fromOuter x) := by
  have h1 : mapGet st.inputMap x = none := by
    cases hm : mapGet st.inputMap x with
    | none => rfl
    | some i =>
      rw [h.inputMap] at hm
      exact absurd (start_inputs hg outer hx (.inl rfl) hm).1 hi
  have h2 : ∀ k, k = x ∨ k = sanitizeName x → mapGet st.outMap k = none := by
    intro k hk
    cases hm : mapGet st.outMap k with
    | none => rfl
    | some p =>
      obtain ⟨y, hy, hky, -⟩ := h.entries k p hm
      have := hg.key hx (mem_all_bound (h.doneSub y hy)) hk hky
      exact absurd (this ▸ h.doneSub y hy) hb
  simp only [GState.initIn, h1, h2 _ (.inr rfl), h2 _ (.inl rfl)]

theorem outer_loop {g : GraphProto V} (hg : NamesOk g) {outer} : ∀ (nps : List (NodeProto V)) {done} {st st' : GState V},
    Inv g outer done st → (∀ np ∈ nps, NodeFits g np) → st.convertNodes nps = some st' →
    (∃ q, st'.nodes = st.nodes ++ q) ∧ ∀ (k j : Nat) (np : NodeProto V) (x : String) (a : Arg V), nps[k]? = some np →
      np.inputs[j]? = some x → x ∉ g.inputs → x ∉ boundNames g → mapGet outer (sanitizeName x) = some a → a.src = .constant →
      ∃ n, st'.nodes[st.nodes.length + k]? = some n ∧ n.ty = np.ty ∧ n.inputs[j]? = some a
  | [], done, st, st', _, _, h => by
    cases h; exact ⟨⟨[], by simp⟩, fun k j np x a hk => by simp at hk⟩
  | np :: nps, done, st, st', hi, hp, h => by
    have hf := hp np List.mem_cons_self
    obtain ⟨args, hargs⟩ := initAll_exists (st := st) (xs := np.inputs) fun x hx => hi.resolves hg (hf.ins x hx)
    obtain ⟨st1, h1, hinv, -, hn⟩ := inv_step hg hi hf hargs
    simp only [GState.convertNodes, h1] at h
    obtain ⟨⟨q, hq⟩, ih⟩ := outer_loop hg nps hinv (fun x hx => hp x (List.mem_cons_of_mem _ hx)) h
    refine ⟨⟨[storedNode st np args] ++ q, by rw [hq, hn, List.append_assoc]⟩, ?_⟩
    intro k j np' x a hk hj hxi hxb ho hs
    cases k with
    | zero =>
      simp at hk; subst hk
      refine ⟨storedNode st np args, by rw [hq, hn]; simp, by simp [storedNode, rawNode, extractConstant_ty], ?_⟩
      obtain ⟨b, hb, hin⟩ := initAll_get hargs hj
      rw [initIn_outer hg hi (hf.ins x (List.mem_of_getElem? hj)) hxi hxb] at hin
      have hba : b = a := by
        simp only [Option.some.injEq] at hin
        rw [← hin]
        simp only [GState.fromOuter, hi.outerEq, ho, scopeArg, hs]
      subst hba
      simp only [storedNode, rawNode, extractConstant]
      split
      · show (args ++ _)[j]? = some b
        rw [List.getElem?_append_left (List.getElem?_eq_some_iff.1 hb).1]; exact hb
      · exact hb
    | succ k =>
      have := ih k j np' x a (by simpa using hk) hj hxi hxb ho hs
      rw [hn] at this
      simpa [Nat.add_assoc, Nat.add_comm 1 k] using this

/-- C88: a node of a subgraph that reads a constant of the enclosing graph gets that constant's own argument, still marked as a
constant and under the constant's own name. The nodes of the file come after the initializers. -/
theorem C88_import_outer_marks {g : GraphProto V} (hg : NamesOk g) {outer : List (String × Arg V)} {nodes : List (Node V)}
    {ins outs : List (Arg V)} (h : importGraph outer g = some (nodes, ins, outs)) {k j : Nat} {np : NodeProto V} {x : String} {a : Arg V}
    (hk : g.nodes[k]? = some np) (hj : np.inputs[j]? = some x) (hi : x ∉ g.inputs) (hb : x ∉ boundNames g)
    (ho : mapGet outer (sanitizeName x) = some a) (hs : a.src = .constant) :
    ∃ n, nodes[g.inits.length + k]? = some n ∧ n.ty = np.ty ∧ n.inputs[j]? = some a := by
  unfold importGraph at h
  split at h
  · cases h
  · next st hst =>
    split at h
    · cases h
    · next os hos =>
      cases h
      have := (outer_loop hg g.nodes (inv_start hg outer) (fun np hn => hg.fits hn) hst).2 k j np x a hk hj hi hb ho hs
      have hl : (GState.start outer g).nodes.length = g.inits.length := by
        have : ∀ (l : List (String × V)) (i : Nat), (initializerNodes i l).length = l.length := by
          intro l
          induction l with
          | nil => intro _; rfl
          | cons p l ih => intro i; simp [initializerNodes, ih]
        exact this _ _
      rwa [hl] at this

/-- The file of `goodGraph` meets the hypotheses; `constant1_out1` and `constant2_out1` are read by two of its nodes. -/
example : NamesOk goodGraph ∧ (∀ np ∈ goodGraph.nodes, Valued np) ∧ ∃ nodes ins outs, importGraph [] goodGraph = some (nodes, ins, outs) ∧
    (∀ x ∈ allNames goodGraph, ∀ n ∈ nodes, sanitizeName x ∉ n.outNames) ∧
    ∃ n ∈ nodes, ∃ a ∈ n.inputs, a.name = "constant2_out1" ∧ a.src = .constant := by
  have hv : ∀ np ∈ goodGraph.nodes, Valued np := by
    intro np hn ht
    simp only [goodGraph, List.mem_cons, List.not_mem_nil, or_false] at hn
    rcases hn with rfl | rfl | rfl | rfl
    · cases ht
    · cases ht
    · exact ⟨⟨7, by decide +kernel⟩, "hi", rfl⟩
    · cases ht
  refine ⟨goodGraph_ok, hv, ?_⟩
  have hm := goodGraph_import
  cases hi : importGraph [] goodGraph with
  | none => rw [hi] at hm; cases hm
  | some r =>
    obtain ⟨nodes, ins, outs⟩ := r
    rw [hi] at hm
    simp only [Option.map_some, Option.some.injEq, Prod.mk.injEq] at hm
    have hf : ∀ x ∈ allNames goodGraph, ∀ n ∈ nodes, sanitizeName x ∉ n.outNames := by
      have hall : ∀ q ∈ nodes.map (fun n => (n.inNames, n.outNames)), ∀ x ∈ allNames goodGraph, sanitizeName x ∉ q.2 := by
        rw [hm.1]; unfold goodGraph; decide +kernel
      exact fun x hx n hn => hall _ (List.mem_map_of_mem hn) x hx
    refine ⟨nodes, ins, outs, rfl, hf, ?_⟩
    have hlast : (["split1_out2", "split1_out1", "constant2_out1"], ["clip1_out1"]) ∈ nodes.map fun n => (n.inNames, n.outNames) := by
      rw [hm.1]; decide +kernel
    obtain ⟨n, hn, he⟩ := List.mem_map.1 hlast
    have hin : "constant2_out1" ∈ n.inNames := by rw [(Prod.mk.inj he).1]; simp
    obtain ⟨a, ha, han⟩ := List.mem_map.1 hin
    have ht : (importGraph [] goodGraph).map (fun r => r.1.map fun n => (n.ty == .constant, n.outNames)) =
        some [(true, ["constant1_out1"]), (false, ["add1_out1"]), (false, ["split1_out1", "split1_out2"]), (true, ["constant2_out1"]),
          (false, ["clip1_out1"])] := by unfold goodGraph; decide +kernel
    rw [hi] at ht
    simp only [Option.map_some, Option.some.injEq] at ht
    have hc' : (true, ["constant2_out1"]) ∈ nodes.map fun n => (n.ty == .constant, n.outNames) := by rw [ht]; decide +kernel
    obtain ⟨c, hcn, hce⟩ := List.mem_map.1 hc'
    have hcx : "constant2_out1" ∈ c.outNames := by rw [(Prod.mk.inj hce).2]; simp
    exact ⟨n, hn, a, ha, han, (C88_import_marks goodGraph_ok hv hi hf hcn (by simpa using (Prod.mk.inj hce).1) hcx).1 n hn a ha han⟩

/-- The branch of the other example reads the enclosing graph's constant. -/
example {nodes : List (Node Int)} {ins outs : List (Arg Int)} (h : importGraph branchOuter branchGraph = some (nodes, ins, outs)) :
    ∃ n, nodes[0]? = some n ∧ n.inputs[1]? = some ⟨"constant1_out1", .default, .constant⟩ := by
  obtain ⟨n, h1, -, h2⟩ := C88_import_outer_marks branchGraph_ok h (k := 0) (j := 1) (x := "k.1")
    (a := ⟨"constant1_out1", .default, .constant⟩) rfl rfl
    (by decide +kernel) (by decide +kernel) (by decide +kernel) rfl
  exact ⟨n, by simpa [branchGraph] using h1, h2⟩

end OnnxIR.Nested
