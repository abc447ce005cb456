import Verif.Props.Sanitize
import Verif.Spec.Scope

/-!
# C38: outer-scope references are the free names

`C38_extract_exact_partial`: for graphs of any nesting depth whose names stay apart after
sanitising, the references found are exactly the free names (sanitised), plus the graph's own formal
inputs. For an If node that is exactly the free names of its branches (`C38_if_exact`). For a Loop or
Scan node the body's formal inputs are reported as references to the enclosing graph
(`C38_loop_inputs_reported`).
-/

namespace OnnxIR

theorem mem_sanAll {s : String} {xs : List String} :
    s ∈ sanAll xs ↔ ∃ x ∈ xs, x ≠ "" ∧ s = sanitizeName x := by
  simp only [sanAll, List.mem_map, List.mem_filter, decide_eq_true_eq]
  constructor
  · rintro ⟨x, ⟨h1, h2⟩, rfl⟩; exact ⟨x, h1, h2, rfl⟩
  · rintro ⟨x, h1, h2, rfl⟩; exact ⟨x, ⟨h1, h2⟩, rfl⟩

theorem mem_nodesRefs {defd : List String} {s : String} : ∀ {nodes : List ScopeNode},
    s ∈ nodesRefs defd nodes ↔ ∃ n ∈ nodes, s ∈ sanAll n.inputs ∨
      s ∈ attrsRefs defd (n.op == "Loop" || n.op == "Scan") n.attrs
  | [] => by simp [nodesRefs]
  | .mk op ins outs attrs :: ns => by
    rw [nodesRefs, List.mem_append, List.mem_append, mem_nodesRefs (nodes := ns)]
    simp [ScopeNode.inputs, ScopeNode.op, ScopeNode.attrs]

theorem mem_graphsRefs {defd : List String} {s : String} : ∀ {gs : List ScopeGraph},
    s ∈ graphsRefs defd gs ↔ ∃ g ∈ gs, s ∈ extractOuter g ∧ s ∉ defd
  | [] => by simp [graphsRefs]
  | g :: gs => by
    rw [graphsRefs, List.mem_append, mem_graphsRefs (gs := gs)]
    simp

/-- The formal inputs a loop provides for a nested graph. -/
def providedTo (b : Bool) (h : ScopeGraph) : List String := if b = true then sanAll h.inputs else []

theorem mem_attrsRefs {defd : List String} {s : String} {op : String} {ins outs : List String} :
    ∀ {attrs : List ScopeAttr},
      s ∈ attrsRefs defd (op == "Loop" || op == "Scan") attrs ↔
        ∃ b h, (b, h) ∈ (ScopeNode.mk op ins outs attrs).bodies ∧ s ∈ extractOuter h ∧ s ∉ defd ∧
          s ∉ providedTo b h
  | [] => by simp [attrsRefs, ScopeNode.bodies, ScopeNode.attrs]
  | .other :: as => by
    rw [attrsRefs, mem_attrsRefs (attrs := as) (ins := ins) (outs := outs)]
    exact Iff.rfl
  | .graph name g :: as => by
    rw [attrsRefs, List.mem_append, mem_attrsRefs (attrs := as) (ins := ins) (outs := outs)]
    simp only [ScopeNode.bodies, ScopeNode.attrs, ScopeNode.op, List.flatMap_cons, List.mem_append,
      List.mem_singleton, List.mem_filter, Bool.and_eq_true, Bool.not_eq_true',
      List.contains_eq_mem, decide_eq_false_iff_not, Prod.mk.injEq]
    have hp : loopProvided (op == "Loop" || op == "Scan") name g =
        providedTo (decide ((op = "Loop" ∨ op = "Scan") ∧ name = "body")) g := by
      unfold loopProvided providedTo
      by_cases h1 : op = "Loop" <;> by_cases h2 : op = "Scan" <;> by_cases h3 : name = "body" <;>
        simp [h1, h2, h3]
    constructor
    · rintro (⟨h1, h2, h3⟩ | ⟨b, h, h1, h2⟩)
      · exact ⟨_, g, .inl ⟨rfl, rfl⟩, h1, h2, hp ▸ h3⟩
      · exact ⟨b, h, .inr h1, h2⟩
    · rintro ⟨b, h, (⟨rfl, rfl⟩ | h1), h2, h3, h4⟩
      · exact .inl ⟨h2, h3, hp ▸ h4⟩
      · exact .inr ⟨b, h, h1, h2, h3, h4⟩
  | .graphs gs :: as => by
    rw [attrsRefs, List.mem_append, mem_graphsRefs,
      mem_attrsRefs (attrs := as) (ins := ins) (outs := outs)]
    simp only [ScopeNode.bodies, ScopeNode.attrs, ScopeNode.op, List.flatMap_cons, List.mem_append,
      List.mem_map, Prod.mk.injEq]
    constructor
    · rintro (⟨h, h1, h2, h3⟩ | ⟨b, h, h1, h2⟩)
      · exact ⟨false, h, .inl ⟨h, h1, rfl, rfl⟩, h2, h3, by simp [providedTo]⟩
      · exact ⟨b, h, .inr h1, h2⟩
    · rintro ⟨b, h, (⟨h', h1, rfl, rfl⟩ | h1), h2, h3, h4⟩
      · exact .inl ⟨h', h1, h2, h3⟩
      · exact .inr ⟨b, h, h1, h2, h3, h4⟩

/-- One unfolding of the extraction, in terms of membership. -/
theorem mem_extractOuter {s : String} (g : ScopeGraph) :
    s ∈ extractOuter g ↔ s ∉ definedNames g.inputs g.inits g.nodes ∧
      ((∃ x ∈ g.inputs, isOuterInput g.inits x = true ∧ s = sanitizeName x) ∨
       (∃ n ∈ g.nodes, s ∈ sanAll n.inputs ∨ ∃ b h, (b, h) ∈ n.bodies ∧ s ∈ extractOuter h ∧
          s ∉ definedNames g.inputs g.inits g.nodes ∧ s ∉ providedTo b h) ∨ s ∈ sanAll g.outputs) := by
  obtain ⟨ins, inits, outs, nodes⟩ := g
  rw [extractOuter, List.mem_filter, List.mem_append, List.mem_append, mem_nodesRefs, List.mem_map]
  simp only [ScopeGraph.inputs, ScopeGraph.inits, ScopeGraph.nodes, ScopeGraph.outputs,
    Bool.not_eq_true', List.contains_eq_mem, decide_eq_false_iff_not, List.mem_filter, or_assoc]
  have hn : ∀ n : ScopeNode, s ∈ attrsRefs (definedNames ins inits nodes) (n.op == "Loop" || n.op == "Scan") n.attrs ↔
      ∃ b h, (b, h) ∈ n.bodies ∧ s ∈ extractOuter h ∧ s ∉ definedNames ins inits nodes ∧ s ∉ providedTo b h := by
    rintro ⟨op, i, o, a⟩
    exact mem_attrsRefs
  constructor
  · rintro ⟨h1, h2⟩
    refine ⟨h2, ?_⟩
    rcases h1 with ⟨x, ⟨h3, h4⟩, h5⟩ | ⟨n, h3, h4⟩ | h3
    · exact .inl ⟨x, h3, h4, h5.symm⟩
    · exact .inr (.inl ⟨n, h3, h4.imp id (hn n).1⟩)
    · exact .inr (.inr h3)
  · rintro ⟨h2, h1⟩
    refine ⟨?_, h2⟩
    rcases h1 with ⟨x, h3, h4, h5⟩ | ⟨n, h3, h4⟩ | h3
    · exact .inl ⟨x, ⟨h3, h4⟩, h5.symm⟩
    · exact .inr (.inl ⟨n, h3, h4.imp id (hn n).2⟩)
    · exact .inr (.inr h3)

/-- Names stay apart after sanitising, and sanitised names are not empty. -/
def Apart (g : ScopeGraph) : Prop :=
  ∀ x y, Occurs g x → Occurs g y → sanitizeName x = sanitizeName y → x = y

/-- The name is a formal input: an input without initializer, and not rebound by a node. -/
def Formal (g : ScopeGraph) (x : String) : Prop :=
  x ∈ g.inputs ∧ x ≠ "" ∧ x ∉ g.inits ∧ ∀ n ∈ g.nodes, x ∉ n.outputs

theorem free_occurs {g : ScopeGraph} {x : String} (h : Free g x) : Occurs g x := by
  induction h with
  | read h1 h2 _ _ => exact .read h1 h2
  | result h1 _ _ => exact .output h1
  | nested h1 h2 _ _ ih => exact .nested h1 h2 ih

theorem free_ne {g : ScopeGraph} {x : String} (h : Free g x) : x ≠ "" ∧ ¬ Binds g x := by
  induction h with
  | read _ _ h3 h4 => exact ⟨h3, h4⟩
  | result _ h2 h3 => exact ⟨h2, h3⟩
  | nested _ _ _ h4 ih => exact ⟨ih.1, h4⟩

theorem outer_input_iff {g : ScopeGraph} (ha : Apart g) {x : String} (hx : x ∈ g.inputs) :
    isOuterInput g.inits x = true ↔ x ≠ "" ∧ x ∉ g.inits := by
  simp only [isOuterInput, Bool.and_eq_true, decide_eq_true_eq, Bool.not_eq_true',
    List.contains_eq_mem, decide_eq_false_iff_not, mem_sanAll]
  constructor
  · rintro ⟨h1, h2⟩
    exact ⟨h1, fun hi => h2 ⟨x, hi, h1, rfl⟩⟩
  · rintro ⟨h1, h2⟩
    refine ⟨h1, ?_⟩
    rintro ⟨y, hy, _, he⟩
    exact h2 (ha x y (.input hx) (.init hy) he ▸ hy)

/-- The defined names are those bound by initializers and nodes. -/
theorem defined_iff {g : ScopeGraph} (ha : Apart g) {x : String} (hx : Occurs g x) (hne : x ≠ "") :
    sanitizeName x ∈ definedNames g.inputs g.inits g.nodes ↔ x ∈ g.inits ∨ ∃ n ∈ g.nodes, x ∈ n.outputs := by
  unfold definedNames
  rw [List.mem_append, List.mem_append, mem_sanAll, List.mem_map, List.mem_flatMap]
  constructor
  · rintro ((⟨y, hy, he⟩ | ⟨y, hy, _, he⟩) | ⟨n, hn, hs⟩)
    · rw [List.mem_filter] at hy
      have hxy := ha y x (.input hy.1) hx he
      subst hxy
      have h2 := hy.2
      simp only [Bool.and_eq_true, decide_eq_true_eq, Bool.not_eq_true'] at h2
      by_cases hi : y ∈ g.inits
      · exact .inl hi
      · rw [(outer_input_iff ha hy.1).2 ⟨hne, hi⟩] at h2; simp at h2
    · exact .inl (ha x y hx (.init hy) he ▸ hy)
    · obtain ⟨y, hy, _, he⟩ := mem_sanAll.1 hs
      exact .inr ⟨n, hn, ha x y hx (.written hn hy) he ▸ hy⟩
  · rintro (hi | ⟨n, hn, ho⟩)
    · exact .inl (.inr ⟨x, hi, hne, rfl⟩)
    · exact .inr ⟨n, hn, mem_sanAll.2 ⟨x, ho, hne, rfl⟩⟩

theorem binds_cases {g : ScopeGraph} {x : String} (hne : x ≠ "")
    (hd : ¬ (x ∈ g.inits ∨ ∃ n ∈ g.nodes, x ∈ n.outputs)) : Formal g x ∨ ¬ Binds g x := by
  by_cases hi : x ∈ g.inputs
  · exact .inl ⟨hi, hne, fun h => hd (.inl h), fun n hn ho => hd (.inr ⟨n, hn, ho⟩)⟩
  · refine .inr ?_
    rintro (h | h | h)
    · exact hi h
    · exact hd (.inl h)
    · exact hd (.inr h)

theorem sizeOf_body {g h : ScopeGraph} {n : ScopeNode} {b : Bool} (hn : n ∈ g.nodes)
    (hb : (b, h) ∈ n.bodies) : sizeOf h < sizeOf g := by
  obtain ⟨ins, inits, outs, nodes⟩ := g
  obtain ⟨op, i, o, attrs⟩ := n
  have h1 : sizeOf (ScopeNode.mk op i o attrs) < sizeOf nodes := List.sizeOf_lt_of_mem hn
  simp only [ScopeNode.bodies, ScopeNode.attrs, List.mem_flatMap] at hb
  obtain ⟨a, ha, hb⟩ := hb
  have h2 : sizeOf a < sizeOf attrs := List.sizeOf_lt_of_mem ha
  have h3 : sizeOf h < sizeOf a := by
    cases a with
    | graph name k => simp at hb; simp [hb.2]; omega
    | graphs gs =>
      simp at hb
      have := List.sizeOf_lt_of_mem hb.1
      simp; omega
    | other => simp at hb
  simp at h1 ⊢
  omega

/-- **C38.** For every nesting depth and all names that stay apart after sanitising: the references
found in a subgraph are the sanitised free names, and the subgraph's own formal inputs. -/
theorem C38_extract_exact_partial (g : ScopeGraph) (ha : Apart g) (hp : PlainBranches g) (s : String) :
    s ∈ extractOuter g ↔ ∃ x, s = sanitizeName x ∧ (Free g x ∨ Formal g x) := by
  have main : ∀ (k : Nat) (g : ScopeGraph), sizeOf g ≤ k → Apart g → PlainBranches g → ∀ s,
      (s ∈ extractOuter g ↔ ∃ x, s = sanitizeName x ∧ (Free g x ∨ Formal g x)) := by
    intro k
    induction k with
    | zero =>
      intro g hk
      obtain ⟨i, j, o, n⟩ := g
      simp at hk
    | succ k ih =>
      intro g hk ha hp s
      have hsub : ∀ n ∈ g.nodes, ∀ b h, (b, h) ∈ n.bodies → Apart h ∧ PlainBranches h ∧
          ∀ s, (s ∈ extractOuter h ↔ ∃ x, s = sanitizeName x ∧ (Free h x ∨ Formal h x)) := by
        intro n hn b h hb
        have hah : Apart h := fun x y hx hy he => ha x y (.nested hn hb hx) (.nested hn hb hy) he
        have hph : PlainBranches h := by cases hp with | mk _ h2 => exact h2 n hn b h hb
        exact ⟨hah, hph, ih h (by have := sizeOf_body hn hb; omega) hah hph⟩
      rw [mem_extractOuter]
      constructor
      · rintro ⟨hd, h⟩
        rcases h with ⟨x, hx, ho, rfl⟩ | ⟨n, hn, h⟩ | h
        · obtain ⟨hne, hi⟩ := (outer_input_iff ha hx).1 ho
          rw [defined_iff ha (.input hx) hne] at hd
          exact ⟨x, rfl, .inr ⟨hx, hne, hi, fun n hn ho => hd (.inr ⟨n, hn, ho⟩)⟩⟩
        · rcases h with h | ⟨b, h, hb, he, -, hpr⟩
          · obtain ⟨x, hx, hne, rfl⟩ := mem_sanAll.1 h
            rw [defined_iff ha (.read hn hx) hne] at hd
            rcases binds_cases hne hd with hf | hb
            · exact ⟨x, rfl, .inr hf⟩
            · exact ⟨x, rfl, .inl (.read hn hx hne hb)⟩
          · obtain ⟨hah, hph, heq⟩ := hsub n hn b h hb
            obtain ⟨x, rfl, hx⟩ := (heq s).1 he
            rcases hx with hx | hx
            · have hne := (free_ne hx).1
              rw [defined_iff ha (.nested hn hb (free_occurs hx)) hne] at hd
              rcases binds_cases hne hd with hf | hnb
              · exact ⟨x, rfl, .inr hf⟩
              · exact ⟨x, rfl, .inl (.nested hn hb hx hnb)⟩
            · exfalso
              cases b with
              | true => exact hpr (by simp [providedTo, mem_sanAll]; exact ⟨x, hx.1, hx.2.1, rfl⟩)
              | false =>
                cases hp with
                | mk h1 _ =>
                  have := h1 n hn h hb
                  rw [Formal, this] at hx
                  exact absurd hx.1 (by simp)
        · obtain ⟨x, hx, hne, rfl⟩ := mem_sanAll.1 h
          rw [defined_iff ha (.output hx) hne] at hd
          rcases binds_cases hne hd with hf | hb
          · exact ⟨x, rfl, .inr hf⟩
          · exact ⟨x, rfl, .inl (.result hx hne hb)⟩
      · rintro ⟨x, rfl, hx | hx⟩
        · have hne := (free_ne hx).1
          have hnb := (free_ne hx).2
          have hocc := free_occurs hx
          have hd : sanitizeName x ∉ definedNames g.inputs g.inits g.nodes := by
            rw [defined_iff ha hocc hne]
            exact fun h => hnb (.inr h)
          refine ⟨hd, ?_⟩
          cases hx with
          | read hn hx _ _ => exact .inr (.inl ⟨_, hn, .inl (mem_sanAll.2 ⟨x, hx, hne, rfl⟩)⟩)
          | result hx _ _ => exact .inr (.inr (mem_sanAll.2 ⟨x, hx, hne, rfl⟩))
          | nested hn hb hf _ =>
            obtain ⟨hah, hph, heq⟩ := hsub _ hn _ _ hb
            refine .inr (.inl ⟨_, hn, .inr ⟨_, _, hb, (heq _).2 ⟨x, rfl, .inl hf⟩, hd, ?_⟩⟩)
            unfold providedTo
            split
            · intro hm
              obtain ⟨y, hy, hye, he⟩ := mem_sanAll.1 hm
              have hxy := hah x y (free_occurs hf) (.input hy) he
              exact (free_ne hf).2 (.inl (hxy ▸ hy))
            · simp
        · obtain ⟨hi, hne, hni, hno⟩ := hx
          refine ⟨?_, .inl ⟨x, hi, (outer_input_iff ha hi).2 ⟨hne, hni⟩, rfl⟩⟩
          rw [defined_iff ha (.input hi) hne]
          rintro (h | ⟨n, hn, h⟩)
          · exact hni h
          · exact hno n hn h
  exact main (sizeOf g) g (Nat.le_refl _) ha hp s

theorem mem_attrsOuter {s : String} : ∀ {op : String} {ins outs : List String} {attrs : List ScopeAttr},
    s ∈ attrsOuter attrs ↔ ∃ b h, (b, h) ∈ (ScopeNode.mk op ins outs attrs).bodies ∧ s ∈ extractOuter h
  | op, ins, outs, [] => by simp [attrsOuter, ScopeNode.bodies, ScopeNode.attrs]
  | op, ins, outs, .other :: as => by
    rw [attrsOuter, mem_attrsOuter (op := op) (ins := ins) (outs := outs) (attrs := as)]
    exact Iff.rfl
  | op, ins, outs, .graph name g :: as => by
    rw [attrsOuter, List.mem_append, mem_attrsOuter (op := op) (ins := ins) (outs := outs) (attrs := as)]
    simp only [ScopeNode.bodies, ScopeNode.attrs, ScopeNode.op, List.flatMap_cons, List.mem_append,
      List.mem_singleton, Prod.mk.injEq]
    constructor
    · rintro (h | ⟨b, h, h1, h2⟩)
      · exact ⟨_, g, .inl ⟨rfl, rfl⟩, h⟩
      · exact ⟨b, h, .inr h1, h2⟩
    · rintro ⟨b, h, (⟨_, rfl⟩ | h1), h2⟩
      · exact .inl h2
      · exact .inr ⟨b, h, h1, h2⟩
  | op, ins, outs, .graphs gs :: as => by
    rw [attrsOuter, List.mem_append, List.mem_flatMap,
      mem_attrsOuter (op := op) (ins := ins) (outs := outs) (attrs := as)]
    simp only [ScopeNode.bodies, ScopeNode.attrs, ScopeNode.op, List.flatMap_cons, List.mem_append,
      List.mem_map, Prod.mk.injEq]
    constructor
    · rintro (⟨h, h1, h2⟩ | ⟨b, h, h1, h2⟩)
      · exact ⟨false, h, .inl ⟨h, h1, rfl, rfl⟩, h2⟩
      · exact ⟨b, h, .inr h1, h2⟩
    · rintro ⟨b, h, (⟨h', h1, _, rfl⟩ | h1), h2⟩
      · exact .inl ⟨h', h1, h2⟩
      · exact .inr ⟨b, h, h1, h2⟩

/-- **C38 for a node whose subgraphs have no formal inputs** (an If): the enclosing values added to
the node are exactly the free names of its subgraphs. -/
theorem C38_if_exact (n : ScopeNode) (ha : ∀ b h, (b, h) ∈ n.bodies → Apart h)
    (hp : ∀ b h, (b, h) ∈ n.bodies → PlainBranches h) (hno : ∀ b h, (b, h) ∈ n.bodies → h.inputs = [])
    (s : String) :
    s ∈ extractNodeOuter n ↔ ∃ b h, (b, h) ∈ n.bodies ∧ ∃ x, Free h x ∧ s = sanitizeName x := by
  obtain ⟨op, ins, outs, attrs⟩ := n
  unfold extractNodeOuter
  simp only [ScopeNode.attrs]
  rw [mem_attrsOuter (op := op) (ins := ins) (outs := outs)]
  constructor
  · rintro ⟨b, h, hb, hs⟩
    obtain ⟨x, hx, hf⟩ := (C38_extract_exact_partial h (ha b h hb) (hp b h hb) s).1 hs
    refine ⟨b, h, hb, x, ?_, hx⟩
    rcases hf with hf | hf
    · exact hf
    · rw [Formal, hno b h hb] at hf; exact absurd hf.1 (by simp)
  · rintro ⟨b, h, hb, x, hf, hs⟩
    exact ⟨b, h, hb, (C38_extract_exact_partial h (ha b h hb) (hp b h hb) s).2 ⟨x, hs, .inl hf⟩⟩

/-! ## Cases -/

/-- A loop body: formal inputs `i`, `cond`, `acc`; reads the enclosing `x` and `acc`; contains an If
whose branch reads the enclosing `y` and the body's `t`. -/
def loopBody : ScopeGraph :=
  .mk ["i", "cond", "acc"] [] ["cond", "acc2"]
    [.mk "Add" ["acc", "x"] ["t"] [],
     .mk "If" ["cond"] ["acc2"] [.graph "then_branch" (.mk [] [] ["r"] [.mk "Mul" ["t", "y"] ["r"] []]),
                                  .graph "else_branch" (.mk [] [] ["t"] [])]]

/-- The If node of `loopBody` and the enclosing loop. -/
def loopNode : ScopeNode := .mk "Loop" ["n", "c0", "a0"] ["out"] [.graph "body" loopBody]

/-- A branch that returns the enclosing `y`. -/
def yBranch : ScopeGraph := .mk [] [] ["y"] []

/-- The outer branch of `ifNode`: an initializer `w`, a node and a nested If. -/
def wBranch : ScopeGraph :=
  .mk [] ["w"] ["r"] [.mk "Mul" ["t", "w"] ["q"] [],
    .mk "If" ["c"] ["r"] [.graph "then_branch" (.mk [] [] ["q"] []), .graph "else_branch" yBranch]]

/-- An If node whose branch contains another If. -/
def ifNode : ScopeNode := .mk "If" ["c"] ["o"] [.graph "then_branch" wBranch]

/-- `x` and `y` are found through two levels. -/
theorem loopBody_refs : extractOuter loopBody = ["i", "cond", "acc", "acc", "x", "cond", "y", "cond"] := by
  decide +kernel

/-- **C38 fails for loops**: the references added to a Loop node contain the body's formal inputs
`i`, `cond` and `acc`, which are not names of the enclosing graph and are not free in the body. -/
theorem C38_loop_inputs_reported : "i" ∈ extractNodeOuter loopNode ∧ ¬ Free loopBody "i" := by
  refine ⟨by decide +kernel, fun h => (free_ne h).2 (.inl (by decide))⟩

/-- **C38 fails when names clash after sanitising**: a branch that binds `a.b` and reads the
enclosing `a/b` reports nothing. -/
theorem C38_clash_missed :
    extractOuter (.mk [] [] ["r"] [.mk "Relu" ["z"] ["a.b"] [], .mk "Neg" ["a/b"] ["r"] []]) = ["z"] := by
  decide +kernel

/-- The hypotheses of `C38_if_exact` are met by an If node with a nested If; `y` and `t` are free. -/
example : extractNodeOuter ifNode = ["t", "c", "y"] := by
  decide +kernel

/-- The inner branches of `ifNode` satisfy the guards. -/
theorem yBranch_apart : Apart yBranch := by
  intro x y hx hy _
  have key : ∀ z, Occurs yBranch z → z = "y" := by
    intro z hz
    cases hz <;> simp_all [yBranch, ScopeGraph.inputs, ScopeGraph.inits, ScopeGraph.nodes, ScopeGraph.outputs]
  rw [key x hx, key y hy]

example : ∃ x, Free yBranch x :=
  ⟨"y", .result (by decide) (by decide) (by
    rintro (h | h | ⟨n, h, _⟩) <;> simp [yBranch, ScopeGraph.inputs, ScopeGraph.inits, ScopeGraph.nodes] at h)⟩

end OnnxIR
