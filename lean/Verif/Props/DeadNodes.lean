import Verif.Lemmas.Eval

/-!
# C01, C02: dead-node elimination

C01: removing dead nodes never changes a defined result.
C02: the sweep always terminates, and what remains is exactly the set of nodes a graph output
depends on.
-/

namespace OnnxIR

variable {V : Type}

/-! ## Specification -/

/-- A node is needed if a graph output, or an input of a needed node, carries the name of one of
its outputs. -/
inductive Needed (nodes : List (Node V)) (outs : List (Arg V)) : Node V → Prop
  | output {n} (hn : n ∈ nodes) (o) (ho : o ∈ outs) (hx : o.name ∈ n.outNames) :
      Needed nodes outs n
  | feeds {n m} (hn : n ∈ nodes) (hm : Needed nodes outs m) (x) (hx : x ∈ n.outNames)
      (hxm : x ∈ m.inNames) : Needed nodes outs n

/-- Topological order: no node reads a name produced by itself or by a later node. -/
def TopoSorted : List (Node V) → Prop
  | [] => True
  | n :: ns => (∀ x ∈ n.inNames, x ∉ n.outNames ∧ x ∉ ns.flatMap Node.outNames) ∧ TopoSorted ns

/-! ## Lemmas -/

theorem mem_liveNames {nodes : List (Node V)} {outs : List (Arg V)} {x : String} :
    x ∈ liveNames nodes outs ↔ (∃ o ∈ outs, o.name = x) ∨ ∃ m ∈ nodes, x ∈ m.inNames := by
  simp [liveNames, List.mem_append, List.mem_map, List.mem_flatMap]

theorem mem_dceStep {nodes : List (Node V)} {outs : List (Arg V)} {n : Node V} :
    n ∈ dceStep nodes outs ↔
      n ∈ nodes ∧ ∃ x ∈ n.outNames, x ∈ liveNames nodes outs := by
  simp only [dceStep, Node.outNames, List.mem_filter, List.any_eq_true, List.contains_eq_mem,
    decide_eq_true_eq, List.mem_map]
  constructor
  · rintro ⟨h, o, ho, hx⟩; exact ⟨h, o.name, ⟨o, ho, rfl⟩, hx⟩
  · rintro ⟨h, _, ⟨o, ho, rfl⟩, hx⟩; exact ⟨h, o, ho, hx⟩

theorem dceStep_preserves (S : Sem V) (env : Env V) (nodes : List (Node V))
    (outs : List (Arg V)) : Preserves S env outs nodes (dceStep nodes outs) := by
  unfold dceStep
  apply prune_preserves (L := fun x => x ∈ liveNames nodes outs)
  · intro n _ hk x hx hL
    obtain ⟨o, ho, rfl⟩ := List.mem_map.1 hx
    have : (n.outputs.any fun o => (liveNames nodes outs).contains o.name) = true :=
      List.any_eq_true.2 ⟨o, ho, by simpa using hL⟩
    rw [this] at hk; cases hk
  · intro n hn _ a ha _
    exact mem_liveNames.2 (Or.inr ⟨n, hn, List.mem_map.2 ⟨a, ha, rfl⟩⟩)
  · intro a ha _
    exact mem_liveNames.2 (Or.inl ⟨a, ha, rfl⟩)

theorem eliminateDeadNodes_sublist (nodes : List (Node V)) (outs : List (Arg V)) :
    (eliminateDeadNodes nodes outs).Sublist nodes := by
  fun_induction eliminateDeadNodes nodes outs with
  | case1 nodes h => exact List.filter_sublist
  | case2 nodes h ih => exact ih.trans List.filter_sublist

theorem eliminateDeadNodes_fixed (nodes : List (Node V)) (outs : List (Arg V)) :
    dceStep (eliminateDeadNodes nodes outs) outs = eliminateDeadNodes nodes outs := by
  fun_induction eliminateDeadNodes nodes outs with
  | case1 nodes h =>
    have : dceStep nodes outs = nodes := List.Sublist.eq_of_length List.filter_sublist h
    rw [this, this]
  | case2 nodes h ih => exact ih

theorem eliminateDeadNodes_keeps {nodes : List (Node V)} {outs : List (Arg V)} {n : Node V}
    (hn : Needed nodes outs n) : n ∈ eliminateDeadNodes nodes outs := by
  have key : ∀ ns : List (Node V), (∀ m, Needed nodes outs m → m ∈ ns) →
      ∀ m, Needed nodes outs m → m ∈ eliminateDeadNodes ns outs := by
    intro ns
    fun_induction eliminateDeadNodes ns outs with
    | case1 ns h =>
      intro hall m hm
      have : dceStep ns outs = ns := List.Sublist.eq_of_length List.filter_sublist h
      rw [this]; exact hall m hm
    | case2 ns h ih =>
      intro hall
      apply ih
      intro m hm
      refine mem_dceStep.2 ⟨hall m hm, ?_⟩
      cases hm with
      | output hn o ho hx => exact ⟨_, hx, mem_liveNames.2 (Or.inl ⟨o, ho, rfl⟩)⟩
      | feeds hn hm x hx hxm => exact ⟨x, hx, mem_liveNames.2 (Or.inr ⟨_, hall _ hm, hxm⟩)⟩
  exact key nodes (fun m hm => by cases hm <;> assumption) n hn

theorem TopoSorted.sublist {l l' : List (Node V)} (hs : l'.Sublist l) (h : TopoSorted l) :
    TopoSorted l' := by
  induction hs with
  | slnil => exact h
  | cons a _ ih => exact ih h.2
  | cons_cons a hs' ih =>
    refine ⟨fun x hx => ⟨(h.1 x hx).1, fun hm => (h.1 x hx).2 ?_⟩, ih h.2⟩
    obtain ⟨m, hm, hxm⟩ := List.mem_flatMap.1 hm
    exact List.mem_flatMap.2 ⟨m, hs'.subset hm, hxm⟩

/-- In a topologically ordered list in which every node has a live output, every node is
needed. -/
theorem needed_of_fixed {nodes : List (Node V)} {outs : List (Arg V)} : ∀ (suf : List (Node V)),
    ∀ pre, nodes = pre ++ suf → TopoSorted nodes →
    (∀ n ∈ nodes, ∃ x ∈ n.outNames, x ∈ liveNames nodes outs) →
    ∀ n ∈ suf, Needed nodes outs n
  | [], _, _, _, _, n, hn => by cases hn
  | m :: suf, pre, hpre, ht, hl, n, hn => by
    have ih := needed_of_fixed suf (pre ++ [m]) (by simp [hpre]) ht hl
    cases hn with
    | tail _ hn => exact ih n hn
    | head =>
      have hm : m ∈ nodes := by simp [hpre]
      obtain ⟨x, hx, hL⟩ := hl m hm
      rcases mem_liveNames.1 hL with ⟨o, ho, rfl⟩ | ⟨k, hk, hxk⟩
      · exact .output hm o ho hx
      · refine .feeds hm (ih k ?_) x hx hxk
        -- `k` reads an output of `m`, so it comes after `m`
        rw [hpre] at hk
        rcases List.mem_append.1 hk with hk | hk
        · exfalso
          obtain ⟨a, b, rfl⟩ := List.append_of_mem hk
          rw [hpre] at ht
          have h2 : TopoSorted (k :: (b ++ m :: suf)) :=
            ht.sublist (by simp)
          refine (h2.1 x hxk).2 (List.mem_flatMap.2 ⟨m, ?_, hx⟩)
          simp
        · cases hk with
          | tail _ hk => exact hk
          | head =>
            exfalso
            rw [hpre] at ht
            have h2 : TopoSorted (m :: suf) := ht.sublist (List.sublist_append_right _ _)
            exact (h2.1 x hxk).1 hx

theorem Needed.mono {nodes nodes' : List (Node V)} {outs : List (Arg V)} {n : Node V}
    (hsub : ∀ m ∈ nodes', m ∈ nodes) (h : Needed nodes' outs n) : Needed nodes outs n := by
  induction h with
  | output hn o ho hx => exact .output (hsub _ hn) o ho hx
  | feeds hn _ x hx hxm ih => exact .feeds (hsub _ hn) ih x hx hxm

/-! ## The properties -/

/-- **C01.** For every operator semantics, every binding of the graph inputs, every graph and
every output list: if the graph computes a result, the graph without its dead nodes computes the
same result. -/
theorem C01_dead_nodes_preserve_outputs (S : Sem V) (env : Env V) (nodes : List (Node V))
    (outs : List (Arg V)) (r : List (Option V)) (h : evalGraph S env nodes outs = some r) :
    evalGraph S env (eliminateDeadNodes nodes outs) outs = some r := by
  have key : ∀ ns : List (Node V), evalGraph S env ns outs = some r →
      evalGraph S env (eliminateDeadNodes ns outs) outs = some r := by
    intro ns
    fun_induction eliminateDeadNodes ns outs with
    | case1 ns h => exact fun h => dceStep_preserves S env ns outs r h
    | case2 ns h ih => exact fun h => ih (dceStep_preserves S env ns outs r h)
  exact key nodes h

/-- **C01**, second half: no node is invented, duplicated or reordered. -/
theorem C01_dead_nodes_sublist (nodes : List (Node V)) (outs : List (Arg V)) :
    (eliminateDeadNodes nodes outs).Sublist nodes :=
  eliminateDeadNodes_sublist nodes outs

/-- **C02.** On a topologically ordered graph the elimination (a total function: the loop ends on
every input) keeps exactly the nodes some graph output depends on. -/
theorem C02_dead_nodes_complete (nodes : List (Node V)) (outs : List (Arg V))
    (ht : TopoSorted nodes) (n : Node V) :
    n ∈ eliminateDeadNodes nodes outs ↔ Needed nodes outs n := by
  constructor
  · intro hn
    have hsub := eliminateDeadNodes_sublist nodes outs
    refine Needed.mono (fun m hm => hsub.subset hm) ?_
    refine needed_of_fixed _ [] rfl (ht.sublist hsub) ?_ n hn
    intro m hm
    rw [← eliminateDeadNodes_fixed] at hm
    exact (mem_dceStep.1 hm).2
  · exact eliminateDeadNodes_keeps

/-- **C02**, idempotence: a second elimination removes nothing, with or without topological
order. -/
theorem C02_dead_nodes_idempotent (nodes : List (Node V)) (outs : List (Arg V)) :
    eliminateDeadNodes (eliminateDeadNodes nodes outs) outs = eliminateDeadNodes nodes outs := by
  rw [eliminateDeadNodes, eliminateDeadNodes_fixed]; simp

/-! ## Witnesses -/

section Examples

/-- x → Relu → a; a → Abs → b; a → Sign → c; only `b` is an output. -/
def exNodes : List (Node Int) :=
  [ ⟨.relu, "relu1", [⟨"x", .default, .dynamic⟩], [⟨"a", .default, .dynamic⟩], []⟩,
    ⟨.abs, "abs1", [⟨"a", .default, .dynamic⟩], [⟨"b", .default, .dynamic⟩], []⟩,
    ⟨.sign, "sign1", [⟨"a", .default, .dynamic⟩], [⟨"c", .default, .dynamic⟩], []⟩,
    ⟨.ceil, "ceil1", [⟨"c", .default, .dynamic⟩], [⟨"d", .default, .dynamic⟩], []⟩ ]

def exOuts : List (Arg Int) := [⟨"b", .default, .dynamic⟩]

def exSem : Sem Int := fun _ ty _ xs =>
  match ty, xs with
  | .relu, [some x] => some [max x 0]
  | .abs, [some x] => some [if x < 0 then -x else x]
  | .sign, [some x] => some [x.sign]
  | .ceil, [some x] => some [x]
  | _, _ => none

def exEnv : Env Int := fun s => if s = "x" then some 5 else none

example : evalGraph exSem exEnv exNodes exOuts = some [some 5] := by decide +kernel

example : TopoSorted exNodes := by
  refine ⟨?_, ?_, ?_, ?_, trivial⟩ <;> decide

/-- Two sweeps are needed here: `d` dies first, then `c`. -/
example : (eliminateDeadNodes exNodes exOuts).map Node.name = ["relu1", "abs1"] := by
  rw [eliminateDeadNodes, if_neg (by decide), eliminateDeadNodes, if_neg (by decide),
    eliminateDeadNodes, if_pos (by decide)]
  decide

end Examples

end OnnxIR
