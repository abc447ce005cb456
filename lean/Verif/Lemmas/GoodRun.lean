import Verif.Props.RenamePasses
import Verif.Props.ConstantShape

/-!
# What the passes rely on, stated about the final state of a run

In a single-assignment graph every state of the run agrees with the final state, so the hypotheses of the
passes (constant table right, annotations right) can be stated about the final state alone. This file shows
that they survive the rewritings the passes make.
-/

namespace OnnxIR

variable {V : Type}

/-- Every value of the first environment is the same in the second. -/
def Below (e' e : Env V) : Prop := ∀ x w, e' x = some w → e x = some w

theorem Below.refl (e : Env V) : Below e e := fun _ _ h => h

theorem Below.arg {e' e : Env V} (h : Below e' e) {a : Arg V} {v : Option V}
    (ha : evalArg e' a = some v) : evalArg e a = some v := by
  unfold evalArg at ha ⊢
  cases hs : a.src <;> simp only [hs] at ha ⊢ <;> try exact ha
  all_goals
    cases hw : e' a.name with
    | none => simp [hw] at ha
    | some w => rw [h _ _ hw]; rw [hw] at ha; exact ha

theorem Below.args {e' e : Env V} (h : Below e' e) : ∀ {as : List (Arg V)} {xs},
    evalArgs e' as = some xs → evalArgs e as = some xs
  | [], _, ha => ha
  | a :: as, xs, ha => by
    obtain ⟨v, vs, h1, h2, rfl⟩ := evalArgs_cons ha
    simp only [evalArgs, h.arg h1, h.args h2]

theorem SSA.below {S : Sem V} {env E e : Env V} {nodes p q : List (Node V)} (hs : SSA env nodes)
    (hE : evalNodes S env nodes = some E) (hn : nodes = p ++ q) (he : evalNodes S env p = some e) :
    Below e E := by
  subst hn
  rw [evalNodes_append, he] at hE
  exact fun x w hw => hs.stable he hE hw

/-- The annotations are right in the state `E`. -/
def TypedAt (tv : TensorView V) (E : Env V) (nodes : List (Node V)) : Prop :=
  ∀ n ∈ nodes, (∀ a ∈ n.inputs, ∀ v, evalArg E a = some (some v) → a.ty.Admits (tv.shape v)) ∧
    (∀ o ∈ n.outputs, ∀ v, E o.name = some v → o.ty.Admits (tv.shape v))

theorem TypedAt.run {S : Sem V} {tv : TensorView V} {env E : Env V} {nodes : List (Node V)}
    (hs : SSA env nodes) (hE : evalNodes S env nodes = some E) (h : TypedAt tv E nodes) :
    TypedRun S tv env nodes := by
  intro p n q e1 e2 hn h1 h2
  have hb1 : Below e1 E := hs.below hE hn h1
  have hb2 : Below e2 E := hs.below (p := p ++ [n]) (q := q) hE (by simp [hn]) (by
    rw [evalNodes_append, h1]; simp [evalNodes, h2])
  have hm : n ∈ nodes := by rw [hn]; simp
  exact ⟨fun a ha v hv => (h n hm).1 a ha v (hb1.arg hv), fun o ho v hv => (h n hm).2 o ho v (hb2 _ _ hv)⟩

/-- The name of an output of a node that runs is bound at the end. -/
theorem SSA.bound {S : Sem V} {env E : Env V} {nodes : List (Node V)} (hs : SSA env nodes)
    (hE : evalNodes S env nodes = some E) {p q : List (Node V)} {n : Node V} (hn : nodes = p ++ n :: q) :
    ∃ e1 e2, evalNodes S env p = some e1 ∧ evalNode S e1 n = some e2 ∧ Below e1 E ∧ Below e2 E ∧
      ∀ x ∈ n.outNames, ∃ w, e2 x = some w := by
  obtain ⟨e1, e2, h1, h2, h3⟩ := evalNodes_split (hn ▸ hE)
  refine ⟨e1, e2, h1, h2, hs.below hE hn h1, hs.below (p := p ++ [n]) (q := q) hE (by simp [hn]) (by
    rw [evalNodes_append, h1]; simp [evalNodes, h2]), ?_⟩
  intro x hx
  obtain ⟨xs, ys, _, _, hl, rfl⟩ := evalNode_some h2
  obtain ⟨v, _, hv⟩ := bindAll_mem n.outNames ys e1 x hx (by rw [hl, Node.outNames, List.length_map])
  exact ⟨v, hv⟩

theorem TypedRun.at {S : Sem V} {tv : TensorView V} {env E : Env V} {nodes : List (Node V)}
    (hs : SSA env nodes) (hE : evalNodes S env nodes = some E) (h : TypedRun S tv env nodes) :
    TypedAt tv E nodes := by
  intro n hm
  obtain ⟨p, q, hn⟩ := List.append_of_mem hm
  obtain ⟨e1, e2, h1, h2, hb1, hb2, hx⟩ := hs.bound hE hn
  have ht := h p n q e1 e2 hn h1 h2
  constructor
  · intro a ha v hv
    obtain ⟨xs, ys, hxs, _⟩ := evalNode_some h2
    obtain ⟨u, hu⟩ := evalArgs_mem hxs a ha
    have := hb1.arg hu
    rw [hv] at this
    cases this
    exact ht.1 a ha v hu
  · intro o ho v hv
    obtain ⟨w, hw⟩ := hx o.name (List.mem_map.2 ⟨o, ho, rfl⟩)
    have := hb2 _ _ hw
    rw [hv] at this
    cases this
    exact ht.2 o ho v hw

/-- All the passes rely on, about one run. -/
structure GoodRun (S : Sem V) (tv : TensorView V) (env : Env V) (nodes : List (Node V))
    (cmap : String → Option V) (E : Env V) : Prop where
  run : evalNodes S env nodes = some E
  ssa : SSA env nodes
  wf : WfNames nodes
  noname : env "" = none
  /-- No value has a name that the simplifier gives to an embedded constant. -/
  labels : ∀ n ∈ nodes, ∀ x ∈ n.outNames, ∀ y, x ≠ y ++ "_const"
  table : ConstTableOk cmap E
  typed : TypedAt tv E nodes

theorem GoodRun.tableOk {S : Sem V} {tv : TensorView V} {env E : Env V} {nodes : List (Node V)}
    {cmap : String → Option V} (g : GoodRun S tv env nodes cmap E) : TableOk S env nodes cmap := by
  intro p q e hn he x v w hx hw
  exact g.table x v w hx (g.ssa.below g.run hn he x w hw)

theorem GoodRun.typedRun {S : Sem V} {tv : TensorView V} {env E : Env V} {nodes : List (Node V)}
    {cmap : String → Option V} (g : GoodRun S tv env nodes cmap E) : TypedRun S tv env nodes :=
  g.typed.run g.ssa g.run

/-- An input that stands for another one: the same annotation, the same value. -/
structure SameArg (E : Env V) (a a' : Arg V) : Prop where
  ty : a'.ty = a.ty
  val : ∀ v, evalArg E a' = some (some v) → evalArg E a = some (some v)
  wf : WfArg a'
  static : ∀ v, a'.src = .static v → a.src = .static v ∧ a'.name = a.name

/-- How the nodes of a rewritten graph come from those of the original one. -/
structure Derived (tv : TensorView V) (E : Env V) (nodes nodes' : List (Node V)) : Prop where
  outs : (nodes'.flatMap Node.outNames).Sublist (nodes.flatMap Node.outNames)
  ins : ∀ n' ∈ nodes', ∀ a' ∈ n'.inputs, (∃ n ∈ nodes, ∃ a ∈ n.inputs, SameArg E a a') ∨
    ∃ v y, a'.src = .static v ∧ a'.name = y ++ "_const" ∧ a'.ty.Admits (tv.shape v)
  outTys : ∀ n' ∈ nodes', ∀ o' ∈ n'.outputs,
    (∃ n ∈ nodes, ∃ o ∈ n.outputs, o'.name = o.name ∧ o'.ty = o.ty) ∨
    ∀ v, E o'.name = some v → o'.ty.Admits (tv.shape v)

theorem Derived.mem {tv : TensorView V} {E : Env V} {nodes nodes' : List (Node V)}
    (d : Derived tv E nodes nodes') {n' : Node V} (hn : n' ∈ nodes') {x : String} (hx : x ∈ n'.outNames) :
    ∃ n ∈ nodes, x ∈ n.outNames :=
  List.mem_flatMap.1 (d.outs.subset (List.mem_flatMap.2 ⟨n', hn, hx⟩))

theorem Derived.ssa {tv : TensorView V} {env E : Env V} {nodes nodes' : List (Node V)}
    (d : Derived tv E nodes nodes') (hs : SSA env nodes) : SSA env nodes' :=
  ⟨d.outs.nodup hs.nodup, fun _ hn x hx =>
    let ⟨n, hn, hx⟩ := d.mem hn hx
    hs.fresh n hn x hx⟩

/-- A rewriting keeps everything the passes rely on. -/
theorem GoodRun.step {S : Sem V} {tv : TensorView V} {env E E' : Env V} {nodes nodes' : List (Node V)}
    {cmap cmap' : String → Option V} (g : GoodRun S tv env nodes cmap E) (d : Derived tv E nodes nodes')
    (hrun : evalNodes S env nodes' = some E') (hb : Below E' E) (hc : ConstTableOk cmap' E') :
    GoodRun S tv env nodes' cmap' E' where
  run := hrun
  ssa := d.ssa g.ssa
  noname := g.noname
  wf := by
    refine ⟨?_, ?_, ?_⟩
    · intro n' hn' a' ha'
      rcases d.ins n' hn' a' ha' with ⟨n, hn, a, ha, hsame⟩ | ⟨v, y, hsrc, hname, _⟩
      · exact hsame.wf
      · exact ⟨fun h => (by rw [hsrc] at h; cases h), fun _ => Or.inr ⟨v, hsrc⟩⟩
    · intro n' hn' a' ha' v hsrc m' hm' hx
      obtain ⟨m, hm, hxm⟩ := d.mem hm' hx
      rcases d.ins n' hn' a' ha' with ⟨n, hn, a, ha, hsame⟩ | ⟨w, y, _, hname, _⟩
      · obtain ⟨h1, h2⟩ := hsame.static v hsrc
        rw [h2] at hxm
        exact g.wf.labels n hn a ha v h1 m hm hxm
      · exact g.labels m hm _ hxm y hname
    · intro n' hn' h0
      obtain ⟨m, hm, hxm⟩ := d.mem hn' h0
      exact g.wf.outs m hm hxm
  labels := by
    intro n' hn' x hx y
    obtain ⟨m, hm, hxm⟩ := d.mem hn' hx
    exact g.labels m hm x hxm y
  table := hc
  typed := by
    intro n' hn'
    constructor
    · intro a' ha' v hv
      rcases d.ins n' hn' a' ha' with ⟨n, hn, a, ha, hsame⟩ | ⟨w, y, hsrc, _, had⟩
      · rw [hsame.ty]
        exact (g.typed n hn).1 a ha v (hsame.val v (hb.arg hv))
      · unfold evalArg at hv
        rw [hsrc] at hv
        cases hv
        exact had
    · intro o' ho' v hv
      rcases d.outTys n' hn' o' ho' with ⟨n, hn, o, ho, h1, h2⟩ | h
      · rw [h2]
        exact (g.typed n hn).2 o ho v (h1 ▸ hb _ _ hv)
      · exact h v (hb _ _ hv)

theorem SameArg.refl {E : Env V} {a : Arg V} (h : WfArg a) : SameArg E a a :=
  ⟨rfl, fun _ h => h, h, fun _ h => ⟨h, rfl⟩⟩

/-- Lists that agree position by position up to dropping elements. -/
theorem flatMap_sublist {α β : Type} {f : α → List β} : ∀ {l l' : List α}, l'.length = l.length →
    (∀ (i : Nat) a a', l[i]? = some a → l'[i]? = some a' → (f a').Sublist (f a)) →
    (l'.flatMap f).Sublist (l.flatMap f)
  | [], [], _, _ => List.Sublist.refl _
  | [], _ :: _, h, _ => by simp at h
  | _ :: _, [], h, _ => by simp at h
  | a :: l, a' :: l', hl, h => by
    simp only [List.flatMap_cons]
    refine List.Sublist.append (h 0 a a' rfl rfl) (flatMap_sublist (by simpa using hl) ?_)
    intro i b b' hb hb'
    exact h (i + 1) b b' (by simpa using hb) (by simpa using hb')

theorem get_of_length {α : Type} {l l' : List α} (hl : l'.length = l.length) {a' : α} (h : a' ∈ l') :
    ∃ (i : Nat) (a : α), l[i]? = some a ∧ l'[i]? = some a' := by
  obtain ⟨i, hi, rfl⟩ := List.getElem_of_mem h
  exact ⟨i, l[i]'(by omega), List.getElem?_eq_getElem _, List.getElem?_eq_getElem _⟩

/-! ### Renaming -/

theorem RenameOk.good {S : Sem V} {env E : Env V} {nodes : List (Node V)} {ρ : List (String × String)}
    (h : RenameOk S env nodes ρ) (hs : SSA env nodes) (hE : evalNodes S env nodes = some E) {x v : String}
    (hx : mapGet ρ x = some v) : ∃ w, E x = some w ∧ E v = some w := by
  obtain ⟨n, hn, hxn⟩ := h.key x v hx
  obtain ⟨p, q, hn⟩ := List.append_of_mem hn
  obtain ⟨e1, e2, h1, h2, hb1, hb2, hb⟩ := hs.bound hE hn
  obtain ⟨w, hw⟩ := hb x hxn
  exact ⟨w, hb2 _ _ hw, hb1 _ _ (h.val x v hx p n q e1 e2 hn hxn h1 h2 w hw)⟩

theorem rename_derived {S : Sem V} {tv : TensorView V} {env E : Env V} {nodes : List (Node V)}
    {cmap : String → Option V} (g : GoodRun S tv env nodes cmap E) {ρ : List (String × String)}
    (h : RenameOk S env nodes ρ) : Derived tv E nodes (renameInputs ρ nodes) where
  outs := by
    unfold renameInputs
    refine flatMap_sublist (by simp) ?_
    intro i a a' ha ha'
    rw [List.getElem?_map, ha] at ha'
    cases ha'
    exact List.Sublist.refl _
  ins := by
    intro n' hn' a' ha'
    obtain ⟨n, hn, rfl⟩ := List.mem_map.1 hn'
    obtain ⟨a, ha, rfl⟩ := List.mem_map.1 ha'
    refine Or.inl ⟨n, hn, a, ha, ?_⟩
    unfold renameArg
    cases hm : mapGet ρ a.name with
    | none => exact SameArg.refl (g.wf.ins n hn a ha)
    | some v =>
      obtain ⟨m, hm', hxm⟩ := h.key _ _ hm
      have hr := g.wf.reads hn hm' ha hxm
      obtain ⟨w, hw1, hw2⟩ := h.good g.ssa g.run hm
      have hv0 : v ≠ "" := by
        rintro rfl
        rw [evalNodes_notMem nodes g.run (by
          intro hc
          obtain ⟨k, hk, hk'⟩ := List.mem_flatMap.1 hc
          exact g.wf.outs k hk hk'), g.noname] at hw2
        cases hw2
      refine ⟨rfl, ?_, ⟨?_, fun h0 => absurd h0 hv0⟩, ?_⟩
      · intro u hu
        unfold evalArg at hu ⊢
        rcases hr with hr | hr <;> simp only [hr] at hu ⊢ <;>
          (rw [hw2] at hu; rw [hw1]; exact hu)
      · intro hs
        rcases hr with hr | hr <;> (simp only at hs; rw [hr] at hs; cases hs)
      · intro u hs
        rcases hr with hr | hr <;> (simp only at hs; rw [hr] at hs; cases hs)
  outTys := by
    intro n' hn' o' ho'
    obtain ⟨n, hn, rfl⟩ := List.mem_map.1 hn'
    exact Or.inl ⟨n, hn, o', ho', rfl, rfl⟩

theorem GoodRun.rename {S : Sem V} {tv : TensorView V} {env E : Env V} {nodes : List (Node V)}
    {cmap : String → Option V} (g : GoodRun S tv env nodes cmap E) {ρ : List (String × String)}
    (h : RenameOk S env nodes ρ) : GoodRun S tv env (renameInputs ρ nodes) cmap E :=
  g.step (rename_derived g h) (rename_pass g.ssa h.key h.val g.run) (Below.refl E) g.table

/-! ### Dropping nodes -/

/-- Running some of the nodes gives no other values. -/
theorem sublist_below {S : Sem V} : ∀ {nodes' nodes : List (Node V)}, nodes'.Sublist nodes →
    ∀ {e e' E E' : Env V}, SSA e nodes → Below e' e → evalNodes S e nodes = some E →
      evalNodes S e' nodes' = some E' → Below E' E := by
  intro nodes' nodes h
  induction h with
  | slnil =>
    intro e e' E E' _ hb h1 h2
    simp only [evalNodes, Option.some.injEq] at h1 h2
    rw [← h1, ← h2]; exact hb
  | @cons l₁ l₂ n _ ih =>
    intro e e' E E' hs hb h1 h2
    simp only [evalNodes] at h1
    cases hn : evalNode S e n with
    | none => simp [hn] at h1
    | some e2 =>
      simp only [hn] at h1
      have hnd := hs.nodup
      simp only [List.flatMap_cons, List.nodup_append] at hnd
      refine ih ⟨hnd.2.1, ?_⟩ ?_ h1 h2
      · intro m hm x hx
        rw [evalNode_notMem hn, hs.fresh m (List.mem_cons_of_mem _ hm) x hx]
        exact fun hc => hnd.2.2 x hc x (List.mem_flatMap.2 ⟨m, hm, hx⟩) rfl
      · intro x w hw
        have := hb x w hw
        rw [evalNode_notMem hn, this]
        intro hc
        rw [hs.fresh n (List.mem_cons_self ..) x hc] at this
        cases this
  | @cons_cons l₁ l₂ n _ ih =>
    intro e e' E E' hs hb h1 h2
    simp only [evalNodes] at h1 h2
    cases hn : evalNode S e n with
    | none => simp [hn] at h1
    | some e2 =>
    cases hn' : evalNode S e' n with
    | none => simp [hn'] at h2
    | some e2' =>
      simp only [hn] at h1
      simp only [hn'] at h2
      have hnd := hs.nodup
      simp only [List.flatMap_cons, List.nodup_append] at hnd
      obtain ⟨xs, ys, hxs, hys, hl, rfl⟩ := evalNode_some hn
      obtain ⟨xs', ys', hxs', hys', hl', rfl⟩ := evalNode_some hn'
      rw [hb.args hxs'] at hxs
      cases hxs
      rw [hys] at hys'
      cases hys'
      refine ih ⟨hnd.2.1, ?_⟩ ?_ h1 h2
      · intro m hm x hx
        rw [bindAll_notMem, hs.fresh m (List.mem_cons_of_mem _ hm) x hx]
        exact fun hc => hnd.2.2 x hc x (List.mem_flatMap.2 ⟨m, hm, hx⟩) rfl
      · intro x w hw
        by_cases hx : x ∈ n.outNames
        · obtain ⟨i, hi⟩ := List.getElem?_of_mem hx
          have hi' : i < ys.length := by
            rw [hl]
            have := List.getElem?_eq_some_iff.1 hi
            simpa [Node.outNames] using this.1
          have h1 := bindAll_get n.outNames ys e' i x ys[i] hnd.1 hi (List.getElem?_eq_getElem hi')
          have h2 := bindAll_get n.outNames ys e i x ys[i] hnd.1 hi (List.getElem?_eq_getElem hi')
          rw [h1] at hw
          rw [h2]; exact hw
        · rw [bindAll_notMem _ _ _ _ hx] at hw ⊢
          exact hb x w hw

theorem sublist_flatMap {α β : Type} {f : α → List β} {l l' : List α} (h : l'.Sublist l) :
    (l'.flatMap f).Sublist (l.flatMap f) := by
  induction h with
  | slnil => exact List.Sublist.refl _
  | cons n _ ih => exact ih.trans (List.sublist_append_right _ _)
  | cons_cons n _ ih => exact ih.append_left _

theorem sublist_derived {tv : TensorView V} {E : Env V} {nodes nodes' : List (Node V)}
    (hwf : WfNames nodes) (h : nodes'.Sublist nodes) : Derived tv E nodes nodes' where
  outs := sublist_flatMap h
  ins := fun n hn a ha => Or.inl ⟨n, h.subset hn, a, ha, SameArg.refl (hwf.ins n (h.subset hn) a ha)⟩
  outTys := fun n hn o ho => Or.inl ⟨n, h.subset hn, o, ho, rfl, rfl⟩

/-! ### Replacing nodes in place -/

/-- A rewriting that changes no result whatever the graph returns keeps the final state. -/
theorem same_final {S : Sem V} {env E : Env V} {nodes nodes' : List (Node V)}
    (h : ∀ outs, Preserves S env outs nodes nodes')
    (hsub : ∀ x ∈ nodes'.flatMap Node.outNames, x ∈ nodes.flatMap Node.outNames)
    (hs : SSA env nodes) (hE : evalNodes S env nodes = some E) : evalNodes S env nodes' = some E := by
  have h0 := h [] [] (by simp [evalGraph, hE, evalArgs])
  unfold evalGraph at h0
  cases hE' : evalNodes S env nodes' with
  | none => simp [hE'] at h0
  | some E' =>
    congr 1
    funext x
    cases hx : E x with
    | some w =>
      have := h [⟨x, .shape 0, .dynamic⟩] [some w] (by simp [evalGraph, hE, evalArgs, evalArg, hx])
      simp only [evalGraph, hE', evalArgs, evalArg] at this
      cases hx' : E' x with
      | none => simp [hx'] at this
      | some w' => simpa [hx'] using this
    | none =>
      have hnot : x ∉ nodes.flatMap Node.outNames := by
        intro hc
        obtain ⟨n, hn, hxn⟩ := List.mem_flatMap.1 hc
        obtain ⟨p, q, hn⟩ := List.append_of_mem hn
        obtain ⟨_, e2, _, _, _, hb, hb'⟩ := hs.bound hE hn
        obtain ⟨w, hw⟩ := hb' x hxn
        rw [hb _ _ hw] at hx
        cases hx
      rw [evalNodes_notMem nodes' hE' (fun hc => hnot (hsub x hc)),
        ← evalNodes_notMem nodes hE hnot, hx]

theorem markConstant_derived {tv : TensorView V} {E : Env V} {nodes : List (Node V)} (hwf : WfNames nodes)
    (c : List String) : Derived tv E nodes (nodes.map (markConstantNode c)) where
  outs := by
    refine flatMap_sublist (by simp) ?_
    intro i a a' ha ha'
    rw [List.getElem?_map, ha] at ha'
    cases ha'
    exact List.Sublist.refl _
  ins := by
    intro n' hn' a' ha'
    obtain ⟨n, hn, rfl⟩ := List.mem_map.1 hn'
    obtain ⟨a, ha, rfl⟩ := List.mem_map.1 ha'
    refine Or.inl ⟨n, hn, a, ha, ?_⟩
    have hw := hwf.ins n hn a ha
    have hev := evalArg_markConstant (c := c) (e := E) a
    unfold markConstant at hev ⊢
    cases hs : a.src with
    | dynamic =>
      simp only [hs] at hev ⊢
      split
      · next hc =>
        rw [if_pos hc] at hev
        refine ⟨rfl, fun v hv => by rw [← hev]; exact hv, ⟨fun h => (by cases h), fun h0 => ?_⟩,
          fun v h => (by cases h)⟩
        rcases hw.2 h0 with h | ⟨v, h⟩ <;> rw [hs] at h <;> cases h
      · exact SameArg.refl hw
    | _ => exact SameArg.refl hw
  outTys := by
    intro n' hn' o' ho'
    obtain ⟨n, hn, rfl⟩ := List.mem_map.1 hn'
    exact Or.inl ⟨n, hn, o', ho', rfl, rfl⟩

/-- A `Constant` node that has run gives its value to its output. -/
theorem constant_value {S : Sem V} (hc : ∀ nm v, S nm .constant [] [some v] = some [v]) {env E : Env V}
    {nodes : List (Node V)} (hs : SSA env nodes) (hE : evalNodes S env nodes = some E) {nm x : String}
    {v : V} {ty : ArgType} (h : makeConstantNode nm x v ty ∈ nodes) : E x = some v := by
  obtain ⟨p, q, hn⟩ := List.append_of_mem h
  obtain ⟨e1, e2, _, h2, _, hb, _⟩ := hs.bound hE hn
  apply hb
  obtain ⟨xs, ys, hxs, hys, hl, rfl⟩ := evalNode_some h2
  simp only [makeConstantNode, evalArgs, evalArg, Option.some.injEq] at hxs
  subst hxs
  simp only [makeConstantNode] at hys
  rw [hc] at hys
  cases hys
  simp [makeConstantNode, Node.outNames, bindAll]

theorem replacedNames_mem : ∀ {ns : List (Node V)} {rs : List (Repl V)} {x : String} {v : V},
    (x, v) ∈ replacedNames ns rs → ∃ nm ty, makeConstantNode nm x v ty ∈ replaceByConstants ns rs
  | [], rs, x, v, h => by cases rs <;> simp [replacedNames] at h
  | n :: ns, [], x, v, h => by simp [replacedNames] at h
  | n :: ns, r :: rs, x, v, h => by
    simp only [replacedNames, List.mem_append] at h
    simp only [replaceByConstants, List.mem_cons]
    rcases h with h | h
    · cases r with
      | none => simp at h
      | some vt =>
        cases ho : n.outputs with
        | nil => simp [ho] at h
        | cons o os =>
          simp only [ho, List.mem_singleton, Prod.mk.injEq] at h
          obtain ⟨rfl, rfl⟩ := h
          exact ⟨n.name, vt.2, Or.inl rfl⟩
    · obtain ⟨nm, ty, h⟩ := replacedNames_mem h
      exact ⟨nm, ty, Or.inr h⟩

theorem extendTable_ok {cmap : String → Option V} {E : Env V} {news : List (String × V)}
    (hc : ConstTableOk cmap E) (hn : ∀ x v, (x, v) ∈ news → E x = some v) :
    ConstTableOk (extendTable cmap news) E := by
  intro x v w hx hw
  unfold extendTable at hx
  split at hx
  · next v' hv =>
    have := hn x v' (by simpa using mapGet_mem hv)
    rw [hw] at this
    cases this
    cases hx
    rfl
  · exact hc x v w hx hw

theorem replace_derived {S : Sem V} (hconst : ∀ nm v, S nm .constant [] [some v] = some [v])
    {tv : TensorView V} {env E : Env V} {nodes : List (Node V)} (hs : SSA env nodes) (hwf : WfNames nodes)
    {rs : List (Repl V)} (hrun : evalNodes S env (replaceByConstants nodes rs) = some E)
    (had : ∀ (i : Nat) n v ty o os, nodes[i]? = some n → rs[i]? = some (some (v, ty)) →
      n.outputs = o :: os → E o.name = some v → ty.Admits (tv.shape v)) :
    Derived tv E nodes (replaceByConstants nodes rs) := by
  have houts : ((replaceByConstants nodes rs).flatMap Node.outNames).Sublist
      (nodes.flatMap Node.outNames) := by
    refine flatMap_sublist (replaceByConstants_length _ _) ?_
    intro i n n' hn hn'
    rcases replaceByConstants_get hn hn' with rfl | ⟨v, ty, o, os, _, ho, rfl⟩
    · exact List.Sublist.refl _
    · simp [Node.outNames, makeConstantNode, ho]
  have hs' : SSA env (replaceByConstants nodes rs) := by
    refine ⟨houts.nodup hs.nodup, fun n hn x hx => ?_⟩
    obtain ⟨m, hm, hxm⟩ := List.mem_flatMap.1 (houts.subset (List.mem_flatMap.2 ⟨n, hn, hx⟩))
    exact hs.fresh m hm x hxm
  have key : ∀ n' ∈ replaceByConstants nodes rs, n' ∈ nodes ∨ ∃ nm x v ty,
      n' = makeConstantNode nm x v ty ∧ E x = some v ∧ ty.Admits (tv.shape v) := by
    intro n' hn'
    obtain ⟨i, n, hi, hi'⟩ := get_of_length (replaceByConstants_length nodes rs) hn'
    rcases replaceByConstants_get hi hi' with rfl | ⟨v, ty, o, os, hr, ho, rfl⟩
    · exact Or.inl (List.mem_of_getElem? hi)
    · have hv := constant_value hconst hs' hrun hn'
      exact Or.inr ⟨_, _, v, ty, rfl, hv, had i n v ty o os hi hr ho hv⟩
  refine ⟨houts, ?_, ?_⟩
  · intro n' hn' a' ha'
    rcases key n' hn' with h | ⟨nm, x, v, ty, rfl, _, hadm⟩
    · exact Or.inl ⟨n', h, a', ha', SameArg.refl (hwf.ins n' h a' ha')⟩
    · simp only [makeConstantNode, List.mem_singleton] at ha'
      subst ha'
      exact Or.inr ⟨v, x, rfl, rfl, hadm⟩
  · intro n' hn' o' ho'
    rcases key n' hn' with h | ⟨nm, x, v, ty, rfl, hv, hadm⟩
    · exact Or.inl ⟨n', h, o', ho', rfl, rfl⟩
    · simp only [makeConstantNode, List.mem_singleton] at ho'
      subst ho'
      refine Or.inr fun w hw => ?_
      simp only at hw
      rw [hv] at hw
      cases hw
      exact hadm

end OnnxIR
