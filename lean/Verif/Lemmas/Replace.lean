import Verif.Lemmas.Eval
import Verif.Model.ConstantShape
import Verif.Props.RenamePasses

/-! Facts shared by the passes that replace nodes in place. -/

namespace OnnxIR

variable {V : Type}

theorem evalNodes_pointwise_aux {S : Sem V} (nodes : List (Node V)) :
    ∀ {nodes' : List (Node V)} {env E : Env V}, nodes'.length = nodes.length →
      (∀ i n n' e1 e2, nodes[i]? = some n → nodes'[i]? = some n' →
        evalNodes S env (nodes.take i) = some e1 → evalNode S e1 n = some e2 →
        evalNode S e1 n' = some e2) →
      evalNodes S env nodes = some E → evalNodes S env nodes' = some E := by
  induction nodes with
  | nil =>
    intro nodes' env E hl _ h
    cases nodes' with
    | nil => exact h
    | cons => simp at hl
  | cons n ns ih =>
    intro nodes' env E hl hp h
    cases nodes' with
    | nil => simp at hl
    | cons n' ns' =>
      simp only [evalNodes] at h ⊢
      cases hn : evalNode S env n with
      | none => simp [hn] at h
      | some e1 =>
        simp only [hn] at h
        rw [hp 0 n n' env e1 rfl rfl rfl hn]
        simp only
        refine ih (by simpa using hl) ?_ h
        intro i m m' f1 f2 hm hm' hf1 hf2
        refine hp (i + 1) m m' f1 f2 (by simpa using hm) (by simpa using hm') ?_ hf2
        simp only [List.take_succ_cons, evalNodes, hn]
        exact hf1

/-- Replacing nodes by nodes that have the same effect in the state in which they run. -/
theorem evalNodes_pointwise {S : Sem V} {nodes nodes' : List (Node V)} {env E : Env V}
    (hl : nodes'.length = nodes.length)
    (hp : ∀ p n q n' e1 e2, nodes = p ++ n :: q → nodes'[p.length]? = some n' →
      evalNodes S env p = some e1 → evalNode S e1 n = some e2 → evalNode S e1 n' = some e2)
    (h : evalNodes S env nodes = some E) : evalNodes S env nodes' = some E := by
  refine evalNodes_pointwise_aux nodes hl ?_ h
  intro i n n' e1 e2 hn hn' he1 he2
  obtain ⟨hi, rfl⟩ := List.getElem?_eq_some_iff.1 hn
  refine hp (nodes.take i) nodes[i] (nodes.drop (i + 1)) n' e1 e2 ?_ ?_ he1 he2
  · rw [← List.drop_eq_getElem_cons hi, List.take_append_drop]
  · rw [List.length_take, Nat.min_eq_left (by omega)]; exact hn'

/-! ### Constant references -/

theorem evalArg_markConstant {c : List String} {e : Env V} (a : Arg V) :
    evalArg e (markConstant c a) = evalArg e a := by
  unfold markConstant
  cases hs : a.src with
  | dynamic =>
    simp only
    split
    · simp [evalArg, hs]
    · rfl
  | _ => rfl

theorem evalArgs_markConstant {c : List String} {e : Env V} : ∀ as : List (Arg V),
    evalArgs e (as.map (markConstant c)) = evalArgs e as
  | [] => rfl
  | a :: as => by
    simp only [List.map_cons, evalArgs, evalArg_markConstant, evalArgs_markConstant as]

theorem evalNode_markConstant {S : Sem V} {c : List String} {e : Env V} (n : Node V) :
    evalNode S e (markConstantNode c n) = evalNode S e n := by
  unfold evalNode
  rw [show (markConstantNode c n).inputs = n.inputs.map (markConstant c) from rfl,
    evalArgs_markConstant]
  rfl

theorem evalNodes_markConstant {S : Sem V} {c : List String} (ns : List (Node V)) :
    ∀ e : Env V, evalNodes S e (ns.map (markConstantNode c)) = evalNodes S e ns := by
  induction ns with
  | nil => intro e; rfl
  | cons n ns ih =>
    intro e
    simp only [List.map_cons, evalNodes, evalNode_markConstant]
    cases evalNode S e n with
    | none => rfl
    | some e1 => simp [ih]

/-! ### Collecting decisions -/

theorem collect_length {α β : Type} {f : α → Option β} : ∀ {l : List α} {r : List β},
    collect f l = some r → r.length = l.length
  | [], r, h => by simp [collect] at h; simp [← h]
  | a :: l, r, h => by
    simp only [collect] at h
    cases hf : f a with
    | none => simp [hf] at h
    | some b =>
      cases hc : collect f l with
      | none => simp [hf, hc] at h
      | some bs =>
        simp [hf, hc] at h
        subst h
        simp [collect_length hc]

theorem collect_get {α β : Type} {f : α → Option β} : ∀ {l : List α} {r : List β},
    collect f l = some r → ∀ {i : Nat} {a : α} {b : β}, l[i]? = some a → r[i]? = some b →
      f a = some b
  | [], r, h, i, a, b, ha, _ => by simp at ha
  | x :: l, r, h, i, a, b, ha, hb => by
    simp only [collect] at h
    cases hf : f x with
    | none => simp [hf] at h
    | some y =>
      cases hc : collect f l with
      | none => simp [hf, hc] at h
      | some bs =>
        simp [hf, hc] at h
        subst h
        cases i with
        | zero => simp at ha hb; subst ha; subst hb; exact hf
        | succ i => simp at ha hb; exact collect_get hc ha hb

theorem replaceByConstants_length : ∀ (ns : List (Node V)) (rs : List (Repl V)),
    (replaceByConstants ns rs).length = ns.length
  | [], rs => by simp [replaceByConstants]
  | n :: ns, [] => by simp [replaceByConstants]
  | n :: ns, r :: rs => by simp [replaceByConstants, replaceByConstants_length ns rs]

theorem replaceByConstants_get : ∀ {ns : List (Node V)} {rs : List (Repl V)} {i : Nat}
    {n n' : Node V}, ns[i]? = some n → (replaceByConstants ns rs)[i]? = some n' →
    n' = n ∨ ∃ v ty o os, rs[i]? = some (some (v, ty)) ∧ n.outputs = o :: os ∧
      n' = makeConstantNode n.name o.name v ty
  | [], rs, i, n, n', h, _ => by simp at h
  | m :: ns, [], i, n, n', h, h' => by
    simp only [replaceByConstants] at h'
    exact Or.inl (by rw [h] at h'; exact (Option.some.inj h').symm)
  | m :: ns, r :: rs, i, n, n', h, h' => by
    simp only [replaceByConstants] at h'
    cases i with
    | zero =>
      simp only [List.getElem?_cons_zero, Option.some.injEq] at h h'
      subst h
      cases r with
      | none => exact Or.inl h'.symm
      | some vt =>
        obtain ⟨v, ty⟩ := vt
        cases ho : m.outputs with
        | nil => rw [ho] at h'; exact Or.inl h'.symm
        | cons o os =>
          rw [ho] at h'
          exact Or.inr ⟨v, ty, o, os, by simp, rfl, h'.symm⟩
    | succ i =>
      simp only [List.getElem?_cons_succ] at h h'
      rcases replaceByConstants_get h h' with h2 | ⟨v, ty, o, os, h1, h2, h3⟩
      · exact Or.inl h2
      · exact Or.inr ⟨v, ty, o, os, by simpa using h1, h2, h3⟩

/-! ### The producer map -/

theorem mapGet_producerMap {nodes : List (Node V)} {x : String} {i : Nat}
    (h : mapGet (producerMap nodes) x = some i) :
    ∃ n, nodes[i]? = some n ∧ x ∈ n.outNames := by
  have hm := mapGet_mem h
  simp only [producerMap, List.mem_reverse, List.mem_flatMap, List.mem_map, Prod.mk.injEq] at hm
  obtain ⟨⟨n, j⟩, hnj, y, hy, rfl, rfl⟩ := hm
  refine ⟨n, ?_, hy⟩
  have := List.mem_zipIdx_iff_getElem?.1 hnj
  simpa using this

theorem producerOf_some {nodes : List (Node V)} {x : String} {m : Node V}
    (h : producerOf (producerMap nodes) nodes x = some m) : m ∈ nodes ∧ x ∈ m.outNames := by
  unfold producerOf at h
  obtain ⟨i, hi, hm⟩ := Option.bind_eq_some_iff.1 h
  obtain ⟨n, hn, hx⟩ := mapGet_producerMap hi
  rw [hn] at hm
  cases hm
  exact ⟨List.mem_of_getElem? hn, hx⟩

/-! ### Runs of single nodes -/

theorem evalArgs_length {e : Env V} : ∀ {as : List (Arg V)} {xs}, evalArgs e as = some xs →
    xs.length = as.length
  | [], xs, h => by simp [evalArgs] at h; simp [← h]
  | a :: as, xs, h => by
    simp only [evalArgs] at h
    cases ha : evalArg e a with
    | none => simp [ha] at h
    | some v =>
      cases has : evalArgs e as with
      | none => simp [ha, has] at h
      | some vs =>
        simp only [ha, has, Option.some.injEq] at h
        subst h
        simp [evalArgs_length has]

theorem evalArgs_cons {e : Env V} {a : Arg V} {as : List (Arg V)} {xs}
    (h : evalArgs e (a :: as) = some xs) :
    ∃ v vs, evalArg e a = some v ∧ evalArgs e as = some vs ∧ xs = v :: vs := by
  simp only [evalArgs] at h
  cases ha : evalArg e a with
  | none => simp [ha] at h
  | some v =>
    cases has : evalArgs e as with
    | none => simp [ha, has] at h
    | some vs =>
      simp only [ha, has, Option.some.injEq] at h
      exact ⟨v, vs, rfl, rfl, h.symm⟩

/-- An argument whose name is produced by a node reads that name. -/
theorem WfNames.reads {nodes : List (Node V)} (hwf : WfNames nodes) {n m : Node V} (hn : n ∈ nodes)
    (hm : m ∈ nodes) {a : Arg V} (ha : a ∈ n.inputs) (hx : a.name ∈ m.outNames) : a.reads := by
  unfold Arg.reads
  cases hs : a.src with
  | static v => exact absurd hx (hwf.labels n hn a ha v hs m hm)
  | optional =>
    have h0 := (hwf.ins n hn a ha).1 hs
    rw [h0] at hx
    exact absurd hx (hwf.outs m hm)
  | constant => exact Or.inl rfl
  | dynamic => exact Or.inr rfl

/-- A `Constant` node in place of a node with one output. -/
theorem evalNode_makeConstant {S : Sem V} (hc : ∀ nm v, S nm .constant [] [some v] = some [v])
    {e1 e2 : Env V} {n : Node V} {o : Arg V} {v : V} {ty : ArgType} (ho : n.outputs = [o])
    {xs} (hx : evalArgs e1 n.inputs = some xs) (hy : S n.name n.ty n.attrs xs = some [v])
    (h : evalNode S e1 n = some e2) :
    evalNode S e1 (makeConstantNode n.name o.name v ty) = some e2 := by
  have h2 := evalNode_intro (n := n) hx hy (by simp [ho])
  rw [h2] at h
  cases h
  rw [evalNode_intro (n := makeConstantNode n.name o.name v ty) (xs := [some v]) (ys := [v])]
  · simp [Node.outNames, makeConstantNode, ho]
  · simp [makeConstantNode, evalArgs, evalArg]
  · exact hc _ _
  · simp [makeConstantNode]

/-- A name produced by a node that has run is bound to one of the values that node returned. -/
theorem produced_value {S : Sem V} {env : Env V} {p q : List (Node V)} {n m : Node V}
    (hs : SSA env (p ++ n :: q)) {e : Env V} (he : evalNodes S env p = some e) {x : String}
    {w : V} (hw : e x = some w) (hm : m ∈ p ++ n :: q) (hxm : x ∈ m.outNames) :
    ∃ p1 p2 e1 e2 xs ys, p = p1 ++ m :: p2 ∧ evalNodes S env p1 = some e1 ∧
      evalNode S e1 m = some e2 ∧ e2 x = some w ∧ evalArgs e1 m.inputs = some xs ∧
      S m.name m.ty m.attrs xs = some ys ∧ ys.length = m.outputs.length ∧
      e2 = bindAll e1 m.outNames ys := by
  obtain ⟨p1, p2, e1, e2, h1, h2, h3, h4, _⟩ := SSA.ran (q := n :: q) hs he hw hm hxm
  obtain ⟨xs, ys, hxs, hys, hl, he2⟩ := evalNode_some h3
  exact ⟨p1, p2, e1, e2, xs, ys, h1, h2, h3, h4, hxs, hys, hl, he2⟩

/-- With a single output, that output is bound to the single returned value. -/
theorem bindAll_single {e : Env V} {m : Node V} {y : V} {x : String} {w : V}
    (hl : ([y] : List V).length = m.outputs.length) (hx : x ∈ m.outNames)
    (hw : bindAll e m.outNames [y] x = some w) : w = y := by
  have : ∃ z, m.outNames = [z] := by
    have hlen : m.outNames.length = 1 := by simp [Node.outNames, ← hl]
    match h : m.outNames, hlen with
    | [z], _ => exact ⟨z, rfl⟩
  obtain ⟨z, hz⟩ := this
  rw [hz] at hx hw
  simp at hx
  subst hx
  simp [bindAll] at hw
  exact hw.symm

end OnnxIR
