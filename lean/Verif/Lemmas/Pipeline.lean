import Verif.Model.Pipeline
import Verif.Props.GraphBuild
import Verif.Props.TypeInference
import Verif.Props.PostProcess
import Verif.Props.SimplifyGraph

/-!
# What the phases hand to each other
-/

namespace OnnxIR

variable {V : Type}

/-! ## Annotations do not matter to a run -/

/-- Name and source of an argument. -/
def Arg.ns (a : Arg V) : String × Src V := (a.name, a.src)

theorem evalArg_ns {e : Env V} {a b : Arg V} (h : a.ns = b.ns) : evalArg e a = evalArg e b := by
  simp only [Arg.ns, Prod.mk.injEq] at h
  simp only [evalArg, h.1, h.2]

theorem evalArgs_ns {e : Env V} : ∀ {as bs : List (Arg V)}, as.map Arg.ns = bs.map Arg.ns →
    evalArgs e as = evalArgs e bs
  | [], [], _ => rfl
  | [], _ :: _, h => by simp at h
  | _ :: _, [], h => by simp at h
  | a :: as, b :: bs, h => by
    simp only [List.map_cons, List.cons.injEq] at h
    simp only [evalArgs, evalArg_ns h.1, evalArgs_ns h.2]

theorem skel_ins {n m : Node V} (h : n.skel = m.skel) : n.inputs.map Arg.ns = m.inputs.map Arg.ns :=
  congrArg Skeleton.inputs h

theorem skel_outs {n m : Node V} (h : n.skel = m.skel) : n.outputs.map Arg.ns = m.outputs.map Arg.ns :=
  congrArg Skeleton.outputs h

theorem evalNode_skel {S : Sem V} {e : Env V} {n m : Node V} (h : n.skel = m.skel) :
    evalNode S e n = evalNode S e m := by
  have h1 : n.name = m.name := congrArg Skeleton.name h
  have h2 : n.ty = m.ty := congrArg Skeleton.ty h
  have h3 : n.attrs = m.attrs := congrArg Skeleton.attrs h
  have h4 : n.outputs.length = m.outputs.length := by simpa using congrArg List.length (skel_outs h)
  simp only [evalNode, evalArgs_ns (skel_ins h), h1, h2, h3, h4, skel_outNames h]

theorem evalNodes_skel {S : Sem V} : ∀ {ns ms : List (Node V)} {e : Env V},
    ns.map Node.skel = ms.map Node.skel → evalNodes S e ns = evalNodes S e ms
  | [], [], _, _ => rfl
  | [], _ :: _, _, h => by simp at h
  | _ :: _, [], _, h => by simp at h
  | n :: ns, m :: ms, e, h => by
    simp only [List.map_cons, List.cons.injEq] at h
    simp only [evalNodes, evalNode_skel h.1]
    cases evalNode S e m with
    | none => rfl
    | some e' => exact evalNodes_skel h.2

/-! ## The shape of the node lists between the phases -/

theorem outName_ne_empty (m : String) (k : Nat) : outName m k ≠ "" := by
  intro h
  have := congrArg String.toList h
  simp [outName] at this

/-- The discipline of names and sources between the phases. -/
structure Plain (nodes : List (Node V)) : Prop where
  ins : ∀ n ∈ nodes, ∀ a ∈ n.inputs, WfArg a ∧ ∀ v, a.src = .static v → a.name = ""
  outs : ∀ n ∈ nodes, ∀ o ∈ n.outputs, (o.src = .dynamic ∨ o.src = .constant) ∧ ∃ m k, o.name = outName m k
  consts : ∀ n ∈ nodes, n.ty = .constant → n.inputs.length ≤ 1

theorem Plain.named {nodes : List (Node V)} (h : Plain nodes) {n : Node V} (hn : n ∈ nodes) {x : String}
    (hx : x ∈ n.outNames) : ∃ m k, x = outName m k := by
  simp only [Node.outNames, List.mem_map] at hx
  obtain ⟨o, ho, rfl⟩ := hx
  exact (h.outs n hn o ho).2

theorem Plain.wf {nodes : List (Node V)} (h : Plain nodes) : WfNames nodes where
  ins := fun n hn a ha => (h.ins n hn a ha).1
  labels := by
    intro n hn a ha v hv m hm hx
    obtain ⟨p, k, hk⟩ := h.named hm hx
    rw [(h.ins n hn a ha).2 v hv] at hk
    exact outName_ne_empty p k hk.symm
  outs := by
    intro n hn hx
    obtain ⟨p, k, hk⟩ := h.named hn hx
    exact outName_ne_empty p k hk.symm

theorem Plain.skel {ns ms : List (Node V)} (h : Plain ns) (hs : ms.map Node.skel = ns.map Node.skel) :
    Plain ms := by
  have key : ∀ m ∈ ms, ∃ n ∈ ns, n.skel = m.skel := by
    intro m hm
    have : m.skel ∈ ns.map Node.skel := by rw [← hs]; exact List.mem_map_of_mem hm
    obtain ⟨n, hn, h⟩ := List.mem_map.1 this
    exact ⟨n, hn, h⟩
  have arg : ∀ {as bs : List (Arg V)}, as.map Arg.ns = bs.map Arg.ns → ∀ b ∈ bs, ∃ a ∈ as, a.ns = b.ns := by
    intro as bs he b hb
    have : b.ns ∈ as.map Arg.ns := by rw [he]; exact List.mem_map_of_mem hb
    obtain ⟨a, ha, h⟩ := List.mem_map.1 this
    exact ⟨a, ha, h⟩
  refine ⟨?_, ?_, ?_⟩
  · intro m hm b hb
    obtain ⟨n, hn, hnm⟩ := key m hm
    obtain ⟨a, ha, hab⟩ := arg (skel_ins hnm) b hb
    simp only [Arg.ns, Prod.mk.injEq] at hab
    have := h.ins n hn a ha
    simpa only [WfArg, hab.1, hab.2] using this
  · intro m hm b hb
    obtain ⟨n, hn, hnm⟩ := key m hm
    obtain ⟨a, ha, hab⟩ := arg (skel_outs hnm) b hb
    simp only [Arg.ns, Prod.mk.injEq] at hab
    have := h.outs n hn a ha
    simpa only [hab.1, hab.2] using this
  · intro m hm ht
    obtain ⟨n, hn, hnm⟩ := key m hm
    have h1 : n.ty = m.ty := congrArg Skeleton.ty hnm
    have h2 : n.inputs.length = m.inputs.length := by simpa using congrArg List.length (skel_ins hnm)
    rw [← h2]
    exact h.consts n hn (h1.trans ht)

theorem SSA.skel {env : Env V} {ns ms : List (Node V)} (h : SSA env ns)
    (hs : ms.map Node.skel = ns.map Node.skel) : SSA env ms := by
  have ho := skels_outNames hs
  refine ⟨by rw [ho]; exact h.nodup, fun m hm x hx => ?_⟩
  have : x ∈ ns.flatMap Node.outNames := by rw [← ho]; exact List.mem_flatMap.2 ⟨m, hm, hx⟩
  obtain ⟨n, hn, hx⟩ := List.mem_flatMap.1 this
  exact h.fresh n hn x hx

/-! ## The table of constants -/

/-- What a table promises: a name in it is not bound from outside, and the node that produces it, if there is
one, is a `Constant` with that embedded value. -/
def TableFor (env : Env V) (nodes : List (Node V)) (tbl : String → Option V) : Prop :=
  ∀ x v, tbl x = some v → env x = none ∧ ∀ n ∈ nodes, x ∈ n.outNames →
    n.ty = .constant ∧ ∃ a, n.inputs = [a] ∧ a.src = .static v

theorem mem_constEntries {nodes : List (Node V)} {x : String} {v : V} :
    (x, v) ∈ constEntries nodes ↔ ∃ n ∈ nodes, n.ty = .constant ∧ x ∈ n.outNames ∧
      ∃ a as, n.inputs = a :: as ∧ a.src = .static v := by
  simp only [constEntries, List.mem_reverse, List.mem_flatMap]
  constructor
  · rintro ⟨n, hn, h⟩
    refine ⟨n, hn, ?_⟩
    split at h
    · next a as ht hi =>
      split at h
      · next w hs =>
        simp only [List.mem_map, Prod.mk.injEq] at h
        obtain ⟨o, ho, rfl, rfl⟩ := h
        exact ⟨ht, List.mem_map_of_mem ho, a, as, hi, hs⟩
      · cases h
    · cases h
  · rintro ⟨n, hn, ht, hx, a, as, hi, hs⟩
    refine ⟨n, hn, ?_⟩
    simp only [ht, hi, hs]
    simp only [Node.outNames, List.mem_map] at hx ⊢
    obtain ⟨o, ho, rfl⟩ := hx
    exact ⟨o, ho, rfl⟩

theorem outNames_unique {nodes : List (Node V)} (h : (nodes.flatMap Node.outNames).Nodup) {n m : Node V}
    (hn : n ∈ nodes) (hm : m ∈ nodes) {x : String} (hx : x ∈ n.outNames) (hx' : x ∈ m.outNames) : n = m := by
  induction nodes with
  | nil => cases hn
  | cons c cs ih =>
    rw [List.flatMap_cons, List.nodup_append] at h
    rcases List.mem_cons.1 hn with h1 | h1 <;> rcases List.mem_cons.1 hm with h2 | h2
    · rw [h1, h2]
    · subst h1; exact absurd rfl (h.2.2 x hx x (List.mem_flatMap.2 ⟨m, h2, hx'⟩))
    · subst h2; exact absurd rfl (h.2.2 x hx' x (List.mem_flatMap.2 ⟨n, h1, hx⟩))
    · exact ih h.2.1 h1 h2

theorem constTable_for {env : Env V} {nodes : List (Node V)} (hs : SSA env nodes) (hp : Plain nodes) :
    TableFor env nodes (constTable nodes) := by
  intro x v hx
  obtain ⟨n, hn, ht, hxn, a, as, hi, hsrc⟩ := mem_constEntries.1 (mapGet_mem hx)
  refine ⟨hs.fresh n hn x hxn, fun m hm hxm => ?_⟩
  obtain rfl := outNames_unique hs.nodup hn hm hxn hxm
  refine ⟨ht, a, ?_, hsrc⟩
  have := hp.consts n hn ht
  rw [hi] at this ⊢
  cases as with
  | nil => rfl
  | cons b bs => simp at this

/-- An embedded value is what a `Constant` node returns, and it returns one value. -/
structure ConstantLaw (S : Sem V) : Prop where
  returns : ∀ nm attrs v ys, S nm .constant attrs [some v] = some ys → ys = [v]
  single : ∀ nm attrs xs ys, S nm .constant attrs xs = some ys → ys.length = 1

theorem TableFor.ok {S : Sem V} (law : ConstantLaw S) {env : Env V} {nodes : List (Node V)}
    {tbl : String → Option V} (hs : SSA env nodes) (h : TableFor env nodes tbl) : TableOk S env nodes tbl := by
  intro p q e hn he x v w hx hw
  obtain ⟨h0, hnode⟩ := h x v hx
  by_cases hm : x ∈ p.flatMap Node.outNames
  · obtain ⟨n, hnp, hxn⟩ := List.mem_flatMap.1 hm
    obtain ⟨p1, p2, rfl⟩ := List.append_of_mem hnp
    obtain ⟨e1, e2, h1, h2, h3⟩ := evalNodes_split he
    obtain ⟨ht, a, hi, hsrc⟩ := hnode n (by rw [hn]; simp) hxn
    obtain ⟨xs, ys, hxs, hys, hl, rfl⟩ := evalNode_some h2
    have hxs' : xs = [some v] := by
      rw [hi] at hxs
      simpa [evalArgs, evalArg, hsrc] using hxs.symm
    subst hxs'
    rw [ht] at hys
    obtain rfl := law.returns _ _ _ _ hys
    have hout : n.outNames = [x] := by
      have hlen : n.outNames.length = 1 := by rw [Node.outNames, List.length_map, ← hl]; rfl
      match hN : n.outNames, hlen with
      | [y], _ => rw [hN] at hxn; rw [List.mem_singleton.1 hxn]
    have h2x : bindAll e1 n.outNames [v] x = some v := by simp [hout, bindAll]
    have hs' : SSA env ((p1 ++ [n]) ++ p2) := by
      have := hn ▸ hs
      simpa using this.prefix
    have := hs'.stable (S := S) (e1 := bindAll e1 n.outNames [v]) (by
      rw [evalNodes_append, h1]; simp [evalNodes, h2]) h3 h2x
    rw [this] at hw
    simpa using hw.symm
  · rw [evalNodes_notMem p he hm, h0] at hw
    cases hw

theorem TableFor.skel {env : Env V} {ns ms : List (Node V)} {tbl : String → Option V}
    (h : TableFor env ns tbl) (hs : ms.map Node.skel = ns.map Node.skel) : TableFor env ms tbl := by
  intro x v hx
  obtain ⟨h0, hnode⟩ := h x v hx
  refine ⟨h0, fun m hm hxm => ?_⟩
  have : m.skel ∈ ns.map Node.skel := by rw [← hs]; exact List.mem_map_of_mem hm
  obtain ⟨n, hn, hnm⟩ := List.mem_map.1 this
  obtain ⟨ht, a, hi, hsrc⟩ := hnode n hn (by rw [skel_outNames hnm]; exact hxm)
  have h1 : n.ty = m.ty := congrArg Skeleton.ty hnm
  refine ⟨h1.symm.trans ht, ?_⟩
  have h2 := skel_ins hnm
  rw [hi] at h2
  match hb : m.inputs with
  | [] => rw [hb] at h2; simp at h2
  | b :: c :: bs => rw [hb] at h2; simp at h2
  | [b] =>
    rw [hb] at h2
    simp only [List.map_cons, List.map_nil, List.cons.injEq, and_true, Arg.ns, Prod.mk.injEq] at h2
    exact ⟨b, rfl, h2.2.symm.trans hsrc⟩

/-! ## Lifting -/

theorem evalArg_lift {tbl : String → Option V} {e : Env V} (ht : ConstTableOk tbl e) {a : Arg V}
    {v : Option V} (h : evalArg e a = some v) : evalArg e (liftArg tbl a) = some v := by
  unfold liftArg
  split
  · next hs =>
    split
    · next w hw =>
      simp only [evalArg, hs] at h
      cases hx : e a.name with
      | none => simp [hx] at h
      | some u =>
        simp only [hx, Option.map_some, Option.some.injEq] at h
        subst h
        rw [ht _ _ _ hw hx]
        rfl
    · exact h
  · exact h

theorem evalArgs_lift {tbl : String → Option V} {e : Env V} (ht : ConstTableOk tbl e) (ps : List Nat) :
    ∀ {as : List (Arg V)} {k : Nat} {vs}, evalArgs e as = some vs → evalArgs e (liftInputs tbl ps k as) = some vs
  | [], _, _, h => h
  | a :: as, k, vs, h => by
    obtain ⟨v, ws, h1, h2, rfl⟩ := evalArgs_cons h
    have h3 : evalArg e (if k ∈ ps then liftArg tbl a else a) = some v := by
      split
      · exact evalArg_lift ht h1
      · exact h1
    simp only [liftInputs, evalArgs, evalArgs_lift ht ps h2, h3]

theorem liftInputs_mem {tbl : String → Option V} {ps : List Nat} : ∀ {as : List (Arg V)} {k : Nat} {b : Arg V},
    b ∈ liftInputs tbl ps k as → ∃ a ∈ as, b = a ∨ ∃ v, b.src = .static v ∧ b.name = ""
  | [], _, _, h => by cases h
  | a :: as, k, b, h => by
    simp only [liftInputs, List.mem_cons] at h
    rcases h with rfl | h
    · refine ⟨a, List.mem_cons_self, ?_⟩
      split
      · unfold liftArg
        split
        · split
          · next v _ => exact .inr ⟨v, rfl, rfl⟩
          · exact .inl rfl
        · exact .inl rfl
      · exact .inl rfl
    · obtain ⟨a', ha, h⟩ := liftInputs_mem h
      exact ⟨a', List.mem_cons_of_mem _ ha, h⟩

theorem liftInputs_length {tbl : String → Option V} {ps : List Nat} : ∀ {as : List (Arg V)} {k : Nat},
    (liftInputs tbl ps k as).length = as.length
  | [], _ => rfl
  | _ :: as, k => by simp [liftInputs, liftInputs_length (as := as)]

theorem liftNode_outNames {tbl : String → Option V} {which : Node V → List Nat} (n : Node V) :
    (liftNode tbl which n).outNames = n.outNames := rfl

theorem flatMap_lift {tbl : String → Option V} {which : Node V → List Nat} (nodes : List (Node V)) :
    (nodes.map (liftNode tbl which)).flatMap Node.outNames = nodes.flatMap Node.outNames := by
  rw [List.flatMap_map]; rfl

theorem SSA.lift {tbl : String → Option V} {which : Node V → List Nat} {env : Env V} {nodes : List (Node V)}
    (h : SSA env nodes) : SSA env (nodes.map (liftNode tbl which)) := by
  refine ⟨by rw [flatMap_lift]; exact h.nodup, fun m hm x hx => ?_⟩
  obtain ⟨n, hn, rfl⟩ := List.mem_map.1 hm
  exact h.fresh n hn x hx

theorem Plain.lift {tbl : String → Option V} {which : Node V → List Nat} {nodes : List (Node V)}
    (h : Plain nodes) : Plain (nodes.map (liftNode tbl which)) := by
  refine ⟨?_, ?_, ?_⟩
  · intro m hm b hb
    obtain ⟨n, hn, rfl⟩ := List.mem_map.1 hm
    obtain ⟨a, ha, rfl | ⟨v, hs, hname⟩⟩ := liftInputs_mem hb
    · exact h.ins n hn b ha
    · exact ⟨⟨fun h => (by rw [hs] at h; cases h), fun _ => .inr ⟨v, hs⟩⟩, fun _ _ => hname⟩
  · intro m hm o ho
    obtain ⟨n, hn, rfl⟩ := List.mem_map.1 hm
    exact h.outs n hn o ho
  · intro m hm ht
    obtain ⟨n, hn, rfl⟩ := List.mem_map.1 hm
    simp only [liftNode, liftInputs_length]
    exact h.consts n hn ht

theorem TableFor.lift {tbl tbl' : String → Option V} {which : Node V → List Nat} {env : Env V}
    {nodes : List (Node V)} (h : TableFor env nodes tbl) :
    TableFor env (nodes.map (liftNode tbl' which)) tbl := by
  intro x v hx
  obtain ⟨h0, hnode⟩ := h x v hx
  refine ⟨h0, fun m hm hxm => ?_⟩
  obtain ⟨n, hn, rfl⟩ := List.mem_map.1 hm
  obtain ⟨ht, a, hi, hs⟩ := hnode n hn hxm
  refine ⟨ht, a, ?_, hs⟩
  simp only [liftNode, hi, liftInputs]
  split <;> simp [liftArg, hs]

theorem evalNodes_lift {S : Sem V} {tbl : String → Option V} {which : Node V → List Nat} :
    ∀ {nodes : List (Node V)} {env E : Env V}, TableOk S env nodes tbl → evalNodes S env nodes = some E →
      evalNodes S env (nodes.map (liftNode tbl which)) = some E := by
  intro nodes
  induction nodes with
  | nil => intro env E _ h; exact h
  | cons n ns ih =>
    intro env E ht h
    simp only [evalNodes] at h
    cases h1 : evalNode S env n with
    | none => simp [h1] at h
    | some e1 =>
      simp only [h1] at h
      obtain ⟨xs, ys, hx, hy, hl, rfl⟩ := evalNode_some h1
      have hstep : evalNode S env (liftNode tbl which n) = some (bindAll env n.outNames ys) :=
        evalNode_intro (n := liftNode tbl which n)
          (evalArgs_lift (ht [] (n :: ns) env rfl rfl) _ hx) hy hl
      simp only [List.map_cons, evalNodes, hstep]
      refine ih ?_ h
      intro p q e hn he
      refine ht (n :: p) q e (by simp [hn]) ?_
      simp [evalNodes, h1, he]

/-! ## Declared types -/

theorem declareNode_skel (ty : String → Option ArgType) (n : Node V) : (declareNode ty n).skel = n.skel := by
  simp only [Node.skel, declareNode, List.map_map, Skeleton.mk.injEq, true_and, and_true]
  refine ⟨?_, ?_⟩
  · refine List.map_congr_left fun a _ => ?_
    simp only [Function.comp, declareInput]
    split <;> rfl
  · exact List.map_congr_left fun a _ => rfl

theorem declareNodes_skel (ty : String → Option ArgType) (nodes : List (Node V)) :
    (nodes.map (declareNode ty)).map Node.skel = nodes.map Node.skel := by
  rw [List.map_map]
  exact List.map_congr_left fun n _ => declareNode_skel ty n

/-! ## Inference -/

theorem inferRounds_skel {R : Rules V} : ∀ {k : Nat} {first : Bool} {c : Collected}
    {nodes nodes' : List (Node V)} {conv : Bool}, inferRounds R k first c nodes = some (nodes', conv) →
    nodes'.map Node.skel = nodes.map Node.skel := by
  intro k
  induction k with
  | zero =>
    intro first c nodes nodes' conv h
    simp only [inferRounds, Option.some.injEq, Prod.mk.injEq] at h
    rw [h.1]
  | succ k ih =>
    intro first c nodes nodes' conv h
    simp only [inferRounds] at h
    split at h
    · cases h
    · next n1 c1 again hround =>
      have h2 := inferRound_skel hround
      split at h
      · exact (ih h).trans h2
      · simp only [Option.some.injEq, Prod.mk.injEq] at h
        rw [← h.1]; exact h2

theorem inferTypes_skel {R : Rules V} {nodes : List (Node V)} {r : List (Node V) × Bool}
    (h : inferTypes R nodes = some r) : r.1.map Node.skel = nodes.map Node.skel := by
  unfold inferTypes at h
  split at h
  · exact inferRounds_skel (conv := r.2) h
  · cases h

/-! ## Conversion gives a plain graph -/

/-- Names of the form the importer generates: `relu1_out1`. -/
def Generated (x : String) : Prop := ∃ t ∈ nodeTypes, ∃ i k : Nat, x = outName (nodeName t i) k

theorem Inv.generated {g : GraphProto V} {outer done} {st : GState V} (h : Inv g outer done st) {n : Node V}
    (hn : n ∈ st.nodes) {x : String} (hx : x ∈ n.outNames) : Generated x := by
  obtain ⟨ts, ht, hnames, -⟩ := h.names
  have hname : n.name ∈ initNames g.inits.length ++ nameNodes (initCounters g.inits.length) ts := by
    rw [← hnames]; exact List.mem_map_of_mem hn
  rw [h.outNames n hn] at hx
  simp only [outNamesOf, List.mem_map] at hx
  obtain ⟨k, -, rfl⟩ := hx
  rcases List.mem_append.1 hname with hm | hm
  · rw [initNames_eq, List.mem_map] at hm
    obtain ⟨i, -, hi⟩ := hm
    exact ⟨_, constant_mem, _, _, by rw [hi]⟩
  · obtain ⟨t, ht', i, hi, he⟩ := genNames_mem _ _ _ ((nameNodes_sublist ts _).subset hm)
    obtain ⟨p, hp, htp⟩ := List.mem_flatMap.1 ht'
    exact ⟨t, ht p hp t htp, i, _, by rw [he]⟩

/-- An input resolves to a plain argument. -/
theorem initIn_plain {g : GraphProto V} (hg : NamesOk g) {done} {st : GState V} (h : Inv g [] done st)
    (hp : Plain st.nodes) {x : String} (hx : x ∈ allNames g) {a : Arg V} (ha : st.initIn x = some a) :
    WfArg a ∧ ∀ v, a.src = .static v → a.name = "" := by
  have out : ∀ p, st.output p = some a → WfArg a ∧ ∀ v, a.src = .static v → a.name = "" := by
    intro p hpa
    simp only [GState.output, Option.bind_eq_some_iff] at hpa
    obtain ⟨n, hn, ha⟩ := hpa
    obtain ⟨hs, m, k, hk⟩ := hp.outs n (List.mem_of_getElem? hn) a (List.mem_of_getElem? ha)
    refine ⟨⟨fun h => ?_, fun h => absurd (hk.symm.trans h) (outName_ne_empty m k)⟩, fun v h => ?_⟩ <;>
      · rw [h] at hs; rcases hs with hs | hs <;> cases hs
  unfold GState.initIn at ha
  rw [h.inputMap, h.inputs] at ha
  split at ha
  · next i hi =>
    obtain ⟨h1, -, h2⟩ := start_inputs hg [] hx (.inl rfl) hi
    rw [h2] at ha
    cases ha
    have hne : sanitizeName x ≠ "" := hg.san_ne hx fun he => hg.inputsNamed (he ▸ h1)
    exact ⟨⟨fun h => (by cases h), fun h => absurd h hne⟩, fun v h => by cases h⟩
  · split at ha
    · exact out _ ha
    · split at ha
      · exact out _ ha
      · simp only [Option.some.injEq] at ha
        subst ha
        simp only [GState.fromOuter, h.outerEq, mapGet]
        unfold argFromName
        split
        · next he => exact ⟨⟨fun _ => he, fun _ => .inl rfl⟩, fun v h => by cases h⟩
        · next he => exact ⟨⟨fun h => (by cases h), fun h => absurd h he⟩, fun v h => by cases h⟩

theorem initAll_mem {st : GState V} : ∀ {xs : List String} {as : List (Arg V)}, st.initAll xs = some as →
    ∀ a ∈ as, ∃ x ∈ xs, st.initIn x = some a
  | [], as, h, a, ha => by cases h; cases ha
  | x :: xs, as, h, a, ha => by
    simp only [GState.initAll] at h
    split at h
    · next b bs h1 h2 =>
      cases h
      cases ha with
      | head => exact ⟨x, List.mem_cons_self, h1⟩
      | tail _ ha =>
        obtain ⟨y, hy, h⟩ := initAll_mem h2 a ha
        exact ⟨y, List.mem_cons_of_mem _ hy, h⟩
    · cases h

/-- Conditions on the nodes of the file beyond names: no output is left out, and a `Constant` has no inputs. -/
structure NodesOk (g : GraphProto V) : Prop where
  outsNamed : ∀ n ∈ g.nodes, "" ∉ n.outputs
  constPlain : ∀ n ∈ g.nodes, n.ty = .constant → n.inputs = []

/-- See `NodesOk`, for one node. -/
structure PlainProto (np : NodeProto V) : Prop where
  outsNamed : "" ∉ np.outputs
  constPlain : np.ty = .constant → np.inputs = []

theorem stored_plain {g : GraphProto V} (hg : NamesOk g) {done} {st : GState V}
    (h : Inv g [] done st) (hp : Plain st.nodes) {np : NodeProto V} (hnp : NodeFits g np) (hc : PlainProto np) {args}
    (hargs : st.initAll np.inputs = some args) : Plain (st.nodes ++ [storedNode st np args]) := by
  have hin : ∀ a ∈ args, WfArg a ∧ ∀ v, a.src = .static v → a.name = "" := by
    intro a ha
    obtain ⟨x, hx, hxa⟩ := initAll_mem hargs a ha
    exact initIn_plain hg h hp (hnp.ins x hx) hxa
  have hins : (storedNode st np args).inputs = args ∨
      ∃ v, (storedNode st np args).inputs = args ++ [⟨"", .default, .static v⟩] := by
    simp only [storedNode, rawNode, extractConstant]
    split
    · next v _ _ => exact .inr ⟨v, rfl⟩
    · exact .inl rfl
  have hty : (storedNode st np args).ty = np.ty := by
    simp only [storedNode, rawNode, extractConstant_ty]
  refine ⟨?_, ?_, ?_⟩
  · intro n hn a ha
    rcases List.mem_append.1 hn with hn | hn
    · exact hp.ins n hn a ha
    · obtain rfl := List.mem_singleton.1 hn
      rcases hins with hi | ⟨v, hi⟩
      · rw [hi] at ha; exact hin a ha
      · rw [hi] at ha
        rcases List.mem_append.1 ha with ha | ha
        · exact hin a ha
        · obtain rfl := List.mem_singleton.1 ha
          exact ⟨⟨fun h => (by cases h), fun _ => .inr ⟨v, rfl⟩⟩, fun _ _ => rfl⟩
  · intro n hn o ho
    rcases List.mem_append.1 hn with hn | hn
    · exact hp.outs n hn o ho
    · obtain rfl := List.mem_singleton.1 hn
      obtain ⟨j, hj⟩ := List.getElem?_of_mem ho
      have hlen : j < np.outputs.length := by
        have := (List.getElem?_eq_some_iff.1 hj).1
        simpa [storedNode, renameOutputs_length, rawNode_length] using this
      obtain ⟨a, ha, hname, -, hsrc⟩ := stored_output hg st hnp args (j := j) (o := np.outputs[j])
        (List.getElem?_eq_getElem hlen)
      have hao : a = o := by
        have := ha.symm.trans hj
        simpa using this
      subst hao
      refine ⟨hsrc fun he => hc.outsNamed ?_, _, _, hname⟩
      rw [← he]; exact List.getElem_mem hlen
  · intro n hn ht
    rcases List.mem_append.1 hn with hn | hn
    · exact hp.consts n hn ht
    · obtain rfl := List.mem_singleton.1 hn
      rw [hty] at ht
      have h0 : args = [] := by
        rw [hc.constPlain ht] at hargs
        simpa [GState.initAll] using hargs.symm
      subst h0
      rcases hins with hi | ⟨v, hi⟩ <;> simp [hi]

theorem convertNodes_plain {g : GraphProto V} (hg : NamesOk g) : ∀ (nps : List (NodeProto V))
    {done} {st st' : GState V}, Inv g [] done st → Plain st.nodes → (∀ np ∈ nps, NodeFits g np ∧ PlainProto np) →
    st.convertNodes nps = some st' → Plain st'.nodes
  | [], done, st, st', _, hp, _, hr => by cases hr; exact hp
  | np :: nps, done, st, st', h, hp, hm, hr => by
    obtain ⟨args, hargs⟩ := initAll_exists (st := st) (xs := np.inputs) fun x hx =>
      h.resolves hg ((hm np List.mem_cons_self).1.ins x hx)
    obtain ⟨st1, h1, hinv, -, hn⟩ := inv_step hg h (hm np List.mem_cons_self).1 hargs
    simp only [GState.convertNodes, h1] at hr
    refine convertNodes_plain hg nps hinv ?_ (fun x hx => hm x (List.mem_cons_of_mem _ hx)) hr
    rw [hn]
    exact stored_plain hg h hp (hm np List.mem_cons_self).1 (hm np List.mem_cons_self).2 hargs

theorem start_plain (g : GraphProto V) : Plain (GState.start [] g).nodes := by
  refine ⟨?_, ?_, ?_⟩
  · intro n hn a ha
    obtain ⟨j, v, rfl⟩ := initializerNodes_mem _ _ n hn
    obtain rfl := List.mem_singleton.1 ha
    exact ⟨⟨fun h => (by cases h), fun _ => .inr ⟨v, rfl⟩⟩, fun _ _ => rfl⟩
  · intro n hn o ho
    obtain ⟨j, v, rfl⟩ := initializerNodes_mem _ _ n hn
    obtain rfl := List.mem_singleton.1 ho
    exact ⟨.inr rfl, _, _, rfl⟩
  · intro n hn _
    obtain ⟨j, v, rfl⟩ := initializerNodes_mem _ _ n hn
    simp [constNode]

/-! ## The graph's outputs -/

/-- Two states that differ in annotations only. -/
structure SameNames (st st' : GState V) : Prop where
  outMap : st'.outMap = st.outMap
  inputMap : st'.inputMap = st.inputMap
  inputs : st'.inputs.map Arg.ns = st.inputs.map Arg.ns
  outs : st'.nodes.map (fun n => n.outputs.map Arg.ns) = st.nodes.map (fun n => n.outputs.map Arg.ns)

theorem SameNames.output {st st' : GState V} (h : SameNames st st') (p : Nat × Nat) :
    (st'.output p).map Arg.ns = (st.output p).map Arg.ns := by
  have h1 : (st'.nodes[p.1]?).map (fun n => n.outputs.map Arg.ns) =
      (st.nodes[p.1]?).map (fun n => n.outputs.map Arg.ns) := by
    rw [← List.getElem?_map, ← List.getElem?_map, h.outs]
  unfold GState.output
  cases hn : st.nodes[p.1]? <;> cases hm : st'.nodes[p.1]? <;> simp [hn, hm] at h1 ⊢
  rw [← List.getElem?_map, ← List.getElem?_map, h1]

theorem SameNames.input {st st' : GState V} (h : SameNames st st') (i : Nat) :
    (st'.inputs[i]?).map Arg.ns = (st.inputs[i]?).map Arg.ns := by
  rw [← List.getElem?_map, ← List.getElem?_map, h.inputs]

theorem SameNames.results {st st' : GState V} (h : SameNames st st') : ∀ {xs : List String}
    {outs outs' : List (Arg V)}, st.results xs = some outs → st'.results xs = some outs' →
    outs'.map Arg.ns = outs.map Arg.ns
  | [], outs, outs', h1, h2 => by cases h1; cases h2; rfl
  | x :: xs, outs, outs', h1, h2 => by
    simp only [GState.results, h.outMap, h.inputMap] at h1 h2
    cases hm : mapGet st.outMap (sanitizeName x) with
    | some p =>
      simp only [hm] at h1 h2
      split at h1
      · next a as ha has =>
        split at h2
        · next b bs hb hbs =>
          cases h1; cases h2
          have := h.output p
          rw [ha, hb] at this
          simp only [Option.map_some, Option.some.injEq] at this
          simp [this, h.results has hbs]
        · cases h2
      · cases h1
    | none =>
      simp only [hm] at h1 h2
      cases hi : mapGet st.inputMap (sanitizeName x) with
      | some i =>
        simp only [hi] at h1 h2
        split at h1
        · next a as ha has =>
          split at h2
          · next b bs hb hbs =>
            cases h1; cases h2
            have := h.input i
            rw [ha, hb] at this
            simp only [Option.map_some, Option.some.injEq] at this
            simp [this, h.results has hbs]
          · cases h2
        · cases h1
      | none =>
        simp only [hi] at h1 h2
        exact h.results h1 h2

/-- The graph's outputs are plain arguments. -/
theorem results_plain {st : GState V} (hp : Plain st.nodes)
    (hi : ∀ a ∈ st.inputs, a.src = .dynamic ∧ a.name ≠ "") : ∀ {xs : List String} {outs : List (Arg V)},
    st.results xs = some outs → ∀ a ∈ outs, WfArg a ∧ ∀ v, a.src = .static v → a.name = "" := by
  have out : ∀ p a, st.output p = some a → WfArg a ∧ ∀ v, a.src = .static v → a.name = "" := by
    intro p a hpa
    simp only [GState.output, Option.bind_eq_some_iff] at hpa
    obtain ⟨n, hn, ha⟩ := hpa
    obtain ⟨hs, m, k, hk⟩ := hp.outs n (List.mem_of_getElem? hn) a (List.mem_of_getElem? ha)
    refine ⟨⟨fun h => ?_, fun h => absurd (hk.symm.trans h) (outName_ne_empty m k)⟩, fun v h => ?_⟩ <;>
      · rw [h] at hs; rcases hs with hs | hs <;> cases hs
  intro xs
  induction xs with
  | nil => intro outs h a ha; cases h; cases ha
  | cons x xs ih =>
    intro outs h a ha
    simp only [GState.results] at h
    split at h
    · next p _ =>
      split at h
      · next b bs hb hbs =>
        cases h
        cases ha with
        | head => exact out p a hb
        | tail _ ha => exact ih hbs a ha
      · cases h
    · split at h
      · next i _ =>
        split at h
        · next b bs hb hbs =>
          cases h
          cases ha with
          | head =>
            obtain ⟨h1, h2⟩ := hi a (List.mem_of_getElem? hb)
            exact ⟨⟨fun h => (by rw [h1] at h; cases h), fun h => absurd h h2⟩,
              fun v h => by rw [h1] at h; cases h⟩
          | tail _ ha => exact ih hbs a ha
        · cases h
      · exact ih h a ha

/-! ## Elimination of no-ops keeps the graph plain -/

theorem follow_prop {P : String → Prop} {m : List (String × String)} (hm : ∀ k v, mapGet m k = some v → P v) :
    ∀ (fuel : Nat) (vis : List String) (cur : String), P cur → P (follow m fuel vis cur)
  | 0, _, _, h => h
  | fuel + 1, vis, cur, h => by
    simp only [follow]
    split
    · exact h
    · next next hn =>
      split
      · exact h
      · exact follow_prop hm fuel _ next (hm _ _ hn)

theorem resolve_prop {P : String → Prop} (fuel : Nat) : ∀ (order m : List (String × String)),
    (∀ k v, mapGet m k = some v → P v) → (∀ k v, (k, v) ∈ order → P v) →
    ∀ k v, mapGet (resolveRewire fuel order m) k = some v → P v
  | [], m, hm, _, k, v, h => hm k v h
  | (k', v') :: rest, m, hm, ho, k, v, h => by
    simp only [resolveRewire] at h
    refine resolve_prop fuel rest _ ?_ (fun k v hk => ho k v (List.mem_cons_of_mem _ hk)) k v h
    intro x w hx
    rw [mapGet_cons] at hx
    split at hx
    · cases hx
      exact follow_prop hm _ _ _ (ho k' v' List.mem_cons_self)
    · exact hm x w hx

theorem resolve_keys (fuel : Nat) (x : String) : ∀ (order m : List (String × String)),
    mapGet m x = none → (∀ v, (x, v) ∉ order) → mapGet (resolveRewire fuel order m) x = none
  | [], _, hm, _ => hm
  | (k', v') :: rest, m, hm, ho => by
    simp only [resolveRewire]
    refine resolve_keys fuel x rest _ ?_ fun v hk => ho v (List.mem_cons_of_mem _ hk)
    rw [mapGet_cons, if_neg fun he => ho v' (by rw [he]; exact List.mem_cons_self)]
    exact hm

theorem mem_outputArgs {nodes : List (Node V)} {x : String} {s : Arg V} (h : (x, s) ∈ outputArgs nodes) :
    s.name = x ∧ ∃ n ∈ nodes, s ∈ n.outputs := by
  induction nodes with
  | nil => cases h
  | cons n ns ih =>
    simp only [outputArgs, List.mem_append, List.mem_map, List.mem_reverse] at h
    rcases h with h | ⟨o, ho, he⟩
    · obtain ⟨h1, m, hm, h2⟩ := ih h
      exact ⟨h1, m, List.mem_cons_of_mem _ hm, h2⟩
    · cases he
      exact ⟨rfl, n, List.mem_cons_self, ho⟩

theorem rewireArg_plain {nodes : List (Node V)} (hp : Plain nodes) {m : List (String × String)}
    (hkey : mapGet m "" = none) (hval : ∀ k v, mapGet m k = some v → v ≠ "") {a : Arg V}
    (ha : WfArg a ∧ ∀ v, a.src = .static v → a.name = "") :
    WfArg (rewireArg m (outputArgs nodes) a) ∧
      ∀ v, (rewireArg m (outputArgs nodes) a).src = .static v → (rewireArg m (outputArgs nodes) a).name = "" := by
  unfold rewireArg
  split
  · exact ha
  · next new hn =>
    have hne := hval _ _ hn
    have hname : a.name ≠ "" := fun he => by rw [he, hkey] at hn; cases hn
    split
    · next s hs =>
      obtain ⟨-, n, hnm, hsn⟩ := mem_outputArgs (mapGet_mem hs)
      have hsrc := (hp.outs n hnm s hsn).1
      refine ⟨⟨fun h => ?_, fun h => absurd h hne⟩, fun v h => ?_⟩ <;>
        · simp only at h; rw [h] at hsrc; rcases hsrc with h | h <;> cases h
    · exact ⟨⟨fun h => absurd (ha.1.1 h) hname, fun h => absurd h hne⟩, fun v h => absurd (ha.2 v h) hname⟩

/-- What is left of the nodes. -/
theorem applyNoop_mem {plan : NoopPlan} {order : List (String × String)} {nodes : List (Node V)}
    {outs : List (Arg V)} {n : Node V} (h : n ∈ (applyNoop plan order nodes outs).1) :
    ∃ m ∈ nodes, n = rewireNode (resolveRewire (nodes.length + 2) order plan.rewire) (outputArgs nodes) m := by
  simp only [applyNoop, List.mem_map, List.mem_filter] at h
  obtain ⟨⟨n', i⟩, ⟨hm, -⟩, rfl⟩ := h
  have := List.mem_of_getElem? (List.mem_zipIdx_iff_getElem?.1 hm)
  obtain ⟨m, hm', rfl⟩ := List.mem_map.1 this
  exact ⟨m, hm', rfl⟩

theorem zipIdx_filter_sublist {α : Type} (p : α × Nat → Bool) : ∀ (l : List α) (k : Nat),
    (((l.zipIdx k).filter p).map Prod.fst).Sublist l := by
  intro l k
  have h1 : ((l.zipIdx k).filter p).Sublist (l.zipIdx k) := List.filter_sublist
  have h2 := h1.map Prod.fst
  have h3 : (l.zipIdx k).map Prod.fst = l := by
    simp
  rw [h3] at h2
  exact h2

theorem flatMap_of_sublist {α β : Type} (f : α → List β) : ∀ {l m : List α}, l.Sublist m →
    (l.flatMap f).Sublist (m.flatMap f) := by
  intro l m h
  induction h with
  | slnil => simp
  | cons a _ ih => simp only [List.flatMap_cons]; exact ih.trans (List.sublist_append_right _ _)
  | cons_cons a _ ih => simp only [List.flatMap_cons]; exact List.Sublist.append (List.Sublist.refl _) ih

theorem applyNoop_ssa {env : Env V} {plan : NoopPlan} {order : List (String × String)} {nodes : List (Node V)}
    {outs : List (Arg V)} (h : SSA env nodes) : SSA env (applyNoop plan order nodes outs).1 := by
  refine ⟨?_, fun n hn x hx => ?_⟩
  · have h1 := zipIdx_filter_sublist (fun p => !plan.remove.contains p.2) (nodes.map
      (rewireNode (resolveRewire (nodes.length + 2) order plan.rewire) (outputArgs nodes))) 0
    have h2 := flatMap_of_sublist Node.outNames h1
    have h3 : (nodes.map (rewireNode (resolveRewire (nodes.length + 2) order plan.rewire)
        (outputArgs nodes))).flatMap Node.outNames = nodes.flatMap Node.outNames := by
      rw [List.flatMap_map]; rfl
    rw [h3] at h2
    exact h2.nodup h.nodup
  · obtain ⟨m, hm, rfl⟩ := applyNoop_mem hn
    exact h.fresh m hm x hx

theorem applyNoop_plain {plan : NoopPlan} {order : List (String × String)} {nodes : List (Node V)}
    {outs : List (Arg V)} (hp : Plain nodes)
    (hkey : mapGet (resolveRewire (nodes.length + 2) order plan.rewire) "" = none)
    (hval : ∀ k v, mapGet (resolveRewire (nodes.length + 2) order plan.rewire) k = some v → v ≠ "") :
    Plain (applyNoop plan order nodes outs).1 := by
  refine ⟨?_, ?_, ?_⟩
  · intro n hn a ha
    obtain ⟨m, hm, rfl⟩ := applyNoop_mem hn
    simp only [rewireNode, List.mem_map] at ha
    obtain ⟨b, hb, rfl⟩ := ha
    exact rewireArg_plain hp hkey hval (hp.ins m hm b hb)
  · intro n hn o ho
    obtain ⟨m, hm, rfl⟩ := applyNoop_mem hn
    exact hp.outs m hm o ho
  · intro n hn ht
    obtain ⟨m, hm, rfl⟩ := applyNoop_mem hn
    simp only [rewireNode, List.length_map]
    exact hp.consts m hm ht

theorem applyNoop_table {env : Env V} {plan : NoopPlan} {order : List (String × String)} {nodes : List (Node V)}
    {outs : List (Arg V)} {tbl : String → Option V} (hp : Plain nodes) (h : TableFor env nodes tbl)
    (hkey : mapGet (resolveRewire (nodes.length + 2) order plan.rewire) "" = none) :
    TableFor env (applyNoop plan order nodes outs).1 tbl := by
  intro x v hx
  obtain ⟨h0, hnode⟩ := h x v hx
  refine ⟨h0, fun n hn hxn => ?_⟩
  obtain ⟨m, hm, rfl⟩ := applyNoop_mem hn
  obtain ⟨ht, a, hi, hs⟩ := hnode m hm hxn
  refine ⟨ht, a, ?_, hs⟩
  have hname := (hp.ins m hm a (by rw [hi]; exact List.mem_singleton_self a)).2 v hs
  simp only [rewireNode, hi, List.map_cons, List.map_nil, rewireArg, hname, hkey]

end OnnxIR
