import Verif.Lemmas.Eval

/-!
# C03, C04, C05: common subexpressions, idempotent operators, identity elements
-/

namespace OnnxIR

variable {V : Type}

/-! ## Specification: what an operator semantics has to satisfy -/

/-- Applying one of Relu, Ceil, Floor, Round, Sign, Abs to one of its own results gives that
result back, whatever the attributes. -/
def IdempotentLaw (S : Sem V) : Prop :=
  ∀ t ∈ [NodeType.relu, .ceil, .floor, .round, .sign, .abs],
    ∀ nm nm' attrs attrs' xs ys y, S nm t attrs xs = some ys → y ∈ ys →
      ∀ zs, S nm' t attrs' [some y] = some zs → zs = [y]

/-- The result of an operator does not depend on which node applies it (no randomness). -/
def DeterministicOn (S : Sem V) (n : Node V) : Prop :=
  ∀ nm xs, S nm n.ty n.attrs xs = S n.name n.ty n.attrs xs

/-- `Constant` nodes produce the value embedded in them, so the constant table used by the
importer (`cmap`) is right about every name it knows that is bound in `e`. -/
def ConstTableOk (cmap : String → Option V) (e : Env V) : Prop :=
  ∀ x v w, cmap x = some v → e x = some w → w = v

/-- What makes a rename map harmless: every key is the output of some node, and when that node runs the
replacement name is already bound to the value the node produces. -/
structure RenameOk (S : Sem V) (env : Env V) (nodes : List (Node V)) (ρ : List (String × String)) :
    Prop where
  key : ∀ x v, mapGet ρ x = some v → ∃ n ∈ nodes, x ∈ n.outNames
  val : ∀ x v, mapGet ρ x = some v → ∀ p n q e1 e2, nodes = p ++ n :: q → x ∈ n.outNames →
    evalNodes S env p = some e1 → evalNode S e1 n = some e2 → ∀ w, e2 x = some w → e1 v = some w

/-! ## C04: idempotent operators -/

theorem mapGet_producerTypes {nodes : List (Node V)} {x : String} {t : NodeType}
    (h : mapGet (producerTypes nodes) x = some t) : ∃ n ∈ nodes, x ∈ n.outNames ∧ n.ty = t := by
  have hm := mapGet_mem h
  clear h
  induction nodes with
  | nil => simp [producerTypes] at hm
  | cons n ns ih =>
    simp only [producerTypes, List.mem_append] at hm
    rcases hm with hm | hm
    · obtain ⟨m, hm1, hm2⟩ := ih hm
      exact ⟨m, List.mem_cons_of_mem _ hm1, hm2⟩
    · simp only [List.mem_map, List.mem_reverse, Prod.mk.injEq] at hm
      obtain ⟨o, ho, rfl, rfl⟩ := hm
      exact ⟨n, List.mem_cons_self, List.mem_map.2 ⟨o, ho, rfl⟩, rfl⟩

theorem idempotentBinding_some {prod : List (String × NodeType)} {n : Node V} {x v : String}
    (h : idempotentBinding prod n = some (x, v)) :
    n.ty ∈ idempotentOps ∧ ∃ i o, n.inputs = [i] ∧ n.outputs = [o] ∧ o.name = x ∧ i.name = v ∧
      mapGet prod i.name = some n.ty := by
  unfold idempotentBinding at h
  split at h
  · next hc =>
    split at h
    · next i o hi ho =>
      split at h
      · next hp =>
        simp only [Option.some.injEq, Prod.mk.injEq] at h
        exact ⟨by simpa using hc, i, o, hi, ho, h.1, h.2, hp⟩
      · cases h
    · cases h
  · cases h

theorem filterMap_rename_key {f : Node V → Option (String × String)} {nodes : List (Node V)}
    {x v : String} (h : mapGet (nodes.filterMap f).reverse x = some v) :
    ∃ n ∈ nodes, f n = some (x, v) := by
  have := mapGet_mem h
  simpa [List.mem_filterMap] using this

/-- In a single-assignment list the producer of a name is unique. -/
theorem SSA.producer_unique {env : Env V} {nodes : List (Node V)} (hs : SSA env nodes)
    {p q : List (Node V)} {n m : Node V} (hn : nodes = p ++ n :: q) (hm : m ∈ nodes) {x : String}
    (hxn : x ∈ n.outNames) (hxm : x ∈ m.outNames) : m = n := by
  subst hn
  have hnd := hs.nodup
  simp only [List.flatMap_append, List.flatMap_cons, List.nodup_append] at hnd
  simp only [List.mem_append, List.mem_cons] at hm
  rcases hm with hm | rfl | hm
  · exact absurd rfl (hnd.2.2 x (List.mem_flatMap.2 ⟨m, hm, hxm⟩) x (List.mem_append_left _ hxn))
  · rfl
  · exact absurd rfl (hnd.2.1.2.2 x hxn x (List.mem_flatMap.2 ⟨m, hm, hxm⟩))

/-- If a name is bound after a prefix of the run and is an output of some node of the program,
that node is in the prefix and has run. -/
theorem SSA.ran {S : Sem V} {env : Env V} {p q : List (Node V)} (hs : SSA env (p ++ q))
    {e : Env V} (he : evalNodes S env p = some e) {x : String} {w : V} (hw : e x = some w)
    {m : Node V} (hm : m ∈ p ++ q) (hxm : x ∈ m.outNames) :
    ∃ p1 p2 e1 e2, p = p1 ++ m :: p2 ∧ evalNodes S env p1 = some e1 ∧ evalNode S e1 m = some e2 ∧
      e2 x = some w ∧ evalNodes S e2 p2 = some e := by
  have hxp : x ∈ p.flatMap Node.outNames := by
    apply Classical.byContradiction
    intro hnp
    rw [evalNodes_notMem p he hnp, hs.fresh m hm x hxm] at hw
    cases hw
  obtain ⟨m', hm', hxm'⟩ := List.mem_flatMap.1 hxp
  obtain ⟨p1, p2, rfl⟩ := List.append_of_mem hm'
  have : m = m' := hs.producer_unique (p := p1) (q := p2 ++ q) (by simp) hm hxm' hxm
  subst this
  obtain ⟨e1, e2, h1, h2, h3⟩ := evalNodes_split he
  refine ⟨p1, p2, e1, e2, rfl, h1, h2, ?_, h3⟩
  rw [← hw]
  refine (evalNodes_notMem p2 h3 ?_).symm
  have := (hs.prefix).nodup
  simp only [List.flatMap_append, List.flatMap_cons, List.nodup_append] at this
  exact fun hc => this.2.1.2.2 x hxm x hc rfl

/-- The value an argument that names a produced value evaluates to. -/
theorem evalArg_produced {e : Env V} {a : Arg V} {v : Option V} (h : evalArg e a = some v)
    (hs : a.reads) : ∃ w, e a.name = some w ∧ v = some w := by
  unfold evalArg at h
  rcases hs with hs | hs <;> rw [hs] at h <;>
  · cases hw : e a.name with
    | none => simp [hw] at h
    | some w => simp [hw] at h; exact ⟨w, rfl, h.symm⟩

theorem idempotent_ok {S : Sem V} (hlaw : IdempotentLaw S) {env : Env V} {nodes : List (Node V)}
    (hssa : SSA env nodes) (hwf : WfNames nodes) : RenameOk S env nodes (idempotentRename nodes) := by
  refine ⟨?_, ?_⟩
  · intro x v hxv
    obtain ⟨n, hn, hb⟩ := filterMap_rename_key hxv
    obtain ⟨_, i, o, _, ho, rfl, _, _⟩ := idempotentBinding_some hb
    exact ⟨n, hn, by simp [Node.outNames, ho]⟩
  · intro x v hxv p n q e1 e2 hnodes hxn h1 h2 w hw
    obtain ⟨n', hn', hb⟩ := filterMap_rename_key hxv
    obtain ⟨hty, i, o, hi, ho, hox, hiv, hprod⟩ := idempotentBinding_some hb
    have : n' = n := hssa.producer_unique hnodes hn' hxn (by simp [Node.outNames, ho, hox])
    subst this
    obtain ⟨m, hm, hvm, hmty⟩ := mapGet_producerTypes hprod
    obtain ⟨xs, ys, hxs, hys, hl, rfl⟩ := evalNode_some h2
    -- the input reads a produced name
    have hne : i.name ≠ "" := by
      intro h0; rw [h0] at hvm; exact hwf.outs m hm hvm
    have hreads : i.reads := by
      have := (hwf.ins n' hn' i (by simp [hi]))
      unfold Arg.reads
      cases hsrc : i.src with
      | static v => exact absurd hvm (hwf.labels n' hn' i (by simp [hi]) v hsrc m hm)
      | optional => exact absurd (this.1 hsrc) hne
      | constant => exact Or.inl rfl
      | dynamic => exact Or.inr rfl
    rw [hi] at hxs
    obtain ⟨iv, hiv'⟩ := evalArgs_mem hxs i (by simp)
    obtain ⟨u, hu, rfl⟩ := evalArg_produced hiv' hreads
    have hxs' : xs = [some u] := by
      simp only [evalArgs, hiv'] at hxs
      exact (Option.some.inj hxs).symm
    -- the producer has run
    have hssa' : SSA env (p ++ n' :: q) := hnodes ▸ hssa
    obtain ⟨p1, p2, f1, f2, rfl, hf1, hf2, hfu, _⟩ :=
      hssa'.ran h1 hu (hnodes ▸ hm) hvm
    obtain ⟨xs0, ys0, _, hys0, hl0, rfl⟩ := evalNode_some hf2
    obtain ⟨u', hu'mem, hu'⟩ := bindAll_mem m.outNames ys0 f1 i.name hvm
      (by rw [hl0, Node.outNames, List.length_map])
    have huu : u' = u := by rw [hfu] at hu'; exact (Option.some.inj hu').symm
    subst huu
    rw [hxs'] at hys
    rw [hmty] at hys0
    have hzs := hlaw n'.ty hty m.name n'.name m.attrs n'.attrs xs0 ys0 u' hys0 hu'mem ys hys
    subst hzs
    have : n'.outNames = [x] := by simp [Node.outNames, ho, hox]
    rw [this] at hw
    simp [bindAll] at hw
    rw [← hiv, hu, hw]

/-- **C04.** Rewiring the second of two consecutive applications of an idempotent operator leaves
every result of the graph unchanged. -/
theorem C04_idempotent_preserves_outputs (S : Sem V) (hlaw : IdempotentLaw S) (env : Env V)
    (nodes : List (Node V)) (outs : List (Arg V)) (hssa : SSA env nodes) (hwf : WfNames nodes)
    (r : List (Option V)) (h : evalGraph S env nodes outs = some r) :
    evalGraph S env (eliminateIdempotentOps nodes) outs = some r := by
  revert h
  have hok := idempotent_ok hlaw hssa hwf
  exact preserves_of_evalNodes (fun E hE => rename_pass hssa hok.key hok.val hE) outs r

/-! ## C05: identity elements -/

/-- `x + 0`, `0 + x`, `x - 0`, `x * 1`, `1 * x`, `x / 1`, `x ^ 1` return `x` when the constant
operand `c` has at least one element, all of them equal to the identity element, **and `c` does
not enlarge the result** (`fits c x`: broadcasting `c` against `x` gives the shape of `x`). -/
structure IdentityLaw {E : Type} (S : Sem V) (elems : V → Option (List E)) (zero one : E)
    (fits : V → V → Prop) : Prop where
  right : ∀ t z, (t, z) ∈ [(NodeType.add, zero), (.sub, zero), (.mul, one), (.div, one),
      (.pow, one)] → ∀ nm attrs x c es ys, elems c = some es → es ≠ [] → (∀ e ∈ es, e = z) →
      fits c x → S nm t attrs [some x, some c] = some ys → ys = [x]
  left : ∀ t z, (t, z) ∈ [(NodeType.add, zero), (.mul, one)] →
      ∀ nm attrs x c es ys, elems c = some es → es ≠ [] → (∀ e ∈ es, e = z) →
      fits c x → S nm t attrs [some c, some x] = some ys → ys = [x]

/-- The situation the pass assumes but does not check: whenever it drops an operand, the kept
operand names a value of the graph, and the dropped one does not enlarge the result. `e` ranges
over the environments the run passes through. -/
def DropsFit {E : Type} [DecidableEq E] (cmap : String → Option V) (elems : V → Option (List E))
    (zero one : E) (fits : V → V → Prop) (n : Node V) (e : Env V) : Prop :=
  ∀ a b o k, n.inputs = [a, b] → n.outputs = [o] →
    identityPassthrough cmap elems zero one n.ty a b = some k →
    k.reads ∧ ∀ x c, evalArg e a = some (some x) → evalArg e b = some (some c) →
      (k = a → isConstantValue cmap elems b (if n.ty = .add ∨ n.ty = .sub then zero else one) →
        fits c x) ∧
      (k = b → isConstantValue cmap elems a (if n.ty = .add then zero else one) → fits x c)

theorem isConstantValue_spec {E : Type} [DecidableEq E] {cmap : String → Option V}
    {elems : V → Option (List E)} {a : Arg V} {z : E}
    (h : isConstantValue cmap elems a z = true) {e : Env V} (hc : ConstTableOk cmap e)
    {v : Option V} (hv : evalArg e a = some v) :
    ∃ c es, v = some c ∧ elems c = some es ∧ es ≠ [] ∧ ∀ x ∈ es, x = z := by
  have aux : ∀ c : V, (match elems c with
      | none => false
      | some [] => false
      | some es => es.all fun e => decide (e = z)) = true →
      ∃ es, elems c = some es ∧ es ≠ [] ∧ ∀ x ∈ es, x = z := by
    intro c hcv
    cases he : elems c with
    | none => simp [he] at hcv
    | some es =>
      cases es with
      | nil => simp [he] at hcv
      | cons b bs =>
        refine ⟨b :: bs, rfl, by simp, ?_⟩
        simp only [he, List.all_eq_true, decide_eq_true_eq] at hcv
        exact hcv
  unfold isConstantValue at h
  unfold evalArg at hv
  cases hs : a.src with
  | static c =>
    simp only [hs] at h hv
    obtain ⟨es, h1, h2, h3⟩ := aux c h
    exact ⟨c, es, (Option.some.inj hv).symm, h1, h2, h3⟩
  | optional => simp [hs] at h
  | dynamic => simp [hs] at h
  | constant =>
    simp only [hs] at h hv
    cases hcm : cmap a.name with
    | none => simp [hcm] at h
    | some c =>
      simp only [hcm] at h
      obtain ⟨es, h1, h2, h3⟩ := aux c h
      cases hw : e a.name with
      | none => simp [hw] at hv
      | some w =>
        have := hc _ _ _ hcm hw
        subst this
        simp [hw] at hv
        exact ⟨w, es, hv.symm, h1, h2, h3⟩

theorem identityBinding_some {E : Type} [DecidableEq E] {cmap : String → Option V}
    {elems : V → Option (List E)} {zero one : E} {n : Node V} {x v : String}
    (h : identityBinding cmap elems zero one n = some (x, v)) :
    ∃ a b o k, n.inputs = [a, b] ∧ n.outputs = [o] ∧ o.name = x ∧ k.name = v ∧
      identityPassthrough cmap elems zero one n.ty a b = some k := by
  unfold identityBinding at h
  split at h
  · next a b o hi ho =>
    split at h
    · next k hk =>
      simp only [Option.some.injEq, Prod.mk.injEq] at h
      exact ⟨a, b, o, k, hi, ho, h.1, h.2, hk⟩
    · cases h
  · cases h

theorem identity_ok {E : Type} [DecidableEq E] {S : Sem V} {elems : V → Option (List E)} {zero one : E}
    {fits : V → V → Prop} (hlaw : IdentityLaw S elems zero one fits) {cmap : String → Option V} {env : Env V}
    {nodes : List (Node V)} (hssa : SSA env nodes)
    (hc : ∀ p q e, nodes = p ++ q → evalNodes S env p = some e → ConstTableOk cmap e)
    (hfit : ∀ p n q e, nodes = p ++ n :: q → evalNodes S env p = some e →
      DropsFit cmap elems zero one fits n e) :
    RenameOk S env nodes (identityRename cmap elems zero one nodes) := by
  refine ⟨?_, ?_⟩
  · intro x v hxv
    obtain ⟨n, hn, hb⟩ := filterMap_rename_key hxv
    obtain ⟨a, b, o, k, hi, ho, hox, _⟩ := identityBinding_some hb
    exact ⟨n, hn, by simp [Node.outNames, ho, hox]⟩
  · intro x v hxv p n q e1 e2 hnodes hxn h1 h2 w hw
    obtain ⟨n', hn', hb⟩ := filterMap_rename_key hxv
    obtain ⟨a, b, o, k, hi, ho, hox, hkv, hpass⟩ := identityBinding_some hb
    have : n' = n := hssa.producer_unique hnodes hn' hxn (by simp [Node.outNames, ho, hox])
    subst this
    obtain ⟨hkreads, hfits⟩ := hfit p n' q e1 hnodes h1 a b o k hi ho hpass
    have hct := hc p (n' :: q) e1 hnodes h1
    obtain ⟨xs, ys, hxs, hys, hl, rfl⟩ := evalNode_some h2
    rw [hi] at hxs
    obtain ⟨va, hva⟩ := evalArgs_mem hxs a (by simp)
    obtain ⟨vb, hvb⟩ := evalArgs_mem hxs b (by simp)
    have hxs' : xs = [va, vb] := by
      simp only [evalArgs, hva, hvb] at hxs
      exact (Option.some.inj hxs).symm
    rw [hxs'] at hys
    have hout : n'.outNames = [x] := by simp [Node.outNames, ho, hox]
    rw [hout] at hw
    -- keeping `a`
    have keepA : ∀ z, (n'.ty, z) ∈ [(NodeType.add, zero), (.sub, zero), (.mul, one), (.div, one),
        (.pow, one)] → isConstantValue cmap elems b z = true → k = a →
        z = (if n'.ty = .add ∨ n'.ty = .sub then zero else one) → e1 v = some w := by
      intro z hz hcv hka hzz
      subst hka
      obtain ⟨w', hw', rfl⟩ := evalArg_produced hva hkreads
      obtain ⟨c, es, rfl, hes, hne, hall⟩ := isConstantValue_spec hcv hct hvb
      have hf := (hfits w' c hva hvb).1 rfl (hzz ▸ hcv)
      have := hlaw.right n'.ty z hz n'.name n'.attrs w' c es ys hes hne hall hf hys
      subst this
      simp [bindAll] at hw
      rw [← hkv, hw', hw]
    have keepB : ∀ z, (n'.ty, z) ∈ [(NodeType.add, zero), (.mul, one)] →
        isConstantValue cmap elems a z = true → k = b →
        z = (if n'.ty = .add then zero else one) → e1 v = some w := by
      intro z hz hcv hkb hzz
      subst hkb
      obtain ⟨w', hw', rfl⟩ := evalArg_produced hvb hkreads
      obtain ⟨c, es, rfl, hes, hne, hall⟩ := isConstantValue_spec hcv hct hva
      have hf := (hfits c w' hva hvb).2 rfl (hzz ▸ hcv)
      have := hlaw.left n'.ty z hz n'.name n'.attrs w' c es ys hes hne hall hf hys
      subst this
      simp [bindAll] at hw
      rw [← hkv, hw', hw]
    unfold identityPassthrough at hpass
    split at hpass
    · next ht =>
      split at hpass
      · next hcv =>
        exact keepA zero (by simp [ht]) hcv (Option.some.inj hpass).symm (by simp [ht])
      · split at hpass
        · next hcv =>
          exact keepB zero (by simp [ht]) hcv (Option.some.inj hpass).symm (by simp [ht])
        · cases hpass
    · next ht =>
      split at hpass
      · next hcv =>
        exact keepA zero (by simp [ht]) hcv (Option.some.inj hpass).symm (by simp [ht])
      · cases hpass
    · next ht =>
      split at hpass
      · next hcv =>
        exact keepA one (by simp [ht]) hcv (Option.some.inj hpass).symm (by simp [ht])
      · split at hpass
        · next hcv =>
          exact keepB one (by simp [ht]) hcv (Option.some.inj hpass).symm (by simp [ht])
        · cases hpass
    · next ht =>
      split at hpass
      · next hcv =>
        exact keepA one (by simp [ht]) hcv (Option.some.inj hpass).symm (by simp [ht])
      · cases hpass
    · next ht =>
      split at hpass
      · next hcv =>
        exact keepA one (by simp [ht]) hcv (Option.some.inj hpass).symm (by simp [ht])
      · cases hpass
    · cases hpass

/-- **C05, under its exact guard.** If in every environment the run passes through the dropped
constant operands do not enlarge the result (and the kept operand is not an embedded constant),
the pass leaves every result unchanged. What is missing from the full property: the code does not
check the guard, see `C05_identity_element_wrong_shape`. -/
theorem C05_identity_element_preserves_outputs_partial {E : Type} [DecidableEq E] (S : Sem V)
    (elems : V → Option (List E)) (zero one : E) (fits : V → V → Prop)
    (hlaw : IdentityLaw S elems zero one fits) (cmap : String → Option V) (env : Env V)
    (nodes : List (Node V)) (outs : List (Arg V)) (hssa : SSA env nodes)
    (hc : ∀ p q e, nodes = p ++ q → evalNodes S env p = some e → ConstTableOk cmap e)
    (hfit : ∀ p n q e, nodes = p ++ n :: q → evalNodes S env p = some e →
      DropsFit cmap elems zero one fits n e)
    (r : List (Option V)) (h : evalGraph S env nodes outs = some r) :
    evalGraph S env (eliminateIdentityElements cmap elems zero one nodes) outs = some r := by
  revert h
  have hok := identity_ok hlaw hssa hc hfit
  exact preserves_of_evalNodes (fun E hE => rename_pass hssa hok.key hok.val hE) outs r

/-! ## C03: common subexpressions -/

theorem seenGet_mem [DecidableEq V] {seen : List (CseKey V × Node V)} {k : CseKey V}
    {n : Node V} (h : seenGet seen k = some n) : (k, n) ∈ seen := by
  induction seen with
  | nil => simp [seenGet] at h
  | cons p seen ih =>
    obtain ⟨k', n'⟩ := p
    simp only [seenGet] at h
    split at h
    · next hk => cases h; subst hk; exact List.mem_cons_self
    · exact List.mem_cons_of_mem _ (ih h)

/-- Every binding of the scan maps the `k`-th output of a node to the `k`-th output of an earlier
node with the same key. -/
theorem cseScan_mem [DecidableEq V] : ∀ (ns pre : List (Node V)) (seen : List (CseKey V × Node V))
    (ρ : List (String × String)),
    (∀ k m, (k, m) ∈ seen → k = cseKey m ∧ m ∈ pre) →
    ∀ x v, (x, v) ∈ cseScan ns seen ρ → (x, v) ∈ ρ ∨
      ∃ p n q m, ns = p ++ n :: q ∧ m ∈ pre ++ p ∧ cseKey m = cseKey n ∧
        m.outputs.length = n.outputs.length ∧ (x, v) ∈ n.outNames.zip m.outNames := by
  intro ns
  induction ns with
  | nil => intro pre seen ρ _ x v h; exact Or.inl h
  | cons n ns ih =>
    intro pre seen ρ hseen x v h
    have lift : ∀ pre' : List (Node V), pre' = pre ++ [n] →
        (∃ p n' q m, ns = p ++ n' :: q ∧ m ∈ pre' ++ p ∧ cseKey m = cseKey n' ∧
          m.outputs.length = n'.outputs.length ∧ (x, v) ∈ n'.outNames.zip m.outNames) →
        ∃ p n' q m, n :: ns = p ++ n' :: q ∧ m ∈ pre ++ p ∧ cseKey m = cseKey n' ∧
          m.outputs.length = n'.outputs.length ∧ (x, v) ∈ n'.outNames.zip m.outNames := by
      rintro pre' rfl ⟨p, n', q, m, hns, hm, hk, hl, hz⟩
      exact ⟨n :: p, n', q, m, by simp [hns], by simpa [List.append_assoc] using hm, hk, hl, hz⟩
    have hseen' : ∀ k m, (k, m) ∈ seen → k = cseKey m ∧ m ∈ pre ++ [n] := fun k m hm =>
      ⟨(hseen k m hm).1, List.mem_append_left _ (hseen k m hm).2⟩
    simp only [cseScan] at h
    split at h
    · next orig ho =>
      have hmem := hseen _ _ (seenGet_mem ho)
      split at h
      · next hl =>
        rcases ih (pre ++ [n]) seen _ hseen' x v h with h | h
        · rcases List.mem_append.1 h with h | h
          · right
            exact ⟨[], n, ns, orig, rfl, by simpa using hmem.2, hmem.1.symm, hl, by simpa using h⟩
          · exact Or.inl h
        · exact Or.inr (lift _ rfl h)
      · rcases ih (pre ++ [n]) seen _ hseen' x v h with h | h
        · exact Or.inl h
        · exact Or.inr (lift _ rfl h)
    · rcases ih (pre ++ [n]) _ ρ (by
          intro k m hm
          cases hm with
          | head => exact ⟨rfl, by simp⟩
          | tail _ hm => exact hseen' k m hm) x v h with h | h
      · exact Or.inl h
      · exact Or.inr (lift _ rfl h)

theorem evalArgs_same_names {e1 e2 : Env V} : ∀ {as bs : List (Arg V)},
    as.map Arg.name = bs.map Arg.name →
    (∀ a ∈ as, WfArg a ∧ a.src.isEmbedded = false) →
    (∀ b ∈ bs, WfArg b ∧ b.src.isEmbedded = false) →
    (∀ a ∈ as, ∀ w, e1 a.name = some w → e2 a.name = some w) →
    ∀ {xs}, evalArgs e1 as = some xs → evalArgs e2 bs = some xs
  | [], [], _, _, _, _, _, h => h
  | [], b :: bs, h, _, _, _, _, _ => by simp at h
  | a :: as, [], h, _, _, _, _, _ => by simp at h
  | a :: as, b :: bs, hn, ha, hb, he, xs, h => by
    simp only [List.map_cons, List.cons.injEq] at hn
    simp only [evalArgs] at h ⊢
    cases hva : evalArg e1 a with
    | none => simp [hva] at h
    | some v =>
      cases hvs : evalArgs e1 as with
      | none => simp [hva, hvs] at h
      | some vs =>
        simp only [hva, hvs] at h
        rw [evalArgs_same_names hn.2 (fun c hc => ha c (List.mem_cons_of_mem _ hc))
          (fun c hc => hb c (List.mem_cons_of_mem _ hc))
          (fun c hc => he c (List.mem_cons_of_mem _ hc)) hvs]
        have hA := ha a List.mem_cons_self
        have hB := hb b List.mem_cons_self
        have hE := he a List.mem_cons_self
        have : evalArg e2 b = some v := by
          unfold WfArg at hA hB
          unfold evalArg at hva ⊢
          cases hsa : a.src with
          | static c => simp [Src.isEmbedded, hsa] at hA
          | constant => simp [Src.isEmbedded, hsa] at hA
          | optional =>
            have h0 : b.name = "" := hn.1 ▸ hA.1.1 hsa
            rcases hB.1.2 h0 with h | ⟨c, h⟩
            · rw [h]; rw [hsa] at hva; exact hva
            · simp [h, Src.isEmbedded] at hB
          | dynamic =>
            have h0 : b.name ≠ "" := by
              intro h0
              have h1 : a.name = "" := hn.1.trans h0
              rcases hA.1.2 h1 with h | ⟨c, h⟩ <;> rw [hsa] at h <;> cases h
            cases hsb : b.src with
            | static c => simp [Src.isEmbedded, hsb] at hB
            | constant => simp [Src.isEmbedded, hsb] at hB
            | optional => exact absurd (hB.1.1 hsb) h0
            | dynamic =>
              simp only [hsa] at hva
              simp only
              cases hw : e1 a.name with
              | none => simp [hw] at hva
              | some w => rw [← hn.1, hE w hw]; rw [hw] at hva; exact hva
        rw [this]; exact h

theorem mem_zip_getElem? {α β} {x : α} {v : β} : ∀ {as : List α} {bs : List β},
    (x, v) ∈ as.zip bs → ∃ i : Nat, as[i]? = some x ∧ bs[i]? = some v
  | [], bs, h => by simp at h
  | a :: as, [], h => by simp at h
  | a :: as, b :: bs, h => by
    simp only [List.zip_cons_cons, List.mem_cons, Prod.mk.injEq] at h
    rcases h with ⟨rfl, rfl⟩ | h
    · exact ⟨0, rfl, rfl⟩
    · obtain ⟨i, h1, h2⟩ := mem_zip_getElem? h
      exact ⟨i + 1, by simpa using h1, by simpa using h2⟩

theorem redundant_ok [DecidableEq V] {S : Sem V} {env : Env V} {nodes : List (Node V)}
    (hssa : SSA env nodes) (hwf : WfNames nodes) (hnames : (nodes.map Node.name).Nodup)
    (hdet : ∀ n ∈ nodes, DeterministicOn S n) : RenameOk S env nodes (cseScan nodes [] []) := by
  have hmem : ∀ x v, mapGet (cseScan nodes [] []) x = some v →
      ∃ p n q m, nodes = p ++ n :: q ∧ m ∈ p ∧ cseKey m = cseKey n ∧
        m.outputs.length = n.outputs.length ∧ (x, v) ∈ n.outNames.zip m.outNames := by
    intro x v hxv
    rcases cseScan_mem nodes [] [] [] (by simp) x v (mapGet_mem hxv) with h | h
    · cases h
    · simpa using h
  refine ⟨?_, ?_⟩
  · intro x v hxv
    obtain ⟨p, n, q, m, hn, _, _, _, hz⟩ := hmem x v hxv
    exact ⟨n, by simp [hn], (List.of_mem_zip hz).1⟩
  · intro x v hxv p n q e1 e2 hnodes hxn h1 h2 w hw
    obtain ⟨p', n', q', m, hn', hm, hkey, hlen, hz⟩ := hmem x v hxv
    have hn'mem : n' ∈ nodes := by simp [hn']
    have hnn : n' = n := hssa.producer_unique hnodes hn'mem hxn (List.of_mem_zip hz).1
    subst hnn
    -- the two decompositions of the node list agree
    have hpp : p = p' := by
      have hnd : (nodes.map Node.name).Nodup := hnames
      have aux : ∀ (a b c d : List (Node V)), a ++ n' :: b = c ++ n' :: d →
          ((a ++ n' :: b).map Node.name).Nodup → a = c := by
        intro a
        induction a with
        | nil =>
          intro b c d heq hnd
          cases c with
          | nil => rfl
          | cons c cs =>
            simp only [List.nil_append, List.cons_append, List.cons.injEq] at heq
            obtain ⟨rfl, rfl⟩ := heq
            simp at hnd
        | cons a as ih =>
          intro b c d heq hnd
          cases c with
          | nil =>
            simp only [List.nil_append, List.cons_append, List.cons.injEq] at heq
            obtain ⟨rfl, rfl⟩ := heq
            simp at hnd
          | cons c cs =>
            simp only [List.cons_append, List.cons.injEq] at heq
            obtain ⟨rfl, heq⟩ := heq
            simp only [List.cons_append, List.map_cons, List.nodup_cons] at hnd
            rw [ih b cs d heq hnd.2]
      exact aux p q p' q' (hnodes ▸ hn') (hnodes ▸ hnd)
    subst hpp
    have hmmem : m ∈ nodes := by rw [hnodes]; exact List.mem_append_left _ hm
    -- equal keys: operator, input names and attributes coincide
    have hops : m.ty = n'.ty ∧ m.inNames = n'.inNames ∧ m.attrs = n'.attrs ∧
        (∀ a ∈ m.inputs, a.src.isEmbedded = false) ∧
        (∀ a ∈ n'.inputs, a.src.isEmbedded = false) := by
      have hneq : m.name ≠ n'.name := by
        intro hc
        obtain ⟨a, b, rfl⟩ := List.append_of_mem hm
        rw [hnodes] at hnames
        simp only [List.append_assoc, List.cons_append, List.map_append, List.map_cons,
          List.nodup_append, List.nodup_cons] at hnames
        exact hnames.2.1.1 (by simp [hc])
      unfold cseKey at hkey
      split at hkey
      · split at hkey
        · exact absurd (CseKey.unique.inj hkey) hneq
        · split at hkey
          · exact absurd (CseKey.unique.inj hkey) hneq
          · cases hkey
      · split at hkey
        · split at hkey
          · exact absurd (CseKey.unique.inj hkey) hneq
          · split at hkey
            · exact absurd (CseKey.unique.inj hkey) hneq
            · cases hkey
        · next hme =>
          split at hkey
          · cases hkey
          · split at hkey
            · cases hkey
            · next hne =>
              obtain ⟨h1, h2, h3⟩ := CseKey.op.inj hkey
              refine ⟨h1, h2, h3, ?_, ?_⟩
              · simpa using hme
              · simpa using hne
    obtain ⟨hty, hins, hattrs, hme, hne⟩ := hops
    obtain ⟨a, b, rfl⟩ := List.append_of_mem hm
    obtain ⟨f1, f2, hf1, hf2, hf3⟩ := evalNodes_split h1
    obtain ⟨xs, ys, hxs, hys, hl, rfl⟩ := evalNode_some h2
    obtain ⟨xs0, ys0, hxs0, hys0, hl0, rfl⟩ := evalNode_some hf2
    have hs1 : SSA env (a ++ m :: b) := by
      have h := hssa
      rw [hnodes] at h
      exact h.prefix
    have hstab : ∀ y w, f1 y = some w → e1 y = some w := by
      intro y w hy
      exact hs1.stable hf1 (by simp only [evalNodes, hf2, hf3]) hy
    -- the duplicate receives the same inputs
    have hsame : xs0 = xs := by
      have := evalArgs_same_names (e1 := f1) (e2 := e1) (as := m.inputs) (bs := n'.inputs) hins
        (fun c hc => ⟨hwf.ins m hmmem c hc, hme c hc⟩)
        (fun c hc => ⟨hwf.ins n' hn'mem c hc, hne c hc⟩) (fun c _ w hw => hstab c.name w hw) hxs0
      rw [this] at hxs
      exact Option.some.inj hxs
    have hyy : ys0 = ys := by
      rw [hty, hattrs, hsame, hdet n' hn'mem m.name xs] at hys0
      rw [hys0] at hys
      exact Option.some.inj hys
    subst hyy
    obtain ⟨i, hix, hiv⟩ := mem_zip_getElem? hz
    have hnd1 : n'.outNames.Nodup := nodup_flatMap_mem hssa.nodup n' hn'mem
    have hnd2 : m.outNames.Nodup := nodup_flatMap_mem hssa.nodup m hmmem
    have hlt : i < ys0.length := by
      rw [hl]
      have := (List.getElem?_eq_some_iff.1 hix).1
      simpa [Node.outNames] using this
    have hyi : ys0[i]? = some ys0[i] := List.getElem?_eq_getElem hlt
    have e2x := bindAll_get n'.outNames ys0 e1 i x _ hnd1 hix hyi
    rw [hw] at e2x
    have hwi : w = ys0[i] := Option.some.inj e2x
    have f2v := bindAll_get m.outNames ys0 f1 i v _ hnd2 hiv hyi
    rw [hwi]
    refine SSA.stable (p := a ++ [m]) (q := b) (by simpa using hs1)
      (e1 := bindAll f1 m.outNames ys0) ?_ hf3 f2v
    rw [evalNodes_append, hf1]
    simp only [Option.bind_some, evalNodes, hf2]

/-- **C03, for operators that are deterministic.** Merging nodes with the same operator, the same
input names and the same attributes leaves every result unchanged, provided node names are unique
and no merged operator is random. What is missing from the full property: the pass does not
exclude random operators, see `C03_cse_wrong_on_random`. -/
theorem C03_cse_preserves_outputs_partial [DecidableEq V] (S : Sem V) (env : Env V)
    (nodes : List (Node V)) (outs : List (Arg V)) (hssa : SSA env nodes) (hwf : WfNames nodes)
    (hnames : (nodes.map Node.name).Nodup) (hdet : ∀ n ∈ nodes, DeterministicOn S n)
    (r : List (Option V)) (h : evalGraph S env nodes outs = some r) :
    evalGraph S env (eliminateRedundantNodes nodes) outs = some r := by
  revert h
  have hok := redundant_ok hssa hwf hnames hdet
  exact preserves_of_evalNodes (fun E hE => rename_pass hssa hok.key hok.val hE) outs r

end OnnxIR
