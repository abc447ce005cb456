import Verif.Model.SimplifyGraph
import Verif.Lemmas.GoodRun
import Verif.Props.ConstantFold
import Verif.Props.PermuteReshape
import Verif.Props.Attention
import Verif.Props.DeadNodes

/-!
# C09: the simplification pipeline
-/

namespace OnnxIR

variable {A B E F : Type}

/-! ## Specification -/

/-- The operators mean what ONNX says, as far as the passes rely on it. -/
structure SimpSem [Inhabited A] [Inhabited B] [DecidableEq E] (S : Sem (CVal A B)) (o : SimpOps A B E F)
    (fs : FloatSpec A B) (ops : AttnOps (CVal A B) F) (fits : CVal A B → CVal A B → Prop) : Prop where
  floats : FloatAgree o.fo fs
  attention : AttnSem S (cvalView o.fo) o.sv ops
  permute : PermuteSem S (cvalView o.fo)
  shape : ShapeSem S (cvalView o.fo)
  fold : FoldSem fs S
  idempotent : IdempotentLaw S
  identity : IdentityLaw S o.elems o.zero o.one fits

/-- The state at the beginning of a round; `k` rounds are over. -/
inductive Round [DecidableEq E] [DecidableEq (CVal A B)] (o : SimpOps A B E F) (st0 : GraphSt A B) :
    Nat → GraphSt A B → Prop
  | first : Round o st0 0 st0
  | next {k : Nat} {st st' : GraphSt A B} (h : Round o st0 k st) (hk : k + 1 < 10)
      (hrun : runPasses o Pass.order st = some st') (hless : st'.nodes.length < st.nodes.length) :
      Round o st0 (k + 1) st'

/-- The pipeline, started on `st0`, is in the state `st` when it comes to the pass `p`. -/
def Arrives [DecidableEq E] [DecidableEq (CVal A B)] (o : SimpOps A B E F) (st0 : GraphSt A B) (p : Pass)
    (st : GraphSt A B) : Prop :=
  ∃ k st1 ps qs, Round o st0 k st1 ∧ Pass.order = ps ++ p :: qs ∧ runPasses o ps st1 = some st

/-- The situations in which each pass is right on its own (C03, C05, C06, C07, C08, C10); nothing for the
elimination of idempotent operators and of dead nodes (C04, C01). -/
def Pass.Guard [DecidableEq E] (S : Sem (CVal A B)) (o : SimpOps A B E F) (fs : FloatSpec A B)
    (fits : CVal A B → CVal A B → Prop) (env : Env (CVal A B)) (p : Pass) (st : GraphSt A B) : Prop :=
  match p with
  | .attention => AttnGraph S (cvalView o.fo) o.sv st.cmap env st.nodes ∧
      ∀ m ∈ coalesceAttention o.sv st.cmap st.nodes, m.ty = .attention →
        m ∈ st.nodes ∨ (attrGet m.attrs "scale").isSome
  | .permuteReshape => PermutesInPlace S (cvalView o.fo) env st.nodes
  | .constantShape => FoldableShapes S (cvalView o.fo) env st.nodes
  | .constantFold => FoldableConsts fs S env st.nodes
  | .idempotent => True
  | .identityElement => ∀ p n q e, st.nodes = p ++ n :: q → evalNodes S env p = some e →
      DropsFit st.cmap o.elems o.zero o.one fits n e
  | .redundant => (st.nodes.map Node.name).Nodup ∧ ∀ n ∈ st.nodes, DeterministicOn S n
  | .dead => True

/-! ## The passes keep what they rely on -/

theorem foldDecision_ty {fo : FloatOps A B} {cmap : String → Option (CVal A B)} {n : Node (CVal A B)}
    {v : CVal A B} {ty : ArgType} {o : Arg (CVal A B)} {os : List (Arg (CVal A B))}
    (ho : n.outputs = o :: os) (h : foldDecision fo cmap n = some (some (v, ty))) : ty = o.ty := by
  have hun : ∀ f, evalUnary cmap n f = some (some (v, ty)) → ty = o.ty := by
    intro f hf
    unfold evalUnary at hf
    split at hf
    · next a as o' os' _ ho' =>
      rw [ho] at ho'
      cases ho'
      split at hf
      · cases hf
      · obtain ⟨r, _, hr⟩ := Option.map_eq_some_iff.1 hf
        obtain ⟨w, _, hw⟩ := Option.map_eq_some_iff.1 hr
        simp only [Prod.mk.injEq] at hw
        exact hw.2.symm
    · cases hf
  have hbin : ∀ op, evalBinary fo cmap n op = some (some (v, ty)) → ty = o.ty := by
    intro op hf
    unfold evalBinary at hf
    split at hf
    · split at hf
      · split at hf
        · next o' os' ho' =>
          rw [ho] at ho'
          cases ho'
          obtain ⟨r, _, hr⟩ := Option.map_eq_some_iff.1 hf
          obtain ⟨w, _, hw⟩ := Option.map_eq_some_iff.1 hr
          simp only [Prod.mk.injEq] at hw
          exact hw.2.symm
        · cases hf
      · cases hf
    · cases hf
  unfold foldDecision at h
  split at h
  · cases h
  split at h
  · cases h
  unfold tryEvaluate at h
  split at h
  all_goals first
    | exact hbin _ h
    | exact hun _ h
    | cases h
    | skip
  unfold evalConcat at h
  split at h
  · cases h
  split at h
  · cases h
  exact hun _ h

theorem gatherDecision_ty {V : Type} {tv : TensorView V} {cmap : String → Option V} {nodes : List (Node V)}
    {prod : List (String × Nat)} {n : Node V} {v : V} {ty : ArgType} {o : Arg V} {os : List (Arg V)}
    (ho : n.outputs = o :: os) (h : gatherDecision tv cmap nodes prod n = some (some (v, ty))) :
    ty = o.ty := by
  unfold gatherDecision at h
  split at h
  · split at h
    · cases h
    · cases h
    · split at h
      · next o' os' ho' =>
        rw [ho] at ho'
        cases ho'
        simp only [Option.some.injEq, Prod.mk.injEq] at h
        exact h.2.symm
      · cases h
  · cases h

theorem sliceDecision_ty {V : Type} {tv : TensorView V} {cmap : String → Option V} {nodes : List (Node V)}
    {prod : List (String × Nat)} {n : Node V} {v : V} {ty : ArgType}
    (h : sliceDecision tv cmap nodes prod n = some (some (v, ty))) :
    ∃ l : List Int, ty = .shape l.length ∧ v = tv.mkI64 [l.length] l := by
  unfold sliceDecision at h
  split at h
  · split at h
    · cases h
    · cases h
    · next l _ =>
      split at h
      · simp only [Option.some.injEq, Prod.mk.injEq] at h
        refine ⟨l, h.2.symm, ?_⟩
        rw [← h.1]
        simp [shapeConstant]
      · cases h
  · cases h

/-- What an Attention node is made of. -/
theorem attention_shape {V : Type} {S : Sem V} {tv : TensorView V} {sv : ScaleView V F}
    {cmap : String → Option V} {env : Env V} {nodes : List (Node V)}
    (hg : AttnGraph S tv sv cmap env nodes) {soft : Node V} (hsm : soft ∈ nodes) (hst : soft.ty = .softmax)
    {rs : List (Nat × Node V)} (hrs : tryMatchSdpa sv cmap nodes (producerMap nodes) soft = some rs)
    {i : Nat} {n' : Node V} (hmem : (i, n') ∈ rs) :
    (∃ n, nodes[i]? = some n ∧ n'.outputs = n.outputs) ∧
      ∀ a ∈ n'.inputs, ∃ m ∈ nodes, a ∈ m.inputs := by
  unfold tryMatchSdpa at hrs
  split at hrs
  case h_2 => cases hrs
  next x xr so sr hsin hsout =>
  split at hrs
  · cases hrs
  simp only at hrs
  split at hrs
  · cases hrs
  next qi hqi =>
  split at hrs
  · cases hrs
  next qk hqkget =>
  split at hrs
  · cases hrs
  next hqkc =>
  simp only [Decidable.not_not] at hqkc
  have hqt := hqkc.1
  have hqk : qk ∈ nodes := List.mem_of_getElem? hqkget
  have hqx : (traceBack sv cmap nodes (producerMap nodes) x.name).1 ∈ qk.outNames := by
    obtain ⟨m, hm, hx⟩ := mapGet_producerMap hqi
    rw [hqkget] at hm
    cases hm
    exact hx
  split at hrs
  · cases hrs
  next qa ka scale extra hmq =>
  split at hrs
  · cases hrs
  split at hrs
  case h_2 => cases hrs
  next fi hfi =>
  split at hrs
  · cases hrs
  next final hfin =>
  split at hrs
  case h_2 => cases hrs
  next w v fr hfinin =>
  split at hrs
  case isFalse => cases hrs
  simp only [Option.some.injEq] at hrs
  have hfm : final ∈ nodes := List.mem_of_getElem? hfin
  have hxin : x ∈ soft.inputs := by rw [hsin]; simp
  -- Q and K
  have hqkm : extra = none ∧ (∃ m ∈ nodes, qa ∈ m.inputs) ∧ ∃ m ∈ nodes, ka ∈ m.inputs := by
    unfold matchQK at hmq
    split at hmq
    · next q k pre hstd =>
      have hq : (∃ m ∈ nodes, q ∈ m.inputs) ∧ (∃ m ∈ nodes, k ∈ m.inputs) ∧
          pre = qPrescale sv cmap nodes (producerMap nodes) q := by
        unfold tryStandardK at hstd
        split at hstd
        case h_2 => cases hstd
        next q' kt r hin =>
        split at hstd
        · cases hstd
        next tn htn =>
        split at hstd
        case isFalse => cases hstd
        split at hstd
        case h_2 => cases hstd
        next k' kr hkin =>
        simp only [Option.some.injEq, Prod.mk.injEq] at hstd
        obtain ⟨rfl, rfl, rfl⟩ := hstd
        exact ⟨⟨qk, hqk, by rw [hin]; simp⟩, ⟨tn, (producerOf_some htn).1, by rw [hkin]; simp⟩, rfl⟩
      split at hmq
      · next qr s =>
        simp only [Option.some.injEq, Prod.mk.injEq] at hmq
        obtain ⟨rfl, rfl, _, rfl⟩ := hmq
        refine ⟨rfl, ?_, hq.2.1⟩
        have hpre := hq.2.2.symm
        unfold qPrescale at hpre
        split at hpre
        · cases hpre
        next qm hqm =>
        split at hpre
        case isFalse => cases hpre
        split at hpre
        case h_2 => cases hpre
        next a b r _ hin =>
        simp only [Option.some.injEq, Prod.mk.injEq] at hpre
        refine ⟨qm, (producerOf_some hqm).1, ?_⟩
        rw [hin, ← hpre.1]
        split <;> simp
      · simp only [Option.some.injEq, Prod.mk.injEq] at hmq
        obtain ⟨rfl, rfl, _, rfl⟩ := hmq
        exact ⟨rfl, hq.1, hq.2.1⟩
    · exfalso
      split at hmq
      case h_2 => cases hmq
      next hpres =>
      unfold tryPrescaled at hpres
      split at hpres
      case h_2 => cases hpres
      next qi' ki' rr hqkin =>
      split at hpres
      case h_2 => cases hpres
      next qm km hqm hkm =>
      split at hpres
      · cases hpres
      next hc =>
      simp only [Decidable.not_not] at hc
      obtain ⟨hqm1, hqm2⟩ := producerOf_some hqm
      obtain ⟨hkm1, hkm2⟩ := producerOf_some hkm
      exact hg.notBothScaled qk hqk hqt (traceBack_feeds hsm hst hxin qk hqx) qi' ki' rr hqkin
        ⟨⟨qm, hqm1, hc.1, hqm2⟩, km, hkm1, hc.2.1, hkm2⟩
  -- the mask
  have hmask : ∀ m, (traceBack sv cmap nodes (producerMap nodes) x.name).2.1 = some m →
      ∃ an ∈ nodes, m ∈ an.inputs := by
    intro m hm
    have hup : ∀ {up mk m' : Arg V} {u : String} {s : Option F},
        maskAndUpstream sv cmap nodes (producerMap nodes) up mk = some (m', u, s) → m' = mk := by
      intro up mk m' u s he
      unfold maskAndUpstream at he
      split at he
      · cases he
      simp only at he
      split at he
      · split at he
        · simp only [Option.some.injEq, Prod.mk.injEq] at he; exact he.1.symm
        · cases he
      · split at he
        · split at he
          · simp only [Option.some.injEq, Prod.mk.injEq] at he; exact he.1.symm
          · cases he
        · split at he
          · simp only [Option.some.injEq, Prod.mk.injEq] at he; exact he.1.symm
          · split at he
            · simp only [Option.some.injEq, Prod.mk.injEq] at he; exact he.1.symm
            · cases he
    have htm : (traceMask sv cmap nodes (producerMap nodes) x.name).2.1 = some m := by
      unfold traceBack traceScale at hm
      split at hm
      · exact hm
      · split at hm
        · exact hm
        · split at hm <;> exact hm
    unfold traceMask at htm
    split at htm
    · cases htm
    next an han =>
    split at htm
    case isFalse => cases htm
    split at htm
    case h_2 => cases htm
    next m' u s hx =>
    simp only [Option.some.injEq] at htm
    subst htm
    refine ⟨an, (producerOf_some han).1, ?_⟩
    unfold tryExtractMask at hx
    split at hx
    case h_2 => cases hx
    next a b r hin =>
    split at hx
    · next r' hr' =>
      cases hx
      rw [hup hr', hin]; simp
    · rw [hup hx, hin]; simp
  obtain ⟨rfl, hqm, hkm⟩ := hqkm
  rw [← hrs] at hmem
  simp only [Option.map_none, Option.toList_none, List.nil_append, List.mem_singleton,
    Prod.mk.injEq] at hmem
  obtain ⟨rfl, rfl⟩ := hmem
  refine ⟨⟨final, hfin, rfl⟩, ?_⟩
  intro a ha
  simp only [buildAttention, List.cons_append, List.nil_append, List.mem_cons] at ha
  rcases ha with rfl | rfl | rfl | ha
  · exact hqm
  · exact hkm
  · exact ⟨final, hfm, by rw [hfinin]; simp⟩
  · exact hmask a (by simpa using ha)

theorem attention_derived {V : Type} {S : Sem V} {tv : TensorView V} {sv : ScaleView V F}
    {cmap : String → Option V} {env E : Env V} {nodes : List (Node V)} (hwf : WfNames nodes)
    (hg : AttnGraph S tv sv cmap env nodes) :
    Derived tv E nodes (coalesceAttention sv cmap nodes) := by
  have key : ∀ (i : Nat) n n', nodes[i]? = some n → (coalesceAttention sv cmap nodes)[i]? = some n' →
      n'.outputs = n.outputs ∧ ∀ a ∈ n'.inputs, ∃ m ∈ nodes, a ∈ m.inputs := by
    intro i n n' hi hi'
    rcases foldl_set_get _ _ hi hi' with rfl | h
    · exact ⟨rfl, fun a ha => ⟨n', List.mem_of_getElem? hi, ha⟩⟩
    · obtain ⟨soft, hsm, hmem⟩ := List.mem_flatMap.1 h
      split at hmem
      case isFalse => simp at hmem
      next hst =>
      cases hrs : tryMatchSdpa sv cmap nodes (producerMap nodes) soft with
      | none => simp [hrs] at hmem
      | some rs =>
        rw [hrs, Option.getD_some] at hmem
        obtain ⟨⟨m, hm, ho⟩, hin⟩ := attention_shape hg hsm hst hrs hmem
        rw [hi] at hm
        cases hm
        exact ⟨ho, hin⟩
  have hlen : (coalesceAttention sv cmap nodes).length = nodes.length := foldl_set_length _ _
  refine ⟨flatMap_sublist hlen ?_, ?_, ?_⟩
  · intro i n n' hi hi'
    simp only [Node.outNames, (key i n n' hi hi').1]
    exact List.Sublist.refl _
  · intro n' hn' a ha
    obtain ⟨i, n, hi, hi'⟩ := get_of_length hlen hn'
    obtain ⟨m, hm, ham⟩ := (key i n n' hi hi').2 a ha
    exact Or.inl ⟨m, hm, a, ham, SameArg.refl (hwf.ins m hm a ham)⟩
  · intro n' hn' o ho
    obtain ⟨i, n, hi, hi'⟩ := get_of_length hlen hn'
    rw [(key i n n' hi hi').1] at ho
    exact Or.inl ⟨n, List.mem_of_getElem? hi, o, ho, rfl, rfl⟩

theorem permute_derived {V : Type} {tv : TensorView V} {cmap : String → Option V} {E : Env V}
    {nodes nodes' : List (Node V)} (hwf : WfNames nodes)
    (h : simplifyPermuteReshape tv cmap nodes = some nodes') : Derived tv E nodes nodes' := by
  have key : ∀ (i : Nat) n n', nodes[i]? = some n → nodes'[i]? = some n' →
      n'.outputs = n.outputs ∧ ∀ a ∈ n'.inputs, a ∈ n.inputs := by
    intro i n n' hi hi'
    have hget := collect_get h hi hi'
    unfold permuteNode at hget
    split at hget
    · split at hget
      · next data target rest hin =>
        split at hget
        · cases hget
        · cases hget; exact ⟨rfl, fun _ h => h⟩
        · cases hget
          exact ⟨rfl, fun a ha => by rw [hin]; simp only [List.mem_singleton] at ha; simp [ha]⟩
      · cases hget; exact ⟨rfl, fun _ h => h⟩
    · cases hget; exact ⟨rfl, fun _ h => h⟩
  have hlen : nodes'.length = nodes.length := collect_length h
  refine ⟨flatMap_sublist hlen ?_, ?_, ?_⟩
  · intro i n n' hi hi'
    simp only [Node.outNames, (key i n n' hi hi').1]
    exact List.Sublist.refl _
  · intro n' hn' a ha
    obtain ⟨i, n, hi, hi'⟩ := get_of_length hlen hn'
    have hm := List.mem_of_getElem? hi
    have ham := (key i n n' hi hi').2 a ha
    exact Or.inl ⟨n, hm, a, ham, SameArg.refl (hwf.ins n hm a ham)⟩
  · intro n' hn' o ho
    obtain ⟨i, n, hi, hi'⟩ := get_of_length hlen hn'
    rw [(key i n n' hi hi').1] at ho
    exact Or.inl ⟨n, List.mem_of_getElem? hi, o, ho, rfl, rfl⟩

/-- Folding of shapes. -/
theorem constantShape_good {V : Type} {S : Sem V} {tv : TensorView V} (hS : ShapeSem S tv) {env E : Env V}
    {nodes nodes' : List (Node V)} {outs outs' : List (Arg V)} {cmap cmap' : String → Option V}
    (g : GoodRun S tv env nodes cmap E) (hfold : FoldableShapes S tv env nodes)
    (h : simplifyConstantShape tv cmap nodes outs = some (nodes', outs', cmap')) :
    GoodRun S tv env nodes' cmap' E ∧ evalArgs E outs' = evalArgs E outs := by
  unfold simplifyConstantShape at h
  simp only at h
  split at h
  · cases h
  next r1 hr1 =>
  split at h
  · cases h
  next r2 hr2 =>
  simp only [Option.some.injEq, Prod.mk.injEq] at h
  obtain ⟨hn', ho', hc'⟩ := h
  obtain ⟨hE1, hE2⟩ := constantShape_run hS g.ssa g.wf g.tableOk g.typedRun hfold hr1 hr2 g.run
  have hd1 : Derived tv E nodes (replaceByConstants nodes r1) := by
    refine replace_derived hS.constOp g.ssa g.wf hE1 ?_
    intro i n v ty o os hi hr ho hv
    rw [gatherDecision_ty ho (collect_get hr1 hi hr)]
    exact (g.typed n (List.mem_of_getElem? hi)).2 o (by simp [ho]) v hv
  have ht1 : ∀ x v, (x, v) ∈ replacedNames nodes r1 → E x = some v := by
    intro x v hx
    obtain ⟨nm, ty, hm⟩ := replacedNames_mem hx
    exact constant_value hS.constOp (hd1.ssa g.ssa) hE1 hm
  have g1 : GoodRun S tv env (replaceByConstants nodes r1)
      (extendTable cmap (replacedNames nodes r1)) E :=
    g.step hd1 hE1 (Below.refl E) (extendTable_ok g.table ht1)
  have hd2 : Derived tv E (replaceByConstants nodes r1)
      (replaceByConstants (replaceByConstants nodes r1) r2) := by
    refine replace_derived hS.constOp g1.ssa g1.wf hE2 ?_
    intro i n v ty o os hi hr ho hv
    obtain ⟨l, rfl, rfl⟩ := sliceDecision_ty (collect_get hr2 hi hr)
    rw [hS.shape_mk _ _ (by simp [prodShape])]
    rfl
  have ht2 : ∀ x v, (x, v) ∈ replacedNames (replaceByConstants nodes r1) r2 → E x = some v := by
    intro x v hx
    obtain ⟨nm, ty, hm⟩ := replacedNames_mem hx
    exact constant_value hS.constOp (hd2.ssa g1.ssa) hE2 hm
  have hct : ConstTableOk cmap' E := by
    rw [← hc']
    exact extendTable_ok g1.table ht2
  have g2 := g1.step hd2 hE2 (Below.refl E) hct
  refine ⟨?_, ?_⟩
  · rw [← hn']
    refine g2.step (markConstant_derived g2.wf _) ?_ (Below.refl E) hct
    simp only [updateConstantReferences]
    rw [evalNodes_markConstant]; exact hE2
  · rw [← ho']
    exact evalArgs_markConstant outs

/-- Constant folding. -/
theorem constantFold_good [Inhabited A] [Inhabited B] {S : Sem (CVal A B)} {fo : FloatOps A B}
    {fs : FloatSpec A B} (ha : FloatAgree fo fs) (hS : FoldSem fs S) {env E : Env (CVal A B)}
    {nodes nodes' : List (Node (CVal A B))} {outs outs' : List (Arg (CVal A B))}
    {cmap cmap' : String → Option (CVal A B)} (g : GoodRun S (cvalView fo) env nodes cmap E)
    (hfold : FoldableConsts fs S env nodes)
    (h : foldConstants fo cmap nodes outs = some (nodes', outs', cmap')) :
    GoodRun S (cvalView fo) env nodes' cmap' E ∧ evalArgs E outs' = evalArgs E outs := by
  unfold foldConstants at h
  split at h
  · cases h
  next rs hrs =>
  simp only [Option.some.injEq, Prod.mk.injEq] at h
  obtain ⟨hn', ho', hc'⟩ := h
  have hE1 := (replace_decided (rs := rs) g.ssa (by
    intro p n q e1 e2 v ty o os hn hr ho h1 h2
    have hget : nodes[p.length]? = some n := by rw [hn]; simp
    exact foldDecision_correct ha hS g.tableOk g.typedRun hfold hn h1 h2 ho (collect_get hrs hget hr))
    hS.constOp g.tableOk g.run).1
  have hd1 : Derived (cvalView fo) E nodes (replaceByConstants nodes rs) := by
    refine replace_derived hS.constOp g.ssa g.wf hE1 ?_
    intro i n v ty o os hi hr ho hv
    rw [foldDecision_ty ho (collect_get hrs hi hr)]
    exact (g.typed n (List.mem_of_getElem? hi)).2 o (by simp [ho]) v hv
  have hct : ConstTableOk cmap' E := by
    rw [← hc']
    refine extendTable_ok g.table ?_
    intro x v hx
    obtain ⟨nm, ty, hm⟩ := replacedNames_mem hx
    exact constant_value hS.constOp (hd1.ssa g.ssa) hE1 hm
  have g1 := g.step hd1 hE1 (Below.refl E) hct
  refine ⟨?_, ?_⟩
  · rw [← hn']
    refine g1.step (markConstant_derived g1.wf _) ?_ (Below.refl E) hct
    simp only [updateConstantReferences]
    rw [evalNodes_markConstant]; exact hE1
  · rw [← ho']
    exact evalArgs_markConstant outs

section

variable [Inhabited A] [Inhabited B] [DecidableEq E] [DecidableEq (CVal A B)] {S : Sem (CVal A B)}
  {o : SimpOps A B E F} {fs : FloatSpec A B} {ops : AttnOps (CVal A B) F}
  {fits : CVal A B → CVal A B → Prop} {env : Env (CVal A B)}

/-- One pass, where it is right on its own, changes no result and keeps everything the passes rely on. -/
theorem pass_good (hS : SimpSem S o fs ops fits) {p : Pass} {st st' : GraphSt A B} {G : Env (CVal A B)}
    (g : GoodRun S (cvalView o.fo) env st.nodes st.cmap G) (hp : p.Guard S o fs fits env st)
    (h : p.run o st = some st') {r : List (Option (CVal A B))} (hr : evalArgs G st.outs = some r) :
    ∃ G', GoodRun S (cvalView o.fo) env st'.nodes st'.cmap G' ∧ evalArgs G' st'.outs = some r := by
  cases p with
  | attention =>
    simp only [Pass.run, Option.some.injEq] at h
    subst h
    have hd := attention_derived (E := G) g.wf hp.1
    refine ⟨G, g.step hd ?_ (Below.refl G) g.table, hr⟩
    exact same_final (fun outs => C10_coalesce_attention_preserves_partial S _ _ ops hS.attention _ env _
      outs g.ssa g.wf g.tableOk g.typedRun hp.1 hp.2) hd.outs.subset g.ssa g.run
  | permuteReshape =>
    simp only [Pass.run] at h
    obtain ⟨ns, hns, rfl⟩ := Option.map_eq_some_iff.1 h
    have hd := permute_derived (E := G) g.wf hns
    refine ⟨G, g.step hd ?_ (Below.refl G) g.table, hr⟩
    exact same_final (fun outs => C06_permute_reshape_preserves_outputs_partial S _ hS.shape hS.permute _ env
      _ _ outs g.ssa g.wf g.tableOk hp hns) hd.outs.subset g.ssa g.run
  | constantShape =>
    simp only [Pass.run] at h
    obtain ⟨⟨ns, os, c⟩, hns, rfl⟩ := Option.map_eq_some_iff.1 h
    obtain ⟨g', ho⟩ := constantShape_good hS.shape g hp hns
    exact ⟨G, g', ho.trans hr⟩
  | constantFold =>
    simp only [Pass.run] at h
    obtain ⟨⟨ns, os, c⟩, hns, rfl⟩ := Option.map_eq_some_iff.1 h
    obtain ⟨g', ho⟩ := constantFold_good hS.floats hS.fold g hp hns
    exact ⟨G, g', ho.trans hr⟩
  | idempotent =>
    simp only [Pass.run, Option.some.injEq] at h
    subst h
    exact ⟨G, g.rename (idempotent_ok hS.idempotent g.ssa g.wf), hr⟩
  | identityElement =>
    simp only [Pass.run, Option.some.injEq] at h
    subst h
    exact ⟨G, g.rename (identity_ok hS.identity g.ssa g.tableOk hp), hr⟩
  | redundant =>
    simp only [Pass.run, Option.some.injEq] at h
    subst h
    exact ⟨G, g.rename (redundant_ok g.ssa g.wf hp.1 hp.2), hr⟩
  | dead =>
    simp only [Pass.run, Option.some.injEq] at h
    subst h
    have h1 := C01_dead_nodes_preserve_outputs S env st.nodes st.outs r (by
      simp [evalGraph, g.run, hr])
    unfold evalGraph at h1
    split at h1
    · cases h1
    next G' hG' =>
    have hsub := C01_dead_nodes_sublist st.nodes st.outs
    have hb := sublist_below hsub g.ssa (Below.refl env) g.run hG'
    exact ⟨G', g.step (sublist_derived g.wf hsub) hG' hb
      (fun x v w hx hw => g.table x v w hx (hb x w hw)), h1⟩

theorem passes_good (hS : SimpSem S o fs ops fits) {r : List (Option (CVal A B))} :
    ∀ {qs ps : List Pass} {st0 st st' : GraphSt A B} {G : Env (CVal A B)},
      runPasses o ps st0 = some st →
      (∀ ps' p qs' st, ps ++ qs = ps' ++ p :: qs' → runPasses o ps' st0 = some st →
        p.Guard S o fs fits env st) →
      GoodRun S (cvalView o.fo) env st.nodes st.cmap G → evalArgs G st.outs = some r →
      runPasses o qs st = some st' →
      ∃ G', GoodRun S (cvalView o.fo) env st'.nodes st'.cmap G' ∧ evalArgs G' st'.outs = some r := by
  have happ : ∀ (ps : List Pass) (p : Pass) (a b c : GraphSt A B), runPasses o ps a = some b →
      p.run o b = some c → runPasses o (ps ++ [p]) a = some c := by
    intro ps
    induction ps with
    | nil =>
      intro p a b c h1 h2
      simp only [runPasses, Option.some.injEq] at h1
      subst h1
      simp [runPasses, h2]
    | cons q ps ih =>
      intro p a b c h1 h2
      simp only [runPasses, List.cons_append] at h1 ⊢
      cases hq : q.run o a with
      | none => simp [hq] at h1
      | some a' =>
        simp only [hq] at h1
        exact ih p a' b c h1 h2
  intro qs
  induction qs with
  | nil =>
    intro ps st0 st st' G _ _ g hr h
    simp only [runPasses, Option.some.injEq] at h
    subst h
    exact ⟨G, g, hr⟩
  | cons p qs ih =>
    intro ps st0 st st' G h0 hg g hr h
    simp only [runPasses] at h
    cases hp : p.run o st with
    | none => simp [hp] at h
    | some st1 =>
      simp only [hp] at h
      obtain ⟨G1, g1, hr1⟩ := pass_good hS g (hg ps p qs st rfl h0) hp hr
      exact ih (happ ps p st0 st st1 h0 hp) (by
        intro ps' p' qs' s he hs
        exact hg ps' p' qs' s (by rw [← he]; simp) hs) g1 hr1 h

/-- The run of the simplified graph, and single assignment in it. -/
theorem simplification_run (hS : SimpSem S o fs ops fits) (st0 st : GraphSt A B)
    (hssa : SSA env st0.nodes) (hwf : WfNames st0.nodes) (hnoname : env "" = none)
    (hlabels : ∀ n ∈ st0.nodes, ∀ x ∈ n.outNames, ∀ y, x ≠ y ++ "_const")
    (htab : TableOk S env st0.nodes st0.cmap) (hty : TypedRun S (cvalView o.fo) env st0.nodes)
    (hguard : ∀ p s, Arrives o st0 p s → p.Guard S o fs fits env s)
    (hrun : simplifyGraph o st0 = some st) (r : List (Option (CVal A B)))
    (h : evalGraph S env st0.nodes st0.outs = some r) : evalGraph S env st.nodes st.outs = some r ∧ SSA env st.nodes := by
  unfold evalGraph at h
  cases hG : evalNodes S env st0.nodes with
  | none => simp [hG] at h
  | some G =>
  simp only [hG] at h
  have g : GoodRun S (cvalView o.fo) env st0.nodes st0.cmap G :=
    ⟨hG, hssa, hwf, hnoname, hlabels, htab st0.nodes [] G (by simp) hG, hty.at hssa hG⟩
  have key : ∀ (j k : Nat) (s : GraphSt A B) (G : Env (CVal A B)), j + k = 10 → Round o st0 k s →
      GoodRun S (cvalView o.fo) env s.nodes s.cmap G → evalArgs G s.outs = some r →
      simplifyLoop o j s = some st → evalGraph S env st.nodes st.outs = some r ∧ SSA env st.nodes := by
    intro j
    induction j with
    | zero =>
      intro k s G _ _ g hr hl
      simp only [simplifyLoop, Option.some.injEq] at hl
      subst hl
      exact ⟨by simp [evalGraph, g.run, hr], g.ssa⟩
    | succ j ih =>
      intro k s G hjk hround g hr hl
      simp only [simplifyLoop] at hl
      cases hp : runPasses o Pass.order s with
      | none => simp [hp] at hl
      | some s' =>
        simp only [hp] at hl
        obtain ⟨G', g', hr'⟩ := passes_good hS (ps := []) (qs := Pass.order) (st0 := s) rfl (by
          intro ps p qs s1 he hs1
          exact hguard p s1 ⟨k, s, ps, qs, hround, he, hs1⟩) g hr hp
        split at hl
        · cases hl
        next hle =>
        split at hl
        · simp only [Option.some.injEq] at hl
          subst hl
          exact ⟨by simp [evalGraph, g'.run, hr'], g'.ssa⟩
        next hne =>
        cases j with
        | zero =>
          simp only [simplifyLoop, Option.some.injEq] at hl
          subst hl
          exact ⟨by simp [evalGraph, g'.run, hr'], g'.ssa⟩
        | succ j => exact ih (k + 1) s' G' (by omega) (.next hround (by omega) hp (by omega)) g' hr' hl
  exact key 10 0 st0 G rfl .first g h hrun

/-- **C09.** Running all simplification passes, round after round, leaves every result of the graph unchanged,
as long as each pass is only used where it is right on its own. Nothing else has to be assumed about the
graphs between the passes: single assignment, the naming discipline, the constant table and the annotations
survive every pass. Missing for the full claim: the situations excluded by `Pass.Guard`, where the passes are
wrong (see C03, C05, C06, C07, C08 and C10). -/
theorem C09_simplification_preserves_outputs_partial (hS : SimpSem S o fs ops fits) (st0 st : GraphSt A B)
    (hssa : SSA env st0.nodes) (hwf : WfNames st0.nodes) (hnoname : env "" = none)
    (hlabels : ∀ n ∈ st0.nodes, ∀ x ∈ n.outNames, ∀ y, x ≠ y ++ "_const")
    (htab : TableOk S env st0.nodes st0.cmap) (hty : TypedRun S (cvalView o.fo) env st0.nodes)
    (hguard : ∀ p s, Arrives o st0 p s → p.Guard S o fs fits env s)
    (hrun : simplifyGraph o st0 = some st) (r : List (Option (CVal A B)))
    (h : evalGraph S env st0.nodes st0.outs = some r) : evalGraph S env st.nodes st.outs = some r :=
  (simplification_run hS st0 st hssa hwf hnoname hlabels htab hty hguard hrun r h).1

end

/-! ## What holds without any condition -/

section

variable [DecidableEq E] [DecidableEq (CVal A B)] {o : SimpOps A B E F}

theorem pass_length {p : Pass} {st st' : GraphSt A B} (h : p.run o st = some st') :
    st'.nodes.length ≤ st.nodes.length ∧ st'.outs.map Arg.name = st.outs.map Arg.name ∧
      st'.outs.map Arg.ty = st.outs.map Arg.ty := by
  have hmark : ∀ (c : List String) (os : List (Arg (CVal A B))),
      (os.map (markConstant c)).map Arg.name = os.map Arg.name ∧
      (os.map (markConstant c)).map Arg.ty = os.map Arg.ty := by
    intro c os
    have : ∀ a : Arg (CVal A B), (markConstant c a).name = a.name ∧ (markConstant c a).ty = a.ty := by
      intro a
      unfold markConstant
      split
      · split <;> exact ⟨rfl, rfl⟩
      · exact ⟨rfl, rfl⟩
    constructor
    · rw [List.map_map]; exact List.map_congr_left fun a _ => (this a).1
    · rw [List.map_map]; exact List.map_congr_left fun a _ => (this a).2
  cases p with
  | attention =>
    simp only [Pass.run, Option.some.injEq] at h
    subst h
    exact ⟨Nat.le_of_eq (foldl_set_length _ _), rfl, rfl⟩
  | permuteReshape =>
    simp only [Pass.run] at h
    obtain ⟨ns, hns, rfl⟩ := Option.map_eq_some_iff.1 h
    exact ⟨Nat.le_of_eq (collect_length hns), rfl, rfl⟩
  | constantShape =>
    simp only [Pass.run] at h
    obtain ⟨⟨ns, os, c⟩, hns, rfl⟩ := Option.map_eq_some_iff.1 h
    unfold simplifyConstantShape at hns
    simp only at hns
    split at hns
    · cases hns
    split at hns
    · cases hns
    simp only [Option.some.injEq, Prod.mk.injEq] at hns
    obtain ⟨rfl, rfl, _⟩ := hns
    exact ⟨by simp [updateConstantReferences, replaceByConstants_length], hmark _ _⟩
  | constantFold =>
    simp only [Pass.run] at h
    obtain ⟨⟨ns, os, c⟩, hns, rfl⟩ := Option.map_eq_some_iff.1 h
    unfold foldConstants at hns
    split at hns
    · cases hns
    simp only [Option.some.injEq, Prod.mk.injEq] at hns
    obtain ⟨rfl, rfl, _⟩ := hns
    exact ⟨by simp [updateConstantReferences, replaceByConstants_length], hmark _ _⟩
  | idempotent =>
    simp only [Pass.run, Option.some.injEq] at h
    subst h
    exact ⟨by simp [eliminateIdempotentOps, renameInputs], rfl, rfl⟩
  | identityElement =>
    simp only [Pass.run, Option.some.injEq] at h
    subst h
    exact ⟨by simp [eliminateIdentityElements, renameInputs], rfl, rfl⟩
  | redundant =>
    simp only [Pass.run, Option.some.injEq] at h
    subst h
    exact ⟨by simp [eliminateRedundantNodes, renameInputs], rfl, rfl⟩
  | dead =>
    simp only [Pass.run, Option.some.injEq] at h
    subst h
    exact ⟨(C01_dead_nodes_sublist _ _).length_le, rfl, rfl⟩

theorem passes_length : ∀ {ps : List Pass} {st st' : GraphSt A B}, runPasses o ps st = some st' →
    st'.nodes.length ≤ st.nodes.length ∧ st'.outs.map Arg.name = st.outs.map Arg.name ∧
      st'.outs.map Arg.ty = st.outs.map Arg.ty
  | [], st, st', h => by
    simp only [runPasses, Option.some.injEq] at h
    subst h
    exact ⟨Nat.le_refl _, rfl, rfl⟩
  | p :: ps, st, st', h => by
    simp only [runPasses] at h
    cases hp : p.run o st with
    | none => simp [hp] at h
    | some s =>
      simp only [hp] at h
      obtain ⟨h1, h2, h3⟩ := pass_length hp
      obtain ⟨h4, h5, h6⟩ := passes_length h
      exact ⟨Nat.le_trans h4 h1, h5.trans h2, h6.trans h3⟩

/-- **C09, panics.** The pipeline itself never panics: a run fails only if one of the passes does, in a round
the pipeline begins. (In particular the subtraction of node counts does not underflow.) -/
theorem C09_panics_only_in_passes (st0 : GraphSt A B) (h : simplifyGraph o st0 = none) :
    ∃ p s, Arrives o st0 p s ∧ p.run o s = none := by
  have hround : ∀ (k : Nat) (s : GraphSt A B), Round o st0 k s → runPasses o Pass.order s = none →
      ∃ p s', Arrives o st0 p s' ∧ p.run o s' = none := by
    intro k s hr hn
    have aux : ∀ (qs ps : List Pass) (s' : GraphSt A B), Pass.order = ps ++ qs →
        runPasses o ps s = some s' → runPasses o qs s' = none →
        ∃ p s', Arrives o st0 p s' ∧ p.run o s' = none := by
      intro qs
      induction qs with
      | nil => intro ps s' _ _ h; simp [runPasses] at h
      | cons p qs ih =>
        intro ps s' he hs' hq
        simp only [runPasses] at hq
        cases hp : p.run o s' with
        | none => exact ⟨p, s', ⟨k, s, ps, qs, hr, he, hs'⟩, hp⟩
        | some s2 =>
          simp only [hp] at hq
          refine ih (ps ++ [p]) s2 (by simp [he]) ?_ hq
          clear hq he hr hn ih
          revert s
          induction ps with
          | nil =>
            intro s h1
            simp only [runPasses, Option.some.injEq] at h1
            subst h1
            simp [runPasses, hp]
          | cons q ps ih =>
            intro s h1
            simp only [runPasses, List.cons_append] at h1 ⊢
            cases hq : q.run o s with
            | none => simp [hq] at h1
            | some a =>
              simp only [hq] at h1
              exact ih a h1
    exact aux Pass.order [] s (by simp) rfl hn
  have key : ∀ (j k : Nat) (s : GraphSt A B), j + k = 10 → Round o st0 k s → simplifyLoop o j s = none →
      ∃ p s', Arrives o st0 p s' ∧ p.run o s' = none := by
    intro j
    induction j with
    | zero => intro k s _ _ hl; simp [simplifyLoop] at hl
    | succ j ih =>
      intro k s hjk hr hl
      simp only [simplifyLoop] at hl
      cases hp : runPasses o Pass.order s with
      | none => exact hround k s hr hp
      | some s' =>
        simp only [hp] at hl
        have hle := (passes_length hp).1
        split at hl
        · omega
        split at hl
        · cases hl
        next hne =>
        cases j with
        | zero => simp [simplifyLoop] at hl
        | succ j => exact ih (k + 1) s' (by omega) (.next hr (by omega) hp (by omega)) hl
  exact key 10 0 st0 rfl .first h

/-- **C09, interface.** The graph outputs keep their number, order, names and annotations, and the graph does
not grow. -/
theorem C09_outputs_kept (st0 st : GraphSt A B) (h : simplifyGraph o st0 = some st) :
    st.nodes.length ≤ st0.nodes.length ∧ st.outs.map Arg.name = st0.outs.map Arg.name ∧
      st.outs.map Arg.ty = st0.outs.map Arg.ty := by
  have key : ∀ (j : Nat) (s : GraphSt A B), simplifyLoop o j s = some st →
      st.nodes.length ≤ s.nodes.length ∧ st.outs.map Arg.name = s.outs.map Arg.name ∧
      st.outs.map Arg.ty = s.outs.map Arg.ty := by
    intro j
    induction j with
    | zero =>
      intro s hl
      simp only [simplifyLoop, Option.some.injEq] at hl
      subst hl
      exact ⟨Nat.le_refl _, rfl, rfl⟩
    | succ j ih =>
      intro s hl
      simp only [simplifyLoop] at hl
      cases hp : runPasses o Pass.order s with
      | none => simp [hp] at hl
      | some s' =>
        simp only [hp] at hl
        obtain ⟨h1, h2, h3⟩ := passes_length hp
        split at hl
        · cases hl
        split at hl
        · simp only [Option.some.injEq] at hl
          subst hl
          exact ⟨h1, h2, h3⟩
        · obtain ⟨h4, h5, h6⟩ := ih s' hl
          exact ⟨Nat.le_trans h4 h1, h5.trans h2, h6.trans h3⟩
  exact key 10 st0 h

end

end OnnxIR
