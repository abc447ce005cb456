import Verif.Spec.Fusion
import Verif.Lemmas.Pipeline
import Verif.Model.Coalesce

/-!
# C13: fusion into Linear keeps what the graph computes
-/

namespace OnnxIR

variable {V : Type}

theorem straightGemm_iff {attrs : List (String × AttrVal V)} :
    straightGemm attrs = true ↔ PlainGemm oneBits attrs := by
  unfold straightGemm PlainGemm
  rw [Bool.and_eq_true]
  constructor
  · rintro ⟨h1, h2⟩
    split at h2
    · next a b t ha hb ht =>
      simp only [Bool.and_eq_true, beq_iff_eq] at h2
      obtain ⟨⟨rfl, rfl⟩, rfl⟩ := h2
      refine ⟨ha, hb, ht, fun h => ?_⟩
      rw [h] at h1
      simp at h1
    · cases h2
  · rintro ⟨ha, hb, ht, hn⟩
    rw [ha, hb, ht]
    refine ⟨?_, by simp⟩
    split
    · next h => exact absurd h hn
    · rfl

/-! ## What a name resolves to -/

/-- A name resolves to an argument under its sanitised name, or to an output of a node. -/
theorem initIn_cases {g : GraphProto V} (hg : NamesOk g) {done} {st : GState V} (h : Inv g [] done st)
    {x : String} (hx : x ∈ allNames g) {a : Arg V} (ha : st.initIn x = some a) :
    a.name = sanitizeName x ∨ ∃ key p n, (key = x ∨ key = sanitizeName x) ∧ mapGet st.outMap key = some p ∧
      st.nodes[p.1]? = some n ∧ n.outputs[p.2]? = some a := by
  have out : ∀ key p, (key = x ∨ key = sanitizeName x) → mapGet st.outMap key = some p → st.output p = some a →
      ∃ key p n, (key = x ∨ key = sanitizeName x) ∧ mapGet st.outMap key = some p ∧
        st.nodes[p.1]? = some n ∧ n.outputs[p.2]? = some a := by
    intro key p hk hm hp
    simp only [GState.output, Option.bind_eq_some_iff] at hp
    obtain ⟨n, hn, ha⟩ := hp
    exact ⟨key, p, n, hk, hm, hn, ha⟩
  unfold GState.initIn at ha
  rw [h.inputMap, h.inputs] at ha
  split at ha
  · next i hi =>
    obtain ⟨-, -, h2⟩ := start_inputs hg [] hx (.inl rfl) hi
    rw [h2] at ha
    cases ha
    exact .inl rfl
  · split at ha
    · next p hp => exact .inr (out _ p (.inr rfl) hp ha)
    · split at ha
      · next p hp => exact .inr (out _ p (.inl rfl) hp ha)
      · simp only [Option.some.injEq] at ha
        subst ha
        simp only [GState.fromOuter, h.outerEq, mapGet]
        exact .inl rfl

/-- Which map entries lead to constants. -/
def ConstIdx (g : GraphProto V) (pre : List (NodeProto V)) (st : GState V) : Prop :=
  ∀ k p n, mapGet st.outMap k = some p → st.nodes[p.1]? = some n → n.ty = .constant →
    ∃ y, y ∈ boundNames g ∧ (k = y ∨ k = sanitizeName y) ∧ IsConst g pre y

theorem start_constIdx (g : GraphProto V) : ConstIdx g [] (GState.start [] g) := by
  intro k p n hk _ _
  rcases initMap_from k p _ 0 [] hk with h | ⟨j, y, h1, h2, -⟩
  · cases h
  · have hy := List.mem_of_getElem? h1
    exact ⟨y, mem_bound_init hy, h2, .inl hy⟩

theorem IsConst.grow {g : GraphProto V} {pre : List (NodeProto V)} {x : String} (h : IsConst g pre x)
    (q : List (NodeProto V)) : IsConst g (pre ++ q) x := by
  rcases h with h | ⟨n, hn, h⟩
  · exact .inl h
  · exact .inr ⟨n, List.mem_append_left _ hn, h⟩

theorem ConstIdx.grow {g : GraphProto V} {pre : List (NodeProto V)} {st : GState V} (h : ConstIdx g pre st)
    (q : List (NodeProto V)) : ConstIdx g (pre ++ q) st := by
  intro k p n h1 h2 h3
  obtain ⟨y, hy, hk, hc⟩ := h k p n h1 h2 h3
  exact ⟨y, hy, hk, hc.grow q⟩

/-- Adding a node: if it is a `Constant`, it is the node `np` of the file. -/
theorem ConstIdx.step {g : GraphProto V} {pre : List (NodeProto V)} {st st1 : GState V} {np np' : NodeProto V}
    (h : ConstIdx g pre st) (hinv : ∀ k p, mapGet st.outMap k = some p → ∃ a, st.output p = some a)
    (hnp : NodeFits g np') (hty : np'.ty = .constant → np' = np) {args}
    (hm : st1.outMap = addOutputs st.nodes.length 0 st.outMap (rawNode st np' args).outputs)
    (hn : st1.nodes = st.nodes ++ [storedNode st np' args]) : ConstIdx g (pre ++ [np]) st1 := by
  intro k p n hk hpn hc
  rw [hm] at hk
  rcases addOutputs_from st.nodes.length k p np'.outputs _ 0 st.outMap (rawNode_outs st np' args) hk with
    hk | ⟨j, o, h1, h2, h3⟩
  · obtain ⟨a, ha⟩ := hinv k p hk
    simp only [GState.output, Option.bind_eq_some_iff] at ha
    obtain ⟨m, hm', -⟩ := ha
    rw [hn, List.getElem?_append_left (List.getElem?_eq_some_iff.1 hm').1] at hpn
    exact h.grow [np] k p n hk hpn hc
  · subst h3
    rw [hn] at hpn
    simp only [List.getElem?_append_right (Nat.le_refl _), Nat.sub_self, List.getElem?_cons_zero,
      Option.some.injEq] at hpn
    subst hpn
    simp only [storedNode, rawNode, extractConstant_ty] at hc
    have hom := List.mem_of_getElem? h1
    refine ⟨o, hnp.outs o hom, .inr h2, .inr ⟨np, by simp, ?_⟩⟩
    rw [← hty hc]
    exact ⟨hc, hom⟩

section
variable {g : GraphProto V} (hg : NamesOk g) {done : List String} {st : GState V} (hinv : Inv g [] done st)
include hg hinv

theorem hasValue_generated {x : String} (h : st.hasValue x = true) : Generated x := by
  simp only [GState.hasValue, List.any_eq_true, Bool.and_eq_true, beq_iff_eq] at h
  obtain ⟨n, hn, -, o, ho, rfl⟩ := h
  exact hinv.generated hn (List.mem_map_of_mem ho)

/-- An input that resolves to the name of the product is the product. -/
theorem reads_product {x y : String} (hx : x ∈ allNames g) (hy : y ∈ allNames g)
    (hng : ¬ Generated (sanitizeName y)) {a : Arg V} (ha : st.initIn x = some a) (hn : a.name = sanitizeName y) :
    x = y := by
  rcases initIn_cases hg hinv hx ha with h | ⟨key, p, n, -, -, hpn, hpa⟩
  · exact hg.apart x hx y hy (h.symm.trans hn)
  · exfalso
    exact hng (hn ▸ hinv.generated (List.mem_of_getElem? hpn) (List.mem_map_of_mem (List.mem_of_getElem? hpa)))

/-- An input that resolves to a registered constant is a constant of the file. -/
theorem reads_const {pre : List (NodeProto V)} (hci : ConstIdx g pre st) {x : String} (hx : x ∈ allNames g)
    (hng : ¬ Generated (sanitizeName x)) {a : Arg V} (ha : st.initIn x = some a)
    (hv : st.hasValue a.name = true) : IsConst g pre x := by
  rcases initIn_cases hg hinv hx ha with h | ⟨key, p, n, hk, hm, hpn, hpa⟩
  · exact absurd (h ▸ hasValue_generated hg hinv hv) hng
  · simp only [GState.hasValue, List.any_eq_true, Bool.and_eq_true, beq_iff_eq] at hv
    obtain ⟨n', hn', hty, o, ho, hname⟩ := hv
    have heq : n' = n := outNames_unique hinv.nodup hn' (List.mem_of_getElem? hpn) (x := a.name)
      (by rw [← hname]; exact List.mem_map_of_mem ho) (List.mem_map_of_mem (List.mem_of_getElem? hpa))
    obtain ⟨y, hy, hky, hc⟩ := hci key p n hm hpn (heq ▸ hty)
    exact hg.key hx (mem_all_bound hy) hk hky ▸ hc

omit hinv in
theorem IsConst.named {pre q : List (NodeProto V)} (hn : g.nodes = pre ++ q) {x : String} (h : IsConst g pre x) :
    x ≠ "" := by
  rintro rfl
  rcases h with h | ⟨n, hm, ht, ho⟩
  · exact hg.initsNamed h
  · exact hg.constNamed n (by rw [hn]; exact List.mem_append_left _ hm) ht ho

end

/-! ## What fusion does to one node -/

/-- The outcomes of fusion in a reachable state. -/
inductive FuseOut (g : GraphProto V) (matrix : V → Bool) (pre : List (NodeProto V)) (st : GState V) (np : NodeProto V)
    (next : Option (NodeProto V)) : NodeProto V → Bool → Prop
  | same : FuseOut g matrix pre st np next np false
  | gemm : np.ty = .gemm → PlainGemm oneBits np.attrs → FuseOut g matrix pre st np next
      { np with ty := .linear, attrs := linearAttrs np.attrs, first := some .gemm } false
  | matMul {x w a v} : np.ty = .matMul → np.inputs = [x, w] → st.initIn w = some a →
      constTable st.nodes a.name = some v → matrix v = true → IsConst g pre w →
      FuseOut g matrix pre st np next { np with ty := .linear, first := some .matMul } false
  | bias {w a v ad y b z zs} : next = some ad → AddsBias np ad w y b → st.initIn w = some a →
      constTable st.nodes a.name = some v → matrix v = true → IsConst g pre w → IsConst g pre b →
      ad.outputs = z :: zs → FuseOut g matrix pre st np next
        { np with ty := .linear, first := some .matMul, inputs := np.inputs ++ [b], outputs := [z] } true

theorem initAll_two {st : GState V} {x y : String} {as : List (Arg V)} (h : st.initAll [x, y] = some as) :
    ∃ a b, as = [a, b] ∧ st.initIn x = some a ∧ st.initIn y = some b := by
  simp only [GState.initAll] at h
  split at h
  · next a as' h1 h2 =>
    cases h
    split at h2
    · next b bs h3 h4 => cases h2; cases h4; exact ⟨a, b, rfl, h1, h3⟩
    · cases h2
  · cases h

theorem initAll_length {st : GState V} : ∀ {xs : List String} {as : List (Arg V)}, st.initAll xs = some as →
    as.length = xs.length
  | [], as, h => by cases h; rfl
  | x :: xs, as, h => by
    simp only [GState.initAll] at h
    split at h
    · next a as' h1 h2 => cases h; simp [initAll_length h2]
    · cases h

/-- Fusion of a node of the file succeeds, with one of the outcomes. -/
theorem fuse_spec {g : GraphProto V} (hg : NamesOk g) (hng : ∀ x ∈ allNames g, ¬ Generated (sanitizeName x))
    {done : List String} {st : GState V} (hinv : Inv g [] done st) {matrix : V → Bool} {pre rest : List (NodeProto V)}
    (hci : ConstIdx g pre st) {np : NodeProto V} (hnp : np ∈ g.nodes) (hrest : ∀ m ∈ rest, m ∈ g.nodes)
    (hmm : np.ty = .matMul → np.inputs.length = 2 ∧ np.outputs.length = 1)
    (hgm : np.ty = .gemm → np.outputs.length = 1)
    (had : ∀ ad, rest.head? = some ad → ad.ty = .add → ad.outputs ≠ []) :
    ∃ np' skip, st.fuse matrix np rest.head? = some (np', skip) ∧
      FuseOut g matrix pre st np rest.head? np' skip := by
  have hres : ∀ n ∈ g.nodes, ∃ as, st.initAll n.inputs = some as := fun n hn =>
    initAll_exists fun x hx => hinv.resolves hg (mem_all_nodeIn hn hx)
  unfold GState.fuse
  split
  · next ht =>
    have h1 := hgm ht
    unfold fuseGemm
    rw [if_neg (by omega)]
    split
    · next hs => exact ⟨_, _, rfl, .gemm ht (straightGemm_iff.1 hs)⟩
    · exact ⟨_, _, rfl, .same⟩
  · next ht =>
    obtain ⟨h2, h1⟩ := hmm ht
    unfold GState.fuseMatMul
    rw [if_neg (by omega)]
    obtain ⟨x, w, hxw⟩ : ∃ x w, np.inputs = [x, w] := by
      match hi : np.inputs with
      | [x, w] => exact ⟨x, w, rfl⟩
      | [] | [_] | _ :: _ :: _ :: _ => rw [hi] at h2; simp at h2
    obtain ⟨y, hy⟩ : ∃ y, np.outputs = [y] := by
      match hi : np.outputs with
      | [y] => exact ⟨y, rfl⟩
      | [] | _ :: _ :: _ => rw [hi] at h1; simp at h1
    have hya : y ∈ allNames g := mem_all_bound (mem_bound_out hnp (by rw [hy]; simp))
    obtain ⟨as, has⟩ := hres np hnp
    rw [hxw] at has
    obtain ⟨ax, aw, rfl, hax, haw⟩ := initAll_two has
    rw [hxw, has]
    simp only
    have hwa : w ∈ allNames g := mem_all_nodeIn hnp (by rw [hxw]; simp)
    split
    · next hc =>
      obtain ⟨hv, hmat⟩ := hc
      obtain ⟨v, hv1, hv2⟩ := (Option.any_eq_true _ _).1 hmat
      have hwc := reads_const hg hinv hci hwa (hng w hwa) haw hv
      cases hr : rest.head? with
      | none => exact ⟨_, _, rfl, by rw [← hxw]; exact .matMul ht hxw haw hv1 hv2 hwc⟩
      | some ad =>
        have hadm : ad ∈ g.nodes := hrest ad (List.mem_of_head? hr)
        obtain ⟨bs, hbs⟩ := hres ad hadm
        rw [hy]
        simp only
        cases hbo : st.biasOf (sanitizeName y) ad with
        | none =>
          unfold GState.biasOf at hbo
          rw [hbs] at hbo
          split at hbo
          · next h => cases h
          · split at hbo <;> cases hbo
          · cases hbo
        | some o =>
        cases o with
        | none => exact ⟨_, _, rfl, by rw [← hxw, ← hy]; exact .matMul ht hxw haw hv1 hv2 hwc⟩
        | some b =>
          have hb := hbo
          unfold GState.biasOf at hb
          rw [hbs] at hb
          split at hb
          · cases hb
          · next l r al ar hads hsome =>
            rw [hads] at hbs
            obtain ⟨al', ar', he, hl, hr'⟩ := initAll_two hbs
            rw [he] at hsome
            simp only [Option.some.injEq, List.cons.injEq, and_true] at hsome
            obtain ⟨rfl, rfl⟩ := hsome
            have hla : l ∈ allNames g := mem_all_nodeIn hadm (by rw [hads]; simp)
            have hra : r ∈ allNames g := mem_all_nodeIn hadm (by rw [hads]; simp)
            split at hb
            · next hcond =>
              simp only [Option.some.injEq] at hb
              obtain ⟨hadt, hcond⟩ := hcond
              have hbias : AddsBias np ad w y b ∧ IsConst g pre b := by
                by_cases hly : al'.name = sanitizeName y
                · rw [if_pos hly] at hb
                  subst hb
                  have hlyy := reads_product hg hinv hla hya (hng y hya) hl hly
                  rcases hcond with ⟨-, hvr⟩ | ⟨-, hvl⟩
                  · exact ⟨⟨ht, ⟨x, hxw⟩, hy, hadt, .inl (by rw [hads, hlyy])⟩,
                      reads_const hg hinv hci hra (hng r hra) hr' hvr⟩
                  · exact absurd (hly ▸ hasValue_generated hg hinv hvl) (hng y hya)
                · rw [if_neg hly] at hb
                  subst hb
                  rcases hcond with ⟨h, -⟩ | ⟨hry, hvl⟩
                  · exact absurd h hly
                  · have hryy := reads_product hg hinv hra hya (hng y hya) hr' hry
                    exact ⟨⟨ht, ⟨x, hxw⟩, hy, hadt, .inr (by rw [hads, hryy])⟩,
                      reads_const hg hinv hci hla (hng l hla) hl hvl⟩
              cases hao : ad.outputs with
              | nil => exact absurd hao (had ad hr hadt)
              | cons z zs =>
                refine ⟨_, _, rfl, ?_⟩
                rw [← hxw]
                exact .bias rfl hbias.1 haw hv1 hv2 hwc hbias.2 hao
            · cases hb
          · cases hb
    · exact ⟨_, _, rfl, .same⟩
  · exact ⟨_, _, rfl, .same⟩

theorem linear_mem : "Linear" ∈ nodeTypes := by decide +kernel
theorem matMul_mem : "MatMul" ∈ nodeTypes := by decide +kernel
theorem gemm_mem : "Gemm" ∈ nodeTypes := by decide +kernel

/-- The node that comes out of fusion fits, and only a `Constant` of the file is a `Constant`. -/
theorem FuseOut.fits {g : GraphProto V} (hg : NamesOk g) {matrix : V → Bool} {pre : List (NodeProto V)}
    {st : GState V} {np : NodeProto V} {next : Option (NodeProto V)} {np' : NodeProto V} {skip : Bool}
    (h : FuseOut g matrix pre st np next np' skip) (hnp : np ∈ g.nodes) (hnext : ∀ m, next = some m → m ∈ g.nodes) :
    NodeFits g np' ∧ (np'.ty = .constant → np' = np) := by
  have h0 := hg.fits hnp
  cases h with
  | same => exact ⟨h0, fun _ => rfl⟩
  | gemm ht _ =>
    refine ⟨⟨h0.ins, h0.outs, h0.noShadow, fun h => (by cases h), ?_⟩, fun h => by cases h⟩
    intro t ht
    simp only [NodeProto.call, callsOf, NodeType.display, List.mem_cons, List.not_mem_nil, or_false] at ht
    rcases ht with rfl | rfl
    · exact gemm_mem
    · exact linear_mem
  | matMul ht _ _ _ _ _ =>
    refine ⟨⟨h0.ins, h0.outs, h0.noShadow, fun h => (by cases h), ?_⟩, fun h => by cases h⟩
    intro t ht
    simp only [NodeProto.call, callsOf, NodeType.display, List.mem_cons, List.not_mem_nil, or_false] at ht
    rcases ht with rfl | rfl
    · exact matMul_mem
    · exact linear_mem
  | @bias w a v ad y b z zs hn hb _ _ _ _ _ hz =>
    have h1 := hg.fits (hnext ad hn)
    have hzo : z ∈ ad.outputs := by rw [hz]; simp
    refine ⟨⟨?_, ?_, ?_, fun h => (by cases h), ?_⟩, fun h => by cases h⟩
    · intro x hx
      rcases List.mem_append.1 hx with hx | hx
      · exact h0.ins x hx
      · obtain rfl := List.mem_singleton.1 hx
        refine h1.ins _ ?_
        rcases hb.reads with h | h <;> rw [h] <;> simp
    · intro x hx
      obtain rfl := List.mem_singleton.1 hx
      exact h1.outs _ hzo
    · intro x hx
      obtain rfl := List.mem_singleton.1 hx
      exact h1.noShadow _ hzo
    · intro t ht
      simp only [NodeProto.call, callsOf, NodeType.display, List.mem_cons, List.not_mem_nil, or_false] at ht
      rcases ht with rfl | rfl
      · exact matMul_mem
      · exact linear_mem

theorem FuseOut.plain {g : GraphProto V} (hc : NodesOk g) {matrix : V → Bool} {pre : List (NodeProto V)}
    {st : GState V} {np : NodeProto V} {next : Option (NodeProto V)} {np' : NodeProto V} {skip : Bool}
    (h : FuseOut g matrix pre st np next np' skip) (hnp : np ∈ g.nodes) (hnext : ∀ m, next = some m → m ∈ g.nodes) :
    PlainProto np' := by
  cases h with
  | same => exact ⟨hc.outsNamed np hnp, hc.constPlain np hnp⟩
  | gemm _ _ => exact ⟨hc.outsNamed np hnp, fun h => by cases h⟩
  | matMul _ _ _ _ _ _ => exact ⟨hc.outsNamed np hnp, fun h => by cases h⟩
  | @bias w a v ad y b z zs hn _ _ _ _ _ _ hz =>
    refine ⟨fun h => hc.outsNamed ad (hnext ad hn) ?_, fun h => by cases h⟩
    rw [hz, List.mem_singleton.1 h]; simp

/-! ## The loop -/

theorem convertNode_inputs {st st' : GState V} {np : NodeProto V} (h : st.convertNode np = some st') :
    st'.inputs = st.inputs := by
  unfold GState.convertNode at h
  split at h
  · cases h
  · simp only [Option.some.injEq] at h
    rw [← h]; rfl

/-- Two environments that agree outside `D`. -/
def Same (D : List String) (e e2 : Env V) : Prop := ∀ x, x ∉ D → e2 x = e x

theorem onnxArgs_congr {e e2 : Env V} : ∀ {xs : List String}, (∀ x ∈ xs, e2 x = e x) → onnxArgs e2 xs = onnxArgs e xs
  | [], _ => rfl
  | x :: xs, h => by
    simp only [onnxArgs, h x List.mem_cons_self, onnxArgs_congr fun y hy => h y (List.mem_cons_of_mem _ hy)]

theorem Same.bind {D : List String} : ∀ {xs : List String} {vs : List V} {e e2 : Env V}, Same D e e2 →
    Same D (onnxBind e xs vs) (onnxBind e2 xs vs)
  | [], _, _, _, h => h
  | _ :: _, [], _, _, h => h
  | x :: xs, v :: vs, e, e2, h => by
    simp only [onnxBind]
    refine Same.bind ?_
    intro y hy
    split
    · exact h y hy
    · simp only [h y hy]

theorem onnxNode_some {S : OpSem V} {e e1 : Env V} {np : NodeProto V} (h : onnxNode S e np = some e1) :
    ∃ xs ys, onnxArgs e np.inputs = some xs ∧ S np.ty np.attrs xs = some ys ∧ ys.length = np.outputs.length ∧
      e1 = onnxBind e np.outputs ys := by
  unfold onnxNode at h
  split at h
  · cases h
  · next xs hx =>
    split at h
    · cases h
    · next ys hy =>
      split at h
      · next hl => cases h; exact ⟨xs, ys, hx, hy, hl, rfl⟩
      · cases h

theorem onnxNode_intro {S : OpSem V} {e : Env V} {np : NodeProto V} {xs ys} (hx : onnxArgs e np.inputs = some xs)
    (hy : S np.ty np.attrs xs = some ys) (hl : ys.length = np.outputs.length) :
    onnxNode S e np = some (onnxBind e np.outputs ys) := by
  simp [onnxNode, hx, hy, hl]

theorem onnxArgs_length {e : Env V} : ∀ {xs : List String} {vs}, onnxArgs e xs = some vs → vs.length = xs.length
  | [], vs, h => by cases h; rfl
  | x :: xs, vs, h => by
    simp only [onnxArgs] at h
    split at h
    · next v ws h1 h2 => cases h; simp [onnxArgs_length h2]
    · cases h

theorem onnxArgs_cons {e : Env V} {x : String} {xs : List String} {vs} (h : onnxArgs e (x :: xs) = some vs) :
    ∃ v ws, vs = v :: ws ∧ (if x = "" then some none else (e x).map some) = some v ∧ onnxArgs e xs = some ws := by
  simp only [onnxArgs] at h
  split at h
  · next v ws h1 h2 => cases h; exact ⟨v, ws, rfl, h1, h2⟩
  · cases h

theorem named_arg {e : Env V} {x : String} {v : Option V} (hx : x ≠ "")
    (h : (if x = "" then some none else (e x).map some) = some v) : ∃ u, v = some u ∧ e x = some u := by
  rw [if_neg hx] at h
  obtain ⟨u, hu, rfl⟩ := Option.map_eq_some_iff.1 h
  exact ⟨u, rfl, hu⟩

theorem onnxNodes_append {S : OpSem V} : ∀ {p q : List (NodeProto V)} {e : Env V},
    onnxNodes S e (p ++ q) = (onnxNodes S e p).bind fun e' => onnxNodes S e' q
  | [], q, e => rfl
  | n :: p, q, e => by
    simp only [List.cons_append, onnxNodes]
    cases onnxNode S e n with
    | none => rfl
    | some e1 => exact onnxNodes_append

/-- What is kept while the nodes are converted: `e` are the values of the file's run after `pre`, `e2` those of the run
with fused nodes, `D` the products that fusion has removed. -/
structure Fused (S : OpSem V) (g : GraphProto V) (e0 f0 : Env V) (pre rest : List (NodeProto V)) (done D : List String)
    (st : GState V) (e e2 f : Env V) : Prop where
  nodes : g.nodes = pre ++ rest
  ran : onnxNodes S (bindInits g e0) pre = some e
  inv : Inv g [] done st
  plain : Plain st.nodes
  consts : ConstIdx g pre st
  agrees : Agrees g st e2 f
  eval : evalNodes (fun _ => S) f0 st.nodes = some f
  same : Same D e e2
  gone : ∀ x ∈ D, x ∉ g.outputs ∧ ∀ m ∈ rest, x ∉ m.inputs
  bound : ∀ x, x ∈ g.inits.map Prod.fst ∨ x ∈ pre.flatMap (fun n => n.outputs) → x ∈ done ∨ x ∈ D

section
variable {S : OpSem V} (hS : ConstantOps S) (law : ConstantLaw fun _ => S) {matrix : V → Bool} {fits fitsC : V → V → Prop}
  (hlin : LinearLaw S matrix fits fitsC oneBits linearAttrs) {g : GraphProto V} (hg : NamesOk g) (hc : NodesOk g)
  (hng : ∀ x ∈ allNames g, ¬ Generated (sanitizeName x)) {e0 f0 : Env V}
  (hok : FusionOk S matrix fits fitsC oneBits e0 g) (hf0 : ∀ y v, f0 y = some v → ¬ Generated y)

include hf0 in
theorem Fused.ssa {pre rest done D} {st : GState V} {e e2 f : Env V} (h : Fused S g e0 f0 pre rest done D st e e2 f) :
    SSA f0 st.nodes := by
  refine ⟨h.inv.nodup, fun n hn y hy => ?_⟩
  cases hf : f0 y with
  | none => rfl
  | some v => exact absurd (h.inv.generated hn hy) (hf0 y v hf)

include law hg hf0 in
/-- The value of a constant weight is the one that was looked at. -/
theorem Fused.weight {pre rest done D} {st : GState V} {e e2 f : Env V} (h : Fused S g e0 f0 pre rest done D st e e2 f)
    {w : String} (hw : w ∈ allNames g) (hne : w ≠ "") {a : Arg V} (ha : st.initIn w = some a) {v u : V}
    (hv : constTable st.nodes a.name = some v) (hu : e2 w = some u) : u = v := by
  obtain ⟨a', ha', hav⟩ := h.agrees w hw hne u hu
  rw [ha] at ha'; cases ha'
  have hssa := h.ssa hf0
  have hok := (constTable_for hssa h.plain).ok law hssa
  have hconst := hok st.nodes [] f (by simp) h.eval a.name v u hv
  obtain ⟨-, hstat⟩ := initIn_plain hg h.inv h.plain hw ha
  have hval : f a.name = some u := by
    unfold evalArg at hav
    cases hs : a.src with
    | static x =>
      exfalso
      have hname := hstat x hs
      obtain ⟨n, hn, -, hx, -⟩ := mem_constEntries.1 (mapGet_mem hv)
      obtain ⟨m, k, hmk⟩ := h.plain.named hn hx
      exact outName_ne_empty m k (hmk.symm.trans hname)
    | optional => rw [hs] at hav; simp at hav
    | constant => rw [hs] at hav; simpa using hav
    | dynamic => rw [hs] at hav; simpa using hav
  exact hconst hval

include hS hg hf0 in
/-- One node, as it comes out of fusion, with `q` the one or two nodes of the file it stands for. -/
theorem Fused.step {pre rest q done D D'} {st : GState V} {e e2 f e' e2' : Env V} {np np' : NodeProto V}
    (h : Fused S g e0 f0 pre (q ++ rest) done D st e e2 f) (hnp : NodeFits g np') (hpl : PlainProto np')
    (hty : np'.ty = .constant → np' = np) (hq : np ∈ q) (hrun : onnxNodes S e q = some e')
    (hrun2 : onnxNode S e2 np' = some e2') (hsame : Same D' e' e2')
    (hgone : ∀ x ∈ D', x ∉ g.outputs ∧ ∀ m ∈ rest, x ∉ m.inputs) (hsub : ∀ x ∈ D, x ∈ D')
    (hbound : ∀ x ∈ q.flatMap (fun n => n.outputs), x ∈ np'.outputs ∨ x ∈ D') :
    ∃ st1 f1, st.convertNode np' = some st1 ∧
      Fused S g e0 f0 (pre ++ q) rest (done ++ np'.outputs) D' st1 e' e2' f1 := by
  obtain ⟨args, hargs⟩ := initAll_exists (st := st) (xs := np'.inputs) fun x hx => h.inv.resolves hg (hnp.ins x hx)
  obtain ⟨st1, h1, hinv1, hmap, hnodes⟩ := inv_step hg h.inv hnp hargs
  have hssa1 : ∀ st1, st.convertNode np' = some st1 → SSA f0 st1.nodes := by
    intro st1' h1'
    rw [h1] at h1'; cases h1'
    refine ⟨hinv1.nodup, fun n hn y hy => ?_⟩
    cases hf : f0 y with
    | none => rfl
    | some v => exact absurd (hinv1.generated hn hy) (hf0 y v hf)
  obtain ⟨st1', f1, h1', -, hf1, hr1⟩ := step_agrees hS hg rfl hnp h.inv hssa1 h.agrees h.eval hrun2
  rw [h1] at h1'; cases h1'
  refine ⟨st1, f1, h1, ⟨?_, ?_, hinv1, ?_, ?_, hr1, hf1, hsame, hgone, ?_⟩⟩
  · rw [h.nodes, List.append_assoc]
  · rw [onnxNodes_append, h.ran]; exact hrun
  · rw [hnodes]; exact stored_plain hg h.inv h.plain hnp hpl hargs
  · have := h.consts.step (np := np) (fun k p hk => by
      obtain ⟨_, _, _, a, ha, _⟩ := h.inv.entries k p hk; exact ⟨a, ha⟩) hnp hty hmap hnodes
    intro k p n hk hp hc
    obtain ⟨y, hy, hky, hcy⟩ := this k p n hk hp hc
    refine ⟨y, hy, hky, ?_⟩
    rcases hcy with hcy | ⟨m, hm, hmy⟩
    · exact .inl hcy
    · refine .inr ⟨m, ?_, hmy⟩
      rcases List.mem_append.1 hm with hm | hm
      · exact List.mem_append_left _ hm
      · rw [List.mem_singleton.1 hm]; exact List.mem_append_right _ hq
  · intro x hx
    rw [List.flatMap_append, List.mem_append] at hx
    rcases hx with hx | hx | hx
    · rcases h.bound x (.inl hx) with hx | hx
      · exact .inl (List.mem_append_left _ hx)
      · exact .inr (hsub x hx)
    · rcases h.bound x (.inr hx) with hx | hx
      · exact .inl (List.mem_append_left _ hx)
      · exact .inr (hsub x hx)
    · rcases hbound x hx with hx | hx
      · exact .inl (List.mem_append_right _ hx)
      · exact .inr hx

include hS law hlin hg hc hng hok hf0 in
/-- The loop with fusion succeeds on every graph that has a meaning, and keeps it. -/
theorem fused_run : ∀ (k : Nat) (rest : List (NodeProto V)), rest.length ≤ k → ∀ {pre done D} {st : GState V}
    {e e2 f e' : Env V}, Fused S g e0 f0 pre rest done D st e e2 f → onnxNodes S e rest = some e' →
    ∃ stF done' D' e2' f', GState.convertFused matrix false rest st = some stF ∧
      Fused S g e0 f0 g.nodes [] done' D' stF e' e2' f' ∧ stF.inputs = st.inputs := by
  intro k
  induction k with
  | zero =>
    intro rest hk pre done D st e e2 f e' h hr
    cases rest with
    | cons => simp at hk
    | nil =>
      cases hr
      refine ⟨st, done, D, e2, f, rfl, ?_, rfl⟩
      have : g.nodes = pre := by simpa using h.nodes
      rw [this]; exact h
  | succ k ih =>
    intro rest hk pre done D st e e2 f e' h hr
    cases rest with
    | nil => exact ih [] (by simp) h hr
    | cons np rest =>
    have hnp : np ∈ g.nodes := by rw [h.nodes]; simp
    have hrest : ∀ m ∈ rest, m ∈ g.nodes := by intro m hm; rw [h.nodes]; simp [hm]
    simp only [onnxNodes] at hr
    cases h1 : onnxNode S e np with
    | none => rw [h1] at hr; cases hr
    | some e1 =>
    rw [h1] at hr
    simp only at hr
    obtain ⟨xs, ys, hxs, hys, hyl, rfl⟩ := onnxNode_some h1
    have hxl := onnxArgs_length hxs
    have hxs2 : onnxArgs e2 np.inputs = some xs := by
      rw [onnxArgs_congr fun x hx => h.same x fun hD => (h.gone x hD).2 np List.mem_cons_self hx]; exact hxs
    obtain ⟨np', skip, hf, hout⟩ := fuse_spec (rest := rest) hg hng h.inv (matrix := matrix) h.consts hnp hrest
      (by
        intro ht
        rw [ht] at hys
        obtain ⟨h2, h3⟩ := hlin.matMulArity _ _ _ hys
        exact ⟨by omega, by omega⟩)
      (by
        intro ht
        rw [ht] at hys
        have := hlin.gemmArity _ _ _ hys
        omega)
      (by
        intro ad had hadt he
        cases rest with
        | nil => cases had
        | cons ad' rest =>
          cases had
          simp only [onnxNodes] at hr
          cases h2 : onnxNode S (onnxBind e np.outputs ys) ad with
          | none => rw [h2] at hr; cases hr
          | some e3 =>
            obtain ⟨us, vs, -, hvs, hvl, -⟩ := onnxNode_some h2
            rw [hadt] at hvs
            have := hlin.addArity _ _ _ hvs
            rw [he, List.length_nil] at hvl
            omega)
    have hnext : ∀ m, rest.head? = some m → m ∈ g.nodes := fun m hm => hrest m (List.mem_of_head? hm)
    obtain ⟨hfit, hty⟩ := hout.fits hg hnp hnext
    have hpl := hout.plain hc hnp hnext
    simp only [GState.convertFused, hf]
    -- a node that keeps its inputs and outputs
    have keep : ∀ np', np'.inputs = np.inputs → np'.outputs = np.outputs → NodeFits g np' → PlainProto np' →
        (np'.ty = .constant → np' = np) → S np'.ty np'.attrs xs = some ys →
        ∃ stF done' D' e2' f', (match st.convertNode np' with
            | none => none
            | some st' => GState.convertFused matrix false rest st') = some stF ∧
          Fused S g e0 f0 g.nodes [] done' D' stF e' e2' f' ∧ stF.inputs = st.inputs := by
      intro np' hi ho hfit hpl hty hys'
      have hrun2 : onnxNode S e2 np' = some (onnxBind e2 np'.outputs ys) :=
        onnxNode_intro (by rw [hi]; exact hxs2) hys' (by rw [ho]; exact hyl)
      obtain ⟨st1, f1, hst1, hfu⟩ := Fused.step (q := [np]) (np := np) (D' := D) (e' := onnxBind e np.outputs ys) hS hg hf0
        h hfit hpl hty (by simp) (by simp [onnxNodes, h1]) hrun2 (by rw [ho]; exact h.same.bind)
        (fun x hx => ⟨(h.gone x hx).1, fun m hm => (h.gone x hx).2 m (List.mem_cons_of_mem _ hm)⟩)
        (fun x hx => hx) (fun x hx => .inl (by rw [ho]; simpa using hx))
      obtain ⟨stF, done', D', e2', f', hc', hfu', hin⟩ := ih rest (by simp at hk; omega) hfu hr
      refine ⟨stF, done', D', e2', f', ?_, hfu', ?_⟩
      · rw [hst1]; exact hc'
      · rw [hin, convertNode_inputs hst1]
    cases hout with
    | same => exact keep np rfl rfl hfit hpl hty hys
    | gemm ht hpg =>
      refine keep _ rfl rfl hfit hpl hty ?_
      rw [ht] at hys
      obtain ⟨hta, hin⟩ := hok.gemm pre np rest h.nodes ht hpg
      rcases hin with ⟨x, w, hi⟩ | ⟨x, w, c, hi, hw, hcn, hfc⟩
      · rw [hi] at hxs
        obtain ⟨v, ws, rfl, -, hxs⟩ := onnxArgs_cons hxs
        obtain ⟨u, ws', rfl, -, hxs⟩ := onnxArgs_cons hxs
        cases hxs
        exact hlin.gemm _ _ _ _ hpg hta hys
      · rw [hi] at hxs
        obtain ⟨v, ws, rfl, -, hxs⟩ := onnxArgs_cons hxs
        obtain ⟨u, ws', rfl, hu, hxs⟩ := onnxArgs_cons hxs
        obtain ⟨t, ws'', rfl, ht', hxs⟩ := onnxArgs_cons hxs
        cases hxs
        obtain ⟨wv, rfl, hwv⟩ := named_arg hw hu
        obtain ⟨cv, rfl, hcv⟩ := named_arg hcn ht'
        exact hlin.gemmBiased _ _ _ _ _ hpg hta (hfc e wv cv h.ran hwv hcv) hys
    | @matMul x w a v ht hi ha hv hmv hcw =>
      refine keep _ rfl rfl hfit hpl hty ?_
      rw [ht] at hys
      rw [hi] at hxs2
      obtain ⟨vx, ws, rfl, -, hxs2⟩ := onnxArgs_cons hxs2
      obtain ⟨u, ws', rfl, hu, hxs2⟩ := onnxArgs_cons hxs2
      cases hxs2
      have hwn := IsConst.named hg h.nodes hcw
      obtain ⟨wv, rfl, hwv⟩ := named_arg hwn hu
      have := h.weight law hg hf0 (mem_all_nodeIn hnp (by rw [hi]; simp)) hwn ha hv hwv
      subst this
      exact hlin.product _ _ _ _ hmv hys
    | @bias w a v ad y b z zs hnx hb ha hv hmv hcw hcb hz =>
      cases rest with
      | nil => cases hnx
      | cons ad' rest =>
      cases hnx
      obtain ⟨x, hi⟩ := hb.product
      have hwn := IsConst.named hg h.nodes hcw
      have hbn := IsConst.named hg h.nodes hcb
      have hwa : w ∈ allNames g := mem_all_nodeIn hnp (by rw [hi]; simp)
      have hyn : y ≠ "" := fun hy0 => hc.outsNamed np hnp (by rw [hb.result, hy0]; simp)
      -- the weight
      rw [hi] at hxs hxs2
      obtain ⟨vx, ws, rfl, hvx, hxs2'⟩ := onnxArgs_cons hxs2
      obtain ⟨u, ws', rfl, hu, hxs2'⟩ := onnxArgs_cons hxs2'
      cases hxs2'
      obtain ⟨wv, rfl, hwv⟩ := named_arg hwn hu
      obtain rfl := h.weight law hg hf0 hwa hwn ha hv hwv
      have hwD : w ∉ D := fun hD => (h.gone w hD).2 np List.mem_cons_self (by rw [hi]; simp)
      have hwe : e w = some wv := by rw [← h.same w hwD]; exact hwv
      obtain ⟨hby, hyo, hyr, hfit'⟩ := hok.bias pre np ad rest w y b h.nodes hb hcw hcb (by
        intro e3 wv' h3 hw3
        rw [h.ran] at h3; cases h3
        rw [hwe] at hw3; cases hw3
        exact hmv)
      -- the product
      rw [hb.matMul] at hys
      rw [hb.result] at hyl
      obtain ⟨p, rfl⟩ : ∃ p, ys = [p] := by
        match ys, hyl with
        | [p], _ => exact ⟨p, rfl⟩
      -- the sum
      simp only [onnxNodes] at hr
      cases h2 : onnxNode S (onnxBind e np.outputs [p]) ad with
      | none => rw [h2] at hr; cases hr
      | some e3 =>
      rw [h2] at hr
      simp only at hr
      obtain ⟨us, vs, hus, hvs, hvl, rfl⟩ := onnxNode_some h2
      rw [hb.add] at hvs
      have hv1 := hlin.addArity _ _ _ hvs
      have hbind : ∀ x, x ≠ "" → onnxBind e np.outputs [p] x = if x = y then some p else e x := by
        intro x hx
        rw [hb.result]
        simp [onnxBind, hyn]
      have hadm : b ∈ ad.inputs := by rcases hb.reads with hrd | hrd <;> rw [hrd] <;> simp
      have hbD : b ∉ D := fun hD => (h.gone b hD).2 ad (by simp) hadm
      obtain ⟨bv, hbe, hadd⟩ : ∃ bv, e b = some bv ∧
          (S .add ad.attrs [some p, some bv] = some vs ∨ S .add ad.attrs [some bv, some p] = some vs) := by
        rcases hb.reads with hrd | hrd
        · rw [hrd] at hus
          obtain ⟨t1, ws, rfl, ht1, hus⟩ := onnxArgs_cons hus
          obtain ⟨t2, ws', rfl, ht2, hus⟩ := onnxArgs_cons hus
          cases hus
          obtain ⟨p', rfl, hp'⟩ := named_arg hyn ht1
          obtain ⟨bv, rfl, hbv⟩ := named_arg hbn ht2
          rw [hbind y hyn, if_pos rfl] at hp'
          rw [hbind b hbn, if_neg hby] at hbv
          cases hp'
          exact ⟨bv, hbv, .inl hvs⟩
        · rw [hrd] at hus
          obtain ⟨t1, ws, rfl, ht1, hus⟩ := onnxArgs_cons hus
          obtain ⟨t2, ws', rfl, ht2, hus⟩ := onnxArgs_cons hus
          cases hus
          obtain ⟨bv, rfl, hbv⟩ := named_arg hbn ht1
          obtain ⟨p', rfl, hp'⟩ := named_arg hyn ht2
          rw [hbind y hyn, if_pos rfl] at hp'
          rw [hbind b hbn, if_neg hby] at hbv
          cases hp'
          exact ⟨bv, hbv, .inr hvs⟩
      have hsum := hlin.biased np.attrs ad.attrs vx wv bv p vs hmv (hfit' e wv bv h.ran hwe hbe) hys hadd
      obtain rfl : zs = [] := by
        rw [hz] at hvl
        simp at hvl
        exact List.eq_nil_of_length_eq_zero (by omega)
      obtain ⟨r, rfl⟩ : ∃ r, vs = [r] := by
        match vs, hv1 with
        | [r], _ => exact ⟨r, rfl⟩
      have hb2 : e2 b = some bv := by rw [h.same b hbD]; exact hbe
      have hrun2 : onnxNode S e2
          { np with ty := .linear, first := some .matMul, inputs := np.inputs ++ [b], outputs := [z] } =
          some (onnxBind e2 [z] [r]) := by
        refine onnxNode_intro (xs := [vx, some wv, some bv]) ?_ hsum rfl
        simp only [hi, List.cons_append, List.nil_append]
        simp only [onnxArgs, hvx, hwn, hbn, if_false, hwv, hb2, Option.map_some]
      obtain ⟨st1, f1, hst1, hfu⟩ := Fused.step (q := [np, ad]) (np := np) (D' := y :: D) (rest := rest)
        (e' := onnxBind (onnxBind e np.outputs [p]) ad.outputs [r]) hS hg hf0
        h hfit hpl hty (by simp) (by simp [onnxNodes, h1, h2]) hrun2 (by
          intro x hx
          simp only [List.mem_cons, not_or] at hx
          rw [hz, hb.result]
          simp only [onnxBind, if_neg hyn]
          by_cases hz0 : z = ""
          · simp only [hz0, if_true, if_neg hx.1]; exact h.same x hx.2
          · simp only [hz0, if_false, if_neg hx.1, h.same x hx.2])
        (by
          intro x hx
          rcases List.mem_cons.1 hx with rfl | hx
          · exact ⟨hyo, hyr⟩
          · exact ⟨(h.gone x hx).1, fun m hm => (h.gone x hx).2 m (by simp [hm])⟩)
        (fun x hx => List.mem_cons_of_mem _ hx)
        (by
          intro x hx
          simp only [List.flatMap_cons, hb.result, hz, List.flatMap_nil, List.append_nil, List.mem_append,
            List.mem_singleton] at hx ⊢
          rcases hx with rfl | rfl
          · exact .inr (by simp)
          · exact .inl rfl)
      obtain ⟨stF, done', D', e2', f', hc', hfu', hin⟩ := ih rest (by simp at hk; omega) hfu hr
      refine ⟨stF, done', D', e2', f', ?_, hfu', ?_⟩
      · rw [hst1]
        simp only [GState.convertFused]
        exact hc'
      · rw [hin, convertNode_inputs hst1]

include hS law hlin hg hc hng hok hf0 in
/-- Conversion with fusion, from the start. -/
theorem fused_graph (hin : ∀ x ∈ g.inputs, f0 (sanitizeName x) = e0 x)
    (he : ∀ x v, e0 x = some v → x ∈ g.inputs) {r : List (Option V)} (hrun : onnxGraph S e0 g = some r) :
    ∃ stF done' D' e' e2' f' outs,
      GState.convertFused matrix false g.nodes (GState.start [] g) = some stF ∧
      Fused S g e0 f0 g.nodes [] done' D' stF e' e2' f' ∧ stF.inputs = (GState.start [] g).inputs ∧
      stF.results g.outputs = some outs ∧ evalArgs f' outs = some r ∧ SSA f0 stF.nodes := by
  have hinv0 := inv_start hg []
  have hssa : ∀ {done} {st : GState V}, Inv g [] done st → SSA f0 st.nodes := by
    intro done st hinv
    refine ⟨hinv.nodup, fun n hn y hy => ?_⟩
    cases hf : f0 y with
    | none => rfl
    | some v => exact absurd (hinv.generated hn hy) (hf0 y v hf)
  have hssa0 := hssa hinv0
  obtain ⟨f1, hf1⟩ := initializerNodes_run hS g.inits 0 f0
  have hr0 := start_agrees hS hg hin (fun x _ hx _ v hv => absurd (he x v hv) hx) hssa0 hf1
  unfold onnxGraph at hrun
  cases h1 : onnxNodes S (onnxBind e0 (g.inits.map Prod.fst) (g.inits.map Prod.snd)) g.nodes with
  | none => rw [h1] at hrun; cases hrun
  | some e' =>
  rw [h1] at hrun
  simp only at hrun
  have hfu0 : Fused S g e0 f0 [] g.nodes (g.inits.map Prod.fst) [] (GState.start [] g) (bindInits g e0)
      (bindInits g e0) f1 :=
    ⟨rfl, rfl, hinv0, start_plain g, start_constIdx g, hr0, hf1, fun x _ => rfl, by simp, by simp⟩
  obtain ⟨stF, done', D', e2', f', hcF, hF, hinp⟩ :=
    fused_run hS law hlin hg hc hng hok hf0 g.nodes.length g.nodes (Nat.le_refl _) hfu0 h1
  have houts : onnxArgs e2' g.outputs = some r := by
    rw [onnxArgs_congr fun x hx => hF.same x fun hD => (hF.gone x hD).1 hx]; exact hrun
  obtain ⟨outs, ho, hev⟩ := results_agree hg hF.inv (by
    intro x hx hb
    rcases hF.bound x (List.mem_append.1 hb) with h | h
    · exact h
    · exact absurd hx (hF.gone x h).1) hF.agrees g.outputs r (fun x hx => hx) houts
  exact ⟨stF, done', D', e', e2', f', outs, hcF, hF, hinp, ho, hev, hssa hF.inv⟩

end

/-- **C13.** For every graph and all input values: if the ONNX graph, run by its own names, returns `r`, then conversion
with fusion succeeds and the imported graph returns `r`.

Partial: under `FusionOk`, which the code does not check (`C13_product_lost`, `C13_product_output_lost`,
`C13_number_bias_fused`, `C13_gemm_bias_fused`, `C13_transposed_input_fused`). `LinearLaw` is discharged by the values of the layer
(`C13_linear_law`). -/
theorem C13_fusion_preserves_meaning_partial {S : OpSem V} (hS : ConstantOps S) (law : ConstantLaw fun _ => S)
    {matrix : V → Bool} {fits fitsC : V → V → Prop} (hlin : LinearLaw S matrix fits fitsC oneBits linearAttrs)
    {g : GraphProto V} (hg : NamesOk g) (hc : NodesOk g) (hng : ∀ x ∈ allNames g, ¬ Generated (sanitizeName x))
    {e0 f0 : Env V} (hok : FusionOk S matrix fits fitsC oneBits e0 g)
    (hf0 : ∀ y v, f0 y = some v → ∃ x ∈ g.inputs, y = sanitizeName x)
    (hin : ∀ x ∈ g.inputs, f0 (sanitizeName x) = e0 x) (he : ∀ x v, e0 x = some v → x ∈ g.inputs)
    {r : List (Option V)} (hrun : onnxGraph S e0 g = some r) :
    ∃ nodes ins outs, importFused matrix [] g = some (nodes, ins, outs) ∧
      evalGraph (fun _ => S) f0 nodes outs = some r ∧ SSA f0 nodes := by
  obtain ⟨stF, done', D', e', e2', f', outs, hcF, hF, -, ho, hev, hssa⟩ :=
    fused_graph hS law hlin hg hc hng hok (fun y v hv => by
      obtain ⟨x, hx, rfl⟩ := hf0 y v hv
      exact hng x (mem_all_input hx)) hin he hrun
  exact ⟨stF.nodes, stF.inputs, outs, by simp [importFused, hcF, ho], by simp [evalGraph, hF.eval, hev], hssa⟩

/-! ## What a successful conversion keeps, whether or not the graph has a meaning -/

theorem convertFused_inputs {matrix : V → Bool} : ∀ {nps : List (NodeProto V)} {skip : Bool} {st st' : GState V},
    GState.convertFused matrix skip nps st = some st' → st'.inputs = st.inputs
  | [], _, st, st', h => by cases h; rfl
  | np :: nps, true, st, st', h => convertFused_inputs (skip := false) h
  | np :: nps, false, st, st', h => by
    simp only [GState.convertFused] at h
    split at h
    · cases h
    · next np' skip _ =>
      split at h
      · cases h
      · next st1 h1 => rw [convertFused_inputs h, convertNode_inputs h1]

/-- No output of the file is the first output of a `MatMul` directly followed by an `Add`, and such an `Add` has one
output. -/
def ProductsHidden (g : GraphProto V) : Prop :=
  ∀ pre np ad rest, g.nodes = pre ++ np :: ad :: rest → np.ty = .matMul → ad.ty = .add →
    (∀ y ∈ np.outputs, y ∉ g.outputs) ∧ ad.outputs.length ≤ 1

/-- A node that comes out of fusion fits, and binds the names its sources bind, but for a product. -/
theorem fuse_fits {g : GraphProto V} (hg : NamesOk g) {st : GState V} {matrix : V → Bool} {np : NodeProto V}
    {next : Option (NodeProto V)} (hnp : np ∈ g.nodes) (hnext : ∀ m, next = some m → m ∈ g.nodes)
    {np' : NodeProto V} {skip : Bool} (h : st.fuse matrix np next = some (np', skip)) :
    NodeFits g np' ∧ (skip = false → np'.outputs = np.outputs) ∧ (skip = true → ∃ ad y ys z zs, next = some ad ∧
      np.ty = .matMul ∧ ad.ty = .add ∧ np.outputs = y :: ys ∧ ad.outputs = z :: zs ∧ np'.outputs = z :: ys) := by
  have h0 := hg.fits hnp
  have hsame : NodeFits g np ∧ (false = false → np.outputs = np.outputs) ∧ (false = true →
      ∃ ad y ys z zs, next = some ad ∧ np.ty = .matMul ∧ ad.ty = .add ∧ np.outputs = y :: ys ∧
        ad.outputs = z :: zs ∧ np.outputs = z :: ys) := ⟨h0, fun _ => rfl, fun h => by cases h⟩
  unfold GState.fuse at h
  split at h
  · next ht =>
    unfold fuseGemm at h
    split at h
    · cases h
    · split at h
      · cases h
        refine ⟨⟨h0.ins, h0.outs, h0.noShadow, fun h => (by cases h), ?_⟩, fun _ => rfl, fun h => by cases h⟩
        intro t ht
        simp only [NodeProto.call, callsOf, NodeType.display, List.mem_cons, List.not_mem_nil, or_false] at ht
        rcases ht with rfl | rfl
        · exact gemm_mem
        · exact linear_mem
      · cases h; exact hsame
  · next ht =>
    have hknown : ∀ np' : NodeProto V, np'.ty = .linear → np'.first = some .matMul →
        ∀ t ∈ callsOf np'.call, t ∈ nodeTypes := by
      intro np' h1 h2 t ht
      simp only [NodeProto.call, h1, h2, callsOf, NodeType.display, List.mem_cons, List.not_mem_nil, or_false] at ht
      rcases ht with rfl | rfl
      · exact matMul_mem
      · exact linear_mem
    have hlin : NodeFits g { np with ty := .linear, first := some .matMul } :=
      ⟨h0.ins, h0.outs, h0.noShadow, fun h => (by cases h), hknown _ rfl rfl⟩
    unfold GState.fuseMatMul at h
    split at h
    · cases h
    · split at h
      · split at h
        · simp only at h
          split at h
          · cases h; exact ⟨hlin, fun _ => rfl, fun h => by cases h⟩
          · cases h
          · next ad y ys hy =>
            split at h
            · cases h
            · cases h; exact ⟨hlin, fun _ => rfl, fun h => by cases h⟩
            · next b hb =>
              split at h
              · cases h
              · next z zs hz =>
                cases h
                have hadm := hnext ad rfl
                have h1 := hg.fits hadm
                have hbm : b ∈ ad.inputs ∧ ad.ty = .add := by
                  unfold GState.biasOf at hb
                  split at hb
                  · cases hb
                  · next l r al ar hl hr =>
                    split at hb
                    · next hc =>
                      cases hb
                      refine ⟨?_, hc.1⟩
                      rw [hl]
                      split <;> simp
                    · cases hb
                  · cases hb
                refine ⟨⟨?_, ?_, ?_, fun h => (by cases h), hknown _ rfl rfl⟩, fun h => (by cases h), fun _ => ?_⟩
                · intro x hx
                  rcases List.mem_append.1 hx with hx | hx
                  · exact h0.ins x hx
                  · rw [List.mem_singleton.1 hx]; exact h1.ins b hbm.1
                · intro x hx
                  rcases List.mem_cons.1 hx with rfl | hx
                  · exact h1.outs _ (by rw [hz]; simp)
                  · exact h0.outs x (by rw [hy]; simp [hx])
                · intro x hx
                  rcases List.mem_cons.1 hx with rfl | hx
                  · exact h1.noShadow _ (by rw [hz]; simp)
                  · exact h0.noShadow x (by rw [hy]; simp [hx])
                · exact ⟨ad, y, ys, z, zs, rfl, ht, hbm.2, hy, hz, rfl⟩
        · cases h; exact hsame
      · cases h
  · cases h; exact hsame

/-- After a successful conversion every output of the file that is bound in it is known. -/
theorem convertFused_inv {g : GraphProto V} (hg : NamesOk g) (hhid : ProductsHidden g) {matrix : V → Bool} :
    ∀ (k : Nat) (rest : List (NodeProto V)), rest.length ≤ k → ∀ {pre done} {st stF : GState V},
      g.nodes = pre ++ rest → Inv g [] done st →
      (∀ x ∈ g.outputs, x ∈ g.inits.map Prod.fst ∨ x ∈ pre.flatMap (fun n => n.outputs) → x ∈ done) →
      GState.convertFused matrix false rest st = some stF →
      ∃ done', Inv g [] done' stF ∧ ∀ x ∈ g.outputs, x ∈ boundNames g → x ∈ done' := by
  intro k
  induction k with
  | zero =>
    intro rest hk pre done st stF hn hinv hd h
    cases rest with
    | cons => simp at hk
    | nil =>
      cases h
      exact ⟨done, hinv, fun x hx hb => hd x hx (by
        simpa [boundNames, hn] using hb)⟩
  | succ k ih =>
    intro rest hk pre done st stF hn hinv hd h
    cases rest with
    | nil => exact ih [] (by simp) hn hinv hd h
    | cons np rest =>
    have hnp : np ∈ g.nodes := by rw [hn]; simp
    simp only [GState.convertFused] at h
    split at h
    · cases h
    · next np' skip hf =>
      obtain ⟨hfit, hs0, hs1⟩ := fuse_fits hg hnp (fun m hm => by
        rw [hn]; simp [List.mem_of_head? hm]) hf
      split at h
      · cases h
      · next st1 h1 =>
        have hinv1 : Inv g [] (done ++ np'.outputs) st1 := by
          obtain ⟨args, hargs⟩ := initAll_exists (st := st) (xs := np'.inputs) fun x hx => hinv.resolves hg (hfit.ins x hx)
          obtain ⟨st1', h1', hi, -⟩ := inv_step hg hinv hfit hargs
          rw [h1] at h1'; cases h1'; exact hi
        cases skip with
        | false =>
          refine ih rest (by simp at hk; omega) (pre := pre ++ [np]) (by simp [hn]) hinv1 ?_ h
          intro x hx hb
          rw [List.flatMap_append, List.mem_append] at hb
          rcases hb with hb | hb | hb
          · exact List.mem_append_left _ (hd x hx (.inl hb))
          · exact List.mem_append_left _ (hd x hx (.inr hb))
          · refine List.mem_append_right _ ?_
            rw [hs0 rfl]; simpa using hb
        | true =>
          obtain ⟨ad, y, ys, z, zs, hr, ht, hadt, hy, hz, ho⟩ := hs1 rfl
          cases rest with
          | nil => cases hr
          | cons ad' rest =>
          cases hr
          simp only [GState.convertFused] at h
          obtain ⟨hhy, hone⟩ := hhid pre np ad rest hn ht hadt
          refine ih rest (by simp at hk; omega) (pre := pre ++ [np, ad]) (by simp [hn]) hinv1 ?_ h
          intro x hx hb
          rw [List.flatMap_append, List.mem_append] at hb
          rcases hb with hb | hb | hb
          · exact List.mem_append_left _ (hd x hx (.inl hb))
          · exact List.mem_append_left _ (hd x hx (.inr hb))
          · refine List.mem_append_right _ ?_
            simp only [List.flatMap_cons, List.flatMap_nil, List.append_nil, List.mem_append] at hb
            rcases hb with hb | hb
            · exact absurd hx (hhy x hb)
            · rw [hz] at hb hone
              have : zs = [] := List.eq_nil_of_length_eq_zero (by simpa using hone)
              rw [this, List.mem_singleton] at hb
              rw [ho, hb]; simp

end OnnxIR
