import Verif.Props.Pipeline
import Verif.Props.WholeModel
import Verif.Spec.EndToEnd

/-!
# C84: from the file to the generated function
-/

namespace OnnxIR

open Gen Forward

section order
variable {V : Type}

/-- In a run with single assignment the nodes are in order. -/
theorem inOrder_of_run {S : Sem V} : ∀ (ns : List (Node V)) {env final : Env V} {seen : List String},
    evalNodes S env ns = some final → (∀ x v, env x = some v → x ∈ seen) → (ns.flatMap Node.outNames).Nodup →
    (∀ x ∈ ns.flatMap Node.outNames, x ∉ seen) → InOrder ns seen
  | [], _, _, _, _, _, _, _ => trivial
  | n :: ns, env, final, seen, hr, hs, hd, hf => by
    simp only [evalNodes] at hr
    cases hm : evalNode S env n with
    | none => simp [hm] at hr
    | some env1 =>
      simp only [hm] at hr
      obtain ⟨xs, ys, hxs, hys, hlen, rfl⟩ := evalNode_some hm
      rw [List.flatMap_cons, List.nodup_append] at hd
      obtain ⟨d1, d2, d3⟩ := hd
      refine ⟨fun a ha hrt => ?_, d1, fun x hx => hf x (by rw [List.flatMap_cons]; exact List.mem_append_left _ hx), ?_⟩
      · obtain ⟨k, hk⟩ := List.mem_iff_getElem?.1 ha
        obtain ⟨x, -, hx⟩ := (Forward.evalArgs_get _ hxs).2 k a hk
        rcases hrt with h | h <;>
        · simp only [evalArg, h, Option.map_eq_some_iff] at hx
          obtain ⟨v, hv, -⟩ := hx
          exact hs _ _ hv
      · refine inOrder_of_run ns hr (fun x v hx => ?_) d2 (fun x hx hm => ?_)
        · by_cases hxm : x ∈ n.outNames
          · exact List.mem_append_left _ hxm
          · rw [bindAll_notMem _ _ _ _ hxm] at hx
            exact List.mem_append_right _ (hs x v hx)
        · rcases List.mem_append.1 hm with h | h
          · exact d3 x h x hx rfl
          · exact hf x (by rw [List.flatMap_cons]; exact List.mem_append_right _ hx) h

/-- What is bound after a run was bound before or is an output. -/
theorem bound_after {S : Sem V} : ∀ (ns : List (Node V)) {env final : Env V}, evalNodes S env ns = some final →
    ∀ x v, final x = some v → env x = some v ∨ x ∈ ns.flatMap Node.outNames := by
  intro ns env final hr x v hx
  by_cases h : x ∈ ns.flatMap Node.outNames
  · exact Or.inr h
  · left
    rw [← evalNodes_notMem ns hr h, hx]

end order

section conv
variable {V W R : Type} {f : V → W}

theorem atRunTime_conv {a : Arg V} : AtRunTime (a.conv f) ↔ AtRunTime a := by
  cases a with
  | mk x ty s => cases s <;> simp [AtRunTime, Arg.conv, Src.conv]

theorem Target.Ok.conv {L : Target W R} (h : L.Ok) : (L.conv f).Ok :=
  ⟨fun ty r v => h.native ty r (f v), fun t u r v => h.form t u r (f v), fun d r v => h.toDevice d r (f v),
    fun d r v => h.toNative d r (f v)⟩

theorem input_conv {n : Node V} {k : Nat} {b : Arg W} (h : (n.conv f).inputs[k]? = some b) : ∃ a, n.inputs[k]? = some a ∧ b = a.conv f := by
  simp only [Node.conv, List.getElem?_map, Option.map_eq_some_iff] at h
  obtain ⟨a, h1, h2⟩ := h
  exact ⟨a, h1, h2.symm⟩

theorem operands_conv {L : Target W R} {n : Node V} {xs : List (Option V)} (h : Operands (L.conv f) n xs) :
    Operands L (n.conv f) (xs.map (Option.map f)) := by
  refine ⟨by simp [Node.conv, h.length], fun k b v hb hs => ?_, fun k b hb hs => ?_, fun k b hb hr => ?_⟩
  · obtain ⟨a, ha, rfl⟩ := input_conv hb
    cases hsrc : a.src with
    | static w =>
      simp only [Arg.conv, hsrc, Src.conv, Src.static.injEq] at hs
      simp [h.static k a w ha hsrc, hs]
    | _ => simp [Arg.conv, hsrc, Src.conv] at hs
  · obtain ⟨a, ha, rfl⟩ := input_conv hb
    cases hsrc : a.src with
    | optional => simp [h.absent k a ha hsrc]
    | _ => simp [Arg.conv, hsrc, Src.conv] at hs
  · obtain ⟨a, ha, rfl⟩ := input_conv hb
    obtain ⟨v, h1, h2⟩ := h.run k a ha (atRunTime_conv.1 hr)
    exact ⟨f v, by simp [h1], h2⟩

end conv

section whole
variable {erf : ℝ → ℝ} {pick : Nat → Int → Option Nat} {st : Store OVal} {opset : Nat} {V : Type} {f : V → OVal}

/-- C80 for a graph whose values are read as real ones by `f`. -/
theorem model_conv (hst : StoreOk st) {S : Sem V} {τ : String → ArgType} {nodes : List (Node V)} {ins outs : List (Arg V)}
    (hg : GraphOk τ nodes ins outs) (hty : ∀ n ∈ nodes, Typed st opset (n.conv f))
    {env final : OnnxIR.Env V} (henv : ∀ x v, env x = some v → x ∈ ins.map Arg.name)
    (hrun : evalNodes S env nodes = some final) 
    (hS : ∀ n ∈ nodes, ∀ xs ys, evalArgs final n.inputs = some xs → S n.name n.ty n.attrs xs = some ys →
      ∃ op, opOf n.ty = some op ∧ Onnx.Meaning erf opset op (convAttrs f n.attrs) (xs.map (Option.map f)) (ys.map f))
    (hann : AnnotationsTrue (burn.conv f) final nodes)
    (hread : ∀ n ∈ nodes, ∀ a ∈ n.inputs, ∀ w, st.read (a.conv f) = some w → ∃ v, evalArg final a = some (some v) ∧ f v = w)
    (hsup : ∀ n ∈ nodes, ∀ xs op, evalArgs final n.inputs = some xs → opOf n.ty = some op →
      Supported pick st opset (n.conv f) (xs.map (Option.map f)) op)
    (hnames : ∀ n ∈ nodes, ∀ op, opOf n.ty = some op → NamesFree (n.conv f) op)
    {ys : List (Option V)} (hres : evalArgs final outs = some ys) {args : List RustVal} (hargs : args.length = ins.length)
    (hin : ∀ (k : Nat) (a : Arg V) (r : RustVal), ins[k]? = some a → args[k]? = some r →
      ∃ v, env a.name = some v ∧ Holds (boundaryType a.ty) r (f v)) :
    ∃ g, genForward burn.toDevice burn.toNative (fun n => codeOf erf pick st opset (n.conv f)) nodes ins outs = some g ∧
      ∃ rs, Rust.call burn.copy g args = some rs ∧ rs.length = outs.length ∧
        ∀ (k : Nat) (o : Arg V) (r : RustVal), outs[k]? = some o → rs[k]? = some r →
          ∃ y, ys[k]? = some (some y) ∧ Holds (boundaryType o.ty) r (f y) := by
  have hdom : ∀ n ∈ nodes, ∀ xs, evalArgs final n.inputs = some xs →
      (∀ (k : Nat) (b : Arg OVal) (v : OVal), (n.conv f).inputs[k]? = some b → st.read b = some v →
        (xs.map (Option.map f))[k]? = some (some v)) ∧
      ∀ op, opOf n.ty = some op → Supported pick st opset (n.conv f) (xs.map (Option.map f)) op := by
    intro n hn xs hxs
    refine ⟨fun k b w hb hw => ?_, fun op hop => hsup n hn xs op hxs hop⟩
    obtain ⟨a, ha, rfl⟩ := input_conv hb
    obtain ⟨x, h1, h2⟩ := (Forward.evalArgs_get _ hxs).2 k a ha
    obtain ⟨v, h3, rfl⟩ := hread n hn a (List.mem_of_getElem? ha) w hw
    rw [h3] at h2
    simp [h1, ← Option.some.inj h2]
  have hfits : ∀ (n : Node V) (ys : List V), (∀ (k : Nat) (o : Arg V) (y : V), n.outputs[k]? = some o → ys[k]? = some y →
      (burn.conv f).fits o.ty y) → ∀ (k : Nat) (b : Arg OVal) (z : OVal), (n.conv f).outputs[k]? = some b → (ys.map f)[k]? = some z →
      burn.fits b.ty z := by
    intro n ys h k b z hb hz
    simp only [Node.conv, List.getElem?_map, Option.map_eq_some_iff] at hb hz
    obtain ⟨o, ho, rfl⟩ := hb
    obtain ⟨y, hy, rfl⟩ := hz
    exact h k o y ho hy
  refine C80_forward_partial (L := burn.conv f) burn_ok.conv (S := S) (dom := fun n xs => evalArgs final n.inputs = some xs) hg ?_ henv hrun hann (fun n _ xs h => h) hres hargs hin
  intro n hn
  obtain ⟨xs, zs, hxs, hSn, hlen, hout⟩ := run_nodes nodes hg.order henv hrun n hn
  obtain ⟨hxl, hxget⟩ := Forward.evalArgs_get _ hxs
  obtain ⟨op, hop, hm⟩ := hS n hn xs zs hxs hSn
  obtain ⟨hai, hao⟩ := hann n hn
  have hops : Operands (burn.conv f) n xs := by
    refine ⟨hxl, fun k a v ha hs => ?_, fun k a ha hs => ?_, fun k a ha hrt => ?_⟩
    · obtain ⟨x, hx, hev⟩ := hxget k a ha
      simp only [evalArg, hs, Option.some.injEq] at hev
      rw [hx, ← hev]
    · obtain ⟨x, hx, hev⟩ := hxget k a ha
      simp only [evalArg, hs, Option.some.injEq] at hev
      rw [hx, ← hev]
    · obtain ⟨x, hx, hev⟩ := hxget k a ha
      rcases hrt with h | h <;>
      · simp only [evalArg, h, Option.map_eq_some_iff] at hev
        obtain ⟨v, hv, rfl⟩ := hev
        exact ⟨v, hx, hai a (List.mem_of_getElem? ha) (by first | exact Or.inl h | exact Or.inr h) v hv⟩
  have hd := hdom n hn xs hxs
  obtain ⟨c, hc, h1, h2, -⟩ := works (pick := pick) hst (n := n.conv f) hop hm ⟨operands_conv hops, hd.1, by simp [Node.conv, hlen],
    hfits n zs fun k o y hok hyk => hao o (List.mem_of_getElem? hok) y (hout k o y hok hyk)⟩ (hd.2 op hop) (hty n hn)
  have hfree : ¬ ((n.conv f).inputs.any fun a => (blockLocals op).contains a.name) = true := by
    simp only [List.any_eq_true, List.contains_iff_mem, not_exists, not_and]
    intro a ha hm
    rcases locals_named op hm with h | h
    · exact (hnames n hn op hop a ha).1 h
    · exact (hnames n hn op hop a ha).2 h
  have hop' : opOf (n.conv f).ty = some op := hop
  refine ⟨c, by simp only [codeOf, hop', Option.bind_some, if_neg hfree, hc], h1, fun u hu => ?_, ?_⟩
  · obtain ⟨b, hb, hbr⟩ := h2 u hu
    obtain ⟨a, ha, rfl⟩ := input_conv hb
    exact ⟨a, ha, atRunTime_conv.1 hbr⟩
  · intro xs' ys' hS' hops' hdom' hlen' hfit' rs hrs hhold
    obtain ⟨op2, hop2, hm'⟩ := hS n hn xs' ys' hdom' hS'
    obtain rfl : op = op2 := Option.some.inj (hop.symm.trans hop2)
    obtain ⟨c', hc', -, -, h3⟩ := works (pick := pick) hst (n := n.conv f) hop hm' ⟨operands_conv hops', (hdom n hn xs' hdom').1, by simp [Node.conv, hlen'],
      hfits n ys' hfit'⟩ ((hdom n hn xs' hdom').2 op hop) (hty n hn)
    obtain rfl : c = c' := Option.some.inj (hc.symm.trans hc')
    obtain ⟨ws, k1, k2, k3⟩ := h3 rs hrs fun k u r hu hr => by
      obtain ⟨a, v, q1, q2, q3⟩ := hhold k u r hu hr
      exact ⟨a.conv f, f v, by simp [Node.conv, q1], by simp [q2], q3⟩
    refine ⟨ws, k1, by simpa using k2, fun k o w y ho hw hy => ?_⟩
    exact k3 k (o.conv f) w (f y) (by simp [Node.conv, ho]) hw (by simp [hy])

end whole

/-- What C80 asks of the run of the imported graph: what its operators compute is what they mean, annotations are right about its values, what the importer knows as a constant has
that value, and each node meets the guard of its operator. -/
structure RunFits {V : Type} (S : OpSem V) (erf : ℝ → ℝ) (pick : Nat → Int → Option Nat) (st : Store OVal) (opset : Nat) (f : V → OVal)
    (nodes : List (Node V)) (final : Env V) : Prop where
  meaning : ∀ n ∈ nodes, ∀ xs ys, evalArgs final n.inputs = some xs → S n.ty n.attrs xs = some ys → ∃ op, opOf n.ty = some op ∧
    Onnx.Meaning erf opset op (convAttrs f n.attrs) (xs.map (Option.map f)) (ys.map f)
  annotations : AnnotationsTrue (burn.conv f) final nodes
  constants : ∀ n ∈ nodes, ∀ a ∈ n.inputs, ∀ w, st.read (a.conv f) = some w → ∃ v, evalArg final a = some (some v) ∧ f v = w
  guards : ∀ n ∈ nodes, ∀ xs op, evalArgs final n.inputs = some xs → opOf n.ty = some op →
    Supported pick st opset (n.conv f) (xs.map (Option.map f)) op

section
variable {A B E F : Type} [DecidableEq E] [DecidableEq (CVal A B)] [Inhabited A] [Inhabited B]
  {erf : ℝ → ℝ} {pick : Nat → Int → Option Nat} {st : Store OVal} {opset : Nat} {fa : A → ℝ} {fb : B → ℝ}

theorem onnxGraph_length {V : Type} {S : OpSem V} {e : Env V} {g : GraphProto V} {r} (h : onnxGraph S e g = some r) :
    r.length = g.outputs.length := by
  unfold onnxGraph at h
  split at h
  · cases h
  · exact onnxArgs_length h

/-- **C84.** From the file to the numbers. For every file without control flow whose imported graph has nodes of the 127 operators of
C80: if the graph of the file, read as the ONNX standard reads it, has a result on some inputs, then importing it (with
initializers, fusion of MatMul and Add, removal of no-ops, simplification, lifting and removal of constants) and generating code gives
a `forward` function that compiles, takes the inputs of the file without initializer in their order, does not panic and returns the
outputs of the file in their order. The hypotheses are those of C52 about the file and the phases, and those of C80 about the imported
graph. -/
theorem C84_file_to_forward_partial {S : OpSem (CVal A B)} (hS : ConstantOps S)
    (law : ConstantLaw fun _ => S) {o : Importer A B E F} (hord : OrdersOk o) {fs : FloatSpec A B}
    {ops : AttnOps (CVal A B) F} {fits : CVal A B → CVal A B → Prop}
    (hsem : o.simplify = true → SimpSem (fun _ => S) o.simp fs ops fits) {fitsW fitsC : CVal A B → CVal A B → Prop}
    (hlin : LinearLaw S o.matrix fitsW fitsC oneBits linearAttrs) {g : GraphProto (CVal A B)}
    (hg : FileOk g) (hgin : g.inputs.Nodup) {e f0 : Env (CVal A B)} (hfus : FusionOk S o.matrix fitsW fitsC oneBits e g)
    (hin : ∀ x ∈ g.inputs, f0 (sanitizeName x) = e x)
    (he : ∀ x v, e x = some v → x ∈ requiredInputs g)
    (hf0 : ∀ y v, f0 y = some v → ∃ x ∈ requiredInputs g, y = sanitizeName x)
    (hph : ∀ ins st s, frontEnd o g = some (ins, st, s) → PhasesOk (fun _ => S) o fs fits f0 st s)
    {nodes : List (Node (CVal A B))} {ins outs : List (Arg (CVal A B))}
    (himp : importModel o g = some (nodes, ins, outs)) {r : List (Option (CVal A B))}
    (hrun : onnxGraph S e g = some r)
    (hst : StoreOk st) {τ : String → ArgType} (hτ : TypesAgree τ nodes ins outs)
    (hty : ∀ n ∈ nodes, Typed st opset (n.conv (CVal.real fa fb)))
    (hfit : ∀ final, evalNodes (fun _ => S) f0 nodes = some final → RunFits S erf pick st opset (CVal.real fa fb) nodes final)
    (hnames : ∀ n ∈ nodes, ∀ op, opOf n.ty = some op → NamesFree (n.conv (CVal.real fa fb)) op)
    {args : List RustVal} (hargs : args.length = (requiredInputs g).length)
    (hhold : ∀ (k : Nat) (x : String) (a : Arg (CVal A B)) (q : RustVal), (requiredInputs g)[k]? = some x → ins[k]? = some a →
      args[k]? = some q → ∃ v, e x = some v ∧ Holds (boundaryType a.ty) q (v.real fa fb)) :
    ∃ f, genForward burn.toDevice burn.toNative (fun n => codeOf erf pick st opset (n.conv (CVal.real fa fb))) nodes ins outs = some f ∧
      ∃ rs, Rust.call burn.copy f args = some rs ∧ rs.length = g.outputs.length ∧
        ∀ (k : Nat) (q : RustVal), rs[k]? = some q → ∃ a y, outs[k]? = some a ∧ r[k]? = some (some y) ∧
          Holds (boundaryType a.ty) q (y.real fa fb) := by
  obtain ⟨hgraph, hssa, -, hnm⟩ := import_run hS law hord hsem hlin hg hfus hin he hf0 hph himp hrun
  unfold evalGraph at hgraph
  split at hgraph
  · cases hgraph
  next final hfinal =>
  have hsub : ∀ x ∈ requiredInputs g, x ∈ g.inputs := fun x hx => (List.mem_filter.1 hx).1
  have hinsl : ins.length = (requiredInputs g).length := by simpa using congrArg List.length hnm
  have hname : ∀ (k : Nat) (a : Arg (CVal A B)), ins[k]? = some a → ∃ x, (requiredInputs g)[k]? = some x ∧ a.name = sanitizeName x := by
    intro k a ha
    have := congrArg (fun l : List String => l[k]?) hnm
    simp only [List.getElem?_map, ha, Option.map_some] at this
    obtain ⟨x, hx, hxa⟩ := Option.map_eq_some_iff.1 this.symm
    exact ⟨x, hx, hxa.symm⟩
  have hbound : ∀ (k : Nat) (a : Arg (CVal A B)) (q : RustVal), ins[k]? = some a → args[k]? = some q →
      ∃ v, f0 a.name = some v ∧ Holds (boundaryType a.ty) q (v.real fa fb) := by
    intro k a q ha hq
    obtain ⟨x, hx, hxa⟩ := hname k a ha
    obtain ⟨v, hv, hh⟩ := hhold k x a q hx ha hq
    exact ⟨v, by rw [hxa, hin x (hsub x (List.mem_of_getElem? hx)), hv], hh⟩
  have hdef : ∀ x ∈ ins.map Arg.name, ∃ v, f0 x = some v := by
    intro x hx
    obtain ⟨a, ha, rfl⟩ := List.mem_map.1 hx
    obtain ⟨k, hk⟩ := List.mem_iff_getElem?.1 ha
    have hkl : k < args.length := by rw [hargs, ← hinsl]; exact (List.getElem?_eq_some_iff.1 hk).1
    obtain ⟨v, hv, -⟩ := hbound k a args[k] hk (List.getElem?_eq_getElem hkl)
    exact ⟨v, hv⟩
  have henv : ∀ x v, f0 x = some v → x ∈ ins.map Arg.name := by
    intro y v hv
    obtain ⟨x, hx, rfl⟩ := hf0 y v hv
    rw [hnm]
    exact List.mem_map.2 ⟨x, hx, rfl⟩
  have hgraphOk : GraphOk τ nodes ins outs := by
    refine ⟨inOrder_of_run nodes hfinal henv hssa.nodup fun x hx hm => ?_, ?_, hτ.outputs, fun a ha => ⟨hτ.results a ha, ?_⟩,
      hτ.nodeTypes, hτ.inTypes, hτ.outTypes, hτ.scalars⟩
    · obtain ⟨v, hv⟩ := hdef x hm
      obtain ⟨n, hn, hxn⟩ := List.mem_flatMap.1 hx
      rw [hssa.fresh n hn x hxn] at hv
      cases hv
    · rw [hnm]
      refine List.Nodup.map_on (fun x hx y hy h => ?_) (hgin.filter _)
      exact hg.names.apart x (mem_all_input (hsub x hx)) y (mem_all_input (hsub y hy)) h
    · obtain ⟨k, hk⟩ := List.mem_iff_getElem?.1 ha
      obtain ⟨x, -, hx⟩ := (Forward.evalArgs_get _ hgraph).2 k a hk
      simp only [evalArg, hτ.results a ha, Option.map_eq_some_iff] at hx
      obtain ⟨v, hv, -⟩ := hx
      exact (bound_after nodes hfinal _ _ hv).imp (fun h => henv _ _ h) id
  obtain ⟨f, h1, rs, h2, h3, h4⟩ := model_conv (pick := pick) hst hgraphOk hty (S := fun _ => S) henv hfinal (hfit final hfinal).meaning
    (hfit final hfinal).annotations
    (hfit final hfinal).constants (hfit final hfinal).guards hnames hgraph (hargs.trans hinsl.symm) hbound
  have hol : outs.length = r.length := (Forward.evalArgs_get _ hgraph).1.symm
  refine ⟨f, h1, rs, h2, by rw [h3, hol, onnxGraph_length hrun], fun k q hq => ?_⟩
  have hk : k < outs.length := by rw [← h3]; exact (List.getElem?_eq_some_iff.1 hq).1
  obtain ⟨y, k1, k2⟩ := h4 k outs[k] q (List.getElem?_eq_getElem hk) hq
  exact ⟨outs[k], y, List.getElem?_eq_getElem hk, k1, k2⟩

end

end OnnxIR
