import Verif.Props.NodeCodeAll

/-!
# C80: whole models of operators with modelled values
-/

namespace OnnxIR

open Gen Forward

variable {erf : ℝ → ℝ} {pick : Nat → Int → Option Nat} {st : Store OVal} {opset : Nat}

/-- What a run tells about each of its nodes. -/
theorem run_nodes {V : Type} {S : Sem V} {final : OnnxIR.Env V} (nodes : List (Node V)) : ∀ {seen : List String} {env : OnnxIR.Env V},
    InOrder nodes seen → (∀ x v, env x = some v → x ∈ seen) → evalNodes S env nodes = some final →
    ∀ n ∈ nodes, ∃ xs ys, evalArgs final n.inputs = some xs ∧ S n.name n.ty n.attrs xs = some ys ∧ ys.length = n.outputs.length ∧
      ∀ (k : Nat) (o : Arg V) (y : V), n.outputs[k]? = some o → ys[k]? = some y → final o.name = some y := by
  induction nodes with
  | nil => intro seen env _ _ _ n hn; simp at hn
  | cons m ns ih =>
    intro seen env ho hseen hr n hn
    obtain ⟨o1, o2, o3, o4⟩ := ho
    simp only [evalNodes] at hr
    cases hm : evalNode S env m with
    | none => simp [hm] at hr
    | some env1 =>
      simp only [hm] at hr
      obtain ⟨xs, ys, hxs, hys, hlen, rfl⟩ := evalNode_some hm
      rcases List.mem_cons.1 hn with rfl | hn
      · refine ⟨xs, ys, evalArgs_keep (fun x v hx => ?_) _ hxs, hys, by simpa [Node.outNames] using hlen, fun k o y hok hyk => ?_⟩
        · have hsx := hseen x v hx
          have h1 : x ∉ n.outNames := fun hm => o3 x hm hsx
          rw [evalNodes_notMem ns hr (inOrder_fresh o4 x (by simp [hsx])), bindAll_notMem _ _ _ _ h1, hx]
        · have hb := bindAll_get n.outNames ys env k o.name y o2 (by simp [Node.outNames, hok]) hyk
          rw [evalNodes_notMem ns hr (inOrder_fresh o4 o.name ?_), hb]
          exact List.mem_append_left _ (List.mem_map.2 ⟨o, List.mem_of_getElem? hok, rfl⟩)
      · refine ih o4 ?_ hr n hn
        intro x v hx
        by_cases hxm : x ∈ m.outNames
        · simp [hxm]
        · rw [bindAll_notMem _ _ _ _ hxm] at hx
          simp [hseen x v hx]

/-- The names in `NamesFree` are those the model of the code declares. -/
theorem locals_named (op : Op) {x : String} (hx : x ∈ blockLocals op) : x ∈ ownNames op ∨ x ∈ bodyNames := by
  have key : ∀ {l : List String}, x ∈ l ++ declared reshapeTensorText ++ declared gatherOfShapeText ++ declared splitText ++
      declared splitEvenText → x ∈ l ∨ x ∈ bodyNames := by
    intro l h
    simp only [declared, reshapeTensorText, gatherOfShapeText, splitText, splitEvenText, List.mem_append, List.mem_cons, List.not_mem_nil, or_false, false_or,
      List.nil_append] at h
    simp only [bodyNames, List.mem_cons, List.not_mem_nil, or_false]
    tauto
  refine (key hx).imp (fun h => ?_) id
  cases op <;> first
    | exact h
    | (simp only [declared, shapeScalarText, scalarShapeText, equalShapeText, gatherScalarText, gatherShapeText, flattenText, batchNormText,
        normCastText, reduceCastText, logSumExpText, depthSpaceText, expandText, whereScalarsText, whereShapesText, scatterNDText, scatterElementsText, scatterDiffText, gatherNDText, List.mem_append, List.mem_cons, List.not_mem_nil,
        or_false, false_or, List.nil_append] at h
       simp only [ownNames, List.mem_cons, List.not_mem_nil, or_false]
       tauto)

/-- **C80.** A whole model: nodes of 127 operators (elementary functions, activations, arithmetic, comparison and logic with
broadcasting, MatMul, Gemm, Linear, the views, Concat, Constant, Softmax, Gather, convolutions, pooling, batch, layer and instance
normalisation, reductions, Shape, Clip, Sum, Pow, Pad, Tile, Trilu, Dropout, DepthToSpace, SpaceToDepth, Expand, Mean, Max, Min,
ArgMax, ArgMin, Slice, PRelu, GroupNormalization, Where, Cast, Split, GatherElements, Hardmax, TopK, ScatterND, transposed
convolutions, CumSum, ScatterElements, GatherND, NonZero, ReduceLogSumExp, Range, OneHot, ConstantOfShape, Mod, EyeLike, Identity, BitwiseAnd/Or/Xor/Not, MatMulInteger), of any number and connected in any way, on
tensors, scalars and arrays of any size. If the model has a result on the inputs, then the generated `forward` compiles, does not
panic and returns that result, under the guards on each node in `Supported`, and if no operand is called like a variable of the
generated code. -/
theorem C80_model_partial (hst : StoreOk st) {S : Sem OVal} {τ : String → ArgType} {nodes : List (Node OVal)} {ins outs : List (Arg OVal)}
    (hg : GraphOk τ nodes ins outs) (hty : ∀ n ∈ nodes, Typed st opset n)
    (hS : ∀ n ∈ nodes, ∀ xs ys, S n.name n.ty n.attrs xs = some ys →
      ∃ op, opOf n.ty = some op ∧ Onnx.Meaning erf opset op n.attrs xs ys)
    {env final : OnnxIR.Env OVal} (henv : ∀ x v, env x = some v → x ∈ ins.map Arg.name)
    (hrun : evalNodes S env nodes = some final) (hann : AnnotationsTrue burn final nodes)
    (hread : ∀ n ∈ nodes, ∀ a ∈ n.inputs, ∀ v, st.read a = some v → evalArg final a = some (some v))
    (hsup : ∀ n ∈ nodes, ∀ xs op, evalArgs final n.inputs = some xs → opOf n.ty = some op → Supported pick st opset n xs op)
    (hnames : ∀ n ∈ nodes, ∀ op, opOf n.ty = some op → NamesFree n op)
    {ys : List (Option OVal)} (hres : evalArgs final outs = some ys) {args : List RustVal} (hargs : args.length = ins.length)
    (hin : ∀ (k : Nat) (a : Arg OVal) (r : RustVal), ins[k]? = some a → args[k]? = some r →
      ∃ v, env a.name = some v ∧ Holds (boundaryType a.ty) r v) :
    ∃ f, genForward burn.toDevice burn.toNative (codeOf erf pick st opset) nodes ins outs = some f ∧
      ∃ rs, Rust.call burn.copy f args = some rs ∧ rs.length = outs.length ∧
        ∀ (k : Nat) (o : Arg OVal) (r : RustVal), outs[k]? = some o → rs[k]? = some r →
          ∃ y, ys[k]? = some (some y) ∧ Holds (boundaryType o.ty) r y := by
  refine C80_forward_partial burn_ok (S := S) (dom := fun n xs =>
    (∀ (k : Nat) (a : Arg OVal) (v : OVal), n.inputs[k]? = some a → st.read a = some v → xs[k]? = some (some v)) ∧
      ∀ op, opOf n.ty = some op → Supported pick st opset n xs op) hg ?_ henv hrun hann ?_ hres hargs hin
  · intro n hn
    obtain ⟨xs, zs, hxs, hSn, hlen, hout⟩ := run_nodes nodes hg.order henv hrun n hn
    obtain ⟨hxl, hxget⟩ := evalArgs_get _ hxs
    obtain ⟨op, hop, hm⟩ := hS n hn xs zs hSn
    have hreads : ∀ (k : Nat) (a : Arg OVal) (v : OVal), n.inputs[k]? = some a → st.read a = some v → xs[k]? = some (some v) := by
      intro k a v ha hv
      obtain ⟨x, h1, h2⟩ := hxget k a ha
      rw [hread n hn a (List.mem_of_getElem? ha) v hv] at h2
      rw [h1, ← Option.some.inj h2]
    obtain ⟨hai, hao⟩ := hann n hn
    have hops : Operands burn n xs := by
      refine ⟨hxl, fun k a v ha hs => ?_, fun k a ha hs => ?_, fun k a ha hrt => ?_⟩
      · obtain ⟨x, hx, hev⟩ := hxget k a ha
        simp only [evalArg, hs, Option.some.injEq] at hev
        rw [hx, ← hev]
      · obtain ⟨x, hx, hev⟩ := hxget k a ha
        simp only [evalArg, hs, Option.some.injEq] at hev
        rw [hx, ← hev]
      · obtain ⟨x, hx, hev⟩ := hxget k a ha
        rcases hrt with h | h <;>
        · simp only [evalArg, h, Option.map_eq_some_iff] at hev
          obtain ⟨v, hv, rfl⟩ := hev
          exact ⟨v, hx, hai a (List.mem_of_getElem? ha) (by first | exact Or.inl h | exact Or.inr h) v hv⟩
    obtain ⟨c, hc, h1, h2, -⟩ := works (pick := pick) hst hop hm ⟨hops, hreads, hlen, fun k o y hok hyk =>
      hao o (List.mem_of_getElem? hok) y (hout k o y hok hyk)⟩ (hsup n hn xs op hxs hop) (hty n hn)
    have hfree : ¬ (n.inputs.any fun a => (blockLocals op).contains a.name) = true := by
      simp only [List.any_eq_true, List.contains_iff_mem, not_exists, not_and]
      intro a ha hm
      rcases locals_named op hm with h | h
      · exact (hnames n hn op hop a ha).1 h
      · exact (hnames n hn op hop a ha).2 h
    refine ⟨c, by simp only [codeOf, hop, Option.bind_some, if_neg hfree, hc], h1, h2, ?_⟩
    intro xs' ys' hS' hops' hdom' hlen' hfit'
    obtain ⟨op', hop', hm'⟩ := hS n hn xs' ys' hS'
    obtain rfl : op = op' := Option.some.inj (hop.symm.trans hop')
    obtain ⟨c', hc', -, -, h3⟩ := works (pick := pick) hst hop hm' ⟨hops', hdom'.1, hlen', hfit'⟩ (hdom'.2 op hop) (hty n hn)
    obtain rfl : c = c' := Option.some.inj (hc.symm.trans hc')
    exact h3
  · intro n hn xs hxs
    refine ⟨fun k a v ha hv => ?_, fun op hop => hsup n hn xs op hxs hop⟩
    obtain ⟨x, h1, h2⟩ := (evalArgs_get _ hxs).2 k a ha
    rw [hread n hn a (List.mem_of_getElem? ha) v hv] at h2
    rw [h1, ← Option.some.inj h2]

/-! ### An example -/

namespace WholeModelExample

/-- Values of type `f32`, of rank 2. -/
def mat (x : String) : Arg OVal := ⟨x, .tensor ⟨.f32, 2, none⟩, .dynamic⟩

/-- The result, of rank 1. -/
def res : Arg OVal := ⟨"y", .tensor ⟨.f32, 1, some [none]⟩, .dynamic⟩

/-- The embedded target of the Reshape. -/
def target : Arg OVal := ⟨"", .tensor ⟨.i64, 1, none⟩, .static (.int ⟨[1], [-1], rfl⟩)⟩

/-- `y = reshape(relu(x) + x, [-1])`. -/
def nodes : List (Node OVal) :=
  [⟨.relu, "relu1", [mat "x"], [mat "r"], []⟩, ⟨.add, "add1", [mat "r", mat "x"], [mat "s"], []⟩,
   ⟨.reshape, "reshape1", [mat "s", target], [res], []⟩]

/-- The store: embedded values only. -/
def store : Store OVal where
  value _ s := match s with
    | .static v => some v
    | _ => none
  dims := OVal.shape
  dtype v := match v.kind with
    | .float => .f32
    | .int => .i64
    | .bool => .bool
  ints v := match v with
    | .int t => some t.data
    | _ => none

/-- What Relu computes. -/
noncomputable def relu (erf : ℝ → ℝ) : Attrs → List (Option OVal) → Option (List OVal)
  | [], [some (.float X)] => some [.float (X.map (Onnx.act erf ⟨none, none, none, false⟩ .relu))]
  | _, _ => none

/-- What Add computes. -/
noncomputable def add : List (Option OVal) → Option (List OVal)
  | [some (.float X), some (.float Y)] => (Tensor.zipBcast (· + ·) X Y).map fun Z => [.float Z]
  | _ => none

/-- What Reshape computes for this target. -/
def reshape : Attrs → List (Option OVal) → Option (List OVal)
  | [], [some (.float X), some (.int ⟨[1], [-1], _⟩)] =>
    some [.float ⟨[prodShape X.shape], X.data, by rw [X.size]; simp [prodShape]⟩]
  | _, _ => none

/-- What the operators compute. -/
noncomputable def S (erf : ℝ → ℝ) : Sem OVal := fun _ ty as xs =>
  match ty with
  | .relu => relu erf as xs
  | .add => add xs
  | .reshape => reshape as xs
  | _ => none

/-- An operand. -/
def input (a b c d e f : ℝ) : Tensor ℝ := ⟨[2, 3], [a, b, c, d, e, f], rfl⟩

/-- The inputs of the run. -/
def env (X : Tensor ℝ) : OnnxIR.Env OVal := fun x => if x = "x" then some (.float X) else none

theorem graph : GraphOk (fun x => if x = "y" then .tensor ⟨.f32, 1, none⟩ else .tensor ⟨.f32, 2, none⟩) nodes [mat "x"] [res] where
  order := by simp [nodes, InOrder, mat, res, target, AtRunTime, Node.outNames]
  inputs := by simp
  outputs := by simp
  results := by simp [res, nodes, Node.outNames]
  nodeTypes := by simp [nodes, mat, res, target, AtRunTime, ArgType.form]
  inTypes := by simp [mat, ArgType.form]
  outTypes := by simp [res, ArgType.form]
  scalars := by simp [res]

/-- The hypotheses of C80 are met: a call on any matrix of two rows and three columns returns `relu(x) + x`, row by row. -/
example (erf : ℝ → ℝ) (pick : Nat → Int → Option Nat) (a b c d e f : ℝ) :
    ∃ g, genForward burn.toDevice burn.toNative (codeOf erf pick store 17) nodes [mat "x"] [res] = some g ∧
      ∃ r, Rust.call burn.copy g [.float (.dev (input a b c d e f))] = some [r] ∧
        Holds res.ty r (.float ⟨[6], [max 0 a + a, max 0 b + b, max 0 c + c, max 0 d + d, max 0 e + e, max 0 f + f], rfl⟩) := by
  let X := input a b c d e f
  let R := X.map (Onnx.act erf ⟨none, none, none, false⟩ .relu)
  let Z : Tensor ℝ := ⟨[2, 3], [max 0 a + a, max 0 b + b, max 0 c + c, max 0 d + d, max 0 e + e, max 0 f + f], rfl⟩
  let Y : Tensor ℝ := ⟨[6], [max 0 a + a, max 0 b + b, max 0 c + c, max 0 d + d, max 0 e + e, max 0 f + f], rfl⟩
  have hZ : Tensor.zipBcast (· + ·) R X = some Z := rfl
  let final : OnnxIR.Env OVal := bindAll (bindAll (bindAll (env X) ["r"] [.float R]) ["s"] [.float Z]) ["y"] [.float Y]
  have hst : StoreOk store := ⟨fun _ _ => rfl, fun _ => rfl, fun _ => rfl, fun v hv => by
    cases v with
    | int t => exact absurd rfl hv
    | _ => rfl⟩
  have hrun : evalNodes (S erf) (env X) nodes = some final := by
    rfl
  have close : ∀ h : (∃ g, genForward burn.toDevice burn.toNative (codeOf erf pick store 17) nodes [mat "x"] [res] = some g ∧
      ∃ rs, Rust.call burn.copy g [.float (.dev X)] = some rs ∧ rs.length = 1 ∧
        ∀ (k : Nat) (o : Arg OVal) (r : RustVal), [res][k]? = some o → rs[k]? = some r →
          ∃ y, [some (OVal.float Y)][k]? = some (some y) ∧ Holds (boundaryType o.ty) r y), ∃ g, genForward burn.toDevice burn.toNative
            (codeOf erf pick store 17) nodes [mat "x"] [res] = some g ∧ ∃ r, Rust.call burn.copy g [.float (.dev X)] = some [r] ∧
            Holds res.ty r (.float Y) := by
    rintro ⟨g, h1, rs, h2, h3, h4⟩
    obtain ⟨r, rfl⟩ := List.length_eq_one_iff.1 (h3.trans rfl)
    obtain ⟨y, k1, k2⟩ := h4 0 res r rfl rfl
    cases k1
    exact ⟨g, h1, r, h2, k2⟩
  refine close (C80_model_partial hst (S := S erf) graph ?_ ?_ (env := env X) ?_ hrun ?_ ?_ ?_ ?_ rfl rfl ?_)
  · -- types
    intro n hn
    simp only [nodes, List.mem_cons, List.not_mem_nil, or_false] at hn
    rcases hn with rfl | rfl | rfl <;> intro r hr <;> cases hr <;> exact ⟨fun _ => [], by rfl⟩
  · -- meaning
    intro n hn xs ys h
    simp only [nodes, List.mem_cons, List.not_mem_nil, or_false] at hn
    rcases hn with rfl | rfl | rfl
    · replace h : relu erf [] xs = some ys := h
      unfold relu at h
      split at h <;> cases h
      rename_i X' _
      exact ⟨.act .relu, by decide, X', ⟨none, none, none, false⟩, ⟨⟨none, rfl, rfl⟩, ⟨none, rfl, rfl⟩, ⟨none, rfl, rfl⟩, by simp⟩, rfl, rfl⟩
    · replace h : add xs = some ys := h
      unfold add at h
      split at h <;> first | (cases h; done) | skip
      rename_i X' Y'
      obtain ⟨Z', h1, h2⟩ := Option.map_eq_some_iff.1 h
      exact ⟨.arith .add, by decide, Or.inl ⟨X', Y', Z', rfl, h1, h2.symm⟩⟩
    · replace h : reshape [] xs = some ys := h
      unfold reshape at h
      split at h <;> cases h
      rename_i X' hp _
      refine ⟨.reshape, by decide, .float X', ⟨[1], [-1], hp⟩, [prodShape X'.shape],
        .float ⟨[prodShape X'.shape], X'.data, by rw [X'.size]; simp [prodShape]⟩, none, rfl, rfl, rfl, ⟨by simp, ?_, ?_⟩, ⟨rfl, rfl⟩, rfl⟩
      · simp [Onnx.ReshapeDims]
      · simp [prodShape, OVal.shape]
  · intro x v hx
    simp only [env] at hx
    split at hx
    · next h => simp [mat, h]
    · cases hx
  · intro n hn
    simp only [nodes, List.mem_cons, List.not_mem_nil, or_false] at hn
    have hx : final "x" = some (.float X) := rfl
    have hr : final "r" = some (.float R) := rfl
    have hs : final "s" = some (.float Z) := rfl
    have hy : final "y" = some (.float Y) := rfl
    rcases hn with rfl | rfl | rfl <;>
      simp [mat, res, target, AtRunTime, hx, hr, hs, hy, burn, ArgType.kind, DType.kind, ArgType.HasRank, OVal.kind, OVal.shape, X, R, Z, Y, input, Tensor.map]
  · intro n hn a ha v hv
    simp only [nodes, List.mem_cons, List.not_mem_nil, or_false] at hn
    rcases hn with rfl | rfl | rfl <;> simp only [List.mem_cons, List.not_mem_nil, or_false] at ha
    · subst ha; cases hv
    · rcases ha with rfl | rfl <;> cases hv
    · rcases ha with rfl | rfl
      · cases hv
      · exact congrArg some hv
  · intro n hn xs op hxs hop
    simp only [nodes, List.mem_cons, List.not_mem_nil, or_false] at hn
    rcases hn with rfl | rfl | rfl
    · obtain rfl : Op.act .relu = op := Option.some.inj ((by decide : opOf .relu = some (.act .relu)).symm.trans hop)
      refine ⟨by simp [mat, AtRunTime, ArgType.isOnDevice], by simp, by simp, fun at' h => ?_⟩
      obtain ⟨⟨u1, h1, h1'⟩, ⟨u2, h2, h2'⟩, ⟨u3, h3, h3'⟩, h4⟩ := h
      cases u1 <;> cases h1
      cases u2 <;> cases h2
      cases u3 <;> cases h3
      refine ⟨fun _ => h1', fun _ => h2', fun _ => h3', fun _ => ?_⟩
      cases ha : at'.approximate with
      | false => rfl
      | true => cases h4.1 ha
    · obtain rfl : Op.arith .add = op := Option.some.inj ((by decide : opOf .add = some (.arith .add)).symm.trans hop)
      intro p q hpq
      simp only [List.cons.injEq, and_true] at hpq
      obtain ⟨rfl, rfl⟩ := hpq
      simp [mat, AtRunTime, PairOk, ItemsExact]
    · obtain rfl : Op.reshape = op := Option.some.inj ((by decide : opOf .reshape = some .reshape).symm.trans hop)
      refine ⟨rfl, fun p q hpq => ?_⟩
      simp only [List.cons.injEq, and_true] at hpq
      obtain ⟨rfl, rfl⟩ := hpq
      refine ⟨Or.inl rfl, fun v t az out hx haz hre => Or.inl ⟨rfl, ?_, ?_⟩⟩
      · have : xs = [some (.float Z), some (.int ⟨[1], [-1], rfl⟩)] := (Option.some.inj hxs).symm
        rw [this] at hx
        cases hx
        simp [mat, ReshapeHandles]
      · have : xs = [some (.float Z), some (.int ⟨[1], [-1], rfl⟩)] := (Option.some.inj hxs).symm
        rw [this] at hx
        cases hx
        have haz : none = az.map AttrVal.i64 := haz
        cases az with
        | some _ => cases haz
        | none =>
          refine ⟨by simp, fun _ i hi => ?_⟩
          obtain ⟨-, h1, h2⟩ := hre
          match out, h1 with
          | [d], _ =>
            cases i with
            | zero => rfl
            | succ i => simp at hi
  · intro n hn op hop a ha
    simp only [nodes, List.mem_cons, List.not_mem_nil, or_false] at hn
    rcases hn with rfl | rfl | rfl
    · obtain rfl : Op.act .relu = op := Option.some.inj ((by decide : opOf .relu = some (.act .relu)).symm.trans hop)
      simp only [List.mem_cons, List.not_mem_nil, or_false] at ha
      subst ha
      exact ⟨by simp [ownNames], by simp [bodyNames, mat]⟩
    · obtain rfl : Op.arith .add = op := Option.some.inj ((by decide : opOf .add = some (.arith .add)).symm.trans hop)
      simp only [List.mem_cons, List.not_mem_nil, or_false] at ha
      rcases ha with rfl | rfl <;> exact ⟨by simp [ownNames, mat], by simp [bodyNames, mat]⟩
    · obtain rfl : Op.reshape = op := Option.some.inj ((by decide : opOf .reshape = some .reshape).symm.trans hop)
      simp only [List.mem_cons, List.not_mem_nil, or_false] at ha
      rcases ha with rfl | rfl <;> exact ⟨by simp [ownNames], by simp [bodyNames, mat, target]⟩
  · intro k p r hk hr
    match k with
    | 0 =>
      cases hk
      cases hr
      exact ⟨.float X, rfl, rfl, rfl, rfl, by decide⟩
    | k + 1 => simp at hk

/-- A scalar on the device. -/
def scal (x : String) : Arg OVal := ⟨x, .scalarTensor .f32, .dynamic⟩

/-- `y = relu(x)`, `z = relu(y)`. -/
def scalars : List (Node OVal) := [⟨.relu, "relu1", [scal "x"], [scal "y"], []⟩, ⟨.relu, "relu2", [scal "y"], [scal "z"], []⟩]

/-- **C80** is false when a scalar output is also used by a node: the outputs `y` and `z` are asked for, the code of the second
node takes `y`, and the conversion of `y` to a number at the end uses it again. The code does not compile. -/
theorem C80_scalar_output_wrong (erf : ℝ → ℝ) (pick : Nat → Int → Option Nat) (x : ℝ) :
    ∃ f, genForward burn.toDevice burn.toNative (codeOf erf pick store 17) scalars [scal "x"] [scal "y", scal "z"] = some f ∧
      Rust.call burn.copy f [.float (.native x)] = none ∧
      ∃ g, genForward burn.toDevice burn.toNative (codeOf erf pick store 17) scalars [scal "x"] [scal "z"] = some g ∧
        Rust.call burn.copy g [.float (.native x)] = some [.float (.native (max (max x 0) 0))] :=
  ⟨_, rfl, rfl, _, rfl, rfl⟩

end WholeModelExample

end OnnxIR
