import Verif.Model.ConstantFold
import Verif.Lemmas.Flat
import Verif.Props.ConstantShape

/-!
# C08: constant folding
-/

namespace OnnxIR

variable {A B : Type}

/-! ## Specification -/

/-- Rust's float operations are those of the specification. The three laws about `f32` say that
computing in `f64` and rounding once more gives the correctly rounded `f32` result, which holds of
IEEE 754 arithmetic (53 ≥ 2·24 + 2). -/
structure FloatAgree (fo : FloatOps A B) (fs : FloatSpec A B) : Prop where
  op64 : ∀ op a b, fo.op op a b = fs.op64 op a b
  op32 : ∀ op a b, fo.asF32 (fo.op op (fo.asF64 a) (fo.asF64 b)) = fs.op32 op a b
  neg64 : ∀ a, fo.neg a = fs.neg64 a
  neg32 : ∀ a, fo.asF32 (fo.neg (fo.asF64 a)) = fs.neg32 a
  sqrt64 : ∀ a, fo.sqrt a = fs.sqrt64 a
  sqrt32 : ∀ a, fo.asF32 (fo.sqrt (fo.asF64 a)) = fs.sqrt32 a
  round : ∀ a, fo.asF32 a = fs.round a
  widen : ∀ a, fo.asF64 a = fs.widen a
  round_widen : ∀ a, fs.round (fs.widen a) = a
  int64 : ∀ k, fo.i64AsF64 k = fs.int64 k
  int32 : ∀ k, fo.i64AsF32 k = fs.int32 k
  toI64 : ∀ a k, fs.trunc a = some k → DType.i64.fits k → fo.asI64 a = k
  toI32 : ∀ a k, fs.trunc a = some k → DType.i32.fits k → fo.asI32 a = k

/-- The node type of an arithmetic operator. -/
def ArithOp.nodeType : ArithOp → NodeType
  | .add => .add
  | .sub => .sub
  | .mul => .mul
  | .div => .div

/-- The element types constant folding computes with. -/
def foldTypes : List DType := [.i64, .i32, .f32, .f64]

/-- The operators mean what ONNX says on the element types folding computes with. -/
structure FoldSem [Inhabited A] [Inhabited B] (fs : FloatSpec A B) (S : Sem (CVal A B)) : Prop where
  constOp : ∀ nm v, S nm .constant [] [some v] = some [v]
  arith : ∀ op nm attrs xs ys, S nm (ArithOp.nodeType op) attrs xs = some ys →
    ∃ x y z, xs = [some x, some y] ∧ ys = [z] ∧ x.dtype = y.dtype ∧
      (x.dtype ∈ foldTypes → onnxArith fs op x y = some z ∨
        (op = .div ∧ ∃ d t, y = .int d t ∧ (0 : Int) ∈ t.data))
  neg : ∀ nm attrs xs ys, S nm .neg attrs xs = some ys →
    ∃ x y, xs = [some x] ∧ ys = [y] ∧ (x.dtype ∈ foldTypes → y = onnxNeg fs x)
  sqrt : ∀ nm attrs xs ys, S nm .sqrt attrs xs = some ys →
    ∃ x y, xs = [some x] ∧ ys = [y] ∧ (x.dtype ∈ foldTypes → onnxSqrt fs x = some y)
  cast : ∀ nm attrs xs ys, S nm .cast attrs xs = some ys →
    ∃ x y, xs = [some x] ∧ ys = [y] ∧
      (x.dtype ∈ foldTypes ∨ y.dtype = x.dtype → IsCast fs y.dtype x y)
  concat : ∀ nm attrs xs ys,
    attrI64 attrs "axis" = some none ∨ attrI64 attrs "axis" = some (some 0) →
    S nm .concat attrs xs = some ys → ∃ zs y, xs = zs.map some ∧ ys = [y] ∧
      IsConcat0 zs y ∧ ∀ z ∈ zs, z.ElemsFit
  reshape : ∀ ty nm attrs xs ys, ty ∈ [NodeType.unsqueeze, .squeeze, .reshape] →
    S nm ty attrs xs = some ys →
    ∃ x rest s h, xs = some x :: rest ∧ ys = [x.withShape s h]

/-- The cases in which folding is right: a node whose inputs are all constants has an output
annotation that determines its shape; a `Cast` output annotation states the element type of the
result; a `Cast` from a float to an integer type is within the range of that type. -/
structure FoldableConsts (fs : FloatSpec A B) (S : Sem (CVal A B)) (env : Env (CVal A B))
    (nodes : List (Node (CVal A B))) : Prop where
  outKnown : ∀ n ∈ nodes, n.ty ∈ [NodeType.add, .sub, .mul, .div, .neg, .sqrt, .cast, .concat] →
    (∀ a ∈ n.inputs, a.src ≠ .dynamic) → ∀ o ∈ n.outputs, ∀ t, o.ty = .tensor t →
    ∃ s, o.ty.staticShapeKnown = some s
  castType : ∀ p n q e1 e2, nodes = p ++ n :: q → n.ty = .cast → evalNodes S env p = some e1 →
    evalNode S e1 n = some e2 → ∀ o ∈ n.outputs, ∀ v, e2 o.name = some v →
    castTarget o.ty = v.dtype
  castRange : ∀ p n q e1 e2, nodes = p ++ n :: q → n.ty = .cast → evalNodes S env p = some e1 →
    evalNode S e1 n = some e2 → ∀ a ∈ n.inputs, ∀ o ∈ n.outputs, ∀ d t,
    e2 o.name = some (.int d t) →
    (∀ s, evalArg e1 a = some (some (.f32 s)) → ∃ ks : List Int,
      s.data.map (fun a => fs.trunc (fs.widen a)) = ks.map some ∧ ∀ k ∈ ks, d.fits k) ∧
    (∀ s, evalArg e1 a = some (some (.f64 s)) → ∃ ks : List Int,
      s.data.map fs.trunc = ks.map some ∧ ∀ k ∈ ks, d.fits k)

/-! ## Values -/

theorem admits_outputShape {ty : ArgType} {s : List Nat} (h : ty.Admits s)
    (hk : ∀ t, ty = .tensor t → ∃ s', ty.staticShapeKnown = some s') : outputShape ty = s := by
  cases ty with
  | scalarTensor d => exact h.symm
  | scalarNative d => exact h.symm
  | shape k => exact h.symm
  | tensor t =>
    obtain ⟨s', hs'⟩ := hk t rfl
    rw [ArgType.admits_known h hs']
    simp only [ArgType.staticShapeKnown, ArgType.staticShape] at hs'
    simp [outputShape, hs']

theorem traverse2_map {α β : Type} {f : α → Option (Option β)} {g : α → β} :
    ∀ {l : List α} {r : List β}, traverse2 f l = some (some r) →
    (∀ a ∈ l, ∀ b, f a = some (some b) → b = g a) → r = l.map g
  | [], r, h, _ => by simp [traverse2] at h; simp [h]
  | a :: l, r, h, hg => by
    simp only [traverse2] at h
    split at h
    · cases h
    · cases h
    · next b hb =>
      split at h
      · cases h
      · cases h
      · next bs hbs =>
        simp only [Option.some.injEq] at h
        subst h
        rw [traverse2_map hbs (fun a' ha' => hg a' (List.mem_cons_of_mem _ ha')),
          hg a (List.mem_cons_self ..) b hb]
        rfl

theorem traverse2_all {α β : Type} {f : α → Option (Option β)} :
    ∀ {l : List α} {r : List β}, traverse2 f l = some (some r) →
    ∀ a ∈ l, ∃ b, f a = some (some b)
  | [], r, h, a, ha => by simp at ha
  | a :: l, r, h, x, hx => by
    simp only [traverse2] at h
    split at h
    · cases h
    · cases h
    · next b hb =>
      split at h
      · cases h
      · cases h
      · next bs hbs =>
        rcases List.mem_cons.1 hx with rfl | hx
        · exact ⟨b, hb⟩
        · exact traverse2_all hbs x hx

theorem broadcastGet_flatGet {α : Type} [Inhabited α] {l : List α} {i : Nat} {a : α}
    (h : broadcastGet l i = some a) : flatGet l i = a := by
  unfold broadcastGet at h
  unfold flatGet
  split at h
  · next h1 => rw [if_pos h1, List.getD_eq_getElem?_getD, h]; rfl
  · next h1 => rw [if_neg h1, List.getD_eq_getElem?_getD, h]; rfl

/-- The flat loop computes the broadcast result, if that has as many elements as the loop made. -/
theorem applyBinary_correct {α : Type} [Inhabited α] {step : α → α → Option (Option α)}
    {f : α → α → α} (hstep : ∀ a b c, step a b = some (some c) → c = f a b)
    {x y z : Tensor α} {l : List α} (hz : x.zipBcast f y = some z)
    (h : applyBinary step x.data y.data = some (some l)) (hl : l.length = prodShape z.shape) :
    l = z.data := by
  unfold applyBinary at h
  split at h
  · cases h
  next hc =>
  have hl' : l = (List.range (max x.data.length y.data.length)).map
      (fun k => f (flatGet x.data k) (flatGet y.data k)) := by
    refine traverse2_map h ?_
    intro i _ b hb
    unfold stepAt at hb
    split at hb
    · next a' b' ha' hb' =>
      rw [broadcastGet_flatGet ha', broadcastGet_flatGet hb']
      exact hstep _ _ _ hb
    · cases hb
  have hmax : max x.data.length y.data.length = prodShape z.shape := by
    rw [← hl, hl']; simp
  rw [hl', hmax]
  symm
  -- every operand has one element or as many as the result
  by_cases h0 : prodShape z.shape = 0
  · have : z.data = [] := List.length_eq_zero_iff.1 (by rw [z.size, h0])
    rw [this, h0]; rfl
  · have hm : (0 : Nat) ∈ List.range (max x.data.length y.data.length) := by
      rw [hmax]; exact List.mem_range.2 (by omega)
    obtain ⟨b, hb⟩ := traverse2_all h 0 hm
    have hpos : 0 < x.data.length ∧ 0 < y.data.length := by
      unfold stepAt at hb
      split at hb
      · next a' b' ha' hb' =>
        have key : ∀ (l : List α) c, broadcastGet l 0 = some c → 0 < l.length := by
          intro l c hc
          cases l with
          | nil => simp [broadcastGet] at hc
          | cons => simp
        exact ⟨key _ _ ha', key _ _ hb'⟩
      · cases hb
    have hx : x.data.length = 1 ∨ x.data.length = prodShape z.shape := by omega
    have hy : y.data.length = 1 ∨ y.data.length = prodShape z.shape := by omega
    exact zipBcast_data hz hx hy

/-- Division never meets a zero divisor when the loop finishes. -/
theorem applyBinary_div {x y : Tensor Int} {l : List Int}
    (h : applyBinary (stepI64 .div) x.data y.data = some (some l)) : (0 : Int) ∉ y.data := by
  intro h0
  unfold applyBinary at h
  split at h
  · cases h
  next hc =>
  obtain ⟨i, hi, hi0⟩ := List.getElem_of_mem h0
  by_cases hy1 : y.data.length = 1
  · -- a single divisor is used in iteration 0
    have hm : (0 : Nat) ∈ List.range (max x.data.length y.data.length) := by
      simp; omega
    obtain ⟨b, hb⟩ := traverse2_all h 0 hm
    unfold stepAt at hb
    split at hb
    · next a' b' ha' hb' =>
      have hi' : i = 0 := by omega
      subst hi'
      simp [broadcastGet, hy1, hi0] at hb'
      subst hb'
      simp [stepI64] at hb
    · cases hb
  · have hm : i ∈ List.range (max x.data.length y.data.length) := by
      simp; omega
    obtain ⟨b, hb⟩ := traverse2_all h i hm
    unfold stepAt at hb
    split at hb
    · next a' b' ha' hb' =>
      have : y.data[i]? = some 0 := by rw [List.getElem?_eq_getElem hi, hi0]
      simp only [broadcastGet, if_neg hy1, this, Option.some.injEq] at hb'
      subst hb'
      simp [stepI64] at hb
    · cases hb

theorem wrapInt_fits {z : Int} (h : fitsI64 z = true) : wrapInt .i64 z = z := by
  simp only [fitsI64, Bool.and_eq_true, decide_eq_true_eq] at h
  simp only [wrapInt, Int.bmod_def]
  omega

theorem wrapInt_fits32 {z : Int} (h : DType.i32.fits z) : wrapInt .i32 z = z := by
  simp only [DType.fits] at h
  simp only [wrapInt, Int.bmod_def]
  omega

theorem stepI64_onInt {op : ArithOp} {a b c : Int} (h : stepI64 op a b = some (some c)) :
    c = op.onInt a b ∧ fitsI64 c = true := by
  unfold stepI64 at h
  unfold ArithOp.onInt
  split at h
  · simp only [Option.some.injEq] at h
    split at h
    · next hf => cases h; exact ⟨rfl, hf⟩
    · cases h
  · simp only [Option.some.injEq] at h
    split at h
    · next hf => cases h; exact ⟨rfl, hf⟩
    · cases h
  · simp only [Option.some.injEq] at h
    split at h
    · next hf => cases h; exact ⟨rfl, hf⟩
    · cases h
  · split at h
    · cases h
    · split at h
      · next hf => cases h; exact ⟨rfl, hf⟩
      · cases h

theorem finish_some {α : Type} {new : List α → Option (CVal A B)} {r : Option (Option (List α))}
    {v : CVal A B} (h : finish new r = some (some v)) :
    ∃ l, r = some (some l) ∧ new l = some v := by
  unfold finish at h
  split at h
  · cases h
  · cases h
  · next l =>
    obtain ⟨w, hw, h2⟩ := Option.map_eq_some_iff.1 h
    cases h2
    exact ⟨l, rfl, hw⟩

theorem newInt_some {d : DType} {s : List Nat} {l : List Int} {v : CVal A B}
    (h : newInt d s l = some v) : ∃ h : l.length = prodShape s, v = .int d ⟨s, l, h⟩ := by
  unfold newInt at h
  split at h
  · next hl => cases h; exact ⟨hl, rfl⟩
  · cases h

theorem newF32_some {s : List Nat} {l : List A} {v : CVal A B}
    (h : newF32 s l = some v) : ∃ h : l.length = prodShape s, v = .f32 ⟨s, l, h⟩ := by
  unfold newF32 at h
  split at h
  · next hl => cases h; exact ⟨hl, rfl⟩
  · cases h

theorem newF64_some {s : List Nat} {l : List B} {v : CVal A B}
    (h : newF64 s l = some v) : ∃ h : l.length = prodShape s, v = .f64 ⟨s, l, h⟩ := by
  unfold newF64 at h
  split at h
  · next hl => cases h; exact ⟨hl, rfl⟩
  · cases h

theorem Tensor.mk_eq {α : Type} {s : List Nat} {l : List α} {h : l.length = prodShape s}
    {t : Tensor α} (hs : s = t.shape) (hl : l = t.data) : (⟨s, l, h⟩ : Tensor α) = t :=
  Tensor.ext hs hl

theorem zipBcast_map {α β γ δ ε : Type} [Inhabited α] [Inhabited β] [Inhabited γ] [Inhabited δ]
    {f : γ → δ → ε} {g : α → γ} {k : β → δ} {x : Tensor α} {y : Tensor β} :
    (x.map g).zipBcast f (y.map k) = x.zipBcast (fun a b => f (g a) (k b)) y := by
  unfold Tensor.zipBcast
  show (bcast x.shape y.shape).map _ = (bcast x.shape y.shape).map _
  cases hb : bcast x.shape y.shape with
  | none => rfl
  | some s =>
    simp only [Option.map_some, Option.some.injEq]
    refine Tensor.ext rfl ?_
    simp only [Tensor.ofFn]
    refine List.map_congr_left fun i hi => ?_
    obtain ⟨h1, h2⟩ := proj_inRange hb (mem_indices.1 hi)
    have hg : ∀ {α' β' : Type} [Inhabited α'] [Inhabited β'] (t : Tensor α') (g : α' → β')
        (j : List Nat), InRange t.shape j → (t.map g).get j = g (t.get j) := by
      intro α' β' _ _ t g j hj
      have := flatIdx_lt hj
      rw [← t.size] at this
      simp [Tensor.get, Tensor.map, List.getD_eq_getElem?_getD, List.getElem?_eq_getElem this]
    rw [show (x.map g).shape = x.shape from rfl, show (y.map k).shape = y.shape from rfl,
      hg x g _ h1, hg y k _ h2]

theorem zipBcast_post {α γ ε : Type} [Inhabited α] {f : α → α → γ} {g : γ → ε} {x y : Tensor α}
    {z : Tensor ε} (h : x.zipBcast (fun a b => g (f a b)) y = some z) :
    ∃ z', x.zipBcast f y = some z' ∧ z = z'.map g := by
  unfold Tensor.zipBcast at h ⊢
  obtain ⟨s, hs, rfl⟩ := Option.map_eq_some_iff.1 h
  rw [hs]
  refine ⟨_, rfl, Tensor.ext rfl ?_⟩
  simp [Tensor.ofFn, Tensor.map]

variable [Inhabited A] [Inhabited B]

theorem binaryValue_correct {fo : FloatOps A B} {fs : FloatSpec A B} (ha : FloatAgree fo fs)
    {op : ArithOp} {s : List Nat} {x y v z : CVal A B} (hd : x.dtype = y.dtype)
    (hz : x.dtype ∈ foldTypes → onnxArith fs op x y = some z ∨
        (op = .div ∧ ∃ d t, y = .int d t ∧ (0 : Int) ∈ t.data))
    (hs : z.shape = s) (h : binaryValue fo op s x y = some (some v)) : v = z := by
  -- integers
  have hint : ∀ d (t t' : Tensor Int) (l : List Int), x = .int d t → y = .int d t' →
      d ∈ foldTypes →
      applyBinary (stepI64 op) t.data t'.data = some (some l) → l.length = prodShape s →
      ∃ u, z = .int d u ∧ u.data = l.map (wrapInt d) := by
    intro d t t' l hx hy hdm hl hls
    have hz' : onnxArith fs op x y = some z := by
      rcases hz (by rw [hx]; exact hdm) with h1 | ⟨rfl, d', t'', hy', h0⟩
      · exact h1
      · rw [hy] at hy'
        cases hy'
        exact absurd h0 (applyBinary_div hl)
    rw [hx, hy] at hz'
    simp only [onnxArith] at hz'
    split at hz'
    · cases hz'
    obtain ⟨u, hu, rfl⟩ := Option.map_eq_some_iff.1 hz'
    refine ⟨u, rfl, ?_⟩
    obtain ⟨u', hu', rfl⟩ := zipBcast_post (f := op.onInt) (g := wrapInt d) hu
    have := applyBinary_correct (f := op.onInt) (fun a b c hc => (stepI64_onInt hc).1) hu' hl
      (by rw [hls, ← hs]; rfl)
    rw [this]; rfl
  unfold binaryValue at h
  split at h
  · next hdx =>
    obtain ⟨l, hl, hn⟩ := finish_some h
    obtain ⟨hls, rfl⟩ := newInt_some hn
    unfold binaryInts at hl
    cases x with
    | f32 => simp [CVal.dtype] at hdx
    | f64 => simp [CVal.dtype] at hdx
    | int d t =>
    cases y with
    | f32 => simp [CVal.dtype] at hdx hd; rw [hdx] at hd; cases hd
    | f64 => simp [CVal.dtype] at hdx hd; rw [hdx] at hd; cases hd
    | int d' t' =>
    simp only [CVal.dtype] at hdx hd
    subst hd
    subst hdx
    simp only [CVal.toI64Vec] at hl
    obtain ⟨u, rfl, hu⟩ := hint .i64 t t' l rfl rfl (by simp [foldTypes]) hl hls
    have hfit : ∀ c ∈ l, fitsI64 c = true := by
      unfold applyBinary at hl
      split at hl
      · cases hl
      have := traverse2_map (g := fun i => (((stepAt (stepI64 op) t.data t'.data i).getD none).getD 0))
        hl (by intro i _ b hb; rw [hb]; rfl)
      intro c hc
      rw [this] at hc
      obtain ⟨i, hi, rfl⟩ := List.mem_map.1 hc
      obtain ⟨b, hb⟩ := traverse2_all hl i hi
      rw [hb]
      simp only [Option.getD_some]
      unfold stepAt at hb
      split at hb
      · exact (stepI64_onInt hb).2
      · cases hb
    congr 1
    refine Tensor.mk_eq hs.symm ?_
    rw [hu]
    have := List.map_congr_left (f := wrapInt .i64) (g := id) (l := l)
      (fun c hc => wrapInt_fits (hfit c hc))
    rw [this, List.map_id]
  · next hdx =>
    obtain ⟨l, hl, hn⟩ := finish_some h
    obtain ⟨hls, rfl⟩ := newInt_some hn
    unfold binaryInts at hl
    cases x with
    | f32 => simp [CVal.dtype] at hdx
    | f64 => simp [CVal.dtype] at hdx
    | int d t =>
    cases y with
    | f32 => simp [CVal.dtype] at hdx hd; rw [hdx] at hd; cases hd
    | f64 => simp [CVal.dtype] at hdx hd; rw [hdx] at hd; cases hd
    | int d' t' =>
    simp only [CVal.dtype] at hdx hd
    subst hd
    subst hdx
    simp only [CVal.toI64Vec] at hl
    obtain ⟨u, rfl, hu⟩ := hint .i32 t t' l rfl rfl (by simp [foldTypes]) hl (by simpa using hls)
    congr 1
    exact Tensor.mk_eq hs.symm hu.symm
  · next hdx =>
    obtain ⟨l, hl, hn⟩ := finish_some h
    obtain ⟨hls, rfl⟩ := newF32_some hn
    unfold binaryFloats at hl
    have hz' : onnxArith fs op x y = some z := by
      rcases hz (by rw [hdx]; simp [foldTypes]) with h1 | ⟨rfl, d', t'', hy', h0⟩
      · exact h1
      · exfalso
        rw [hy'] at hd hl
        rw [hdx] at hd
        simp only [CVal.dtype] at hd
        subst hd
        simp [CVal.toF64Vec] at hl
    cases x with
    | int d t =>
      simp only [CVal.dtype] at hdx
      subst hdx
      simp [CVal.toF64Vec] at hl
    | f64 => simp [CVal.dtype] at hdx
    | f32 t =>
    cases y with
    | int d t' => simp_all [CVal.dtype, onnxArith]
    | f64 => simp_all [CVal.dtype]
    | f32 t' =>
    simp only [onnxArith] at hz'
    obtain ⟨u, hu, rfl⟩ := Option.map_eq_some_iff.1 hz'
    simp only [CVal.toF64Vec] at hl
    have hu2 : t.zipBcast (fun a b => fo.asF32 (fo.op op (fo.asF64 a) (fo.asF64 b))) t' = some u := by
      simp only [ha.op32]; exact hu
    obtain ⟨u', hu', rfl⟩ := zipBcast_post (f := fun a b => fo.op op (fo.asF64 a) (fo.asF64 b))
      (g := fo.asF32) hu2
    rw [← zipBcast_map (g := fo.asF64) (k := fo.asF64) (f := fo.op op)] at hu'
    have := applyBinary_correct (x := t.map fo.asF64) (y := t'.map fo.asF64) (f := fo.op op)
      (step := stepF64 fo op) (by
        intro a b c hc
        unfold stepF64 at hc
        split at hc <;> cases hc
        rfl) hu' hl (by rw [List.length_map, ← hs] at hls; exact hls)
    congr 1
    refine Tensor.mk_eq hs.symm ?_
    rw [this]; rfl
  · next hdx =>
    obtain ⟨l, hl, hn⟩ := finish_some h
    obtain ⟨hls, rfl⟩ := newF64_some hn
    unfold binaryFloats at hl
    have hz' : onnxArith fs op x y = some z := by
      rcases hz (by rw [hdx]; simp [foldTypes]) with h1 | ⟨rfl, d', t'', hy', h0⟩
      · exact h1
      · exfalso
        rw [hy'] at hd hl
        rw [hdx] at hd
        simp only [CVal.dtype] at hd
        subst hd
        simp [CVal.toF64Vec] at hl
    cases x with
    | int d t =>
      simp only [CVal.dtype] at hdx
      subst hdx
      simp [CVal.toF64Vec] at hl
    | f32 => simp [CVal.dtype] at hdx
    | f64 t =>
    cases y with
    | int d t' => simp_all [CVal.dtype, onnxArith]
    | f32 => simp_all [CVal.dtype]
    | f64 t' =>
    simp only [onnxArith] at hz'
    obtain ⟨u, hu, rfl⟩ := Option.map_eq_some_iff.1 hz'
    simp only [CVal.toF64Vec] at hl
    have := applyBinary_correct (f := fs.op64 op)
      (step := stepF64 fo op) (by
        intro a b c hc
        unfold stepF64 at hc
        split at hc <;> cases hc
        exact ha.op64 _ _ _) hu hl (by rw [← hs] at hls; exact hls)
    congr 1
    exact Tensor.mk_eq hs.symm this
  · cases h

theorem given_some {α : Type} {o : Option (List α)} {l : List α} (h : given o = some (some l)) :
    o = some l := by simpa [given] using h

omit [Inhabited A] [Inhabited B] in
theorem negValue_correct {fo : FloatOps A B} {fs : FloatSpec A B} (ha : FloatAgree fo fs)
    {s : List Nat} {x v y : CVal A B} (hy : x.dtype ∈ foldTypes → y = onnxNeg fs x)
    (hs : y.shape = s) (h : negValue fo s x = some (some v)) : v = y := by
  unfold negValue at h
  cases x with
  | int d t =>
    simp only [CVal.dtype] at h hy
    split at h
    · obtain ⟨l, hl, hn⟩ := finish_some h
      obtain ⟨hls, rfl⟩ := newInt_some hn
      have := given_some hl
      simp only [CVal.toI64Vec, Option.some.injEq] at this
      subst this
      rw [hy (by simp [foldTypes])] at hs ⊢
      simp only [onnxNeg]
      congr 1
      exact Tensor.mk_eq hs.symm rfl
    · obtain ⟨l, hl, hn⟩ := finish_some h
      obtain ⟨hls, rfl⟩ := newInt_some hn
      have := given_some hl
      simp only [CVal.toI64Vec, Option.some.injEq] at this
      subst this
      rw [hy (by simp [foldTypes])] at hs ⊢
      simp only [onnxNeg]
      congr 1
      exact Tensor.mk_eq hs.symm rfl
    · obtain ⟨l, hl, hn⟩ := finish_some h
      have := given_some hl
      simp [CVal.toF64Vec] at this
    · obtain ⟨l, hl, hn⟩ := finish_some h
      have := given_some hl
      simp [CVal.toF64Vec] at this
    · cases h
  | f32 t =>
    simp only [CVal.dtype] at h hy
    obtain ⟨l, hl, hn⟩ := finish_some h
    obtain ⟨hls, rfl⟩ := newF32_some hn
    have := given_some hl
    simp only [CVal.toF64Vec, Option.some.injEq] at this
    subst this
    rw [hy (by simp [foldTypes])] at hs ⊢
    simp only [onnxNeg]
    congr 1
    refine Tensor.mk_eq hs.symm ?_
    simp [Tensor.map, ha.neg32]
  | f64 t =>
    simp only [CVal.dtype] at h hy
    obtain ⟨l, hl, hn⟩ := finish_some h
    obtain ⟨hls, rfl⟩ := newF64_some hn
    have := given_some hl
    simp only [CVal.toF64Vec, Option.some.injEq] at this
    subst this
    rw [hy (by simp [foldTypes])] at hs ⊢
    simp only [onnxNeg]
    congr 1
    refine Tensor.mk_eq hs.symm ?_
    simp [Tensor.map, ha.neg64]

omit [Inhabited A] [Inhabited B] in
theorem sqrtValue_correct {fo : FloatOps A B} {fs : FloatSpec A B} (ha : FloatAgree fo fs)
    {s : List Nat} {x v y : CVal A B} (hy : x.dtype ∈ foldTypes → onnxSqrt fs x = some y)
    (hs : y.shape = s) (h : sqrtValue fo s x = some (some v)) : v = y := by
  unfold sqrtValue at h
  cases x with
  | int d t =>
    simp only [CVal.dtype] at h hy
    split at h
    · obtain ⟨l, hl, hn⟩ := finish_some h
      have := given_some hl
      simp [CVal.toF64Vec] at this
    · obtain ⟨l, hl, hn⟩ := finish_some h
      have := given_some hl
      simp [CVal.toF64Vec] at this
    · cases h
  | f32 t =>
    simp only [CVal.dtype] at h hy
    obtain ⟨l, hl, hn⟩ := finish_some h
    obtain ⟨hls, rfl⟩ := newF32_some hn
    have := given_some hl
    simp only [CVal.toF64Vec, Option.some.injEq] at this
    subst this
    have h1 := hy (by simp [foldTypes])
    simp only [onnxSqrt, Option.some.injEq] at h1
    subst h1
    congr 1
    refine Tensor.mk_eq hs.symm ?_
    simp [Tensor.map, ha.sqrt32]
  | f64 t =>
    simp only [CVal.dtype] at h hy
    obtain ⟨l, hl, hn⟩ := finish_some h
    obtain ⟨hls, rfl⟩ := newF64_some hn
    have := given_some hl
    simp only [CVal.toF64Vec, Option.some.injEq] at this
    subst this
    have h1 := hy (by simp [foldTypes])
    simp only [onnxSqrt, Option.some.injEq] at h1
    subst h1
    congr 1
    refine Tensor.mk_eq hs.symm ?_
    simp [Tensor.map, ha.sqrt64]

/-- The range condition on one cast. -/
def CastFits (fs : FloatSpec A B) (x : CVal A B) (d : DType) : Prop :=
  match x with
  | .int _ _ => True
  | .f32 s => ∃ ks : List Int, s.data.map (fun a => fs.trunc (fs.widen a)) = ks.map some ∧
      ∀ k ∈ ks, d.fits k
  | .f64 s => ∃ ks : List Int, s.data.map fs.trunc = ks.map some ∧ ∀ k ∈ ks, d.fits k

theorem map_trunc {α : Type} {f : α → Option Int} {g : α → Int} {p : Int → Prop}
    (hg : ∀ a k, f a = some k → p k → g a = k) : ∀ {l : List α} {ks : List Int},
    l.map f = ks.map some → (∀ k ∈ ks, p k) → l.map g = ks
  | [], [], _, _ => rfl
  | [], _ :: _, h, _ => by simp at h
  | _ :: _, [], h, _ => by simp at h
  | a :: l, k :: ks, h, hk => by
    simp only [List.map_cons, List.cons.injEq] at h ⊢
    exact ⟨hg a k h.1 (hk k (List.mem_cons_self ..)),
      map_trunc hg h.2 fun k' hk' => hk k' (List.mem_cons_of_mem _ hk')⟩

omit [Inhabited A] [Inhabited B] in
theorem CVal.Ok.f32 {y : CVal A B} (h : y.Ok) (hd : y.dtype = .f32) : ∃ t, y = .f32 t := by
  cases y with
  | int d t => exact absurd hd h.1
  | f32 t => exact ⟨t, rfl⟩
  | f64 t => cases hd

omit [Inhabited A] [Inhabited B] in
theorem CVal.Ok.f64 {y : CVal A B} (h : y.Ok) (hd : y.dtype = .f64) : ∃ t, y = .f64 t := by
  cases y with
  | int d t => exact absurd hd h.2
  | f64 t => exact ⟨t, rfl⟩
  | f32 t => cases hd

omit [Inhabited A] [Inhabited B] in
theorem castValue_correct {fo : FloatOps A B} {fs : FloatSpec A B} (ha : FloatAgree fo fs)
    {s : List Nat} {x v y : CVal A B}
    (hy : x.dtype ∈ foldTypes ∨ y.dtype = x.dtype → IsCast fs y.dtype x y)
    (hfit : ∀ d t, y = .int d t → CastFits fs x d)
    (hs : y.shape = s) (h : castValue fo s y.dtype x = some (some v)) : v = y := by
  unfold castValue at h
  split at h
  · next hd =>
    cases h
    exact ((hy (Or.inr hd.symm)).2.2.2.1 hd).symm
  next hd =>
  split at h
  · -- from integers
    next hi =>
    have hx : ∃ d t, x = .int d t ∧ (d = .i64 ∨ d = .i32) := by
      cases x with
      | int d t =>
        refine ⟨d, t, rfl, ?_⟩
        simp only [CVal.dtype] at hi
        unfold DType.isFoldInt at hi
        split at hi <;> simp_all
      | f32 t => simp [CVal.dtype, DType.isFoldInt] at hi
      | f64 t => simp [CVal.dtype, DType.isFoldInt] at hi
    obtain ⟨d, t, rfl, hdd⟩ := hx
    have hread : (CVal.int d t : CVal A B).toI64Vec = some t.data := by
      rcases hdd with rfl | rfl <;> rfl
    have hmem : (CVal.int d t : CVal A B).dtype ∈ foldTypes := by
      rcases hdd with rfl | rfl <;> simp [CVal.dtype, foldTypes]
    obtain ⟨hok, _, hsh, _, hval⟩ := hy (Or.inl hmem)
    split at h
    · next hyd =>
      obtain ⟨l, hl, hn⟩ := finish_some h
      obtain ⟨hls, rfl⟩ := newF32_some hn
      have := given_some hl
      rw [hread] at this
      cases this
      obtain ⟨u, rfl⟩ := hok.f32 hyd
      simp only at hval
      congr 1
      refine Tensor.mk_eq hs.symm ?_
      rw [hval]
      simp [Tensor.map, ha.int32]
    · next hyd =>
      obtain ⟨l, hl, hn⟩ := finish_some h
      obtain ⟨hls, rfl⟩ := newF64_some hn
      have := given_some hl
      rw [hread] at this
      cases this
      obtain ⟨u, rfl⟩ := hok.f64 hyd
      simp only at hval
      congr 1
      refine Tensor.mk_eq hs.symm ?_
      rw [hval]
      simp [Tensor.map, ha.int64]
    · cases h
  next hni =>
  split at h
  · next hf =>
    cases x with
    | int d t =>
      exfalso
      simp only [CVal.dtype] at hf
      unfold DType.isFoldFlt at hf
      split at hf
      · split at h <;> first
          | (obtain ⟨l, hl, hn⟩ := finish_some h
             have := given_some hl
             simp [CVal.toF64Vec] at this)
          | cases h
      · split at h <;> first
          | (obtain ⟨l, hl, hn⟩ := finish_some h
             have := given_some hl
             simp [CVal.toF64Vec] at this)
          | cases h
      · cases hf
    | f32 t =>
      obtain ⟨hok, _, hsh, _, hval⟩ := hy (Or.inl (by simp [CVal.dtype, foldTypes]))
      split at h
      · next hyd => exact absurd (show (CVal.f32 t : CVal A B).dtype = y.dtype by rw [hyd]; rfl) hd
      · next hyd =>
        obtain ⟨l, hl, hn⟩ := finish_some h
        obtain ⟨hls, rfl⟩ := newF64_some hn
        have := given_some hl
        cases this
        obtain ⟨u, rfl⟩ := hok.f64 hyd
        simp only at hval
        congr 1
        refine Tensor.mk_eq hs.symm ?_
        rw [hval]
        simp [Tensor.map, ha.widen]
      · next hyd =>
        obtain ⟨l, hl, hn⟩ := finish_some h
        obtain ⟨hls, rfl⟩ := newInt_some hn
        have := given_some hl
        cases this
        cases y with
        | f32 u => cases hyd
        | f64 u => cases hyd
        | int e u =>
          simp only [CVal.dtype] at hyd
          subst hyd
          obtain ⟨ks, hks, hr⟩ := hfit _ _ rfl
          have hu := hval ks hks hr
          congr 1
          refine Tensor.mk_eq hs.symm ?_
          rw [hu, List.map_map]
          refine map_trunc (f := fun a => fs.trunc (fs.widen a)) (p := DType.i64.fits) ?_ hks hr
          intro a k h1 h2
          simp only [Function.comp, ha.widen]
          exact ha.toI64 _ _ h1 h2
      · next hyd =>
        obtain ⟨l, hl, hn⟩ := finish_some h
        obtain ⟨hls, rfl⟩ := newInt_some hn
        have := given_some hl
        cases this
        cases y with
        | f32 u => cases hyd
        | f64 u => cases hyd
        | int e u =>
          simp only [CVal.dtype] at hyd
          subst hyd
          obtain ⟨ks, hks, hr⟩ := hfit _ _ rfl
          have hu := hval ks hks hr
          congr 1
          refine Tensor.mk_eq hs.symm ?_
          rw [hu, List.map_map]
          refine map_trunc (f := fun a => fs.trunc (fs.widen a)) (p := DType.i32.fits) ?_ hks hr
          intro a k h1 h2
          simp only [Function.comp, ha.widen]
          exact ha.toI32 _ _ h1 h2
      · cases h
    | f64 t =>
      obtain ⟨hok, _, hsh, _, hval⟩ := hy (Or.inl (by simp [CVal.dtype, foldTypes]))
      split at h
      · next hyd =>
        obtain ⟨l, hl, hn⟩ := finish_some h
        obtain ⟨hls, rfl⟩ := newF32_some hn
        have := given_some hl
        cases this
        obtain ⟨u, rfl⟩ := hok.f32 hyd
        simp only at hval
        congr 1
        refine Tensor.mk_eq hs.symm ?_
        rw [hval]
        simp [Tensor.map, ha.round]
      · next hyd => exact absurd (show (CVal.f64 t : CVal A B).dtype = y.dtype by rw [hyd]; rfl) hd
      · next hyd =>
        obtain ⟨l, hl, hn⟩ := finish_some h
        obtain ⟨hls, rfl⟩ := newInt_some hn
        have := given_some hl
        cases this
        cases y with
        | f32 u => cases hyd
        | f64 u => cases hyd
        | int e u =>
          simp only [CVal.dtype] at hyd
          subst hyd
          obtain ⟨ks, hks, hr⟩ := hfit _ _ rfl
          have hu := hval ks hks hr
          congr 1
          refine Tensor.mk_eq hs.symm ?_
          rw [hu]
          exact map_trunc (p := DType.i64.fits) ha.toI64 hks hr
      · next hyd =>
        obtain ⟨l, hl, hn⟩ := finish_some h
        obtain ⟨hls, rfl⟩ := newInt_some hn
        have := given_some hl
        cases this
        cases y with
        | f32 u => cases hyd
        | f64 u => cases hyd
        | int e u =>
          simp only [CVal.dtype] at hyd
          subst hyd
          obtain ⟨ks, hks, hr⟩ := hfit _ _ rfl
          have hu := hval ks hks hr
          congr 1
          refine Tensor.mk_eq hs.symm ?_
          rw [hu]
          exact map_trunc (p := DType.i32.fits) ha.toI32 hks hr
      · cases h
  · cases h

omit [Inhabited A] [Inhabited B] in
theorem readAll_map {α β : Type} {read : CVal A B → Option (List β)} {mk : Tensor α → CVal A B}
    {g : α → β} (hr : ∀ s, read (mk s) = some (s.data.map g)) :
    ∀ ss : List (Tensor α), readAll read (ss.map fun s => some (mk s)) =
      some ((ss.map Tensor.data).flatten.map g)
  | [] => rfl
  | s :: ss => by
    simp only [List.map_cons, readAll, Option.bind_some, hr, readAll_map hr ss]
    simp

theorem concat0_data {α : Type} {ts : List (List Nat × List α)} {s : List Nat} {l : List α}
    (h : concat0 ts = some (s, l)) : l = (ts.map Prod.snd).flatten ∧ ts ≠ [] := by
  unfold concat0 at h
  split at h
  · cases h
  · split at h
    · cases h; exact ⟨rfl, by simp⟩
    · cases h

omit [Inhabited A] [Inhabited B] in
theorem concatValue_correct {fo : FloatOps A B} {fs : FloatSpec A B} (ha : FloatAgree fo fs)
    {s : List Nat} {x v y : CVal A B} {zs : List (CVal A B)} (hx : zs.head? = some x)
    (hint : ∀ z ∈ zs, z.ElemsFit)
    (hy : IsConcat0 zs y) (hs : y.shape = s)
    (h : concatValue fo s x (zs.map some) = some (some v)) : v = y := by
  unfold concatValue at h
  cases y with
  | int d t =>
    obtain ⟨ss, rfl, hc⟩ := hy
    obtain ⟨hl, _⟩ := concat0_data hc
    have hl' : t.data = (ss.map Tensor.data).flatten := by
      rw [hl]; simp [List.map_map, Function.comp_def]
    cases ss with
    | nil => simp at hx
    | cons s0 ss =>
      simp only [List.map_cons, List.head?_cons, Option.some.injEq] at hx
      subst hx
      simp only [CVal.dtype] at h
      have hmap : List.map some (List.map (CVal.int d) (s0 :: ss)) =
          (s0 :: ss).map fun s => some (CVal.int d s : CVal A B) := by simp
      rw [hmap] at h
      split at h
      · obtain ⟨l, hl2, hn⟩ := finish_some h
        obtain ⟨hls, rfl⟩ := newInt_some hn
        have := given_some hl2
        rw [readAll_map (mk := CVal.int .i64) (g := id) (by intro s; simp [CVal.toI64Vec])] at this
        simp only [List.map_id, Option.some.injEq] at this
        congr 1
        exact Tensor.mk_eq hs.symm (by rw [hl', this])
      · obtain ⟨l, hl2, hn⟩ := finish_some h
        obtain ⟨hls, rfl⟩ := newInt_some hn
        have := given_some hl2
        rw [readAll_map (mk := CVal.int .i32) (g := id) (by intro s; simp [CVal.toI64Vec])] at this
        simp only [List.map_id, Option.some.injEq] at this
        congr 1
        refine Tensor.mk_eq hs.symm ?_
        rw [hl', ← this]
        have hid := List.map_congr_left (f := wrapInt .i32) (g := id)
          (l := (List.map Tensor.data (s0 :: ss)).flatten) (by
            intro k hk
            obtain ⟨m, hm, hk⟩ := List.mem_flatten.1 hk
            obtain ⟨u, hu, rfl⟩ := List.mem_map.1 hm
            exact wrapInt_fits32 (hint (.int .i32 u) (List.mem_map_of_mem hu) k hk))
        rw [hid, List.map_id]
      · obtain ⟨l, hl2, hn⟩ := finish_some h
        have := given_some hl2
        simp [readAll, CVal.toF64Vec] at this
      · obtain ⟨l, hl2, hn⟩ := finish_some h
        have := given_some hl2
        simp [readAll, CVal.toF64Vec] at this
      · cases h
  | f32 t =>
    obtain ⟨ss, rfl, hc⟩ := hy
    obtain ⟨hl, _⟩ := concat0_data hc
    have hl' : t.data = (ss.map Tensor.data).flatten := by
      rw [hl]; simp [List.map_map, Function.comp_def]
    have hmap : List.map some (List.map CVal.f32 ss) =
        ss.map fun s => some (CVal.f32 s : CVal A B) := by simp
    rw [hmap] at h
    cases ss with
    | nil => simp at hx
    | cons s0 ss =>
      simp only [List.map_cons, List.head?_cons, Option.some.injEq] at hx
      subst hx
      simp only [CVal.dtype] at h
      obtain ⟨l, hl2, hn⟩ := finish_some h
      obtain ⟨hls, rfl⟩ := newF32_some hn
      have := given_some hl2
      rw [readAll_map (mk := CVal.f32) (g := fo.asF64) (by intro s; simp [CVal.toF64Vec])] at this
      simp only [Option.some.injEq] at this
      subst this
      congr 1
      refine Tensor.mk_eq hs.symm ?_
      rw [hl', List.map_map]
      have hid := List.map_congr_left (f := fo.asF32 ∘ fo.asF64) (g := id)
          (l := (List.map Tensor.data (s0 :: ss)).flatten) (by
            intro k _
            simp [ha.round, ha.widen, ha.round_widen])
      rw [hid, List.map_id]
  | f64 t =>
    obtain ⟨ss, rfl, hc⟩ := hy
    obtain ⟨hl, _⟩ := concat0_data hc
    have hl' : t.data = (ss.map Tensor.data).flatten := by
      rw [hl]; simp [List.map_map, Function.comp_def]
    have hmap : List.map some (List.map CVal.f64 ss) =
        ss.map fun s => some (CVal.f64 s : CVal A B) := by simp
    rw [hmap] at h
    cases ss with
    | nil => simp at hx
    | cons s0 ss =>
      simp only [List.map_cons, List.head?_cons, Option.some.injEq] at hx
      subst hx
      simp only [CVal.dtype] at h
      obtain ⟨l, hl2, hn⟩ := finish_some h
      obtain ⟨hls, rfl⟩ := newF64_some hn
      have := given_some hl2
      rw [readAll_map (mk := CVal.f64) (g := id) (by intro s; simp [CVal.toF64Vec])] at this
      simp only [List.map_id, Option.some.injEq] at this
      congr 1
      exact Tensor.mk_eq hs.symm (by rw [hl', this])

/-! ## Nodes -/

omit [Inhabited A] [Inhabited B] in
theorem evalUnary_some {cmap : String → Option (CVal A B)} {n : Node (CVal A B)}
    {f : ArgType → CVal A B → Option (Option (CVal A B))} {v : CVal A B} {ty : ArgType}
    (h : evalUnary cmap n f = some (some (v, ty))) :
    ∃ a as o os x, n.inputs = a :: as ∧ n.outputs = o :: os ∧ a.value cmap = some x ∧
      f o.ty x = some (some v) ∧ ty = o.ty := by
  unfold evalUnary at h
  split at h
  case h_2 => cases h
  next a as o os hi ho =>
  split at h
  · cases h
  next x hx =>
  obtain ⟨r, hr, h2⟩ := Option.map_eq_some_iff.1 h
  obtain ⟨v', hv', h3⟩ := Option.map_eq_some_iff.1 h2
  cases h3
  exact ⟨a, as, o, os, x, hi, ho, hx, by rw [hr, hv'], rfl⟩

/-- A decision to fold is right about the node: the node would have returned that value. -/
theorem foldDecision_correct {fo : FloatOps A B} {fs : FloatSpec A B} (ha : FloatAgree fo fs)
    {S : Sem (CVal A B)} (hS : FoldSem fs S) {env : Env (CVal A B)} {nodes : List (Node (CVal A B))}
    {cmap : String → Option (CVal A B)} (htab : TableOk S env nodes cmap)
    (hty : TypedRun S (cvalView fo) env nodes) (hfold : FoldableConsts fs S env nodes)
    {p q : List (Node (CVal A B))} {n : Node (CVal A B)} {e1 e2 : Env (CVal A B)} {v : CVal A B}
    {ty : ArgType} {o : Arg (CVal A B)} {os : List (Arg (CVal A B))} (hn : nodes = p ++ n :: q)
    (h1 : evalNodes S env p = some e1) (h2 : evalNode S e1 n = some e2) (ho : n.outputs = o :: os)
    (h : foldDecision fo cmap n = some (some (v, ty))) :
    evalNode S e1 (makeConstantNode n.name o.name v ty) = some e2 := by
  have hnm : n ∈ nodes := by rw [hn]; simp
  have htb : ConstTableOk cmap e1 := htab p (n :: q) e1 hn h1
  obtain ⟨xs, ys, hxs, hys, hlen, he2⟩ := evalNode_some h2
  -- it is enough that the node returns `v`
  suffices hv : ys = [v] by
    subst hv
    have hos : os = [] := by
      rw [ho] at hlen
      cases os with
      | nil => rfl
      | cons => simp at hlen
    subst hos
    exact evalNode_makeConstant hS.constOp ho hxs hys h2
  have hone : ∀ y, ys = [y] → e2 o.name = some y ∧ n.outputs = [o] := by
    intro y hy
    subst hy
    have hos : os = [] := by
      rw [ho] at hlen
      cases os with
      | nil => rfl
      | cons => simp at hlen
    subst hos
    rw [he2]
    simp [Node.outNames, ho, bindAll]
  have hadm : ∀ y, ys = [y] → o.ty.Admits y.shape := by
    intro y hy
    exact (hty p n q e1 e2 hn h1 h2).2 o (by rw [ho]; simp) y (hone y hy).1
  unfold foldDecision at h
  split at h
  · cases h
  split at h
  · cases h
  next hc =>
  have hall : ∀ a ∈ n.inputs, a.isOptional = false → (a.value cmap).isSome = true := by
    intro a hma hop
    have := (not_or.1 hc).1
    simp only [Bool.not_eq_false, List.all_eq_true] at this
    exact this a (List.mem_filter.2 ⟨hma, by simp [hop]⟩)
  have hnodyn : ∀ a ∈ n.inputs, a.src ≠ .dynamic := by
    intro a hma hd
    have := hall a hma (by simp [Arg.isOptional, hd])
    simp [Arg.value, hd] at this
  have hshape : ∀ y, ys = [y] →
      n.ty ∈ [NodeType.add, .sub, .mul, .div, .neg, .sqrt, .cast, .concat] →
      y.shape = outputShape o.ty := by
    intro y hy ht
    exact (admits_outputShape (hadm y hy)
      (hfold.outKnown n hnm ht hnodyn o (by rw [ho]; simp))).symm
  -- binary operators
  have hbin : ∀ op, n.ty = ArithOp.nodeType op → evalBinary fo cmap n op = some (some (v, ty)) →
      ys = [v] := by
    intro op hop he
    unfold evalBinary at he
    split at he
    case h_2 => cases he
    next a b rest hins =>
    split at he
    case h_2 => cases he
    next x y hx hy =>
    rw [ho] at he
    simp only at he
    obtain ⟨r, hr, he⟩ := Option.map_eq_some_iff.1 he
    obtain ⟨v', hv', h3⟩ := Option.map_eq_some_iff.1 he
    subst hv'
    cases h3
    rw [hins] at hxs
    obtain ⟨w1, ws, hw1, hws, rfl⟩ := evalArgs_cons hxs
    obtain ⟨w2, ws2, hw2, hws2, rfl⟩ := evalArgs_cons hws
    have e1x := Arg.value_eval htb hx hw1
    have e1y := Arg.value_eval htb hy hw2
    rw [hop] at hys
    obtain ⟨x', y', z, hxy, hyz, hd, hz⟩ := hS.arith op _ _ _ _ hys
    simp only [List.cons.injEq] at hxy
    have hx' : x' = x := by
      rw [hxy.1] at e1x; simpa using e1x
    have hy' : y' = y := by
      rw [hxy.2.1] at e1y; simpa using e1y
    subst hx'
    subst hy'
    rw [hyz]
    have hsh := hshape z hyz (by rw [hop]; cases op <;> simp [ArithOp.nodeType])
    rw [binaryValue_correct ha hd hz hsh hr]
  -- the value of the first input
  have hfst : ∀ {a as x}, n.inputs = a :: as → a.value cmap = some x →
      ∃ rest, xs = some x :: rest ∧ evalArg e1 a = some (some x) := by
    intro a as x hins hx
    rw [hins] at hxs
    obtain ⟨w1, ws, hw1, hws, rfl⟩ := evalArgs_cons hxs
    have := Arg.value_eval htb hx hw1
    exact ⟨ws, by rw [this], by rw [hw1, this]⟩
  have hreshape : n.ty ∈ [NodeType.unsqueeze, .squeeze, .reshape] →
      evalUnary cmap n (fun ty x => some (reshapeValue ty x)) = some (some (v, ty)) →
      ys = [v] := by
    intro ht he
    obtain ⟨a, as, o', os', x, hins, ho', hx, hf, rfl⟩ := evalUnary_some he
    rw [ho] at ho'
    cases ho'
    obtain ⟨rest, hxs', _⟩ := hfst hins hx
    obtain ⟨x', rest', s, hps, hxx, hyy⟩ := hS.reshape n.ty _ _ _ _ ht hys
    rw [hxs'] at hxx
    simp only [List.cons.injEq, Option.some.injEq] at hxx
    obtain ⟨rfl, _⟩ := hxx
    rw [hyy]
    have hA := hadm _ hyy
    unfold reshapeValue at hf
    simp only [Option.some.injEq] at hf
    split at hf
    · cases hf
    next s' hs' =>
    split at hf
    case isFalse => cases hf
    next hp =>
    cases hf
    have hss : s' = s := by
      have hws : (x.withShape s hps).shape = s := by cases x <;> rfl
      rw [hws] at hA
      unfold reshapeTarget at hs'
      cases hot : o.ty with
      | scalarTensor d => rw [hot] at hs' hA; cases hs'; exact hA.symm
      | scalarNative d => rw [hot] at hs' hA; cases hs'; exact hA.symm
      | shape k => rw [hot] at hs' hA; cases hs'; exact hA.symm
      | tensor t => rw [hot] at hs' hA; exact (ArgType.admits_known hA hs').symm
    subst hss
    rfl
  unfold tryEvaluate at h
  split at h
  · next ht => exact hbin .add ht h
  · next ht => exact hbin .sub ht h
  · next ht => exact hbin .mul ht h
  · next ht => exact hbin .div ht h
  · next ht =>
    obtain ⟨a, as, o', os', x, hins, ho', hx, hf, rfl⟩ := evalUnary_some h
    rw [ho] at ho'
    cases ho'
    obtain ⟨rest, hxs', _⟩ := hfst hins hx
    rw [ht] at hys
    obtain ⟨x', y, hxx, hyy, hv⟩ := hS.neg _ _ _ _ hys
    rw [hxs'] at hxx
    simp only [List.cons.injEq, Option.some.injEq] at hxx
    obtain ⟨rfl, _⟩ := hxx
    rw [hyy, negValue_correct ha hv (hshape y hyy (by rw [ht]; simp)) hf]
  · next ht =>
    obtain ⟨a, as, o', os', x, hins, ho', hx, hf, rfl⟩ := evalUnary_some h
    rw [ho] at ho'
    cases ho'
    obtain ⟨rest, hxs', _⟩ := hfst hins hx
    rw [ht] at hys
    obtain ⟨x', y, hxx, hyy, hv⟩ := hS.sqrt _ _ _ _ hys
    rw [hxs'] at hxx
    simp only [List.cons.injEq, Option.some.injEq] at hxx
    obtain ⟨rfl, _⟩ := hxx
    rw [hyy, sqrtValue_correct ha hv (hshape y hyy (by rw [ht]; simp)) hf]
  · next ht =>
    obtain ⟨a, as, o', os', x, hins, ho', hx, hf, rfl⟩ := evalUnary_some h
    rw [ho] at ho'
    cases ho'
    obtain ⟨rest, hxs', hev⟩ := hfst hins hx
    rw [ht] at hys
    obtain ⟨x', y, hxx, hyy, hv⟩ := hS.cast _ _ _ _ hys
    rw [hxs'] at hxx
    simp only [List.cons.injEq, Option.some.injEq] at hxx
    obtain ⟨rfl, _⟩ := hxx
    have hct := hfold.castType p n q e1 e2 hn ht h1 h2 o (by rw [ho]; simp) y (hone y hyy).1
    rw [hct] at hf
    rw [hyy, castValue_correct ha hv ?_ (hshape y hyy (by rw [ht]; simp)) hf]
    intro d t hyt
    have hr := hfold.castRange p n q e1 e2 hn ht h1 h2 a (by rw [hins]; simp) o (by rw [ho]; simp)
      d t (by rw [← hyt]; exact (hone y hyy).1)
    cases x with
    | int => trivial
    | f32 s => exact hr.1 s hev
    | f64 s => exact hr.2 s hev
  · next ht =>
    unfold evalConcat at h
    split at h
    · cases h
    next axis hax =>
    split at h
    · cases h
    next hax0 =>
    obtain ⟨a, as, o', os', x, hins, ho', hx, hf, rfl⟩ := evalUnary_some h
    rw [ho] at ho'
    cases ho'
    obtain ⟨rest, hxs', _⟩ := hfst hins hx
    rw [ht] at hys
    obtain ⟨zs, y, hzs, hyy, hcon, hfit⟩ := hS.concat _ _ _ _ (by
      rw [hax]
      cases axis with
      | none => exact Or.inl rfl
      | some k => right; simp at hax0; rw [hax0]) hys
    -- no input is optional, and the values are those of the run
    have hvals : ∀ {as : List (Arg (CVal A B))} {zs : List (CVal A B)},
        (∀ a ∈ as, a.isOptional = false → (a.value cmap).isSome = true) →
        evalArgs e1 as = some (zs.map some) →
        (as.filter fun a => !a.isOptional).map (Arg.value cmap) = zs.map some := by
      intro as
      induction as with
      | nil =>
        intro zs _ he
        simp only [evalArgs, Option.some.injEq] at he
        rw [← he]; rfl
      | cons a as ih =>
        intro zs ha' he
        obtain ⟨w, ws, hw, hws, heq⟩ := evalArgs_cons he
        cases zs with
        | nil => simp at heq
        | cons z zs =>
          simp only [List.map_cons, List.cons.injEq] at heq
          obtain ⟨rfl, rfl⟩ := heq
          have hno : a.isOptional = false := by
            unfold Arg.isOptional
            split
            · next hsrc => simp [evalArg, hsrc] at hw
            · rfl
          have hsome := ha' a (List.mem_cons_self ..) hno
          obtain ⟨z', hz'⟩ := Option.isSome_iff_exists.1 hsome
          have := Arg.value_eval htb hz' hw
          rw [List.filter_cons]
          simp only [hno, Bool.not_false, if_true, List.map_cons]
          rw [hz', this, ih (fun a' h' => ha' a' (List.mem_cons_of_mem _ h')) hws]
    rw [hvals hall (by rw [hxs, hzs])] at hf
    have hhead : zs.head? = some x := by
      cases zs with
      | nil => rw [hxs'] at hzs; simp at hzs
      | cons z zs =>
        rw [hxs'] at hzs
        simp only [List.map_cons, List.cons.injEq, Option.some.injEq] at hzs
        rw [hzs.1]; rfl
    rw [hyy, concatValue_correct ha hhead hfit hcon (hshape y hyy (by rw [ht]; simp)) hf]
  · next ht => exact hreshape (by rw [ht]; simp) h
  · next ht => exact hreshape (by rw [ht]; simp) h
  · next ht => exact hreshape (by rw [ht]; simp) h
  · cases h

/-- **C08 (part).** Constant folding leaves every result of the graph unchanged, provided the type
annotations are right and determine the shapes of the folded nodes, the constant table is right,
and float-to-integer casts are in range. Missing for the full claim: nodes whose output annotation
does not determine the shape, where the code panics or changes the shape
(`C08_unknown_shape_panics`, `C08_unknown_shape_changes_rank`), and the panics on operands that
both need broadcasting and on an overflowing division (`C08_broadcast_panics`,
`C08_division_overflow_panics`). -/
theorem C08_constant_folding_preserves_outputs_partial (fo : FloatOps A B) (fs : FloatSpec A B)
    (ha : FloatAgree fo fs) (S : Sem (CVal A B)) (hS : FoldSem fs S) (env : Env (CVal A B))
    (nodes : List (Node (CVal A B))) (outs : List (Arg (CVal A B)))
    (cmap : String → Option (CVal A B)) (hssa : SSA env nodes)
    (htab : TableOk S env nodes cmap) (hty : TypedRun S (cvalView fo) env nodes)
    (hfold : FoldableConsts fs S env nodes)
    (nodes' : List (Node (CVal A B))) (outs' : List (Arg (CVal A B)))
    (cmap' : String → Option (CVal A B))
    (hrun : foldConstants fo cmap nodes outs = some (nodes', outs', cmap'))
    (r : List (Option (CVal A B))) (h : evalGraph S env nodes outs = some r) :
    evalGraph S env nodes' outs' = some r ∧ TableOk S env nodes cmap' := by
  unfold evalGraph at h
  cases hE : evalNodes S env nodes with
  | none => simp [hE] at h
  | some E =>
  simp only [hE] at h
  unfold foldConstants at hrun
  split at hrun
  · cases hrun
  next rs hrs =>
  simp only [Option.some.injEq, Prod.mk.injEq] at hrun
  obtain ⟨hn', ho', hc'⟩ := hrun
  have hd := replace_decided (rs := rs) hssa (by
    intro p n q e1 e2 v ty o os hn hr ho h1 h2
    have hget : nodes[p.length]? = some n := by rw [hn]; simp
    exact foldDecision_correct ha hS htab hty hfold hn h1 h2 ho (collect_get hrs hget hr))
    hS.constOp htab hE
  refine ⟨?_, hc' ▸ hd.2⟩
  unfold evalGraph
  rw [← hn', ← ho']
  simp only [updateConstantReferences, evalNodes_markConstant, hd.1, evalArgs_markConstant]
  exact h

end OnnxIR
