import Verif.Model.Registry
import Verif.Lemmas.Pipeline
import Verif.Props.TypeInference
import Verif.Spec.Preferences

/-!
# C78: constants reach their consumers in the form the generated code needs
-/

namespace OnnxIR

open Onnx

variable {V : Type}

theorem nodeProducing_of_mem : ∀ {nodes : List (Node V)} {m : Node V} {o : Arg V},
    (nodes.flatMap Node.outNames).Nodup → m ∈ nodes → o ∈ m.outputs → nodeProducing nodes o.name = some m := by
  intro nodes
  induction nodes with
  | nil => intro m o _ hm; cases hm
  | cons n rest ih =>
    intro m o hnd hm ho
    rw [List.flatMap_cons, List.nodup_append] at hnd
    unfold nodeProducing
    rcases List.mem_cons.1 hm with rfl | hm
    · rw [List.find?_cons_of_pos]
      exact List.any_eq_true.2 ⟨o, ho, by simp⟩
    · have hin : o.name ∈ rest.flatMap Node.outNames :=
        List.mem_flatMap.2 ⟨m, hm, by rw [outNames_eq]; exact List.mem_map.2 ⟨o, ho, rfl⟩⟩
      rw [List.find?_cons_of_neg]
      · exact ih hnd.2.1 hm ho
      · intro h
        obtain ⟨o', ho', he⟩ := List.any_eq_true.1 h
        refine hnd.2.2 o'.name ?_ o.name hin (by simpa using he)
        rw [outNames_eq]; exact List.mem_map.2 ⟨o', ho', rfl⟩

theorem mem_prefsFor {nodes : List (Node V)} {c : Collected} {m : Node V} {x consumer : String} {p : Pref}
    (hp : nodeProducing nodes x = some m) (h : (x, consumer, p) ∈ c) : p ∈ prefsFor nodes c m.name x := by
  unfold prefsFor
  refine List.mem_map.2 ⟨(x, consumer, p), List.mem_filter.2 ⟨h, ?_⟩, rfl⟩
  simp [hp]

/-- What inference gives the output of a constant: the value in one of the forms the generated code
has for it. -/
theorem constant_type {S : Store V} {opset : Nat} {E : Rules V} {prefs : String → OutPrefs} {m : Node V}
    {o : Arg V} {v : V} (h : Inferred (registry S opset E) prefs m) (hty : m.ty = .constant)
    (ho : m.outputs[0]? = some o) (hv : m.inputs[0]?.bind S.read = some v) :
    o.ty = Infer.constant (S.dtype v) (S.dims v) ((prefs m.name o.name).contains .shape)
      ((prefs m.name o.name).contains .scalarNative) := by
  obtain ⟨outs, tys, hs, _, hi, ho', _⟩ := h
  have hr : Infer.ruleOf (m.withOutputs outs).ty = some .constant := by
    simp only [Node.withOutputs, hty]; rfl
  simp only [registry, hr, Infer.apply] at hi
  have h0 : (outs[0]?).map (fun a => (a.name, a.src)) = (m.outputs[0]?).map (fun a => (a.name, a.src)) := by
    have := congrArg (·[0]?) hs
    simpa using this
  rw [ho] at h0
  cases h1 : outs[0]? with
  | none => rw [h1] at h0; simp at h0
  | some o1 =>
    rw [h1] at h0
    simp only [Option.map_some, Option.some.injEq, Prod.mk.injEq] at h0
    have hin : (m.withOutputs outs).inputs = m.inputs := rfl
    have hout : (m.withOutputs outs).outputs = outs := rfl
    rw [hin, hout, hv, h1] at hi
    simp only [Option.some.injEq] at hi
    have := ho' 0 o1 h1
    rw [ho, ← hi] at this
    simp only [List.getElem?_cons_zero, Option.getD_some, Option.some.injEq] at this
    rw [this]

theorem mem_want {c : Bool} {x : String} {p : Pref} (h : c = true) : (x, p) ∈ Infer.want c x p := by
  simp [Infer.want, h]

theorem pair_of_length {l : List (Arg V)} (h : l.length = 2) : ∃ a b, l = [a, b] := by
  match l, h with
  | [a, b], _ => exact ⟨a, b, rfl⟩

theorem two_positions {l : List (Arg V)} {k j : Nat} {a d : Arg V} (hl : l.length = 2) (hkj : k + j = 1)
    (ha : l[k]? = some a) (hd : l[j]? = some d) : l = [a, d] ∨ l = [d, a] := by
  obtain ⟨x, y, rfl⟩ := pair_of_length hl
  rcases (by omega : (k = 0 ∧ j = 1) ∨ (k = 1 ∧ j = 0)) with ⟨rfl, rfl⟩ | ⟨rfl, rfl⟩ <;> simp_all

theorem wantsOf_arithmetic {n : Node V} {a b : Arg V} (h : n.ty ∈ shapeArithmetic) (hi : n.inputs = [a, b]) :
    Infer.wantsOf n = Infer.arithmeticWants a b := by
  obtain ⟨ty, name, inputs, outputs, attrs⟩ := n
  simp only at h hi
  subst hi
  simp only [shapeArithmetic, List.mem_cons, List.not_mem_nil, or_false] at h
  rcases h with rfl | rfl | rfl | rfl | rfl <;> simp [Infer.wantsOf]

theorem wantsOf_comparison {n : Node V} {a b : Arg V} (h : n.ty ∈ comparisons) (hi : n.inputs = [a, b]) :
    Infer.wantsOf n = Infer.comparisonWants a b := by
  obtain ⟨ty, name, inputs, outputs, attrs⟩ := n
  simp only at h hi
  subst hi
  simp only [comparisons, List.mem_cons, List.not_mem_nil, or_false] at h
  rcases h with rfl | rfl | rfl | rfl | rfl <;> simp [Infer.wantsOf]

theorem wants_native {n : Node V} {k : Nat} {a : Arg V} (h : NeedsNative n k) (ha : n.inputs[k]? = some a)
    (hs : a.ty.isScalar = true) : (a.name, Pref.scalarNative) ∈ Infer.wantsOf n := by
  have hmem : a ∈ n.inputs := List.mem_of_getElem? ha
  have hdrop : 1 ≤ k → a ∈ n.inputs.drop 1 := fun hk => by
    refine List.mem_of_getElem? (i := k - 1) ?_
    rw [List.getElem?_drop, ← ha]; congr 1; omega
  have htake : ∀ j, k < j → a ∈ n.inputs.take j := fun j hk =>
    List.mem_of_getElem? (i := k) (by rw [List.getElem?_take_of_lt hk, ha])
  cases h with
  | condition h =>
    unfold Infer.wantsOf
    simp only [h]
    simp only [String.reduceEq, or_self, if_false, if_true]
    exact List.mem_map.2 ⟨a, htake 1 (by omega), rfl⟩
  | loop _ h hk =>
    unfold Infer.wantsOf
    simp only [h]
    simp only [String.reduceEq, or_self, if_false, if_true]
    exact List.mem_map.2 ⟨a, htake 2 hk, rfl⟩
  | range _ h =>
    unfold Infer.wantsOf
    simp only [h]
    simp only [String.reduceEq, or_self, if_false, if_true]
    exact List.mem_map.2 ⟨a, hmem, rfl⟩
  | choice _ h hk =>
    unfold Infer.wantsOf
    simp only [h]
    simp only [String.reduceEq, or_self, if_false, if_true]
    exact List.mem_flatMap.2 ⟨a, hdrop hk, mem_want hs⟩
  | join _ h =>
    unfold Infer.wantsOf
    simp only [h, Infer.concatWants]
    exact List.mem_flatMap.2 ⟨a, hmem, List.mem_append_right _ (mem_want hs)⟩
  | bound _ h hk =>
    unfold Infer.wantsOf
    simp only [h, Infer.sliceWants]
    exact List.mem_flatMap.2 ⟨a, hdrop hk, List.mem_cons_of_mem _ (mem_want hs)⟩
  | index h hd hsh =>
    obtain ⟨ty, name, inputs, outputs, attrs⟩ := n
    simp only at h hd ha
    subst h
    match inputs, hd, ha with
    | x :: y :: _, hd, ha =>
      simp only [List.getElem?_cons_zero, List.getElem?_cons_succ, Option.some.injEq] at hd ha
      subst hd ha
      simp [Infer.wantsOf, hsh, ArgType.isShape, Infer.besideShape, hs]
  | arithmetic _ j h hl hkj hd hsh =>
    rcases two_positions hl hkj ha hd with hi | hi <;> rw [wantsOf_arithmetic h hi] <;>
      rcases hsh with ⟨r, hr⟩ | ⟨t, ht⟩ <;>
      simp_all [Infer.arithmeticWants, Infer.besideShape, Infer.want, ArgType.isShape, ArgType.isNative]
  | @compare d _ j h hl hkj hd hsh =>
    have hdev : d.ty.isOnDevice = true ∨ d.ty.isNative = true := by
      cases hd2 : d.ty <;> simp_all [ArgType.isOnDevice, ArgType.isNative]
    rcases two_positions hl hkj ha hd with hi | hi <;> rw [wantsOf_comparison h hi] <;>
      rcases hdev with hd' | hd' <;>
      simp_all [Infer.comparisonWants, Infer.want]

theorem wants_shape {n : Node V} {k : Nat} {a : Arg V} {t : TensorType} (h : NeedsShape n k)
    (ha : n.inputs[k]? = some a) (hs : a.ty = .tensor t) (hr : t.rank = 1) :
    (a.name, Pref.shape) ∈ Infer.wantsOf n := by
  have hmem : a ∈ n.inputs := List.mem_of_getElem? ha
  have hdrop : 1 ≤ k → a ∈ n.inputs.drop 1 := fun hk => by
    refine List.mem_of_getElem? (i := k - 1) ?_
    rw [List.getElem?_drop, ← ha]; congr 1; omega
  cases h with
  | target h =>
    obtain ⟨ty, name, inputs, outputs, attrs⟩ := n
    simp only at h ha
    subst h
    match inputs, ha with
    | x :: y :: _, ha =>
      simp only [List.getElem?_cons_zero, List.getElem?_cons_succ, Option.some.injEq] at ha
      subst ha
      simp [Infer.wantsOf]
  | bound _ h hk =>
    unfold Infer.wantsOf
    simp only [h, Infer.sliceWants]
    exact List.mem_flatMap.2 ⟨a, hdrop hk, List.mem_cons_self⟩
  | @join d r _ h hd hsh =>
    unfold Infer.wantsOf
    simp only [h, Infer.concatWants]
    refine List.mem_flatMap.2 ⟨a, hmem, List.mem_append_left _ (mem_want ?_)⟩
    rw [Bool.and_eq_true]
    refine ⟨List.any_eq_true.2 ⟨d, hd, by simp [hsh, ArgType.isShape]⟩, by simp [hs, Infer.isRankOne, hr]⟩
  | index h hd hsh =>
    obtain ⟨ty, name, inputs, outputs, attrs⟩ := n
    simp only at h hd ha
    subst h
    match inputs, hd, ha with
    | x :: y :: _, hd, ha =>
      simp only [List.getElem?_cons_zero, List.getElem?_cons_succ, Option.some.injEq] at hd ha
      subst hd ha
      simp [Infer.wantsOf, hsh, ArgType.isShape, Infer.besideShape, hs, ArgType.isScalar]
  | arithmetic _ j h hl hkj hd hsh =>
    rcases two_positions hl hkj ha hd with hi | hi <;> rw [wantsOf_arithmetic h hi] <;>
      simp_all [Infer.arithmeticWants, Infer.besideShape, Infer.want, ArgType.isShape, ArgType.isNative,
        ArgType.isScalar]

theorem merge_rank' (x y : TensorType) : (x.mergeStaticShape y).rank = x.rank := by
  unfold TensorType.mergeStaticShape
  repeat' split
  all_goals rfl

/-- What the final types say about a constant and one of its uses. -/
theorem constant_use {S : Store V} {opset : Nat} {E : Rules V} {nodes nodes' : List (Node V)}
    (hord : OrderedNodes nodes) (hnd : (nodes.flatMap Node.outNames).Nodup)
    (h : inferTypes (registry S opset E) nodes = some (nodes', true)) {m n : Node V} {o a : Arg V} {v : V}
    (hm : m ∈ nodes') (hty : m.ty = .constant) (ho : m.outputs[0]? = some o)
    (hv : m.inputs[0]?.bind S.read = some v) (hn : n ∈ nodes') (ha : a ∈ n.inputs) (hname : a.name = o.name) :
    ∃ ps : List Pref, o.ty = Infer.constant (S.dtype v) (S.dims v) (ps.contains .shape) (ps.contains .scalarNative) ∧
      o.ty.mergeStaticShape a.ty = a.ty ∧ ∀ p, (a.name, p) ∈ Infer.wantsOf n → p ∈ ps := by
  obtain ⟨c, ⟨hinf, hsync⟩, hc⟩ := C44_fixed_point _ nodes nodes' true hord hnd h
  have hom : o ∈ m.outputs := List.mem_of_getElem? ho
  have hnd' : (nodes'.flatMap Node.outNames).Nodup := by
    have := inferTypes_skel h
    rw [skels_outNames this]; exact hnd
  have hp := nodeProducing_of_mem hnd' hm hom
  refine ⟨prefsFor nodes' c m.name o.name, constant_type (hinf m hm) hty ho hv,
    hsync n hn a ha m hm o hom hname.symm, fun p hp' => ?_⟩
  refine mem_prefsFor (consumer := n.name) hp ?_
  have := hc rfl n hn a ha (by rw [hname, hp]; rfl) (a.name, p) hp' rfl
  rwa [hname] at this

/-- **C78 (scalar constants).** In every converged import, a scalar constant used where the generated
code needs a native scalar is one there, with the element type of the constant. -/
theorem C78_scalar_constants (S : Store V) (opset : Nat) (E : Rules V) (nodes nodes' : List (Node V))
    (hord : OrderedNodes nodes) (hnd : (nodes.flatMap Node.outNames).Nodup)
    (h : inferTypes (registry S opset E) nodes = some (nodes', true)) (m n : Node V) (o a : Arg V) (v : V) (k : Nat)
    (hm : m ∈ nodes') (hty : m.ty = .constant) (ho : m.outputs[0]? = some o)
    (hv : m.inputs[0]?.bind S.read = some v) (hd : S.dims v = [])
    (hn : n ∈ nodes') (ha : n.inputs[k]? = some a) (hname : a.name = o.name) (hneed : NeedsNative n k) :
    a.ty = .scalarNative (S.dtype v) := by
  obtain ⟨ps, h1, h2, h3⟩ := constant_use hord hnd h hm hty ho hv hn (List.mem_of_getElem? ha) hname
  rw [hd] at h1
  simp only [Infer.constant] at h1
  have hs : a.ty.isScalar = true := by
    rw [← h2, h1]
    split <;> rfl
  have := h3 _ (wants_native hneed ha hs)
  rw [← h2, h1, if_pos (by simpa using this)]
  rfl

/-- **C78 (arrays of dimensions).** In every converged import, a one-dimensional constant of `d`
elements used where the generated code needs an array of dimensions is one of length `d` there. -/
theorem C78_shape_constants (S : Store V) (opset : Nat) (E : Rules V) (nodes nodes' : List (Node V))
    (hord : OrderedNodes nodes) (hnd : (nodes.flatMap Node.outNames).Nodup)
    (h : inferTypes (registry S opset E) nodes = some (nodes', true)) (m n : Node V) (o a : Arg V) (v : V) (k d : Nat)
    (hm : m ∈ nodes') (hty : m.ty = .constant) (ho : m.outputs[0]? = some o)
    (hv : m.inputs[0]?.bind S.read = some v) (hd : S.dims v = [d])
    (hn : n ∈ nodes') (ha : n.inputs[k]? = some a) (hname : a.name = o.name) (hneed : NeedsShape n k) :
    a.ty = .shape d := by
  obtain ⟨ps, h1, h2, h3⟩ := constant_use hord hnd h hm hty ho hv hn (List.mem_of_getElem? ha) hname
  rw [hd] at h1
  simp only [Infer.constant] at h1
  split at h1
  · rw [← h2, h1]; rfl
  · next hne =>
    cases hta : a.ty with
    | tensor t =>
      have hr : t.rank = 1 := by
        rw [h1, hta] at h2
        simp only [ArgType.mergeStaticShape, ArgType.tensor.injEq] at h2
        rw [← h2, merge_rank']
      exact absurd (by simpa using h3 _ (wants_shape hneed ha hta hr)) hne
    | scalarTensor t => rw [h1, hta] at h2; cases h2
    | scalarNative t => rw [h1, hta] at h2; cases h2
    | shape t => rw [h1, hta] at h2; cases h2

/-- **C78 (forms of a constant).** Whatever its consumers ask for, after inference a constant is its own
tensor, with its exact shape, unless it is a scalar (an on-device or native scalar of the same element
type) or one-dimensional (then possibly an array of dimensions of the same length). -/
theorem C78_constant_forms (S : Store V) (opset : Nat) (E : Rules V) (nodes nodes' : List (Node V)) (conv : Bool)
    (hord : OrderedNodes nodes) (hnd : (nodes.flatMap Node.outNames).Nodup)
    (h : inferTypes (registry S opset E) nodes = some (nodes', conv)) (m : Node V) (o : Arg V) (v : V)
    (hm : m ∈ nodes') (hty : m.ty = .constant) (ho : m.outputs[0]? = some o)
    (hv : m.inputs[0]?.bind S.read = some v) :
    (S.dims v = [] ∧ (o.ty = .scalarTensor (S.dtype v) ∨ o.ty = .scalarNative (S.dtype v))) ∨
    (∃ d, S.dims v = [d] ∧ o.ty = .shape d) ∨
    (S.dims v ≠ [] ∧ o.ty = .tensor ⟨S.dtype v, (S.dims v).length, some ((S.dims v).map some)⟩) := by
  obtain ⟨c, ⟨hinf, _⟩, _⟩ := C44_fixed_point _ nodes nodes' conv hord hnd h
  have h1 := constant_type (hinf m hm) hty ho hv
  unfold Infer.constant at h1
  split at h1
  · next he => left; exact ⟨he, by split at h1 <;> simp [h1]⟩
  · next d he =>
    split at h1
    · right; left; exact ⟨d, he, h1⟩
    · right; right; rw [he]; exact ⟨by simp, h1⟩
  · next he _ => right; right; exact ⟨he, h1⟩

theorem wantsOf_host {n : Node V} {w : String × Pref} (h : w ∈ Infer.wantsOf n) : n.ty ∈ hostOperators := by
  obtain ⟨ty, name, inputs, outputs, attrs⟩ := n
  show ty ∈ hostOperators
  cases ty with
  | other op =>
    by_cases h1 : op = "Mod"
    · subst h1; exact (by clear h; decide)
    · by_cases h2 : op = "Equal" ∨ op = "Greater" ∨ op = "Less" ∨ op = "GreaterOrEqual" ∨ op = "LessOrEqual"
      · rcases h2 with rfl | rfl | rfl | rfl | rfl <;> exact (by clear h; decide)
      · by_cases h3 : op = "Where"
        · subst h3; exact (by clear h; decide)
        · by_cases h4 : op = "Range"
          · subst h4; exact (by clear h; decide)
          · by_cases h5 : op = "Loop"
            · subst h5; exact (by clear h; decide)
            · by_cases h6 : op = "If"
              · subst h6; exact (by clear h; decide)
              · simp [Infer.wantsOf, h1, h2, h3, h4, h5, h6] at h
  | _ => first | exact (by clear h; decide) | (simp [Infer.wantsOf] at h)

theorem collectPrefs_sub {R : Rules V} {nodes : List (Node V)} {c : Collected} {e : String × String × Pref}
    (h : e ∈ (collectPrefs R nodes c).1) :
    e ∈ c ∨ ∃ n ∈ nodes, ∃ a ∈ n.inputs, ∃ w ∈ R.wants n, w.1 = a.name ∧ e = (a.name, n.name, w.2) := by
  unfold collectPrefs at h
  rcases List.mem_append.1 h with h | h
  · exact Or.inl h
  · right
    obtain ⟨n, hn, h⟩ := List.mem_flatMap.1 (List.mem_filter.1 h).1
    obtain ⟨a, ha, h⟩ := List.mem_flatMap.1 h
    obtain ⟨w, hw, h⟩ := List.mem_filterMap.1 h
    obtain ⟨hw, hwa⟩ := List.mem_filter.1 hw
    split at h
    · exact ⟨n, hn, a, ha, w, hw, by simpa using hwa, (Option.some.inj h).symm⟩
    · cases h

theorem inferRound_collected {R : Rules V} {first : Bool} {c c' : Collected} {nodes nodes' : List (Node V)}
    {again : Bool} (h : inferRound R first c nodes = some (nodes', c', again)) :
    c' = (collectPrefs R nodes' c).1 := by
  simp only [inferRound] at h
  split at h
  · cases h
  · simp only [Option.some.injEq, Prod.mk.injEq] at h
    obtain ⟨rfl, rfl, _⟩ := h
    rfl

/-- The preferences in force at the end come from consumers of the graph. -/
theorem inferRounds_origin {R : Rules V} (Q : String × String × Pref → Prop) (ks : List (Skeleton V))
    (hQ : ∀ ns : List (Node V), ns.map Node.skel = ks → ∀ n ∈ ns, ∀ a ∈ n.inputs, ∀ w ∈ R.wants n,
      w.1 = a.name → Q (a.name, n.name, w.2)) :
    ∀ {k : Nat} {first : Bool} {c : Collected} {nodes nodes' : List (Node V)} {conv : Bool},
    OrderedNodes nodes → (nodes.flatMap Node.outNames).Nodup → nodes.map Node.skel = ks → (∀ e ∈ c, Q e) →
    (k = 0 → ∃ c0, (∀ e ∈ c0, Q e) ∧ Consistent R (prefsFor nodes c0) nodes) →
    inferRounds R k first c nodes = some (nodes', conv) →
    ∃ c0, (∀ e ∈ c0, Q e) ∧ Consistent R (prefsFor nodes' c0) nodes' := by
  intro k
  induction k with
  | zero =>
    intro first c nodes nodes' conv _ _ _ _ hk h
    simp only [inferRounds, Option.some.injEq, Prod.mk.injEq] at h
    obtain ⟨rfl, rfl⟩ := h
    exact hk rfl
  | succ k ih =>
    intro first c nodes nodes' conv ho hnd hks hc _ h
    simp only [inferRounds] at h
    split at h
    · cases h
    · next n1 c1 again hround =>
      have hsk := inferRound_skel hround
      obtain ⟨h1, _⟩ := inferRound_consistent ho hnd hround
      rw [prefsFor_skel hsk.symm] at h1
      split at h
      · refine ih (ordered_skel hsk.symm ho) (by rw [skels_outNames hsk]; exact hnd) (hsk.trans hks) ?_
          (fun _ => ⟨c, hc, h1⟩) h
        intro e he
        rw [inferRound_collected hround] at he
        rcases collectPrefs_sub he with he | ⟨n, hn, a, ha, w, hw, hwa, rfl⟩
        · exact hc e he
        · exact hQ n1 (hsk.trans hks) n hn a ha w hw hwa
      · simp only [Option.some.injEq, Prod.mk.injEq] at h
        obtain ⟨rfl, rfl⟩ := h
        exact ⟨c, hc, h1⟩

/-- **C78 (constants nobody asks about).** If no operator that works with native scalars or arrays of
dimensions uses a constant, then it stays on the device, with its exact shape. -/
theorem C78_device_constants (S : Store V) (opset : Nat) (E : Rules V) (nodes nodes' : List (Node V)) (conv : Bool)
    (hord : OrderedNodes nodes) (hnd : (nodes.flatMap Node.outNames).Nodup)
    (h : inferTypes (registry S opset E) nodes = some (nodes', conv)) (m : Node V) (o : Arg V) (v : V)
    (hm : m ∈ nodes') (hty : m.ty = .constant) (ho : m.outputs[0]? = some o)
    (hv : m.inputs[0]?.bind S.read = some v)
    (huse : ∀ n ∈ nodes', ∀ a ∈ n.inputs, a.name = o.name → n.ty ∉ hostOperators) :
    (S.dims v = [] → o.ty = .scalarTensor (S.dtype v)) ∧
    (S.dims v ≠ [] → o.ty = .tensor ⟨S.dtype v, (S.dims v).length, some ((S.dims v).map some)⟩) := by
  have hsk := inferTypes_skel h
  unfold inferTypes at h
  split at h
  swap
  · cases h
  obtain ⟨c, hc, hinf, _⟩ := inferRounds_origin (R := registry S opset E) (fun e => e.1 ≠ o.name)
    (nodes.map Node.skel) (by
      intro ns hns n hn a ha w hw hwa heq
      have hmem : n.skel ∈ nodes'.map Node.skel := by rw [hsk, ← hns]; exact List.mem_map.2 ⟨n, hn, rfl⟩
      obtain ⟨n', hn', he⟩ := List.mem_map.1 hmem
      have hin : a.name ∈ n'.inNames := by
        rw [skel_inNames he]; exact List.mem_map.2 ⟨a, ha, rfl⟩
      obtain ⟨a', ha', han⟩ := List.mem_map.1 hin
      refine huse n' hn' a' ha' (han.trans heq) ?_
      have : n'.ty = n.ty := congrArg Skeleton.ty he
      rw [this]
      exact wantsOf_host hw) hord hnd rfl (by simp) (by simp [maxRounds]) h
  have h1 := constant_type (hinf m hm) hty ho hv
  have hnone : prefsFor nodes' c m.name o.name = [] := by
    unfold prefsFor
    rw [List.map_eq_nil_iff, List.filter_eq_nil_iff]
    intro e he
    simp [hc e he]
  rw [hnone] at h1
  unfold Infer.constant at h1
  split at h1
  · next he => exact ⟨fun _ => by simpa using h1, fun h => absurd he h⟩
  · next d he => rw [he]; exact ⟨fun h => (by cases h), fun _ => by simpa using h1⟩
  · next he _ => exact ⟨fun h => absurd h he, fun _ => h1⟩

/-! ## One form for all consumers -/

namespace PreferencesExample

/-- The constants: `c = [2, 3]`, the scalar `s` and the matrix `w`. -/
def store : Store String where
  value _ src := match src with
    | .static v => some v
    | _ => none
  dims v := if v = "c" then [2] else if v = "w" then [2, 2] else []
  dtype _ := .i64
  ints _ := none

def others : Rules String := ⟨fun _ => true, fun _ => true, fun _ _ => none, fun _ => []⟩

def arg (x : String) (t : ArgType := .tensor ⟨.f32, 0, none⟩) : Arg String := ⟨x, t, .dynamic⟩

def const (x : String) : Node String :=
  ⟨.constant, "k" ++ x, [⟨"", .tensor ⟨.i64, 0, none⟩, .static x⟩], [arg x], []⟩

def image : ArgType := .tensor ⟨.f32, 2, none⟩

/-- The dimensions of `x` times `c`, plus `s`. -/
def shapes : List (Node String) :=
  [const "c", const "s", ⟨.shape, "n1", [arg "x" image], [arg "d"], []⟩,
   ⟨.mul, "n2", [arg "d", arg "c"], [arg "p"], []⟩,
   ⟨.add, "n3", [arg "s", arg "p"], [arg "r"], []⟩]

/-- `c` times the matrix `w`. -/
def product : List (Node String) :=
  [const "w", ⟨.matMul, "n4", [arg "c", arg "w"], [arg "q"], []⟩]

/-- Both constants are used in the form the generated code needs, and inference converges. -/
example : ∃ nodes', inferTypes (registry store 17 others) shapes = some (nodes', true) ∧
    nodes'.map (fun n => n.inputs.map Arg.ty) =
      [[.tensor ⟨.i64, 0, none⟩], [.tensor ⟨.i64, 0, none⟩], [image], [.shape 2, .shape 2],
       [.scalarNative .i64, .shape 2]] := by
  refine ⟨((inferTypes (registry store 17 others) shapes).getD ([], false)).1, ?_, ?_⟩ <;> decide +kernel

example : OrderedNodes shapes ∧ (shapes.flatMap Node.outNames).Nodup := by
  simp [OrderedNodes, shapes, Node.inNames, Node.outNames, const, arg]

/-- The operand positions of the example. -/
example : NeedsNative (⟨.add, "n3", [arg "s", arg "p" (.shape 2)], [arg "r"], []⟩ : Node String) 0 ∧
    NeedsShape (⟨.mul, "n2", [arg "d" (.shape 2), arg "c"], [arg "p"], []⟩ : Node String) 1 :=
  ⟨.arithmetic (d := arg "p" (.shape 2)) 0 1 (by simp [shapeArithmetic]) rfl rfl rfl (Or.inl ⟨2, rfl⟩),
   .arithmetic (d := arg "d" (.shape 2)) (r := 2) 1 0 (by simp [shapeArithmetic]) rfl rfl rfl rfl⟩

/-- A constant used only by `MatMul` stays a tensor. -/
example : ∃ nodes', inferTypes (registry store 17 others) (const "c" :: product) = some (nodes', true) ∧
    (∀ n ∈ nodes', ∀ a ∈ n.inputs, a.name = "c" → n.ty ∉ hostOperators) := by
  refine ⟨((inferTypes (registry store 17 others) (const "c" :: product)).getD ([], false)).1, ?_, ?_⟩ <;>
    decide +kernel

end PreferencesExample

open PreferencesExample in
/-- **C78, disagreement.** A constant has one form for all its consumers. Each of these two graphs is
imported, but the graph with the nodes of both, in which the integer vector `c` multiplies a shape and
is also an operand of `MatMul`, is refused: `c` becomes an array of dimensions for both. -/
theorem C78_shared_constant_refused :
    (inferTypes (registry store 17 others) shapes).isSome = true ∧
    (inferTypes (registry store 17 others) (const "c" :: product)).isSome = true ∧
    inferTypes (registry store 17 others) (shapes ++ product) = none := by
  decide +kernel

end OnnxIR
