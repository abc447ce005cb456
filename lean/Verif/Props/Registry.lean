import Verif.Model.Registry
import Verif.Props.Conv
import Verif.Props.OpRules2
import Verif.Props.OpRules3
import Verif.Props.RegistryBroadcast
import Verif.Props.Reshape
import Verif.Props.ShapeOp
import Verif.Props.Split
import Verif.Props.TypeInference
import Verif.Props.Views
import Verif.Spec.OnnxRun

/-!
# C15 for the rules of the library

`C15_inference_sound` takes soundness of the operator rules as a hypothesis. Here it is proved for the
table of rules, from the theorems about single operators, for every run that follows the ONNX
definitions and stays within what each rule gets right.
-/

namespace OnnxIR

variable {V : Type}

open Infer

/-- The stored constant of an input. -/
def Store.at (S : Store V) (k : Skeleton V) (i : Nat) : Option V := k.inputs[i]?.bind fun a => S.value a.1 a.2

/-- The constants the importer knows are those of the run. -/
def Store.True (S : Store V) (σ : Shapes) (ν : Contents) (k : Skeleton V) : Prop :=
  ∀ i v, S.at k i = some v → (∀ s, Onnx.inShape σ k i = some s → s = S.dims v) ∧
    ∀ l w, S.ints v = some l → Onnx.inInts ν k i = some w → w = l

/-- The list given to the node is known at import: an attribute or a stored constant. -/
def KnownList (S : Store V) (k : Skeleton V) (key : String) (l : List Int) : Prop :=
  k.attrs.lookup key = some (.i64s l) ∨ ∃ v, S.at k 1 = some v ∧ S.ints v = some l

/-- What the rules get right (each restriction is needed: see the `_wrong` theorems of C16, C18, C22,
C20, C29, C30, C32, C43 and C47). -/
def Onnx.Law.Supported (S : Store V) (σ : Shapes) (k : Skeleton V) : Onnx.Law → Prop
  | .broadcast => ∀ ss out, k.inputs.mapM (fun a => σ a.1) = some ss → bcastAll ss = some out →
      (∀ s ∈ ss, s = out ∨ s = []) ∨
      ∃ a b, ss = [a, b] ∧ (a = out ∧ b.length < out.length ∨ b = out ∧ a.length < out.length)
  | .squeeze => ∃ as, as ≠ [] ∧ KnownList S k "axes" as
  | .gather => ∀ n si, Onnx.inShape σ k 0 = some [n] → Onnx.inShape σ k 1 = some si → si = [] ∨ si = [1]
  | .concat => ∀ (i : Nat) d, Onnx.inShape σ k i = some [d] → d = 1 ∨ S.at k i ≠ none
  | .reshape => Onnx.inShape σ k 0 ≠ some [] ∧ ∃ t, t ≠ [0] ∧ KnownList S k "shape" t
  | .shape => ∀ s start stop, Onnx.inShape σ k 0 = some s → Onnx.IntAttr k "start" 0 start →
      Onnx.OptAttr k "end" stop →
      0 ≤ fromBack s.length start ∧ fromBack s.length start ≤ fromBack s.length (stop.getD s.length) ∧
      fromBack s.length (stop.getD s.length) ≤ s.length ∧
      (s.length = 1 → (onnxShape start stop s).length = 1)
  | .matmul => ∀ a b, Onnx.inShape σ k 0 = some a → Onnx.inShape σ k 1 = some b →
      ¬ (a.length = 1 ∧ b.length = 1)
  | .reduce => (∃ as, as ≠ [] ∧ KnownList S k "axes" as) ∨
      k.attrs.lookup "axes" = none ∧ k.inputs.length = 1 ∧ k.attrs.lookup "keepdims" = some (.i64 0)
  | .gatherElements => ∀ s, Onnx.inShape σ k 0 = some s → 2 ≤ s.length
  | .scatter => ∀ s, Onnx.inShape σ k 0 = some s → 2 ≤ s.length
  | .conv n => ∀ m pads out, Onnx.ModeGiven k m → Onnx.ConvRun σ k n m pads out →
      m = .notSet ∨ m = .valid ∧ ∀ p ∈ pads, p = (0, 0)
  | .resized => ∀ s y out, Onnx.inShape σ k 0 = some s → y ∈ k.outputs → σ y.1 = some out → out = s
  | .sameAll => k.outputs.length ≤ 1 ∨ ∀ s, Onnx.inShape σ k 0 = some s → 2 ≤ s.length
  | .expand => ∃ v t, S.at k 1 = some v ∧ S.ints v = some (t.map Int.ofNat) ∧
      ∀ s, Onnx.inShape σ k 0 = some s → bcast s t = some t
  | .select => ∀ c x y out, Onnx.inShape σ k 0 = some c → Onnx.inShape σ k 1 = some x → Onnx.inShape σ k 2 = some y →
      bcastAll [c, x, y] = some out → 2 ≤ out.length ∧ ∀ s ∈ [c, x, y], s = out ∨ s = []
  | _ => True

/-- The law a rule of the table is written for. -/
def lawFor : Rule → Onnx.Law
  | .same => .same | .broadcast _ => .broadcast | .constant => .constant | .cast => .same
  | .transpose => .transpose | .flatten => .flatten | .squeeze => .squeeze | .unsqueeze => .unsqueeze
  | .gather => .gather | .concat => .concat | .reshape => .reshape | .shape => .shape
  | .matmul => .matmul | .matmulInteger => .matmul | .gemm => .gemm | .reduce => .reduce
  | .argmax => .argmax | .topk => .topk | .gatherElements => .gatherElements | .scatter => .scatter
  | .conv n => .conv n | .deformConv => .deformConv | .rankOnly => .keepRank | .copied => .resized
  | .batchNorm => .batchNorm | .depthToSpace => .depthToSpace | .spaceToDepth => .spaceToDepth
  | .gatherND => .gatherND | .split => .split | .nonZero => .nonZero | .oneHot => .oneHot
  | .constantOfShape => .constantOfShape | .eyeLike => .same | .bernoulli => .same
  | .randomLike => .same | .range => .vector | .dropout => .sameAll | .size => .scalar | .expand => .expand
  | .where_ => .select

theorem table_law : ∀ p ∈ ruleTable, Onnx.lawOf p.1 = some (lawFor p.2) := by decide +kernel

theorem mem_of_lookup {α β : Type} [BEq α] [LawfulBEq α] {l : List (α × β)} {a : α} {b : β}
    (h : l.lookup a = some b) : (a, b) ∈ l := by
  induction l with
  | nil => simp at h
  | cons p ps ih =>
    rw [List.lookup_cons] at h
    split at h
    · next he => simp only [Option.some.injEq] at h; simp at he; subst h he; simp
    · exact List.mem_cons_of_mem _ (ih h)

/-- Every operator with a law is in the table, with a rule for that law. -/
theorem ruleOf_law {t : NodeType} {law : Onnx.Law} (h : Onnx.lawOf t = some law) :
    ∃ r, ruleOf t = some r ∧ lawFor r = law := by
  have key : (ruleOf t).isSome := by
    cases t with
    | other name =>
      have h1 : ∀ p ∈ Onnx.namedLaws, (ruleOf (.other p.1)).isSome := by decide +kernel
      exact h1 _ (mem_of_lookup (show Onnx.namedLaws.lookup name = some law from h))
    | linear => simp [Onnx.lawOf] at h
    | attention => simp [Onnx.lawOf] at h
    | slice => simp [Onnx.lawOf] at h
    | _ => decide +kernel
  obtain ⟨r, hr⟩ := Option.isSome_iff_exists.1 key
  refine ⟨r, hr, ?_⟩
  have := table_law _ (mem_of_lookup hr)
  simp only [h, Option.some.injEq] at this
  exact this.symm

/-! ## Reading a node through its skeleton -/

/-- The types are right about the outputs of the node. -/
def Right (σ : Shapes) (m : Node V) (tys : List ArgType) : Prop :=
  ∀ (k : Nat) (o : Arg V), m.outputs[k]? = some o → ∀ s, σ o.name = some s → ((tys[k]?).getD o.ty).Admits s

theorem Right.single {σ : Shapes} {m : Node V} {p : List Nat → Prop} {t : ArgType}
    (h : Onnx.Single σ m.skel p) (hp : ∀ out, p out → t.Admits out) : Right σ m [t] := by
  obtain ⟨y, src, ho, hout⟩ := h
  intro k o hk s hs
  have h1 : (m.skel.outputs)[k]? = some (o.name, o.src) := by simp [Node.skel, hk]
  rw [ho] at h1
  cases k with
  | zero =>
    simp only [List.getElem?_cons_zero, Option.some.injEq, Prod.mk.injEq] at h1
    simp only [List.getElem?_cons_zero, Option.getD_some]
    exact hp s (hout s (h1.1 ▸ hs))
  | succ k => simp at h1

theorem inTy_fits {σ : Shapes} {m : Node V} (hin : ∀ a ∈ m.inputs, Truthful σ a) {i : Nat} {s : List Nat}
    {t : ArgType} (hs : Onnx.inShape σ m.skel i = some s) (ht : inTy m i = some t) : t.Fits s := by
  simp only [Onnx.inShape, Node.skel, List.getElem?_map] at hs
  simp only [inTy] at ht
  cases ha : m.inputs[i]? with
  | none => simp [ha] at ht
  | some a =>
    simp only [ha, Option.map_some, Option.bind_some, Option.some.injEq] at hs ht
    subst ht
    exact hin a (List.mem_of_getElem? ha) s hs

theorem at_read (S : Store V) (m : Node V) (i : Nat) : m.inputs[i]?.bind S.read = S.at m.skel i := by
  simp only [Store.at, Node.skel, List.getElem?_map]
  cases m.inputs[i]? <;> rfl

theorem attrInt_law {m : Node V} {key : String} {d a b : Int} (h : attrInt m key d = some a)
    (hl : Onnx.IntAttr m.skel key d b) : a = b := by
  simp only [attrInt] at h
  simp only [Onnx.IntAttr, Node.skel] at hl
  rcases hl with ⟨h1, rfl⟩ | h1
  · rw [h1] at h; simpa using h.symm
  · rw [h1] at h; simpa using h.symm

theorem attrInt?_law {m : Node V} {key : String} {d : Int} {a : Option Int} {b : Int}
    (h : attrInt? m key = some a) (hl : Onnx.IntAttr m.skel key d b) : a.getD d = b := by
  simp only [attrInt?] at h
  simp only [Onnx.IntAttr, Node.skel] at hl
  rcases hl with ⟨h1, rfl⟩ | h1
  · rw [h1] at h; simp at h; subst h; rfl
  · rw [h1] at h; simp at h; subst h; rfl

theorem attrInt?_opt {m : Node V} {key : String} {a b : Option Int}
    (h : attrInt? m key = some a) (hl : Onnx.OptAttr m.skel key b) : a = b := by
  simp only [attrInt?] at h
  simp only [Onnx.OptAttr, Node.skel] at hl
  rcases hl with ⟨h1, rfl⟩ | ⟨v, h1, rfl⟩
  · rw [h1] at h; simpa using h.symm
  · rw [h1] at h; simpa using h.symm

theorem skel_length (m : Node V) : m.skel.inputs.length = m.inputs.length := by simp [Node.skel]

theorem at_one_none {S : Store V} {k : Skeleton V} (h : k.inputs.length = 1) : S.at k 1 = none := by
  simp [Store.at, List.getElem?_eq_none (by omega : k.inputs.length ≤ 1)]

theorem inInts_one_none {ν : Contents} {k : Skeleton V} (h : k.inputs.length = 1) :
    Onnx.inInts ν k 1 = none := by
  simp [Onnx.inInts, List.getElem?_eq_none (by omega : k.inputs.length ≤ 1)]

theorem known_given {S : Store V} {σ : Shapes} {ν : Contents} {k : Skeleton V} {key : String}
    {l l' : List Int} (ht : S.True σ ν k) (hk : KnownList S k key l) (hg : Onnx.ListGiven σ ν k key l') :
    l' = l := by
  rcases hg with ⟨h1, h2⟩ | ⟨h1, h2, -⟩
  · rcases hk with h | ⟨v, hv, -⟩
    · rw [h1] at h; simpa using h
    · rw [at_one_none h2] at hv; cases hv
  · rcases hk with h | ⟨v, hv, hi⟩
    · rw [h1] at h; cases h
    · exact (ht 1 v hv).2 l l' hi h2

theorem fits_all {σ : Shapes} {as : List (Arg V)} (hin : ∀ a ∈ as, Truthful σ a) {ss : List (List Nat)}
    (h : (as.map fun a => (a.name, a.src)).mapM (fun a => σ a.1) = some ss) :
    AdmitsAll (as.map Arg.ty) ss ∧ NoRankZero (as.map Arg.ty) := by
  induction as generalizing ss with
  | nil =>
    simp at h; subst h
    exact ⟨.nil, by simp [NoRankZero]⟩
  | cons a as ih =>
    simp only [List.map_cons, List.mapM_cons, Option.bind_eq_bind, Option.bind_eq_some_iff,
      Option.pure_def, Option.some.injEq] at h
    obtain ⟨s, hs, ss', hss, rfl⟩ := h
    obtain ⟨h1, h2⟩ := ih (fun b hb => hin b (by simp [hb])) hss
    have hf := hin a (by simp) s hs
    refine ⟨.cons hf.1 h1, ?_⟩
    intro t ht
    rcases List.mem_cons.1 ht with h | h
    · have := hf.2 t h.symm; omega
    · exact h2 t h

theorem mapM_get {α β : Type} {f : α → Option β} {l : List α} {r : List β} (h : l.mapM f = some r)
    (i : Nat) : r[i]? = l[i]?.bind f := by
  induction l generalizing r i with
  | nil => simp at h; subst h; simp
  | cons a l ih =>
    simp only [List.mapM_cons, Option.bind_eq_bind, Option.bind_eq_some_iff, Option.pure_def,
      Option.some.injEq] at h
    obtain ⟨b, hb, r', hr, rfl⟩ := h
    cases i with
    | zero => simp [hb]
    | succ i => simpa using ih hr i

theorem mapM_each {α β : Type} {f : α → Option β} {l : List α} {r : List β} (h : l.mapM f = some r)
    {i : Nat} {a : α} (hi : l[i]? = some a) : ∃ b, f a = some b := by
  induction l generalizing r i with
  | nil => simp at hi
  | cons c l ih =>
    simp only [List.mapM_cons, Option.bind_eq_bind, Option.bind_eq_some_iff, Option.pure_def,
      Option.some.injEq] at h
    obtain ⟨b, hb, r', hr, rfl⟩ := h
    cases i with
    | zero => simp at hi; subst hi; exact ⟨b, hb⟩
    | succ i => exact ih hr (by simpa using hi)

theorem inInts_one_none' {ν : Contents} {m : Node V} (h : m.inputs.length ≤ 1) :
    Onnx.inInts ν m.skel 1 = none := by
  simp [Onnx.inInts, Node.skel, List.getElem?_eq_none h]

theorem AdmitsAll.length_eq {ts : List ArgType} {ss : List (List Nat)} (h : AdmitsAll ts ss) :
    ts.length = ss.length := by
  induction h with
  | nil => rfl
  | cons _ _ ih => simp [ih]

/-! ## Each rule is right -/

variable {S : Store V} {σ : Shapes} {ν : Contents} {m : Node V} {opset : Nat} {prefs : OutPrefs}
  {tys : List ArgType}

/-- The shape of the stored constant of an input. -/
def Store.shapeAt (S : Store V) (k : Skeleton V) (i : Nat) : Option (List Nat) := (S.at k i).map S.dims

theorem right_same (hin : ∀ a ∈ m.inputs, Truthful σ a)
    (hl : Onnx.Law.Holds σ ν (S.shapeAt m.skel) m.skel .same)
    (ha : apply S opset m prefs .same = some tys) : Right σ m tys := by
  simp only [apply, Option.map_eq_some_iff] at ha
  obtain ⟨t, ht, rfl⟩ := ha
  refine Right.single hl fun out ho => ?_
  cases hi : m.inputs with
  | nil => simp [hi, sameAsInput] at ht
  | cons a rest =>
    refine C14_same_shape_sound (x := a.ty) (rest := rest.map Arg.ty) (by simp [hi]) ?_ ht
    exact (inTy_fits hin ho (by simp [inTy, hi])).1

theorem right_cast (hin : ∀ a ∈ m.inputs, Truthful σ a)
    (hl : Onnx.Law.Holds σ ν (S.shapeAt m.skel) m.skel .same)
    (ha : apply S opset m prefs .cast = some tys) : Right σ m tys := by
  simp only [apply] at ha
  split at ha
  · next d x _ hx =>
    simp only [Option.bind_eq_some_iff, Option.map_eq_some_iff] at ha
    obtain ⟨dt, -, t, ht, rfl⟩ := ha
    exact Right.single hl fun out ho => C14_cast_sound (inTy_fits hin ho hx).1 ht
  · cases ha

theorem right_broadcast {d : Option DType} (hin : ∀ a ∈ m.inputs, Truthful σ a)
    (hl : Onnx.Law.Holds σ ν (S.shapeAt m.skel) m.skel .broadcast)
    (hs : Onnx.Law.Supported S σ m.skel .broadcast)
    (ha : apply S opset m prefs (.broadcast d) = some tys) : Right σ m tys := by
  simp only [apply, Option.map_eq_some_iff] at ha
  obtain ⟨t, ht, rfl⟩ := ha
  refine Right.single hl fun out ho => ?_
  obtain ⟨ss, hss, hb⟩ := ho
  obtain ⟨h1, h2⟩ := fits_all hin hss
  rcases hs ss out hss hb with he | ⟨a, b, rfl, he⟩
  · exact C16_equal_or_scalar h1 h2 he hb ht
  · have hlen := h1.length_eq
    generalize m.inputs.map Arg.ty = l at *
    match l, hlen with
    | [x, y], _ =>
      cases h1 with
      | cons hx h1 =>
        cases h1 with
        | cons hy _ => exact C16_two_operands hx hy h2 he hb ht

theorem right_constant 
    (hl : Onnx.Law.Holds σ ν (S.shapeAt m.skel) m.skel .constant)
    (ha : apply S opset m prefs .constant = some tys) : Right σ m tys := by
  simp only [apply] at ha
  split at ha
  · next v o hv _ =>
    simp only [Option.some.injEq] at ha
    subst ha
    refine Right.single hl fun out ho => ?_
    rw [at_read] at hv
    simp only [Store.shapeAt, hv, Option.map_some, Option.some.injEq] at ho
    subst ho
    exact C14_constant_sound _ _ _ _
  · cases ha

theorem right_transpose (hin : ∀ a ∈ m.inputs, Truthful σ a)
    (hl : Onnx.Law.Holds σ ν (S.shapeAt m.skel) m.skel .transpose)
    (ha : apply S opset m prefs .transpose = some tys) : Right σ m tys := by
  simp only [apply] at ha
  split at ha
  · next p x hp hx =>
    simp only [Option.map_eq_some_iff] at ha
    obtain ⟨t, ht, rfl⟩ := ha
    refine Right.single hl fun out ho => ?_
    obtain ⟨s, perm, hs, ho, hperm⟩ := ho
    refine C14_transpose_sound (inTy_fits hin hs hx).1 ht ?_ ho
    simp only [attrInts] at hp
    rcases hperm with h | ⟨h, rfl⟩
    · simp only [Node.skel] at h
      rw [h] at hp; simp at hp; subst hp; rfl
    · simp only [Node.skel] at h
      rw [h] at hp; simp at hp; subst hp; rfl
  · cases ha

theorem right_flatten (hin : ∀ a ∈ m.inputs, Truthful σ a)
    (hl : Onnx.Law.Holds σ ν (S.shapeAt m.skel) m.skel .flatten)
    (ha : apply S opset m prefs .flatten = some tys) : Right σ m tys := by
  simp only [apply] at ha
  split at ha
  · next p x hp hx =>
    simp only [Option.map_eq_some_iff] at ha
    obtain ⟨t, ht, rfl⟩ := ha
    refine Right.single hl fun out ho => ?_
    obtain ⟨s, a, hs, hax, ho⟩ := ho
    refine C50_flatten_type (inTy_fits hin hs hx).1 ht ?_
    rw [attrInt?_law hp hax]; exact ho
  · cases ha

theorem squeezeAxes_known {l : List Int} {r : Option (List Int)} (hne : l ≠ [])
    (hk : KnownList S m.skel "axes" l) (hlen : m.skel.attrs.lookup "axes" = none ∨ m.skel.inputs.length = 1)
    (h : squeezeAxes S opset m = some r) : r = some l := by
  simp only [squeezeAxes, attrInts] at h
  rcases hk with hk | ⟨v, hv, hi⟩
  · simp only [Node.skel] at hk
    rw [hk] at h
    simp only [hne, if_false] at h
    split at h
    · cases h
    · simpa using h.symm
  · rcases hlen with hlen | hlen
    · simp only [Node.skel] at hlen
      rw [hlen] at h
      rw [← at_read] at hv
      cases ha : m.inputs[1]? with
      | none => simp [ha] at hv
      | some a =>
        simp only [ha, Option.bind_some] at hv
        simp only [ha, hv, hi, Option.some.injEq] at h
        exact h.symm
    · rw [at_one_none hlen] at hv; cases hv

theorem right_squeeze (hin : ∀ a ∈ m.inputs, Truthful σ a) (htrue : S.True σ ν m.skel)
    (hl : Onnx.Law.Holds σ ν (S.shapeAt m.skel) m.skel .squeeze)
    (hs : Onnx.Law.Supported S σ m.skel .squeeze)
    (ha : apply S opset m prefs .squeeze = some tys) : Right σ m tys := by
  simp only [apply] at ha
  split at ha
  · next p x hp hx =>
    simp only [Option.map_eq_some_iff] at ha
    obtain ⟨t, ht, rfl⟩ := ha
    refine Right.single hl fun out ho => ?_
    obtain ⟨l, hne, hk⟩ := hs
    obtain ⟨s, hs, ho⟩ := ho
    rcases ho with ⟨as, hg, ho⟩ | ⟨h1, h2, -⟩
    · have := known_given htrue hk hg
      subst this
      have hax := squeezeAxes_known hne hk (by rcases hg with h | h; exacts [.inr h.2, .inl h.1]) hp
      subst hax
      exact C22_squeeze_axes (inTy_fits hin hs hx).1 ht hne ho
    · rcases hk with h | ⟨v, hv, -⟩
      · rw [h1] at h; cases h
      · rw [at_one_none h2] at hv; cases hv
  · cases ha

theorem right_unsqueeze (hin : ∀ a ∈ m.inputs, Truthful σ a) (htrue : S.True σ ν m.skel)
    (hl : Onnx.Law.Holds σ ν (S.shapeAt m.skel) m.skel .unsqueeze)
    (ha : apply S opset m prefs .unsqueeze = some tys) : Right σ m tys := by
  simp only [apply] at ha
  split at ha
  · next p x o hp hx _ =>
    simp only [Option.map_eq_some_iff] at ha
    obtain ⟨t, ht, rfl⟩ := ha
    refine Right.single hl fun out ho => ?_
    obtain ⟨s, as, hs, hg, ho⟩ := ho
    simp only [unsqueezeAxes, attrInts] at hp
    rcases hg with ⟨h1, h2⟩ | ⟨h1, h2, h3⟩
    · simp only [Node.skel] at h1
      rw [h1] at hp
      have hp' : p = some as := by
        simp only at hp
        split at hp
        · cases hp
        · simpa using hp.symm
      subst hp'
      refine C22_unsqueeze (known := true) (inTy_fits hin hs hx).1 ?_ ht ho
      intro ty hty
      rw [skel_length] at h2
      simp [inTy, List.getElem?_eq_none (by omega : m.inputs.length ≤ 1)] at hty
    · simp only [Node.skel] at h1
      rw [h1] at hp
      have hax : ∀ ty, inTy m 1 = some ty → ty.Admits [as.length] := fun ty hty => (inTy_fits hin h3 hty).1
      cases ha : m.inputs[1]? with
      | none => simp [ha] at hp
      | some a =>
        have hread : readInts S a = some p := by
          simp only [ha] at hp
          split at hp
          · split at hp
            · cases hp
            · exact hp
          · cases hp
          · exact hp
        simp only [readInts] at hread
        have hat := at_read S m 1
        simp only [ha, Option.bind_some] at hat
        split at hread
        · simp at hread; subst hread
          exact C22_unsqueeze (known := false) (inTy_fits hin hs hx).1 hax ht ho
        · next v hv =>
          simp only [Option.map_eq_some_iff] at hread
          obtain ⟨l, hl', rfl⟩ := hread
          have := (htrue 1 v (by rw [← hat, hv])).2 l as hl' h2
          subst this
          exact C22_unsqueeze (known := true) (inTy_fits hin hs hx).1 hax ht ho
  · cases ha

theorem right_gather (hin : ∀ a ∈ m.inputs, Truthful σ a)
    (hl : Onnx.Law.Holds σ ν (S.shapeAt m.skel) m.skel .gather)
    (hs : Onnx.Law.Supported S σ m.skel .gather)
    (ha : apply S opset m prefs .gather = some tys) : Right σ m tys := by
  simp only [apply] at ha
  split at ha
  · next a x i hax hx hi =>
    simp only [Option.map_eq_some_iff] at ha
    obtain ⟨t, ht, rfl⟩ := ha
    refine Right.single hl fun out ho => ?_
    obtain ⟨s, si, a', h0, h1, haxis, ho⟩ := ho
    have := attrInt_law hax haxis
    subst this
    have hfx := inTy_fits hin h0 hx
    have hfi := inTy_fits hin h1 hi
    cases x with
    | tensor tt => exact C47_gather_tensor hfx.1 hfi.1 ht ho
    | shape n =>
      have hsn : s = [n] := hfx.1
      subst hsn
      by_cases hni : ∀ u, i ≠ .tensor u
      · exact C47_gather_shape_partial hfi.1 ht ho hni
      · obtain ⟨u, rfl⟩ : ∃ u, i = .tensor u := Classical.not_forall_not.1 hni
        have hr := hfi.2 u rfl
        rcases hs n si h0 h1 with rfl | rfl
        · have := hfi.1.1; simp at this; exact absurd this.symm hr
        · have hr1 : u.rank = 1 := hfi.1.1.symm
          simp only [Infer.gather, gatherIdxRank, hr1] at ht
          split at ht
          · cases ht
          · simp only [Nat.one_ne_zero, if_false, Option.some.injEq] at ht
            subst ht
            simp only [Onnx.gather, Option.map_eq_some_iff, Onnx.axis] at ho
            obtain ⟨k, hk, rfl⟩ := ho
            have hk0 : k = 0 := by
              split at hk
              · next hb =>
                simp only [List.length_singleton, Option.some.injEq] at hk hb
                split at hk <;> omega
              · cases hk
            subst hk0
            rfl
    | scalarTensor d =>
      have : s = [] := hfx.1
      subst this
      simp only [Onnx.gather, Onnx.axis, Option.map_eq_some_iff] at ho
      obtain ⟨k, hk, -⟩ := ho
      split at hk
      · next hb => simp only [List.length_nil] at hb; omega
      · cases hk
    | scalarNative d =>
      have : s = [] := hfx.1
      subst this
      simp only [Onnx.gather, Onnx.axis, Option.map_eq_some_iff] at ho
      obtain ⟨k, hk, -⟩ := ho
      split at hk
      · next hb => simp only [List.length_nil] at hb; omega
      · cases hk
  · cases ha

theorem right_concat (hin : ∀ a ∈ m.inputs, Truthful σ a) (htrue : S.True σ ν m.skel)
    (hl : Onnx.Law.Holds σ ν (S.shapeAt m.skel) m.skel .concat)
    (hs : Onnx.Law.Supported S σ m.skel .concat)
    (ha : apply S opset m prefs .concat = some tys) : Right σ m tys := by
  simp only [apply] at ha
  split at ha
  · simp only [Option.map_eq_some_iff] at ha
    obtain ⟨t, ht, rfl⟩ := ha
    refine Right.single hl fun out ho => ?_
    obtain ⟨ss, a, i, hss, -, -, ho⟩ := ho
    obtain ⟨h1, -⟩ := fits_all hin hss
    refine concat_type (by simpa [Function.comp_def] using h1) ?_ ht ho
    intro j p s hp hsj
    have hshape : Onnx.inShape σ m.skel j = some s := by
      have := mapM_get hss j
      rw [hsj] at this
      rw [Onnx.inShape, ← this]
    simp only [List.getElem?_map, Option.map_eq_some_iff] at hp
    obtain ⟨arg, harg, rfl⟩ := hp
    have hat := at_read S m j
    rw [harg, Option.bind_some] at hat
    refine ⟨?_, ?_⟩
    · intro v hv
      simp only [Option.map_eq_some_iff] at hv
      obtain ⟨w, hw, rfl⟩ := hv
      exact (htrue j w (by rw [← hat, hw])).1 s hshape
    · intro _ u hu hr
      have hf := hin arg (List.mem_of_getElem? harg) s
        (by simpa [Onnx.inShape, Node.skel, harg] using hshape)
      simp only at hu
      rw [hu] at hf
      have hl1 : s.length = 1 := hf.1.1.trans hr
      match s, hl1 with
      | [d], _ =>
        rcases hs j d hshape with rfl | h
        · exact .inr (.inr rfl)
        · refine .inl ?_
          rw [← hat] at h
          simpa using h
  · cases ha

theorem right_reshape (hin : ∀ a ∈ m.inputs, Truthful σ a) (htrue : S.True σ ν m.skel)
    (hl : Onnx.Law.Holds σ ν (S.shapeAt m.skel) m.skel .reshape)
    (hs : Onnx.Law.Supported S σ m.skel .reshape)
    (ha : apply S opset m prefs .reshape = some tys) : Right σ m tys := by
  simp only [apply] at ha
  split at ha
  · next az tg x o haz htg hx _ =>
    simp only [Option.map_eq_some_iff] at ha
    obtain ⟨t, ht, rfl⟩ := ha
    refine Right.single hl fun out ho => ?_
    obtain ⟨s, az', target, h0, hal, -, hg, ho⟩ := ho
    obtain ⟨hns, l, hne, hk⟩ := hs
    have := attrInt_law haz hal
    subst this
    have := known_given htrue hk hg
    subst this
    have htgt : tg = some target := by
      simp only [reshapeTarget, at_read, attrInts] at htg
      rcases hk with hk | ⟨v, hv, hi⟩
      · rcases hg with ⟨h1, h2⟩ | ⟨h1, -⟩
        · simp only [Node.skel] at h1
          rw [at_one_none h2, h1] at htg
          simpa using htg.symm
        · rw [h1] at hk; cases hk
      · rw [hv] at htg
        simp only [hi] at htg
        simpa using htg.symm
    subst htgt
    have hfx := inTy_fits hin h0 hx
    cases x with
    | tensor tt => exact C18_reshape_constant hfx.1 (.inl ⟨_, rfl⟩) ht ho
    | scalarTensor d => exact C18_reshape_constant hfx.1 (.inr ⟨_, rfl⟩) ht ho
    | shape n =>
      have hsn : s = [n] := hfx.1
      subst hsn
      exact C18_reshape_shape_partial ht ho hne
    | scalarNative d =>
      have hsn : s = [] := hfx.1
      subst hsn
      exact absurd h0 hns
  · cases ha

theorem right_shape (hin : ∀ a ∈ m.inputs, Truthful σ a)
    (hl : Onnx.Law.Holds σ ν (S.shapeAt m.skel) m.skel .shape)
    (hs : Onnx.Law.Supported S σ m.skel .shape)
    (ha : apply S opset m prefs .shape = some tys) : Right σ m tys := by
  simp only [apply] at ha
  split at ha
  · next b e x hb he hx =>
    simp only [Option.map_eq_some_iff] at ha
    obtain ⟨t, ht, rfl⟩ := ha
    refine Right.single hl fun out ho => ?_
    obtain ⟨s, start, stop, h0, hst, hen, rfl⟩ := ho
    have h1 := attrInt?_law hb hst
    have h2 := attrInt?_opt he hen
    subst h2
    have hfx := inTy_fits hin h0 hx
    obtain ⟨g1, g2, g3, g4⟩ := hs s start e h0 hst hen
    cases x with
    | tensor tt =>
      have hd := (C43_defined_iff (start := b) (stop := e) (dims := s)).2 (by rw [h1]; exact ⟨g1, g2, g3⟩)
      obtain ⟨v, hv⟩ := Option.isSome_iff_exists.1 hd
      have hval := C43_generated_value hv
      rw [h1] at hval
      rw [← hval]
      exact C43_type_matches_code hfx.1 ht hv
    | shape n =>
      have hsn : s = [n] := hfx.1
      simp only [Infer.shape, Option.some.injEq] at ht
      subst ht hsn
      show _ = _
      rw [g4 rfl]
    | scalarTensor d => simp [Infer.shape] at ht
    | scalarNative d => simp [Infer.shape] at ht
  · cases ha

theorem right_matmul (hin : ∀ a ∈ m.inputs, Truthful σ a)
    (hl : Onnx.Law.Holds σ ν (S.shapeAt m.skel) m.skel .matmul)
    (hs : Onnx.Law.Supported S σ m.skel .matmul)
    (ha : apply S opset m prefs .matmul = some tys) : Right σ m tys := by
  simp only [apply] at ha
  split at ha
  · next x y hx hy =>
    simp only [Option.map_eq_some_iff] at ha
    obtain ⟨t, ht, rfl⟩ := ha
    refine Right.single hl fun out ho => ?_
    obtain ⟨a, b, h0, h1, ho⟩ := ho
    exact C30_matmul_type_partial (inTy_fits hin h0 hx).1 (inTy_fits hin h1 hy).1 ht ho (hs a b h0 h1)
  · cases ha

theorem right_matmulInteger (hin : ∀ a ∈ m.inputs, Truthful σ a)
    (hl : Onnx.Law.Holds σ ν (S.shapeAt m.skel) m.skel .matmul)
    (hs : Onnx.Law.Supported S σ m.skel .matmul)
    (ha : apply S opset m prefs .matmulInteger = some tys) : Right σ m tys := by
  simp only [apply] at ha
  split at ha
  · next x y hx hy =>
    simp only [Option.map_eq_some_iff] at ha
    obtain ⟨t, ht, rfl⟩ := ha
    refine Right.single hl fun out ho => ?_
    obtain ⟨a, b, h0, h1, ho⟩ := ho
    exact C30_matmulinteger_type_partial (inTy_fits hin h0 hx).1 (inTy_fits hin h1 hy).1 ht ho
      (hs a b h0 h1)
  · cases ha

theorem right_gemm (hin : ∀ a ∈ m.inputs, Truthful σ a)
    (hl : Onnx.Law.Holds σ ν (S.shapeAt m.skel) m.skel .gemm)
    (ha : apply S opset m prefs .gemm = some tys) : Right σ m tys := by
  simp only [apply] at ha
  split at ha
  · next x y hx hy =>
    simp only [Option.map_eq_some_iff] at ha
    obtain ⟨t, ht, rfl⟩ := ha
    refine Right.single hl fun out ho => ?_
    obtain ⟨a, b, ta, tb, h0, h1, -, -, ho⟩ := ho
    exact C14_gemm_sound (inTy_fits hin h0 hx).1 (inTy_fits hin h1 hy).1 ht ho
  · cases ha

theorem right_reduce (hin : ∀ a ∈ m.inputs, Truthful σ a) (htrue : S.True σ ν m.skel)
    (hl : Onnx.Law.Holds σ ν (S.shapeAt m.skel) m.skel .reduce)
    (hs : Onnx.Law.Supported S σ m.skel .reduce)
    (ha : apply S opset m prefs .reduce = some tys) : Right σ m tys := by
  simp only [apply] at ha
  split at ha
  · next axs kd x haxs hkd hx =>
    simp only [Option.map_eq_some_iff] at ha
    obtain ⟨t, ht, rfl⟩ := ha
    refine Right.single hl fun out ho => ?_
    obtain ⟨s, keep, h0, hke, -, ho⟩ := ho
    have := attrInt_law hkd hke
    subst this
    have hfx := inTy_fits hin h0 hx
    simp only [reduceAxes, at_read, attrInts] at haxs
    rcases hs with ⟨l, hne, hk⟩ | ⟨hno, hone, hk0⟩
    · rcases ho with ⟨as, hg, ho⟩ | ⟨h1, h2, -⟩
      · have := known_given htrue hk hg
        subst this
        have hax : axs = as := by
          rcases hk with hk | ⟨v, hv, hi⟩
          · rcases hg with ⟨h1, h2⟩ | ⟨h1, -⟩
            · simp only [Node.skel] at h1
              rw [at_one_none h2, h1] at haxs
              simpa using haxs.symm
            · rw [h1] at hk; cases hk
          · rw [hv] at haxs
            simp only [hi] at haxs
            split at haxs
            · simpa using haxs.symm
            · cases haxs
        subst hax
        exact C32_reduce_axes_type hfx.1 ht hne ho
      · rcases hk with h | ⟨v, hv, -⟩
        · rw [h1] at h; cases h
        · rw [at_one_none h2] at hv; cases hv
    · rcases ho with ⟨as, hg, -⟩ | ⟨h1, h2, ho⟩
      · rcases hg with ⟨h, -⟩ | ⟨-, h, -⟩
        · rw [hno] at h; cases h
        · rw [inInts_one_none hone] at h; cases h
      · simp only [Node.skel] at h1
        rw [at_one_none h2, h1] at haxs
        simp at haxs
        subst haxs
        have hk : kd = 0 := by
          simp only [Node.skel] at hk0
          simp only [attrInt, hk0] at hkd
          simpa using hkd.symm
        subst hk
        have := C32_reduce_all_drop_type hfx.1 ht
        have ho' : Onnx.reduce [] false s = some out := ho
        rw [this.1] at ho'
        cases ho'
        exact this.2
  · cases ha

theorem right_argmax (hin : ∀ a ∈ m.inputs, Truthful σ a)
    (hl : Onnx.Law.Holds σ ν (S.shapeAt m.skel) m.skel .argmax)
    (ha : apply S opset m prefs .argmax = some tys) : Right σ m tys := by
  simp only [apply] at ha
  split at ha
  · next kd x hkd hx =>
    split at ha
    · next h01 =>
      simp only [Option.map_eq_some_iff] at ha
      obtain ⟨t, ht, rfl⟩ := ha
      refine Right.single hl fun out ho => ?_
      obtain ⟨s, a, keep, h0, -, hke, ho⟩ := ho
      have := attrInt_law hkd hke
      subst this
      have e : (kd != 0) = (kd == 1) := by rcases h01 with rfl | rfl <;> rfl
      rw [e] at ht
      exact C47_argmax_type (inTy_fits hin h0 hx).1 ht ho
    · cases ha
  · cases ha

theorem right_topk (hin : ∀ a ∈ m.inputs, Truthful σ a)
    (hl : Onnx.Law.Holds σ ν (S.shapeAt m.skel) m.skel .topk)
    (ha : apply S opset m prefs .topk = some tys) : Right σ m tys := by
  simp only [apply, Option.bind_eq_some_iff, Option.map_eq_some_iff] at ha
  obtain ⟨x, hx, ⟨t, u⟩, ht, rfl⟩ := ha
  obtain ⟨y, z, src, src', houts, hl⟩ := hl
  intro k o hk s hs
  have h1 : (m.skel.outputs)[k]? = some (o.name, o.src) := by simp [Node.skel, hk]
  rw [houts] at h1
  match k, h1 with
  | 0, h1 =>
    simp only [List.getElem?_cons_zero, Option.some.injEq, Prod.mk.injEq] at h1
    obtain ⟨s', a, n, h0, -, ho⟩ := hl o.name s (.inl h1.1.symm) hs
    exact (C47_topk_type (inTy_fits hin h0 hx).1 ht ho).1
  | 1, h1 =>
    simp only [List.getElem?_cons_succ, List.getElem?_cons_zero, Option.some.injEq, Prod.mk.injEq] at h1
    obtain ⟨s', a, n, h0, -, ho⟩ := hl o.name s (.inr h1.1.symm) hs
    exact (C47_topk_type (inTy_fits hin h0 hx).1 ht ho).2
  | k + 2, h1 => simp at h1

theorem tensor_of_long {t : ArgType} {s : List Nat} (h : t.Admits s) (hl : 2 ≤ s.length) :
    ∃ u, t = .tensor u := by
  cases t with
  | tensor u => exact ⟨u, rfl⟩
  | shape n => have : s = [n] := h; subst this; simp at hl
  | scalarTensor d => have : s = [] := h; subst this; simp at hl
  | scalarNative d => have : s = [] := h; subst this; simp at hl

theorem right_gatherElements (hin : ∀ a ∈ m.inputs, Truthful σ a)
    (hl : Onnx.Law.Holds σ ν (S.shapeAt m.skel) m.skel .gatherElements)
    (hs : Onnx.Law.Supported S σ m.skel .gatherElements)
    (ha : apply S opset m prefs .gatherElements = some tys) : Right σ m tys := by
  simp only [apply] at ha
  split at ha
  · next x i hx hi =>
    simp only [Option.some.injEq] at ha
    cases hg : Infer.gatherElements x i with
    | some t =>
      rw [hg] at ha
      subst ha
      refine Right.single hl fun out ho => ?_
      exact C14_gather_elements_sound (inTy_fits hin ho.1 hi).1 hg
    | none =>
      intro k o hk s hsh
      obtain ⟨y, src, hone, hout⟩ := hl
      have h1 : (m.skel.outputs)[k]? = some (o.name, o.src) := by simp [Node.skel, hk]
      rw [hone] at h1
      cases k with
      | succ k => simp at h1
      | zero =>
        simp only [List.getElem?_cons_zero, Option.some.injEq, Prod.mk.injEq] at h1
        obtain ⟨h2, s', h3, h4⟩ := hout s (h1.1 ▸ hsh)
        have hlen := hs s' h3
        obtain ⟨u, rfl⟩ := tensor_of_long (inTy_fits hin h3 hx).1 hlen
        obtain ⟨w, rfl⟩ := tensor_of_long (inTy_fits hin h2 hi).1 (h4 ▸ hlen)
        simp [Infer.gatherElements] at hg
  · cases ha

theorem right_scatter (hin : ∀ a ∈ m.inputs, Truthful σ a)
    (hl : Onnx.Law.Holds σ ν (S.shapeAt m.skel) m.skel .scatter)
    (hs : Onnx.Law.Supported S σ m.skel .scatter)
    (ha : apply S opset m prefs .scatter = some tys) : Right σ m tys := by
  simp only [apply] at ha
  split at ha
  · next u hx =>
    simp only [Option.some.injEq] at ha
    subst ha
    exact Right.single hl fun out ho => (inTy_fits hin ho hx).1
  · next x hnt hx =>
    intro k o hk s hsh
    obtain ⟨y, src, hone, hout⟩ := hl
    have h1 : (m.skel.outputs)[k]? = some (o.name, o.src) := by simp [Node.skel, hk]
    rw [hone] at h1
    cases k with
    | succ k => simp at h1
    | zero =>
      simp only [List.getElem?_cons_zero, Option.some.injEq, Prod.mk.injEq] at h1
      have h3 := hout s (h1.1 ▸ hsh)
      obtain ⟨u, rfl⟩ := tensor_of_long (inTy_fits hin h3 hx).1 (hs s h3)
      exact absurd rfl (hnt u)
  · cases ha

/-! ### Convolution and pooling -/

theorem attrInts_given {key : String} {d l : List Nat} {r : Option (List Int)}
    (h : attrInts m key = some r) (hg : Onnx.SizesGiven m.skel key d l) :
    SizesAttr r (d.map Int.ofNat) l ∧ (r = some [] → False) := by
  obtain ⟨hb, hg⟩ := hg
  simp only [attrInts] at h
  simp only [Node.skel] at hg
  rcases hg with ⟨h1, rfl⟩ | ⟨h1, hne⟩
  · rw [h1] at h; simp at h; subst h
    exact ⟨⟨rfl, hb⟩, by simp⟩
  · rw [h1] at h; simp at h; subst h
    exact ⟨⟨rfl, hb⟩, by simpa using hne⟩

theorem convAttrs_given {n : Nat} {a : WindowAttrs} {mo : Onnx.PadMode} {am : AutoPad}
    {ws ss ds : List Nat} {pads : List (Nat × Nat)}
    (h : windowAttrs m = some a) (ham : am.mode = mo)
    (hmo : Onnx.ModeGiven m.skel mo)
    (hk : Onnx.SizesGiven m.skel "kernel_shape" (ws.drop 2) (ws.drop 2))
    (hss : Onnx.SizesGiven m.skel "strides" (List.replicate n 1) ss)
    (hds : Onnx.SizesGiven m.skel "dilations" (List.replicate n 1) ds)
    (hp : Onnx.PadsGiven m.skel n pads) : ConvAttrs n a ws am pads ss ds := by
  simp only [windowAttrs] at h
  split at h
  · next k s p d au h1 h2 h3 h4 h5 =>
    simp only [Option.some.injEq] at h
    subst h
    refine ⟨(attrInts_given h1 hk).1, fun e => (attrInts_given h1 hk).2 e, ?_, ?_, ?_, ?_⟩
    · simpa using (attrInts_given h2 hss).1
    · simpa using (attrInts_given h4 hds).1
    · simp only [attrInts] at h3
      simp only [Onnx.PadsGiven, Node.skel] at hp
      rcases hp with ⟨e, rfl⟩ | ⟨l, e, hl⟩
      · rw [e] at h3; simp at h3; subst h3
        refine ⟨by simp, ?_⟩
        simp [Nat.two_mul]
      · rw [e] at h3; simp at h3; subst h3
        exact hl
    · simp only [attrStr] at h5
      simp only [Onnx.ModeGiven, Node.skel] at hmo
      rw [ham]
      rcases hmo with ⟨e, rfl⟩ | e
      · rw [e] at h5; simp at h5; subst h5; rfl
      · rw [e] at h5; simp at h5; subst h5; rfl
  · cases h

theorem exists_mode (mo : Onnx.PadMode) : ∃ am : AutoPad, am.mode = mo := by
  cases mo
  · exact ⟨.notSet, rfl⟩
  · exact ⟨.sameUpper, rfl⟩
  · exact ⟨.sameLower, rfl⟩
  · exact ⟨.valid, rfl⟩

theorem mode_inj {a b : AutoPad} (h : a.mode = b.mode) : a = b := by cases a <;> cases b <;> simp_all [AutoPad.mode]

theorem weight_given (htrue : S.True σ ν m.skel) {ws : List Nat} (h : Onnx.inShape σ m.skel 1 = some ws) :
    ∀ s, (m.inputs[1]?.bind S.read).map S.dims = some s → s = ws := by
  intro s hs
  rw [at_read] at hs
  obtain ⟨v, hv, rfl⟩ := Option.map_eq_some_iff.1 hs
  exact ((htrue 1 v hv).1 ws h).symm

theorem right_conv {n : Nat} (hin : ∀ a ∈ m.inputs, Truthful σ a) (htrue : S.True σ ν m.skel)
    (hl : Onnx.Law.Holds σ ν (S.shapeAt m.skel) m.skel (.conv n))
    (hs : Onnx.Law.Supported S σ m.skel (.conv n))
    (ha : apply S opset m prefs (.conv n) = some tys) : Right σ m tys := by
  simp only [apply] at ha
  split at ha
  · next a x w hat hx hw =>
    simp only [Option.map_eq_some_iff] at ha
    obtain ⟨t, ht, rfl⟩ := ha
    refine Right.single hl fun out ho => ?_
    obtain ⟨mo, pads, hmo, hrun⟩ := ho
    have hsup := hs mo pads out hmo hrun
    obtain ⟨xs, ws, ss, ds, h0, h1, hk, hss, hds, hp, hshape⟩ := hrun
    obtain ⟨am, rfl⟩ := exists_mode mo
    have hattr := convAttrs_given hat rfl hmo hk hss hds hp
    have hfrom : SizesFromPads am pads := by
      rcases hsup with h | ⟨h, h2⟩
      · exact .inl (mode_inj (b := .notSet) h)
      · exact .inr ⟨mode_inj (b := .valid) h, h2⟩
    have hfx := (inTy_fits hin h0 hx).1
    have hfw := (inTy_fits hin h1 hw).1
    have hwt := weight_given htrue h1
    split at ht
    · exact C21_conv1d_partial hfx hfw hwt hattr hfrom hshape ht
    · exact C21_conv2d_partial hfx hfw hwt hattr hfrom hshape ht
    · exact C21_conv3d_partial hfx hfw hwt hattr hfrom hshape ht
    · cases ht
  · cases ha

theorem convAttrs_notSet {n : Nat} {a : WindowAttrs} {am : AutoPad} {ws ss ds : List Nat}
    {pads : List (Nat × Nat)} (h : ConvAttrs n a ws am pads ss ds) :
    ConvAttrs n { a with autoPad := none } ws .notSet pads ss ds :=
  ⟨h.kernel, h.kernelNonempty, h.strides, h.dilations, h.pads, rfl⟩

theorem windowAttrs_sizes {n : Nat} {a : WindowAttrs} {ws ss ds : List Nat} {pads : List (Nat × Nat)}
    (h : windowAttrs m = some a)
    (hk : Onnx.SizesGiven m.skel "kernel_shape" (ws.drop 2) (ws.drop 2))
    (hss : Onnx.SizesGiven m.skel "strides" (List.replicate n 1) ss)
    (hds : Onnx.SizesGiven m.skel "dilations" (List.replicate n 1) ds)
    (hp : Onnx.PadsGiven m.skel n pads) : ConvAttrs n { a with autoPad := none } ws .notSet pads ss ds := by
  simp only [windowAttrs] at h
  split at h
  · next k s p d au h1 h2 h3 h4 h5 =>
    simp only [Option.some.injEq] at h
    subst h
    refine ⟨(attrInts_given h1 hk).1, fun e => (attrInts_given h1 hk).2 e, ?_, ?_, ?_, rfl⟩
    · simpa using (attrInts_given h2 hss).1
    · simpa using (attrInts_given h4 hds).1
    · simp only [attrInts] at h3
      simp only [Onnx.PadsGiven, Node.skel] at hp
      rcases hp with ⟨e, rfl⟩ | ⟨l, e, hl⟩
      · rw [e] at h3; simp at h3; subst h3
        refine ⟨by simp, ?_⟩
        simp [Nat.two_mul]
      · rw [e] at h3; simp at h3; subst h3
        exact hl
  · cases h

theorem right_deformConv (hin : ∀ a ∈ m.inputs, Truthful σ a) (htrue : S.True σ ν m.skel)
    (hl : Onnx.Law.Holds σ ν (S.shapeAt m.skel) m.skel .deformConv)
    (ha : apply S opset m prefs .deformConv = some tys) : Right σ m tys := by
  simp only [apply] at ha
  split at ha
  · next a x w hat hx hw =>
    simp only [Option.map_eq_some_iff] at ha
    obtain ⟨t, ht, rfl⟩ := ha
    refine Right.single hl fun out ho => ?_
    obtain ⟨pads, xs, ws, ss, ds, h0, h1, hk, hss, hds, hp, hshape⟩ := ho
    have hattr := windowAttrs_sizes hat hk hss hds hp
    refine C21_deformConv_partial (a := { a with autoPad := none }) (inTy_fits hin h0 hx).1
      (inTy_fits hin h1 hw).1 (weight_given htrue h1) hattr hshape ?_
    rw [← ht]
    rfl
  · cases ha

theorem right_rankOnly (hin : ∀ a ∈ m.inputs, Truthful σ a)
    (hl : Onnx.Law.Holds σ ν (S.shapeAt m.skel) m.skel .keepRank)
    (ha : apply S opset m prefs .rankOnly = some tys) : Right σ m tys := by
  simp only [apply, Option.bind_eq_some_iff, Option.map_eq_some_iff] at ha
  obtain ⟨x, hx, t, ht, rfl⟩ := ha
  refine Right.single hl fun out ho => ?_
  obtain ⟨s, h0, hr⟩ := ho
  exact C14_rank_only_sound (inTy_fits hin h0 hx).1 ht hr

theorem right_copied (hin : ∀ a ∈ m.inputs, Truthful σ a)
    (hl : Onnx.Law.Holds σ ν (S.shapeAt m.skel) m.skel .resized)
    (hs : Onnx.Law.Supported S σ m.skel .resized)
    (ha : apply S opset m prefs .copied = some tys) : Right σ m tys := by
  simp only [apply, Option.bind_eq_some_iff, Option.map_eq_some_iff] at ha
  obtain ⟨x, hx, t, ht, rfl⟩ := ha
  have hl' : Onnx.Single σ m.skel fun out => Onnx.inShape σ m.skel 0 = some out := by
    obtain ⟨y, src, ho, h⟩ := hl
    refine ⟨y, src, ho, fun out hout => ?_⟩
    obtain ⟨s, h0, -⟩ := h out hout
    rw [hs s (y, src) out h0 (by simp [ho]) hout]
    exact h0
  exact Right.single hl' fun out ho => C14_scatter_sound (inTy_fits hin ho hx).1 ht

theorem right_batchNorm (hin : ∀ a ∈ m.inputs, Truthful σ a) (htrue : S.True σ ν m.skel)
    (hl : Onnx.Law.Holds σ ν (S.shapeAt m.skel) m.skel .batchNorm)
    (ha : apply S opset m prefs .batchNorm = some tys) : Right σ m tys := by
  simp only [apply] at ha
  split at ha
  · next x sc hx hsc =>
    simp only [Option.map_eq_some_iff] at ha
    obtain ⟨t, ht, rfl⟩ := ha
    refine Right.single hl fun out ho => ?_
    obtain ⟨s, c, h0, h1, ho⟩ := ho
    exact C14_batchnorm_sound (inTy_fits hin h0 hx).1 (inTy_fits hin h1 hsc).1 (weight_given htrue h1) ht ho
  · cases ha

theorem describes_four {a b c d : Option Nat} {s : List Nat} (h : PShape.Describes [a, b, c, d] s) :
    ∃ w x y z, s = [w, x, y, z] ∧ (∀ k, a = some k → k = w) ∧ (∀ k, b = some k → k = x) ∧
      (∀ k, c = some k → k = y) ∧ (∀ k, d = some k → k = z) := by
  match s, h with
  | [w, x, y, z], h => exact ⟨w, x, y, z, rfl, h.1, h.2.1, h.2.2.1, h.2.2.2.1⟩

theorem describes_len_four {p : PShape} {w x y z : Nat} (h : p.Describes [w, x, y, z]) :
    ∃ a b c d, p = [a, b, c, d] := by
  match p, h with
  | [a, b, c, d], _ => exact ⟨a, b, c, d, rfl⟩

theorem right_depthToSpace (hin : ∀ a ∈ m.inputs, Truthful σ a)
    (hl : Onnx.Law.Holds σ ν (S.shapeAt m.skel) m.skel .depthToSpace)
    (ha : apply S opset m prefs .depthToSpace = some tys) : Right σ m tys := by
  simp only [apply] at ha
  split at ha
  · next b x hb hx =>
    simp only [Option.map_eq_some_iff] at ha
    obtain ⟨t, ht, rfl⟩ := ha
    refine Right.single hl fun out ho => ?_
    obtain ⟨bs, n, c, h, w, hattr, hlt, h0, rfl⟩ := ho
    simp only [Node.skel] at hattr
    rw [hattr] at hb
    simp only [Option.some.injEq, AttrVal.i64.injEq] at hb
    subst hb
    have hu : OnnxIR.asUsize (bs : Int) = bs := asUsize_nat hlt
    rw [hu] at ht
    have hf := (inTy_fits hin h0 hx).1
    cases x with
    | tensor u =>
      simp only [Infer.depthToSpace] at ht
      split at ht
      · cases ht
      · next hc =>
        obtain ⟨hb0, hr⟩ := not_or.1 hc
        have hr4 : u.rank = 4 := Classical.not_not.1 hr
        have hpos : 0 < bs * bs := Nat.mul_pos (by omega) (by omega)
        split at ht
        · cases ht; exact ⟨by simp [hr4], by simp⟩
        · next q1 q2 q3 q4 hp =>
          simp only [Option.some.injEq] at ht
          subst ht
          refine ⟨by simp [hr4], ?_⟩
          intro p' hp'
          simp only [Option.some.injEq] at hp'
          subst hp'
          obtain ⟨w', x', y', z', he, g1, g2, g3, g4⟩ := describes_four (hf.2 _ hp)
          simp only [List.cons.injEq, and_true] at he
          obtain ⟨rfl, rfl, rfl, rfl⟩ := he
          refine ⟨g1, ?_, ?_, ?_, trivial⟩
          · intro k hk
            obtain ⟨v, hv, rfl⟩ := Option.map_eq_some_iff.1 hk
            rw [g2 v hv, Nat.mul_div_cancel _ hpos]
          · intro k hk
            obtain ⟨v, hv, rfl⟩ := Option.map_eq_some_iff.1 hk
            rw [g3 v hv]
          · intro k hk
            obtain ⟨v, hv, rfl⟩ := Option.map_eq_some_iff.1 hk
            rw [g4 v hv]
        · cases ht
    | _ => simp [Infer.depthToSpace] at ht
  · cases ha

theorem right_spaceToDepth (hin : ∀ a ∈ m.inputs, Truthful σ a)
    (hl : Onnx.Law.Holds σ ν (S.shapeAt m.skel) m.skel .spaceToDepth)
    (ha : apply S opset m prefs .spaceToDepth = some tys) : Right σ m tys := by
  simp only [apply] at ha
  split at ha
  · next b x hb hx =>
    simp only [Option.map_eq_some_iff] at ha
    obtain ⟨t, ht, rfl⟩ := ha
    refine Right.single hl fun out ho => ?_
    obtain ⟨bs, n, c, h, w, hattr, hlt, h0, rfl⟩ := ho
    simp only [Node.skel] at hattr
    rw [hattr] at hb
    simp only [Option.some.injEq, AttrVal.i64.injEq] at hb
    subst hb
    have hu : OnnxIR.asUsize (bs : Int) = bs := asUsize_nat hlt
    rw [hu] at ht
    have hf := (inTy_fits hin h0 hx).1
    cases x with
    | tensor u =>
      simp only [Infer.spaceToDepth] at ht
      split at ht
      · cases ht
      · next hc =>
        obtain ⟨hb0, hr⟩ := not_or.1 hc
        have hr4 : u.rank = 4 := Classical.not_not.1 hr
        have hpos : 0 < bs := by omega
        split at ht
        · cases ht; exact ⟨by simp [hr4], by simp⟩
        · next q1 q2 q3 q4 hp =>
          simp only [Option.some.injEq] at ht
          subst ht
          refine ⟨by simp [hr4], ?_⟩
          intro p' hp'
          simp only [Option.some.injEq] at hp'
          subst hp'
          obtain ⟨w', x', y', z', he, g1, g2, g3, g4⟩ := describes_four (hf.2 _ hp)
          simp only [List.cons.injEq, and_true] at he
          obtain ⟨rfl, rfl, rfl, rfl⟩ := he
          refine ⟨g1, ?_, ?_, ?_, trivial⟩
          · intro k hk
            obtain ⟨v, hv, rfl⟩ := Option.map_eq_some_iff.1 hk
            rw [g2 v hv]
          · intro k hk
            obtain ⟨v, hv, rfl⟩ := Option.map_eq_some_iff.1 hk
            rw [g3 v hv, Nat.mul_div_cancel _ hpos]
          · intro k hk
            obtain ⟨v, hv, rfl⟩ := Option.map_eq_some_iff.1 hk
            rw [g4 v hv, Nat.mul_div_cancel _ hpos]
        · cases ht
    | _ => simp [Infer.spaceToDepth] at ht
  · cases ha

theorem describes_last {p : PShape} {s : List Nat} {d : Nat} {o : Option Nat} (h : p.Describes (s ++ [d]))
    (hl : p.getLast? = some o) : ∀ k, o = some k → k = d := by
  induction s generalizing p with
  | nil =>
    match p, h with
    | [c], h => simp at hl; subst hl; exact h.1
  | cons a s ih =>
    match p, h with
    | c :: cs, h =>
      refine ih h.2 ?_
      have hne : cs ≠ [] := by
        intro e; subst e
        have := h.2
        cases s <;> simp [PShape.Describes] at this
      simpa [List.getLast?_cons, hne, List.getLast?_eq_some_getLast hne] using hl

theorem right_gatherND (hin : ∀ a ∈ m.inputs, Truthful σ a)
    (hl : Onnx.Law.Holds σ ν (S.shapeAt m.skel) m.skel .gatherND)
    (ha : apply S opset m prefs .gatherND = some tys) : Right σ m tys := by
  simp only [apply] at ha
  split at ha
  · next b x i hb hx hi =>
    simp only [Option.map_eq_some_iff] at ha
    obtain ⟨t, ht, rfl⟩ := ha
    refine Right.single hl fun out ho => ?_
    obtain ⟨b', n, s, pre, hattr, hlt, h0, h1, hle, rfl⟩ := ho
    have := attrInt_law hb hattr
    subst this
    have hfx := (inTy_fits hin h0 hx).1
    have hfi := (inTy_fits hin h1 hi).1
    cases x with
    | tensor u =>
      cases i with
      | tensor v =>
        simp only [Infer.gatherND] at ht
        have hu : Infer.asUsize (b' : Int) = b' := by simp [Infer.asUsize]
        rw [hu] at ht
        split at ht
        · cases ht
        · split at ht
          · cases ht
          · next k hk =>
            have hkn : k = n := by
              obtain ⟨p, hp, hk⟩ := Option.bind_eq_some_iff.1 hk
              obtain ⟨o, ho, hk⟩ := Option.bind_eq_some_iff.1 hk
              exact describes_last (hfi.2 p hp) ho k hk
            subst hkn
            have hr1 := hfi.1
            have hr0 := hfx.1
            simp only [List.length_append, List.length_singleton] at hr1
            split at ht
            · cases ht
            · split at ht
              · next h0' =>
                cases ht
                show pre ++ s.drop (b' + k) = []
                apply List.eq_nil_of_length_eq_zero
                simp only [List.length_append, List.length_drop]
                omega
              · cases ht
                refine ⟨?_, by simp⟩
                simp only [List.length_append, List.length_drop]
                omega
      | _ => simp [Infer.gatherND] at ht
    | _ => simp [Infer.gatherND] at ht
  · cases ha

theorem right_split (hin : ∀ a ∈ m.inputs, Truthful σ a) (htrue : S.True σ ν m.skel)
    (hl : Onnx.Law.Holds σ ν (S.shapeAt m.skel) m.skel .split)
    (ha : apply S opset m prefs .split = some tys) : Right σ m tys := by
  simp only [apply] at ha
  split at ha
  · next a sizes x hax hsz hx =>
    obtain ⟨s, a', i, h0, hattr, hi, hout⟩ := hl
    have := attrInt_law hax hattr
    subst this
    intro j o hj out hsh
    have hjl : j < m.outputs.length := by
      rcases Nat.lt_or_ge j m.outputs.length with h | h
      · exact h
      · simp [List.getElem?_eq_none h] at hj
    have hget := mapM_get ha j
    simp only [List.getElem?_range hjl, Option.bind_some] at hget
    have h1 : m.skel.outputs[j]? = some (o.name, o.src) := by simp [Node.skel, hj]
    obtain ⟨d, rfl, hd⟩ := hout j _ out h1 hsh
    cases hty : Infer.splitOutput x a sizes j with
    | none => 
      have hlen : ∃ t, Infer.splitOutput x a sizes j = some t := mapM_each ha (i := j) (List.getElem?_range hjl)
      obtain ⟨t, ht⟩ := hlen
      rw [hty] at ht
      cases ht
    | some t =>
      rw [hget, hty]
      refine C19_split_type (inTy_fits hin h0 hx).1 hi ?_ hty
      intro l v hl hv
      simp only [splitSizes] at hsz
      rcases hd with ⟨h1, hd⟩ | ⟨l', hl', hd⟩
      · rw [skel_length] at h1
        simp only [h1, Nat.lt_irrefl, if_false, attrInts] at hsz
        split at hsz
        · cases hsz; cases hl
        · next he =>
          simp only [Option.some.injEq] at hsz
          subst hsz
          simp only [Option.some.injEq] at hl
          subst hl
          exact hd _ v he hv
        · cases hsz
      · have hlt : 1 < m.inputs.length := by
          rcases Nat.lt_or_ge 1 m.inputs.length with h | h
          · exact h
          · rw [inInts_one_none' h] at hl'; cases hl'
        simp only [hlt, if_true, Option.some.injEq] at hsz
        rw [hl] at hsz
        obtain ⟨w, hw, hwi⟩ := Option.bind_eq_some_iff.1 hsz
        have hw' := (Option.filter_eq_some_iff.1 hw).1
        rw [at_read] at hw'
        have := (htrue 1 w hw').2 l l' hwi hl'
        subst this
        exact hd v hv
  · cases ha

theorem right_nonZero (hin : ∀ a ∈ m.inputs, Truthful σ a)
    (hl : Onnx.Law.Holds σ ν (S.shapeAt m.skel) m.skel .nonZero)
    (ha : apply S opset m prefs .nonZero = some tys) : Right σ m tys := by
  simp only [apply, Option.bind_eq_some_iff, Option.map_eq_some_iff] at ha
  obtain ⟨x, hx, t, ht, rfl⟩ := ha
  refine Right.single hl fun out ho => ?_
  obtain ⟨s, found, h0, rfl⟩ := ho
  exact C14_nonzero_sound (inTy_fits hin h0 hx).1 found ht

theorem right_oneHot (hin : ∀ a ∈ m.inputs, Truthful σ a)
    (hl : Onnx.Law.Holds σ ν (S.shapeAt m.skel) m.skel .oneHot)
    (ha : apply S opset m prefs .oneHot = some tys) : Right σ m tys := by
  simp only [apply] at ha
  split at ha
  · next x d hx hd =>
    simp only [Option.map_eq_some_iff] at ha
    obtain ⟨t, ht, rfl⟩ := ha
    refine Right.single hl fun out ho => ?_
    obtain ⟨s, a, depth, h0, -, ho⟩ := ho
    exact C47_onehot_type (inTy_fits hin h0 hx).1 ht ho
  · cases ha

theorem right_constantOfShape (hin : ∀ a ∈ m.inputs, Truthful σ a) (htrue : S.True σ ν m.skel)
    (hl : Onnx.Law.Holds σ ν (S.shapeAt m.skel) m.skel .constantOfShape)
    (ha : apply S opset m prefs .constantOfShape = some tys) : Right σ m tys := by
  simp only [apply] at ha
  split at ha
  · next d x hd hx =>
    simp only [Option.map_eq_some_iff] at ha
    obtain ⟨t, ht, rfl⟩ := ha
    refine Right.single hl fun out ho => ?_
    obtain ⟨v, hv, h0, ho⟩ := ho
    refine C14_constant_of_shape_sound (inTy_fits hin h0 hx).1 ?_ ht ho
    intro w hw
    obtain ⟨u, hu, hw⟩ := Option.bind_eq_some_iff.1 hw
    rw [at_read] at hu
    exact ((htrue 0 u hu).2 w v hw hv).symm
  · cases ha

theorem right_eyeLike (hin : ∀ a ∈ m.inputs, Truthful σ a)
    (hl : Onnx.Law.Holds σ ν (S.shapeAt m.skel) m.skel .same)
    (ha : apply S opset m prefs .eyeLike = some tys) : Right σ m tys := by
  simp only [apply] at ha
  split at ha
  · next d t hd hx =>
    split at ha
    · simp only [Option.map_eq_some_iff] at ha
      obtain ⟨t, ht, rfl⟩ := ha
      exact Right.single hl fun out ho => C14_like_sound (inTy_fits hin ho hx).1 ht
    · cases ha
  · cases ha

theorem right_bernoulli (hin : ∀ a ∈ m.inputs, Truthful σ a)
    (hl : Onnx.Law.Holds σ ν (S.shapeAt m.skel) m.skel .same)
    (ha : apply S opset m prefs .bernoulli = some tys) : Right σ m tys := by
  simp only [apply] at ha
  split at ha
  · next d t hd hx =>
    simp only [Option.map_eq_some_iff] at ha
    obtain ⟨t, ht, rfl⟩ := ha
    exact Right.single hl fun out ho => C14_like_sound (inTy_fits hin ho hx).1 ht
  · cases ha

theorem right_randomLike (hin : ∀ a ∈ m.inputs, Truthful σ a)
    (hl : Onnx.Law.Holds σ ν (S.shapeAt m.skel) m.skel .same)
    (ha : apply S opset m prefs .randomLike = some tys) : Right σ m tys := by
  simp only [apply] at ha
  split at ha
  · next d x hd hx =>
    simp only [Option.map_eq_some_iff] at ha
    obtain ⟨t, ht, rfl⟩ := ha
    refine Right.single hl fun out ho => ?_
    have hf := (inTy_fits hin ho hx).1
    cases x with
    | tensor u =>
      simp only [Infer.randomLikeType] at ht
      split at ht
      · next h => cases h; cases ht; exact hf
      · next h => cases h; cases ht; exact hf
      · next h => cases h; cases ht; exact hf
      · cases ht
    | _ => simp [Infer.randomLikeType] at ht
  · cases ha

theorem right_range (hl : Onnx.Law.Holds σ ν (S.shapeAt m.skel) m.skel .vector)
    (ha : apply S opset m prefs .range = some tys) : Right σ m tys := by
  simp only [apply, Option.map_eq_some_iff] at ha
  obtain ⟨d, -, rfl⟩ := ha
  exact Right.single hl fun out ho => ⟨by simpa using ho, by simp⟩

theorem right_size (hl : Onnx.Law.Holds σ ν (S.shapeAt m.skel) m.skel .scalar)
    (ha : apply S opset m prefs .size = some tys) : Right σ m tys := by
  simp only [apply, Option.some.injEq] at ha
  subst ha
  exact Right.single hl fun out ho => ho

theorem right_expand (hl : Onnx.Law.Holds σ ν (S.shapeAt m.skel) m.skel .expand)
    (htrue : S.True σ ν m.skel) (hs : Onnx.Law.Supported S σ m.skel .expand)
    (ha : apply S opset m prefs .expand = some tys) : Right σ m tys := by
  simp only [apply] at ha
  split at ha
  · next a x o hi hx hout =>
    simp only [Option.bind_eq_some_iff, Option.map_eq_some_iff] at ha
    obtain ⟨target, htg, t, ht, rfl⟩ := ha
    refine Right.single hl fun out ho => ?_
    obtain ⟨s, tg, h0, hc, h1, ho⟩ := ho
    obtain ⟨v, tg', hv, hvi, hb⟩ := hs
    have hr := hv
    rw [← at_read, hi] at hr
    simp only [Option.bind_some] at hr
    simp only [readInts, hr] at htg
    obtain ⟨l, hl', rfl⟩ := Option.map_eq_some_iff.1 htg
    have h2 := (htrue 1 v hv).2 l _ hl' hc
    subst h2
    have h3 := (htrue 1 v hv).2 _ _ hvi hc
    have h4 : tg = tg' := (List.map_inj_right (fun a b h => by simpa using h)).1 h3
    subst h4
    exact C29_expand_constant_partial ht ho (hb s h0)
  · cases ha

theorem right_dropout (hin : ∀ a ∈ m.inputs, Truthful σ a)
    (hl : Onnx.Law.Holds σ ν (S.shapeAt m.skel) m.skel .sameAll)
    (hs : Onnx.Law.Supported S σ m.skel .sameAll)
    (ha : apply S opset m prefs .dropout = some tys) : Right σ m tys := by
  simp only [apply, Option.map_eq_some_iff] at ha
  obtain ⟨t, ht, rfl⟩ := ha
  obtain ⟨hlen, hl⟩ := hl
  intro k o hk out ho
  have h1 : m.skel.outputs[k]? = some (o.name, o.src) := by simp [Node.skel, hk]
  have hout := hl _ (List.mem_of_getElem? h1) out ho
  have hin0 : ∃ x, inTy m 0 = some x := by
    simp only [Onnx.inShape, Node.skel] at hout
    cases hm : m.inputs[0]? with
    | none => simp [hm] at hout
    | some a => exact ⟨a.ty, by simp [inTy, hm]⟩
  obtain ⟨x, hx⟩ := hin0
  have hfx := (inTy_fits hin hout hx).1
  have htx : t.Admits out := by
    cases hi : m.inputs with
    | nil => simp [hi, sameAsInput] at ht
    | cons a rest =>
      have : x = a.ty := by simp [inTy, hi] at hx; exact hx.symm
      subst this
      exact C14_same_shape_sound (x := a.ty) (rest := rest.map Arg.ty) (by simp [hi]) hfx ht
  have hml : m.skel.outputs.length = m.outputs.length := by simp [Node.skel]
  have hkl : k < m.outputs.length := by
    rcases Nat.lt_or_ge k m.outputs.length with h | h
    · exact h
    · simp [List.getElem?_eq_none h] at hk
  simp only [hx]
  match k, hkl with
  | 0, _ => split <;> simpa using htx
  | 1, hkl =>
    have h2 : m.outputs.length = 2 := by omega
    have hlong : 2 ≤ out.length := hs.elim (fun h => absurd h (by omega)) fun h => h out hout
    obtain ⟨u, rfl⟩ := tensor_of_long hfx hlong
    simp only [h2, if_true, Infer.likeInput, Option.toList_some, List.getElem?_cons_succ,
      List.getElem?_cons_zero, Option.getD_some]
    exact C14_like_sound (d := .bool) hfx rfl
  | k + 2, hkl => omega

/-- **C14, Where.** Whatever is known about the inputs, the annotation is right when every input has the shape of the result, of two
dimensions at least, or no dimension. -/
theorem C14_where_equal_or_scalar {c x y t : ArgType} {sc sx sy out : List Nat}
    (hc : c.Admits sc) (hx : x.Admits sx) (hy : y.Admits sy) (hz : NoRankZero [c, x, y]) (hlen : 2 ≤ out.length)
    (he : ∀ s ∈ [sc, sx, sy], s = out ∨ s = [])
    (ht : Infer.where_ c x y = some t) (ho : bcastAll [sc, sx, sy] = some out) : t.Admits out := by
  have ha : AdmitsAll [c, x, y] [sc, sx, sy] := .cons hc (.cons hx (.cons hy .nil))
  have noShape : ∀ (a : ArgType) s, a.Admits s → s ∈ [sc, sx, sy] → a.shapeLen? = none := by
    intro a s h hs
    cases a with
    | shape n =>
      simp only [ArgType.Admits] at h
      rcases he s hs with rfl | rfl
      · rw [h] at hlen; simp at hlen
      · cases h
    | _ => rfl
  have n0 := noShape c sc hc (by simp)
  have n1 := noShape x sx hx (by simp)
  have n2 := noShape y sy hy (by simp)
  have htens : [c, x, y].any ArgType.isTensor = true := by
    have key : ∀ (a : ArgType) s, a.Admits s → s = out → a.isTensor = true := by
      intro a s h hs
      subst hs
      cases a <;> simp only [ArgType.Admits] at h <;> first | rfl | (rw [h] at hlen; simp at hlen)
    have hex : sc = out ∨ sx = out ∨ sy = out := by
      rcases he sc (by simp) with h | e0
      · exact .inl h
      rcases he sx (by simp) with h | e1
      · exact .inr (.inl h)
      rcases he sy (by simp) with h | e2
      · exact .inr (.inr h)
      rw [e0, e1, e2] at ho
      have : out = [] := by
        have h : bcastAll [[], [], []] = some [] := by decide
        exact Option.some.inj (ho.symm.trans h)
      rw [this] at hlen
      simp at hlen
    rcases hex with h | h | h
    · simp [key c sc hc h]
    · simp [key x sx hx h]
    · simp [key y sy hy h]
  have hxs : Infer.isShape x = false := by cases x <;> first | rfl | cases n1
  unfold Infer.where_ at ht
  split at ht
  · cases ht
  · split at ht
    · cases ht
    · next d _ =>
      refine C16_equal_or_scalar (d := some d) ha hz he ho ?_
      simp only [hxs, Bool.false_and, Bool.false_eq_true, if_false] at ht
      simp only [broadcastOutputType, htens, Bool.not_true, Bool.false_and, Bool.false_eq_true, if_false, broadcastDtype, Option.map_some]
      split at ht
      · next h0 => rw [if_pos h0, ← ht]
      · next h0 => rw [if_neg h0, ← ht]

theorem right_where (hin : ∀ a ∈ m.inputs, Truthful σ a)
    (hl : Onnx.Law.Holds σ ν (S.shapeAt m.skel) m.skel .select) (hs : Onnx.Law.Supported S σ m.skel .select)
    (ha : apply S opset m prefs .where_ = some tys) : Right σ m tys := by
  simp only [apply] at ha
  split at ha
  · next c x y h0 h1 h2 =>
    obtain ⟨t, ht, rfl⟩ := Option.map_eq_some_iff.1 ha
    refine Right.single hl fun out ho => ?_
    obtain ⟨sc, sx, sy, k0, k1, k2, ho⟩ := ho
    obtain ⟨hlen, he⟩ := hs sc sx sy out k0 k1 k2 ho
    have f0 := inTy_fits hin k0 h0
    have f1 := inTy_fits hin k1 h1
    have f2 := inTy_fits hin k2 h2
    exact C14_where_equal_or_scalar f0.1 f1.1 f2.1 (fun u hu => by
      simp only [List.mem_cons, List.not_mem_nil, or_false] at hu
      rcases hu with h | h | h
      · exact Nat.pos_of_ne_zero (f0.2 u h.symm)
      · exact Nat.pos_of_ne_zero (f1.2 u h.symm)
      · exact Nat.pos_of_ne_zero (f2.2 u h.symm)) hlen he ht ho
  · cases ha

/-- Every rule of the table is right about the outputs of its operators. -/
theorem right_apply {r : Rule} (hin : ∀ a ∈ m.inputs, Truthful σ a) (htrue : S.True σ ν m.skel)
    (hl : Onnx.Law.Holds σ ν (S.shapeAt m.skel) m.skel (lawFor r))
    (hs : Onnx.Law.Supported S σ m.skel (lawFor r))
    (ha : apply S opset m prefs r = some tys) : Right σ m tys := by
  cases r with
  | same => exact right_same hin hl ha
  | broadcast d => exact right_broadcast hin hl hs ha
  | constant => exact right_constant hl ha
  | cast => exact right_cast hin hl ha
  | transpose => exact right_transpose hin hl ha
  | flatten => exact right_flatten hin hl ha
  | squeeze => exact right_squeeze hin htrue hl hs ha
  | unsqueeze => exact right_unsqueeze hin htrue hl ha
  | gather => exact right_gather hin hl hs ha
  | concat => exact right_concat hin htrue hl hs ha
  | reshape => exact right_reshape hin htrue hl hs ha
  | shape => exact right_shape hin hl hs ha
  | matmul => exact right_matmul hin hl hs ha
  | matmulInteger => exact right_matmulInteger hin hl hs ha
  | gemm => exact right_gemm hin hl ha
  | reduce => exact right_reduce hin htrue hl hs ha
  | argmax => exact right_argmax hin hl ha
  | topk => exact right_topk hin hl ha
  | gatherElements => exact right_gatherElements hin hl hs ha
  | scatter => exact right_scatter hin hl hs ha
  | conv n => exact right_conv hin htrue hl hs ha
  | deformConv => exact right_deformConv hin htrue hl ha
  | rankOnly => exact right_rankOnly hin hl ha
  | copied => exact right_copied hin hl hs ha
  | batchNorm => exact right_batchNorm hin htrue hl ha
  | depthToSpace => exact right_depthToSpace hin hl ha
  | spaceToDepth => exact right_spaceToDepth hin hl ha
  | gatherND => exact right_gatherND hin hl ha
  | split => exact right_split hin htrue hl ha
  | nonZero => exact right_nonZero hin hl ha
  | oneHot => exact right_oneHot hin hl ha
  | constantOfShape => exact right_constantOfShape hin htrue hl ha
  | eyeLike => exact right_eyeLike hin hl ha
  | bernoulli => exact right_bernoulli hin hl ha
  | randomLike => exact right_randomLike hin hl ha
  | range => exact right_range hl ha
  | dropout => exact right_dropout hin hl hs ha
  | size => exact right_size hl ha
  | expand => exact right_expand hl htrue hs ha
  | where_ => exact right_where hin hl hs ha

/-- The run follows the ONNX definition of the node, within what the library's rule gets right. -/
def Follows (S : Store V) (σ : Shapes) (ν : Contents) (k : Skeleton V) : Prop :=
  ∃ law, Onnx.lawOf k.ty = some law ∧ law.Holds σ ν (S.shapeAt k) k ∧ law.Supported S σ k ∧ S.True σ ν k

theorem soundFor_registry {E : Rules V} {n : Node V} (h : Follows S σ ν n.skel) :
    SoundFor (registry S opset E) σ n := by
  obtain ⟨law, hlaw, hl, hs, htrue⟩ := h
  obtain ⟨r, hr, rfl⟩ := ruleOf_law hlaw
  intro m prefs tys hsk hin _ ha
  have hty : m.ty = n.skel.ty := by rw [← hsk]; rfl
  simp only [registry, hty, hr] at ha
  rw [← hsk] at hl hs htrue
  exact right_apply hin htrue hl hs ha

/-- **C15, with the rules of the library** (`_partial`: nodes whose operators are not in the table
need the hypothesis `SoundFor`, and `Law.Supported` excludes what the single rules get wrong). In a
topologically ordered graph with truthful external annotations and harmless others, if every node
with an operator of the table computes what ONNX defines, then after inference every annotation of
every input and output is true of the run, and nothing but annotations has changed. -/
theorem C15_registry_partial (E : Rules V) (S : Store V) (opset : Nat) (σ : Shapes) (ν : Contents)
    (nodes nodes' : List (Node V)) (conv : Bool) (hord : OrderedNodes nodes)
    (hext : ∀ n ∈ nodes, ∀ a ∈ n.inputs, a.name ∉ nodes.flatMap Node.outNames → Truthful σ a)
    (hharm : ∀ n ∈ nodes, (∀ a ∈ n.inputs, Harmless σ a) ∧ ∀ o ∈ n.outputs, Harmless σ o)
    (hrun : ∀ n ∈ nodes, Follows S σ ν n.skel ∨ SoundFor (registry S opset E) σ n)
    (h : inferTypes (registry S opset E) nodes = some (nodes', conv)) :
    AllTrue σ nodes' ∧ nodes'.map Node.skel = nodes.map Node.skel :=
  C15_inference_sound _ σ nodes nodes' conv hord hext hharm
    (fun n hn => (hrun n hn).elim soundFor_registry id) h

/-! ## A graph that meets the hypotheses -/

namespace RegistryExample

def f (r : Nat) (sh : Option PShape) : ArgType := .tensor ⟨.f32, r, sh⟩

def arg (x : String) (t : ArgType := f 0 none) : Arg Unit := ⟨x, t, .dynamic⟩

/-- `x : 2×3` is transposed, multiplied with `w : 2×4`, and the product is rectified, added to itself
and measured. -/
def nodes : List (Node Unit) :=
  [⟨.transpose, "n1", [arg "x" (f 2 (some [some 2, some 3]))], [arg "t"], [("perm", .i64s [1, 0])]⟩,
   ⟨.matMul, "n2", [arg "t", arg "w" (f 2 none)], [arg "m"], []⟩,
   ⟨.relu, "n3", [arg "m"], [arg "r"], []⟩,
   ⟨.add, "n4", [arg "r", arg "m"], [arg "z"], []⟩,
   ⟨.shape, "n5", [arg "z"], [arg "s"], []⟩]

def store : Store Unit := ⟨fun _ _ => none, fun _ => [], fun _ => .f32, fun _ => none⟩

def other : Rules Unit := ⟨fun _ => true, fun _ => true, fun _ _ => none, fun _ => []⟩

def shapes : Shapes := fun x => [("x", [2, 3]), ("w", [2, 4]), ("t", [3, 2]), ("m", [3, 4]),
  ("r", [3, 4]), ("z", [3, 4]), ("s", [2])].lookup x

example : ∃ nodes' conv, inferTypes (registry store 17 other) nodes = some (nodes', conv) ∧ conv = true ∧
    nodes'.map (fun n => n.outputs.map Arg.ty) =
      [[f 2 (some [some 3, some 2])], [f 2 none], [f 2 none], [f 2 none], [.shape 2]] := by
  refine ⟨((inferTypes (registry store 17 other) nodes).getD ([], false)).1, true, ?_, rfl, ?_⟩ <;>
    decide +kernel

example : ∀ n ∈ nodes, Follows store shapes (fun _ => none) n.skel := by
  have htrue : ∀ k : Skeleton Unit, store.True shapes (fun _ => none) k := by
    intro k i v h
    simp only [Store.at, store] at h
    cases k.inputs[i]? <;> simp at h
  simp only [nodes, List.forall_mem_cons]
  refine ⟨⟨.transpose, rfl, ⟨"t", .dynamic, rfl, ?_⟩, trivial, htrue _⟩,
    ⟨.matmul, rfl, ⟨"m", .dynamic, rfl, ?_⟩, ?_, htrue _⟩,
    ⟨.same, rfl, ⟨"r", .dynamic, rfl, ?_⟩, trivial, htrue _⟩,
    ⟨.broadcast, rfl, ⟨"z", .dynamic, rfl, ?_⟩, ?_, htrue _⟩,
    ⟨.shape, rfl, ⟨"s", .dynamic, rfl, ?_⟩, ?_, htrue _⟩, by simp⟩
  · rintro out ⟨⟩
    exact ⟨[2, 3], [1, 0], rfl, by decide +kernel, .inl rfl⟩
  · rintro out ⟨⟩
    exact ⟨[3, 2], [2, 4], rfl, rfl, by decide +kernel⟩
  · rintro a b ⟨⟩ ⟨⟩ h
    simp at h
  · rintro out ⟨⟩
    rfl
  · rintro out ⟨⟩
    exact ⟨[[3, 4], [3, 4]], rfl, by decide +kernel⟩
  · rintro ss out ⟨⟩ h
    have : out = [3, 4] := by
      have h' : bcastAll [[3, 4], [3, 4]] = some [3, 4] := by decide +kernel
      have h : bcastAll [[3, 4], [3, 4]] = some out := h
      rw [h'] at h; cases h; rfl
    subst this
    left; simp
  · rintro out ⟨⟩
    exact ⟨[3, 4], 0, none, rfl, .inl ⟨rfl, rfl⟩, .inl ⟨rfl, rfl⟩, by decide +kernel⟩
  · rintro s start stop ⟨⟩ h1 h2
    have e1 : start = 0 := by
      rcases h1 with ⟨-, h⟩ | h
      · exact h
      · cases h
    have e2 : stop = none := by
      rcases h2 with ⟨-, h⟩ | ⟨v, h, -⟩
      · exact h
      · cases h
    subst e1 e2
    refine ⟨by decide +kernel, by decide +kernel, by decide +kernel, by simp⟩

example : OrderedNodes nodes := by
  simp [nodes, OrderedNodes, Node.inNames, Node.outNames, arg]

/-! An image network: a convolution with padding, space to depth, and a split of the channels. -/

/-- The store of the second example holds the weight of the convolution. -/
def store2 : Store Unit :=
  ⟨fun x _ => if x = "w" then some () else none, fun _ => [8, 3, 3, 3], fun _ => .f32, fun _ => none⟩

def nodes2 : List (Node Unit) :=
  [⟨.other "Conv2d", "c", [arg "x" (f 4 none), arg "w" (f 4 none)], [arg "y"],
      [("pads", .i64s [1, 1, 1, 1]), ("kernel_shape", .i64s [3, 3])]⟩,
   ⟨.other "SpaceToDepth", "d", [arg "y"], [arg "z"], [("blocksize", .i64 2)]⟩,
   ⟨.other "Split", "e", [arg "z"], [arg "u", arg "v"], [("axis", .i64 1), ("split", .i64s [16, 16])]⟩]

def shapes2 : Shapes := fun x => [("x", [1, 3, 6, 4]), ("w", [8, 3, 3, 3]), ("y", [1, 8, 6, 4]),
  ("z", [1, 32, 3, 2]), ("u", [1, 16, 3, 2]), ("v", [1, 16, 3, 2])].lookup x

example : ∃ nodes' conv, inferTypes (registry store2 17 other) nodes2 = some (nodes', conv) ∧ conv = true ∧
    nodes'.map (fun n => n.outputs.map Arg.ty) = [[f 4 (some [none, some 8, none, none])],
      [f 4 (some [none, some 32, none, none])],
      [f 4 (some [none, some 16, none, none]), f 4 (some [none, some 16, none, none])]] := by
  refine ⟨((inferTypes (registry store2 17 other) nodes2).getD ([], false)).1, true, ?_, rfl, ?_⟩ <;>
    decide +kernel

example : ∀ n ∈ nodes2, Follows store2 shapes2 (fun _ => none) n.skel := by
  simp only [nodes2, List.forall_mem_cons]
  refine ⟨⟨.conv 2, by decide +kernel, ⟨"y", .dynamic, rfl, ?_⟩, ?_, ?_⟩,
    ⟨.spaceToDepth, by decide +kernel, ⟨"z", .dynamic, rfl, ?_⟩, trivial, ?_⟩,
    ⟨.split, by decide +kernel, ⟨[1, 32, 3, 2], 1, 1, rfl, .inr rfl, by decide +kernel, ?_⟩, trivial, ?_⟩,
    by simp⟩
  · rintro out ⟨⟩
    refine ⟨.notSet, [(1, 1), (1, 1)], .inl ⟨rfl, rfl⟩, [1, 3, 6, 4], [8, 3, 3, 3], [1, 1], [1, 1], rfl, rfl,
      ⟨by decide +kernel, .inr ⟨rfl, by decide +kernel⟩⟩, ⟨by decide +kernel, .inl ⟨rfl, rfl⟩⟩,
      ⟨by decide +kernel, .inl ⟨rfl, rfl⟩⟩,
      .inr ⟨[1, 1, 1, 1], rfl, by decide +kernel, rfl⟩, [6, 4],
      .cons (p := (1, 1)) (by decide) rfl (by intro p; simp only [Onnx.Axis.Fits]; omega)
        (.cons (p := (1, 1)) (by decide) rfl (by intro p; simp only [Onnx.Axis.Fits]; omega) .nil), rfl⟩
  · rintro m pads out (⟨-, rfl⟩ | h) -
    · exact .inl rfl
    · cases h
  · intro i v h
    match i, h with
    | 0, h => simp [Store.at, store2, Node.skel, arg] at h
    | 1, h =>
      refine ⟨fun s hs => ?_, fun l w hl => by simp [store2] at hl⟩
      have hs' : some [8, 3, 3, 3] = some s := hs
      simpa [store2] using hs'.symm
    | i + 2, h => simp [Store.at, Node.skel] at h
  · rintro out ⟨⟩
    exact ⟨2, 1, 8, 3, 2, rfl, by decide, rfl, rfl⟩
  · intro i v h
    match i, h with
    | 0, h => simp [Store.at, store2, Node.skel, arg] at h
    | i + 1, h => simp [Store.at, Node.skel] at h
  · intro j y out hj ho
    match j, hj with
    | 0, hj =>
      cases hj; cases ho
      exact ⟨16, rfl, .inl ⟨rfl, by rintro l v ⟨⟩ ⟨⟩; rfl⟩⟩
    | 1, hj =>
      cases hj; cases ho
      exact ⟨16, rfl, .inl ⟨rfl, by rintro l v ⟨⟩ ⟨⟩; rfl⟩⟩
    | j + 2, hj => simp [Node.skel] at hj
  · intro i v h
    match i, h with
    | 0, h => simp [Store.at, store2, Node.skel, arg] at h
    | i + 1, h => simp [Store.at, Node.skel] at h

end RegistryExample

end OnnxIR
