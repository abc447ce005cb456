import Verif.Props.SimplifyGraph
import Verif.Props.ConstantFoldCases
import Verif.Props.PermuteReshapeCases
import Verif.Lemmas.Shapes

/-!
# C09: a graph that meets the hypotheses
-/

namespace OnnxIR

/-- The elements compared with 0 and 1. -/
def nElems : NVal → Option (List Int)
  | .int .i64 t => some t.data
  | _ => none

/-- No tensor is taken for a scale factor. -/
def nScales : ScaleView NVal Unit where
  scalar := fun _ => none
  inv := id
  isZero := fun _ => false
  mul := fun _ _ => ()
  bits := fun _ => 0
  ofBits := fun _ => ()

/-- The operations of the pipeline. -/
def nOps : SimpOps Int Int Int Unit := ⟨intFloatOps, nScales, nElems, 0, 1⟩

/-- `Add`, symmetrically. -/
def nAdd (x y : NVal) : Option NVal :=
  if x.dtype = y.dtype then onnxArith intFloatSpec .add x y else none

/-- Only what `numSem` knows of attention: transposing and adding. -/
def nAttn : AttnOps NVal Unit where
  mm := fun _ _ => none
  swap := fun x => if x.shape.length = 4 then some (x.transpose [0, 1, 3, 2]) else none
  scale := fun _ _ => none
  add := nAdd
  soft := fun _ => none

/-- Adding or multiplying by the number `c` leaves the `i64` tensor `x` alone. -/
def nFits (c x : NVal) : Prop :=
  c.shape = [] ∧ ∃ t : Tensor Int, x = .int .i64 t ∧ ∀ a ∈ t.data, fitsI64 a = true

theorem zipBcast_scalar {x c : Tensor Int} {f : Int → Int → Int} {z : Int} (hc : c.shape = [])
    (hz : ∀ e ∈ c.data, e = z) (hf : ∀ a ∈ x.data, f a z = a) : x.zipBcast f c = some x := by
  unfold Tensor.zipBcast
  rw [hc, bcast_nil_right]
  simp only [Option.map_some, Option.some.injEq]
  refine Tensor.eq_of_get rfl ?_
  intro i hi
  replace hi : InRange x.shape i := hi
  rw [Tensor.get_ofFn hi, proj_self hi]
  have hcd : c.data.length = 1 := by rw [c.size, hc]; rfl
  have hcz : c.get (proj [] i) = z := by
    refine hz _ ?_
    unfold Tensor.get
    have : flatIdx c.shape (proj [] i) = 0 := by rw [hc]; rfl
    rw [this]
    match hcd' : c.data, hcd with
    | [a], _ => simp
  rw [hcz]
  refine hf _ ?_
  unfold Tensor.get
  have hlt := flatIdx_lt hi
  rw [← x.size] at hlt
  rw [List.getD_eq_getElem?_getD, List.getElem?_eq_getElem hlt]
  exact List.getElem_mem hlt

theorem zipBcast_comm {x y : Tensor Int} {f g : Int → Int → Int} (h : ∀ a b, f a b = g b a) :
    x.zipBcast f y = y.zipBcast g x := by
  unfold Tensor.zipBcast
  rw [bcast_comm]
  simp only [h]

theorem numSem_identity : IdentityLaw numSem nElems 0 1 nFits := by
  have aux : ∀ (op : ArithOp) (z : Int) (c x : NVal) (es : List Int),
      (op = .add ∧ z = 0 ∨ op = .sub ∧ z = 0 ∨ op = .mul ∧ z = 1 ∨ op = .div ∧ z = 1) →
      nElems c = some es → (∀ e ∈ es, e = z) → nFits c x → ∀ ys, nArith op [some x, some c] = some ys →
      ys = [x] := by
    intro op z c x es hop hes hz hfit ys h
    obtain ⟨hcs, t, rfl, ht⟩ := hfit
    unfold nElems at hes
    split at hes
    case h_2 => cases hes
    next u =>
    cases hes
    simp only [nArith, CVal.dtype, if_true, onnxArith] at h
    split at h
    · simp at h
    · have hf : ∀ a ∈ t.data, wrapInt .i64 (op.onInt a z) = a := by
        intro a ha
        have : op.onInt a z = a := by
          rcases hop with ⟨rfl, rfl⟩ | ⟨rfl, rfl⟩ | ⟨rfl, rfl⟩ | ⟨rfl, rfl⟩ <;> simp [ArithOp.onInt]
        rw [this]
        exact wrapInt_fits (ht a ha)
      rw [zipBcast_scalar hcs hz hf] at h
      simpa using h.symm
  have hcomm : ∀ (op : ArithOp), op = .add ∨ op = .mul → ∀ c x : NVal, (∃ t, x = .int .i64 t) → (∃ t, c = .int .i64 t) →
      nArith op [some c, some x] = nArith op [some x, some c] := by
    rintro op hop c x ⟨t, rfl⟩ ⟨u, rfl⟩
    simp only [nArith, CVal.dtype, if_true, onnxArith]
    have hd : op ≠ .div := by rcases hop with rfl | rfl <;> decide
    simp only [hd, false_and, or_false, ne_eq, not_true, if_false]
    rw [zipBcast_comm (g := fun a b => wrapInt .i64 (op.onInt a b))]
    intro a b
    rcases hop with rfl | rfl
    · simp [ArithOp.onInt, Int.add_comm]
    · simp [ArithOp.onInt, Int.mul_comm]
  constructor
  · intro t z ht nm attrs x c es ys hes _ hz hfit h
    simp only [List.mem_cons, Prod.mk.injEq, List.not_mem_nil, or_false] at ht
    rcases ht with ⟨rfl, rfl⟩ | ⟨rfl, rfl⟩ | ⟨rfl, rfl⟩ | ⟨rfl, rfl⟩ | ⟨rfl, rfl⟩
    · exact aux .add _ c x es (by simp) hes hz hfit ys h
    · exact aux .sub _ c x es (by simp) hes hz hfit ys h
    · exact aux .mul _ c x es (by simp) hes hz hfit ys h
    · exact aux .div _ c x es (by simp) hes hz hfit ys h
    · cases h
  · intro t z ht nm attrs x c es ys hes _ hz hfit h
    have hc : ∃ t, c = CVal.int .i64 t := by
      unfold nElems at hes
      split at hes
      · exact ⟨_, rfl⟩
      · cases hes
    have hx : ∃ t, x = CVal.int .i64 t := by obtain ⟨_, t, rfl, _⟩ := hfit; exact ⟨t, rfl⟩
    simp only [List.mem_cons, Prod.mk.injEq, List.not_mem_nil, or_false] at ht
    rcases ht with ⟨rfl, rfl⟩ | ⟨rfl, rfl⟩
    · exact aux .add _ c x es (by simp) hes hz hfit ys ((hcomm .add (by simp) c x hx hc) ▸ h)
    · exact aux .mul _ c x es (by simp) hes hz hfit ys ((hcomm .mul (by simp) c x hx hc) ▸ h)

theorem nMap_idem {f : Int → Int} (hf : ∀ a, f (f a) = f a) {xs : List (Option NVal)} {ys : List NVal}
    {y : NVal} (h : nMap f xs = some ys) (hy : y ∈ ys) : nMap f [some y] = some [y] := by
  have ht : ∀ t : Tensor Int, (t.map f).map f = t.map f := by
    intro t
    refine Tensor.ext rfl ?_
    simp [Tensor.map, hf]
  unfold nMap at h
  split at h <;> cases h <;> simp only [List.mem_singleton] at hy <;> subst hy <;> simp [nMap, ht]

theorem numSem_idempotent : IdempotentLaw numSem := by
  intro t ht nm nm' attrs attrs' xs ys y h hy zs hz
  have aux : ∀ f : Int → Int, (∀ a, f (f a) = f a) → nMap f xs = some ys → nMap f [some y] = some zs →
      zs = [y] := by
    intro f hf h1 h2
    rw [nMap_idem hf h1 hy] at h2
    exact (Option.some.inj h2).symm
  simp only [List.mem_cons, List.not_mem_nil, or_false] at ht
  rcases ht with rfl | rfl | rfl | rfl | rfl | rfl
  · exact aux (max 0) (by intro a; omega) h hz
  · cases h
  · cases h
  · cases h
  · cases h
  · exact aux (fun a => a.natAbs) (by intro a; simp) h hz

theorem numSem_attention : AttnSem numSem nview nScales nAttn where
  matMulOp := by intro nm attrs xs ys h; cases h
  transposeOp := by
    intro nm attrs xs ys hp h
    simp only [numSem] at h
    unfold nTranspose at h
    split at h
    case h_2 => cases h
    next x =>
    rw [hp] at h
    simp only at h
    split at h
    · next hc =>
      cases h
      refine ⟨x, _, rfl, rfl, ?_⟩
      have : x.shape.length = 4 := by have := hc.1; simp at this; omega
      simp [nAttn, this]
    · cases h
  mulOp := by
    intro nm attrs xs ys h
    obtain ⟨x, y, z, rfl, rfl, _⟩ := numSem_foldSem.arith .mul nm attrs xs ys h
    exact ⟨x, y, z, rfl, rfl, fun s hs => (by cases hs.1), fun s hs => (by cases hs.1)⟩
  divOp := by
    intro nm attrs xs ys h
    obtain ⟨x, y, z, rfl, rfl, _⟩ := numSem_foldSem.arith .div nm attrs xs ys h
    exact ⟨x, y, z, rfl, rfl, fun s hs => (by cases hs.1)⟩
  addOp := by
    intro nm attrs xs ys h
    have h' : nArith .add xs = some ys := h
    unfold nArith at h'
    split at h'
    case h_2 => cases h'
    next x y =>
    split at h'
    · next hd =>
      obtain ⟨z, hz, rfl⟩ := Option.map_eq_some_iff.1 h'
      exact ⟨x, y, z, rfl, rfl, by simp [nAttn, nAdd, hd, hz]⟩
    · cases h'
  add_comm := by
    intro a b
    simp only [nAttn, nAdd, eq_comm (a := b.dtype)]
    split
    · next hd =>
      cases a <;> cases b <;> simp only [onnxArith, CVal.dtype] at hd ⊢
      · subst hd
        simp only [reduceCtorEq, false_and, or_false, ne_eq, not_true, if_false]
        rw [zipBcast_comm]
        intro x y
        simp [ArithOp.onInt, Int.add_comm]
      · rw [zipBcast_comm]
        intro x y
        simp [intFloatSpec, ArithOp.onInt, Int.add_comm]
      · rw [zipBcast_comm]
        intro x y
        simp [intFloatSpec, ArithOp.onInt, Int.add_comm]
    · rfl
  softmaxOp := by intro nm attrs xs ys h; cases h
  swap_rank := by
    intro x y h
    simp only [nAttn] at h
    split at h
    · next hl =>
      cases h
      refine Eq.trans ?_ hl.symm
      cases x <;> rfl
    · cases h
  mm_rank := by intro a b y h; cases h
  scale_shape := by intro s x y h; cases h
  mm_scale := by intro s q q' k y h; cases h
  attentionOp := by
    rintro nm b q k v o ⟨_, _, _, kt, a, b', c, w, _, _, h, _⟩
    cases h
  attentionMaskOp := by
    rintro nm b q k v m o ⟨_, _, _, kt, a, b', c, w, _, _, h, _⟩
    cases h

theorem numSem_simp : SimpSem numSem nOps intFloatSpec nAttn nFits where
  floats := intFloatAgree
  attention := numSem_attention
  permute := numSem_permuteSem
  shape := numSem_shapeSem
  fold := numSem_foldSem
  idempotent := numSem_idempotent
  identity := numSem_identity

/-! ## Checking the guards along a run -/

/-- The states in which the passes of one round find the graph, and the state after them. -/
def roundTrace : List Pass → GraphSt Int Int → List (Pass × GraphSt Int Int)
  | [], _ => []
  | p :: ps, st => (p, st) :: match p.run nOps st with
    | none => []
    | some st' => roundTrace ps st'

/-- The states in which the passes of up to `k` rounds find the graph. -/
def trace : Nat → GraphSt Int Int → List (Pass × GraphSt Int Int)
  | 0, _ => []
  | k + 1, st => roundTrace Pass.order st ++ match runPasses nOps Pass.order st with
    | none => []
    | some st' => if st'.nodes.length < st.nodes.length then trace k st' else []

theorem roundTrace_mem {p : Pass} {qs : List Pass} {st' : GraphSt Int Int} :
    ∀ {ps : List Pass} {st : GraphSt Int Int}, runPasses nOps ps st = some st' →
      (p, st') ∈ roundTrace (ps ++ p :: qs) st
  | [], st, h => by
    simp only [runPasses, Option.some.injEq] at h
    subst h
    simp [roundTrace]
  | q :: ps, st, h => by
    simp only [runPasses] at h
    cases hq : q.run nOps st with
    | none => simp [hq] at h
    | some s =>
      simp only [hq] at h
      simp only [List.cons_append, roundTrace, hq]
      exact List.mem_cons_of_mem _ (roundTrace_mem h)

theorem trace_mem {st0 : GraphSt Int Int} {p : Pass} {s : GraphSt Int Int} (h : Arrives nOps st0 p s) :
    (p, s) ∈ trace 10 st0 := by
  obtain ⟨k, st1, ps, qs, hr, he, hs⟩ := h
  have key : k < 10 ∧ ∀ x ∈ trace (10 - k) st1, x ∈ trace 10 st0 := by
    clear hs he
    induction hr with
    | first => exact ⟨by omega, fun x hx => hx⟩
    | next h hk hrun hless ih =>
      refine ⟨hk, fun x hx => ih.2 x ?_⟩
      rename_i k st st'
      rw [show 10 - k = (10 - (k + 1)) + 1 by omega]
      simp only [trace, hrun, hless, if_true, List.mem_append]
      exact Or.inr hx
  refine key.2 _ ?_
  rw [show 10 - k = (9 - k) + 1 by omega]
  simp only [trace, List.mem_append]
  left
  rw [he]
  exact roundTrace_mem hs

/-- `DropsFit` as a check of one step. -/
def dropsB (cmap : String → Option NVal) (e : Env NVal) (n : Node NVal) : Bool :=
  match n.inputs with
  | [a, b] =>
    match identityPassthrough cmap nElems 0 1 n.ty a b with
    | none => true
    | some k => (k.src == .dynamic) && match evalArg e a, evalArg e b with
      | some (some (.int .i64 x)), some (some (.int .i64 c)) =>
        x.data.all fitsI64 && c.data.all fitsI64 && (a != b) &&
          (k != a || c.shape == []) && (k != b || x.shape == [])
      | some none, _ => true
      | _, some none => true
      | none, _ => true
      | _, none => true
      | _, _ => false
  | _ => true

/-- The guards as a check. -/
def Pass.guardB (env : Env NVal) (p : Pass) (st : GraphSt Int Int) : Bool :=
  match p with
  | .attention => st.nodes.all fun n => n.ty != .softmax
  | .permuteReshape => permuteNodesB 0 st.nodes && checkRun numSem (permuteStepB [] []) env st.nodes
  | .constantShape => st.nodes.all fun n => (n.ty != .shape || n.attrs.isEmpty) && n.ty != .slice
  | .constantFold => foldKnownB st.nodes
  | .identityElement => checkRun numSem (fun e n _ => dropsB st.cmap e n) env st.nodes &&
      (evalNodes numSem env st.nodes).isSome
  | .redundant => decide (st.nodes.map Node.name).Nodup
  | _ => true

theorem guard_of_check {env : Env NVal} {p : Pass} {st : GraphSt Int Int}
    (h : p.guardB env st = true) : p.Guard numSem nOps intFloatSpec nFits env st := by
  cases p with
  | attention =>
    have hns : ∀ n ∈ st.nodes, n.ty ≠ .softmax := by
      intro n hn
      simpa using List.all_eq_true.1 h n hn
    have hnf : ∀ n, ¬ FeedsSoftmax st.nodes n := by
      intro n hf
      induction hf with
      | direct hs ht _ _ => exact hns _ hs ht
      | through _ _ _ _ _ ih => exact ih
    refine ⟨⟨?_, ?_, ?_, ?_, ?_⟩, ?_⟩
    · intro n _ _ hf; exact absurd hf (hnf n)
    · rintro n _ _ ⟨m, _, _, hf, _⟩; exact absurd hf (hnf m)
    · rintro p n q e1 e2 a b _ _ (hf | ⟨s, hs, ht, _⟩)
      · exact absurd hf (hnf n)
      · exact absurd ht (hns s hs)
    · intro p n q e1 e2 i v y _ _ hf; exact absurd hf (hnf n)
    · intro n _ _ hf; exact absurd hf (hnf n)
    · intro m hm _
      left
      obtain ⟨i, n, hi, hi'⟩ := get_of_length (foldl_set_length _ _) hm
      rcases foldl_set_get _ _ hi hi' with rfl | h'
      · exact List.mem_of_getElem? hi
      · obtain ⟨soft, hsm, hmem⟩ := List.mem_flatMap.1 h'
        rw [if_neg (hns soft hsm)] at hmem
        simp at hmem
  | permuteReshape =>
    simp only [Pass.guardB, Bool.and_eq_true] at h
    refine permutesInPlace_of_check (s := []) (t := []) h.1 h.2 ?_
    intro perm hp _
    have hl := hp.length
    match perm, hl with
    | [], _ => unfold KeepsOrder; decide
  | constantShape =>
    have hs : ∀ n ∈ st.nodes, (n.ty = .shape → n.attrs = []) ∧ n.ty ≠ .slice := by
      intro n hn
      have := List.all_eq_true.1 h n hn
      simp only [Bool.and_eq_true, Bool.or_eq_true, bne_iff_ne, ne_eq, List.isEmpty_iff] at this
      exact ⟨fun ht => this.1.resolve_left (fun hc => hc ht), this.2⟩
    refine ⟨?_, ?_, ?_⟩
    · intro g _ _ s hsm ht _
      rw [(hs s hsm).1 ht]; rfl
    · intro s hsm ht e he
      rw [(hs s hsm).1 ht] at he
      simp [attrI64, attrGet, mapGet] at he
    · intro p n q e1 hn ht
      exact absurd ht (hs n (by rw [hn]; simp)).2
  | constantFold => exact foldable_of_check h
  | idempotent => trivial
  | identityElement =>
    simp only [Pass.guardB, Bool.and_eq_true] at h
    intro p n q e hn he a b o k hin hout hk
    have hstep : ∃ e2, evalNode numSem e n = some e2 := by
      obtain ⟨G, hG⟩ := Option.isSome_iff_exists.1 h.2
      rw [hn, evalNodes_append, he] at hG
      simp only [evalNodes] at hG
      cases h2 : evalNode numSem e n with
      | none => simp [h2] at hG
      | some e2 => exact ⟨e2, rfl⟩
    obtain ⟨e2, he2⟩ := hstep
    have hd := checkRun_sound h.1 p n q e e2 hn he he2
    simp only [dropsB, hin] at hd
    have hk' : identityPassthrough st.cmap nElems 0 1 n.ty a b = some k := hk
    rw [hk'] at hd
    simp only [Bool.and_eq_true, beq_iff_eq] at hd
    refine ⟨Or.inr hd.1, ?_⟩
    intro x c hx hc
    have hd2 := hd.2
    rw [hx, hc] at hd2
    have key : ∃ t u, x = .int .i64 t ∧ c = .int .i64 u ∧ t.data.all fitsI64 = true ∧
        u.data.all fitsI64 = true ∧ (k = a → u.shape = []) ∧ (k = b → t.shape = []) := by
      split at hd2
      · next t u h1 h2 =>
        cases h1
        cases h2
        simp only [Bool.and_eq_true, Bool.or_eq_true, bne_iff_ne, ne_eq, beq_iff_eq] at hd2
        exact ⟨t, u, rfl, rfl, hd2.1.1.1.1, hd2.1.1.1.2, fun e => hd2.1.2.resolve_left (fun f => f e),
          fun e => hd2.2.resolve_left (fun f => f e)⟩
      all_goals simp_all
    obtain ⟨t, u, rfl, rfl, ht, hu, h1, h2⟩ := key
    exact ⟨fun e _ => ⟨h1 e, t, rfl, fun a ha => List.all_eq_true.1 ht a ha⟩,
      fun e _ => ⟨h2 e, u, rfl, fun a ha => List.all_eq_true.1 hu a ha⟩⟩
  | redundant =>
    refine ⟨of_decide_eq_true h, ?_⟩
    intro n _ nm xs
    rfl
  | dead => trivial

/-! ## A graph every pass but two works on -/

/-- The input: a 2×3 tensor. -/
def pipeEnv : Env NVal := fun x => if x = "x" then some (i64T [2, 3] [-2, -1, 0, 1, 2, 3]) else none

/-- `Shape`, `Gather` and `Mul` give a constant (`4 * rows`); two `Relu`, an addition of 0, two equal `Abs`, and
an unused `Neg`. -/
def pipeNodes : List (Node NVal) :=
  [ ⟨.shape, "shape1", [narg "x" (i64Ty [2, 3])], [narg "s" (.shape 2)], []⟩,
    ⟨.gather, "gather1", [narg "s" (.shape 2), nconst (.scalarTensor .i64) (i64T [] [0])],
      [narg "g" (.scalarNative .i64)], []⟩,
    ⟨.mul, "mul1", [narg "g" (.scalarNative .i64), nconst (.scalarTensor .i64) (i64T [] [4])],
      [narg "m" (.scalarNative .i64)], []⟩,
    ⟨.relu, "relu1", [narg "x" (i64Ty [2, 3])], [narg "r1" (i64Ty [2, 3])], []⟩,
    ⟨.relu, "relu2", [narg "r1" (i64Ty [2, 3])], [narg "r2" (i64Ty [2, 3])], []⟩,
    ⟨.add, "add1", [narg "r2" (i64Ty [2, 3]), nconst (.scalarTensor .i64) (i64T [] [0])],
      [narg "z" (i64Ty [2, 3])], []⟩,
    ⟨.abs, "abs1", [narg "z" (i64Ty [2, 3])], [narg "a1" (i64Ty [2, 3])], []⟩,
    ⟨.abs, "abs2", [narg "z" (i64Ty [2, 3])], [narg "a2" (i64Ty [2, 3])], []⟩,
    ⟨.neg, "neg1", [narg "z" (i64Ty [2, 3])], [narg "n" (i64Ty [2, 3])], []⟩,
    ⟨.mul, "mul2", [narg "a1" (i64Ty [2, 3]), narg "a2" (i64Ty [2, 3])], [narg "y" (i64Ty [2, 3])], []⟩ ]

/-- The graph outputs. -/
def pipeOuts : List (Arg NVal) := [narg "y" (i64Ty [2, 3]), narg "m" (.scalarNative .i64)]

/-- All hypotheses of `C09_simplification_preserves_outputs_partial` hold of this graph; in two rounds its ten
nodes become four, and the results stay `[0, 0, 0, 1, 4, 9]` and `8`. -/
example : SimpSem numSem nOps intFloatSpec nAttn nFits ∧ SSA pipeEnv pipeNodes ∧ WfNames pipeNodes ∧
    pipeEnv "" = none ∧ (∀ n ∈ pipeNodes, ∀ x ∈ n.outNames, ∀ y, x ≠ y ++ "_const") ∧
    TableOk numSem pipeEnv pipeNodes nTable ∧ TypedRun numSem nview pipeEnv pipeNodes ∧
    (∀ p s, Arrives nOps ⟨pipeNodes, pipeOuts, nTable⟩ p s →
      p.Guard numSem nOps intFloatSpec nFits pipeEnv s) ∧
    (simplifyGraph nOps ⟨pipeNodes, pipeOuts, nTable⟩).map (fun s => s.nodes.map Node.ty) =
      some [.constant, .relu, .abs, .mul] ∧
    evalGraph numSem pipeEnv pipeNodes pipeOuts =
      some [some (i64T [2, 3] [0, 0, 0, 1, 4, 9]), some (i64T [] [8])] := by
  refine ⟨numSem_simp, ssa_of_check (by decide +kernel), wf_of_check (by decide +kernel), rfl, ?_, ?_,
    typedRun_of_check (by decide +kernel), ?_, by decide +kernel, by decide +kernel⟩
  · intro n hn x hx y he
    have hs : x.toList.length < 6 := by
      have : ∀ n ∈ pipeNodes, ∀ x ∈ n.outNames, x.toList.length < 6 := by decide +kernel
      exact this n hn x hx
    rw [he, String.toList_append, List.length_append] at hs
    have : ("_const" : String).toList.length = 6 := by decide +kernel
    omega
  · intro p q e _ _ x v w h _; cases h
  · intro p s h
    have hall : (trace 10 ⟨pipeNodes, pipeOuts, nTable⟩).all (fun q => q.1.guardB pipeEnv q.2) = true := by
      decide +kernel
    exact guard_of_check (List.all_eq_true.1 hall _ (trace_mem h))

end OnnxIR
