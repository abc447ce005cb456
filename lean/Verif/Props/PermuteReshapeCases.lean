import Verif.Props.PermuteReshape
import Verif.Props.ConstantFoldCases

/-!
# C06: a graph that meets the hypotheses, and the counterexample
-/

namespace OnnxIR

theorem flatten_singletons : ∀ {ls : List (List Int)} {ds : List Int}, ls.length = ds.length →
    (∀ (k : Nat) l d, ls[k]? = some l → ds[k]? = some d → l = [d]) → ls.flatten = ds
  | [], [], _, _ => rfl
  | [], _ :: _, h, _ => by simp at h
  | _ :: _, [], h, _ => by simp at h
  | l :: ls, d :: ds, h, hk => by
    have h0 := hk 0 l d (by simp) (by simp)
    subst h0
    rw [List.flatten_cons, flatten_singletons (ds := ds) (by simpa using h)]
    · rfl
    · intro k l' d' h1 h2
      exact hk (k + 1) l' d' (by simpa using h1) (by simpa using h2)

theorem numSem_permuteSem : PermuteSem numSem nview where
  unsqueezeOp := by
    intro nm attrs xs ys h
    simp only [numSem] at h
    unfold nUnsqueeze at h
    split at h
    case h_2 => cases h
    next x rest =>
    cases h
    refine ⟨x, rest, _, rfl, rfl, ?_⟩
    cases x with
    | int d t => cases d <;> rfl
    | f32 t => rfl
    | f64 t => rfl
  concatOp := by
    intro nm attrs xs ys h
    simp only [numSem] at h
    unfold nConcat at h
    split at h
    case h_2 => cases h
    next ax ts hax hts =>
    split at h
    case isFalse => cases h
    obtain ⟨r, hr, h⟩ := Option.bind_eq_some_iff.1 h
    split at h
    case isFalse => cases h
    next hl =>
    cases h
    refine ⟨_, rfl, ?_⟩
    intro ds hlen hall
    obtain ⟨h1, h2⟩ := allI64_some hts
    have hr2 : r.2 = (ts.map Tensor.data).flatten := by
      unfold concat0 at hr
      split at hr
      · cases hr
      · split at hr
        · cases hr; simp only [List.map_map]; rfl
        · cases hr
    show some r.2 = some ds
    rw [hr2]
    congr 1
    refine flatten_singletons (by simpa [h1] using hlen) ?_
    intro k l d hk hd
    rw [List.getElem?_map] at hk
    obtain ⟨t, ht, rfl⟩ := Option.map_eq_some_iff.1 hk
    obtain ⟨v, hv, hvi⟩ := hall k (some (.int .i64 t)) d (by rw [h1]; simp [ht]) hd
    cases hv
    simpa [cvalView, CVal.toI64Vec] using hvi
  i64s_mk := by
    intro s l h
    rw [nview_mk _ _ h]; rfl

/-- A permutation that keeps the order of the dimensions other than 1 moves no data: in `numSem`,
the `Transpose` is the `Reshape`. -/
theorem nTranspose_eq_reshape {x s : NVal} {perm : List Nat} {attrs : List (String × AttrVal NVal)}
    {xs : List (Option NVal)} {ys : List NVal} {nm : String} (hp : IsPerm x.shape.length perm)
    (hk : KeepsOrder x.shape perm)
    (hs : nview.i64s s = some ((permShape x.shape perm).map Int.ofNat))
    (h : numSem nm .reshape attrs (some x :: some s :: xs) = some ys) :
    numSem nm .transpose [("perm", .i64s (perm.map Int.ofNat))] [some x] = some ys := by
  simp only [numSem] at h ⊢
  have hback : (perm.map Int.ofNat).map Int.toNat = perm := by
    rw [List.map_map]
    conv => rhs; rw [← List.map_id perm]
    exact List.map_congr_left fun a _ => by simp
  have hback2 : ((permShape x.shape perm).map Int.ofNat).map Int.toNat = permShape x.shape perm := by
    rw [List.map_map]
    conv => rhs; rw [← List.map_id (permShape x.shape perm)]
    exact List.map_congr_left fun a _ => by simp
  unfold nReshape at h
  split at h
  case h_2 => cases h
  next x' s' heq =>
  simp only [List.cons.injEq, Option.some.injEq] at heq
  obtain ⟨rfl, rfl, rfl⟩ := heq
  simp only [cvalView] at hs
  rw [hs] at h
  simp only [Option.bind_some, hback2] at h
  split at h
  case isFalse => cases h
  next hprod =>
  simp only [Option.some.injEq] at h
  subst h
  unfold nTranspose
  have hget : attrGet [("perm", AttrVal.i64s (V := NVal) (perm.map Int.ofNat))] "perm" =
      some (.i64s (perm.map Int.ofNat)) := rfl
  simp only [hget]
  rw [if_pos, hback]
  · congr 2
    cases x with
    | int d t =>
      simp only [CVal.transpose, CVal.withShape]
      congr 1
      exact Tensor.ext rfl (Tensor.transpose_data hp hk)
    | f32 t =>
      simp only [CVal.transpose, CVal.withShape]
      congr 1
      exact Tensor.ext rfl (Tensor.transpose_data hp hk)
    | f64 t =>
      simp only [CVal.transpose, CVal.withShape]
      congr 1
      exact Tensor.ext rfl (Tensor.transpose_data hp hk)
  · refine ⟨by simp [hp.length], ?_, ?_⟩
    · have := hp.1
      rw [List.Nodup, List.pairwise_map]
      exact this.imp fun hne he => hne (Int.ofNat.inj he)
    · intro a ha
      obtain ⟨b, hb, rfl⟩ := List.mem_map.1 ha
      exact ⟨by simp, by simpa using (hp.2 b).1 hb⟩

/-- The nodes the pattern is about: `Shape`, and per dimension `Gather`, `Unsqueeze`, then `Concat`
and `Reshape`. -/
def permuteGraph (s : List Nat) (perm : List Nat) : List (Node NVal) :=
  [⟨.shape, "shape1", [narg "x" (i64Ty s)], [narg "s" (.shape s.length)], []⟩] ++
  perm.map (fun k => ⟨.gather, s!"gather{k}", [narg "s" (.shape s.length),
    nconst (.scalarNative .i64) (i64T [] [(k : Int)])], [narg s!"g{k}" (.scalarNative .i64)], []⟩) ++
  perm.map (fun k => ⟨.unsqueeze, s!"unsqueeze{k}", [narg s!"g{k}" (.scalarNative .i64)],
    [narg s!"u{k}" (.shape 1)], []⟩) ++
  [⟨.concat, "concat1", perm.map (fun k => narg s!"u{k}" (.shape 1)), [narg "t" (.shape s.length)],
      [("axis", .i64 0)]⟩,
   ⟨.reshape, "reshape1", [narg "x" (i64Ty s), narg "t" (.shape s.length)],
      [narg "y" (i64Ty (permShape s perm))], []⟩]

/-- The tensor `x` with elements 0, 1, 2, … -/
def iotaEnv (s : List Nat) : Env NVal := fun x =>
  if x = "x" then some (i64T s ((List.range (prodShape s)).map Int.ofNat)) else none

/-- The output. -/
def permuteOuts (s perm : List Nat) : List (Arg NVal) := [narg "y" (i64Ty (permShape s perm))]

/-- Run the rewritten graph. -/
def permutedRun (s perm : List Nat) : Option (List (Option NVal)) :=
  (simplifyPermuteReshape nview nTable (permuteGraph s perm)).bind fun ns =>
    evalGraph numSem (iotaEnv s) ns (permuteOuts s perm)

/-- **Rewriting into `Transpose` moves data.** `Reshape` of the 2×3 tensor `0 1 2 / 3 4 5` to 3×2
is `0 1 / 2 3 / 4 5`; the rewritten graph gives `0 3 / 1 4 / 2 5`. -/
theorem C06_transpose_moves_data :
    SSA (iotaEnv [2, 3]) (permuteGraph [2, 3] [1, 0]) ∧ WfNames (permuteGraph [2, 3] [1, 0]) ∧
    TypedRun numSem nview (iotaEnv [2, 3]) (permuteGraph [2, 3] [1, 0]) ∧
    evalGraph numSem (iotaEnv [2, 3]) (permuteGraph [2, 3] [1, 0]) (permuteOuts [2, 3] [1, 0]) =
      some [some (i64T [3, 2] [0, 1, 2, 3, 4, 5])] ∧
    permutedRun [2, 3] [1, 0] = some [some (i64T [3, 2] [0, 3, 1, 4, 2, 5])] :=
  ⟨ssa_of_check (by decide +kernel), wf_of_check (by decide +kernel),
    typedRun_of_check (by decide +kernel), by decide +kernel, by decide +kernel⟩

/-- The hypotheses of the theorem about one step, as a check, for a graph in which every `Reshape`
goes from shape `s` to shape `t`. -/
def permuteStepB (s t : List Nat) (e1 : Env NVal) (n : Node NVal) (_ : Env NVal) : Bool :=
  match n.ty with
  | .gather => match evalArgs e1 n.inputs with
    | some xs => match xs[1]? with
      | some (some v) => v.toI64Vec.all fun l => l.length == 1
      | _ => true
    | none => true
  | .reshape => match evalArgs e1 n.inputs with
    | some (some x :: some u :: _) => x.shape == s && u.toI64Vec == some (t.map Int.ofNat)
    | _ => true
  | _ => true

/-- The hypotheses about the nodes, as a check. -/
def permuteNodesB (rank : Nat) (nodes : List (Node NVal)) : Bool :=
  nodes.all fun n => match n.ty with
    | .shape => n.attrs.isEmpty && (n.inputs.take 1).all fun a => a.src == .dynamic
    | .reshape => (n.inputs.take 1).all fun a => a.src == .dynamic
    | .concat => n.inputs.length == rank
    | _ => true

theorem permutesInPlace_of_check {env : Env NVal} {nodes : List (Node NVal)} {s t : List Nat}
    (h1 : permuteNodesB s.length nodes = true)
    (h2 : checkRun numSem (permuteStepB s t) env nodes = true)
    (hk : ∀ perm, IsPerm s.length perm → permShape s perm = t → KeepsOrder s perm) :
    PermutesInPlace numSem nview env nodes := by
  have hinj : ∀ {l m : List Nat}, l.map Int.ofNat = m.map Int.ofNat → l = m := fun h =>
    (List.map_inj_right (fun _ _ e => Int.ofNat.inj e)).1 h
  refine ⟨?_, ?_, ?_, ?_, ?_⟩
  · intro n hn ht a as hi
    have := List.all_eq_true.1 h1 n hn
    rcases ht with ht | ht
    · rw [ht, hi] at this
      right; simpa using this
    · rw [ht, hi] at this
      right; simp at this; exact this.2
  · intro g _ _ m hm hmt _
    have := List.all_eq_true.1 h1 m hm
    rw [hmt] at this
    simp at this
    rw [this.1]
    exact ⟨rfl, rfl⟩
  · intro p g q e1 e2 xs hn hg he1 he2 hxs _ v is hv his
    have := checkRun_sound h2 p g q e1 e2 hn he1 he2
    simp only [permuteStepB, hg, hxs, hv] at this
    simp only [cvalView] at his
    rw [his] at this
    simpa using this
  · intro p n q e1 e2 x u xs hn ht he1 he2 hxs c hc hct _
    have h3 := List.all_eq_true.1 h1 c hc
    rw [hct] at h3
    have := checkRun_sound h2 p n q e1 e2 hn he1 he2
    simp only [permuteStepB, ht, hxs] at this
    obtain ⟨xs', ys, hxs', hys, _, _⟩ := evalNode_some he2
    rw [hxs] at hxs'
    cases hxs'
    rw [ht] at hys
    cases u with
    | none => simp [numSem, nReshape] at hys
    | some u =>
      simp at this h3
      simp only [cvalView]
      rw [this.1, h3]
  · intro p n q e1 e2 x u xs hn ht he1 he2 hxs perm hp hu ys hys
    have := checkRun_sound h2 p n q e1 e2 hn he1 he2
    simp only [permuteStepB, ht, hxs, Bool.and_eq_true, beq_iff_eq] at this
    refine nTranspose_eq_reshape hp ?_ hu hys
    simp only [cvalView] at hu hp
    rw [this.2, this.1] at hu
    rw [this.1] at hp ⊢
    exact hk perm hp (hinj (Option.some.inj hu).symm)

/-- All hypotheses of `C06_permute_reshape_preserves_outputs_partial` hold of a 2×1×3 tensor
permuted to 2×3×1: the `Reshape` is replaced, and the result is the same. -/
example : ShapeSem numSem nview ∧ PermuteSem numSem nview ∧
    SSA (iotaEnv [2, 1, 3]) (permuteGraph [2, 1, 3] [0, 2, 1]) ∧
    WfNames (permuteGraph [2, 1, 3] [0, 2, 1]) ∧
    TableOk numSem (iotaEnv [2, 1, 3]) (permuteGraph [2, 1, 3] [0, 2, 1]) nTable ∧
    PermutesInPlace numSem nview (iotaEnv [2, 1, 3]) (permuteGraph [2, 1, 3] [0, 2, 1]) ∧
    ((simplifyPermuteReshape nview nTable (permuteGraph [2, 1, 3] [0, 2, 1])).map fun ns =>
      (ns.map Node.ty).getLast?) = some (some .transpose) ∧
    permutedRun [2, 1, 3] [0, 2, 1] = some [some (i64T [2, 3, 1] [0, 1, 2, 3, 4, 5])] := by
  refine ⟨numSem_shapeSem, numSem_permuteSem, ssa_of_check (by decide +kernel),
    wf_of_check (by decide +kernel), ?_, ?_, by decide +kernel, by decide +kernel⟩
  · intro p q e _ _ x v w h _; cases h
  refine permutesInPlace_of_check (s := [2, 1, 3]) (t := [2, 3, 1]) (by decide +kernel)
    (by decide +kernel) ?_
  intro perm hp hs
  have hl := hp.length
  match perm, hl with
  | [a, b, c], _ =>
    have ha := (hp.2 a).1 (by simp)
    have hb := (hp.2 b).1 (by simp)
    have hc := (hp.2 c).1 (by simp)
    simp only [List.length_cons, List.length_nil] at ha hb hc
    simp only [permShape, List.map_cons, List.map_nil, List.cons.injEq, and_true] at hs
    have h3 : ∀ k, k < 3 → k = 0 ∨ k = 1 ∨ k = 2 := by omega
    rcases h3 a ha with rfl | rfl | rfl <;> simp at hs
    rcases h3 b hb with rfl | rfl | rfl <;> simp at hs
    rcases h3 c hc with rfl | rfl | rfl <;> simp at hs
    unfold KeepsOrder
    decide

end OnnxIR
