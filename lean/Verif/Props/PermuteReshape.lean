import Verif.Model.PermuteReshape
import Verif.Props.ConstantShape
import Verif.Spec.Transpose

/-!
# C06: rewriting `Reshape` to a permuted shape into `Transpose`

A `Reshape` keeps the elements in row-major order and a `Transpose` does not, so the rewriting is
only right when the permutation does not move data. The theorem below says what is needed.
-/

namespace OnnxIR

variable {V : Type}

/-! ## Specification -/

/-- `Unsqueeze` keeps the elements; joining one-element tensors (on any axis) lists them. -/
structure PermuteSem (S : Sem V) (tv : TensorView V) : Prop where
  unsqueezeOp : ∀ nm attrs xs ys, S nm .unsqueeze attrs xs = some ys →
    ∃ x rest y, xs = some x :: rest ∧ ys = [y] ∧ tv.i64s y = tv.i64s x
  concatOp : ∀ nm attrs xs ys, S nm .concat attrs xs = some ys →
    ∃ y, ys = [y] ∧ ∀ ds : List Int, xs.length = ds.length →
      (∀ (k : Nat) w d, xs[k]? = some w → ds[k]? = some d → ∃ v, w = some v ∧ tv.i64s v = some [d]) →
      tv.i64s y = some ds
  /-- Building an integer vector and reading it agree. -/
  i64s_mk : ∀ s l, l.length = prodShape s → tv.i64s (tv.mkI64 s l) = some l

/-- The cases in which the rewriting is right. -/
structure PermutesInPlace (S : Sem V) (tv : TensorView V) (env : Env V) (nodes : List (Node V)) :
    Prop where
  /-- `Shape` and `Reshape` nodes read computed tensors, not embedded constants (whose labels need
  not be unique). -/
  dataReads : ∀ n ∈ nodes, n.ty = .reshape ∨ n.ty = .shape → ∀ a as, n.inputs = a :: as → a.reads
  /-- `Shape` nodes feeding a `Gather` return the whole shape. -/
  wholeShape : ∀ g ∈ nodes, g.ty = .gather → ∀ s ∈ nodes, s.ty = .shape →
    (∃ a as, g.inputs = a :: as ∧ a.name ∈ s.outNames) →
    attrGet s.attrs "start" = none ∧ attrGet s.attrs "end" = none
  /-- The indices of `Gather` nodes on shapes are single numbers. -/
  oneIndex : ∀ p g q e1 e2 xs, nodes = p ++ g :: q → g.ty = .gather →
    evalNodes S env p = some e1 → evalNode S e1 g = some e2 → evalArgs e1 g.inputs = some xs →
    (∃ s ∈ nodes, s.ty = .shape ∧ ∃ a as, g.inputs = a :: as ∧ a.name ∈ s.outNames) →
    ∀ v is, xs[1]? = some (some v) → tv.i64s v = some is → is.length = 1
  /-- A target shape joined from as many pieces as the input has dimensions. -/
  sameRank : ∀ p n q e1 e2 x s xs, nodes = p ++ n :: q → n.ty = .reshape →
    evalNodes S env p = some e1 → evalNode S e1 n = some e2 →
    evalArgs e1 n.inputs = some (some x :: s :: xs) →
    ∀ c ∈ nodes, c.ty = .concat → (∃ a, n.inputs[1]? = some a ∧ a.name ∈ c.outNames) →
    (tv.shape x).length = c.inputs.length
  /-- Reshaping to the permuted shape is what transposing does: the permutation moves no data. -/
  inPlace : ∀ p n q e1 e2 x s xs, nodes = p ++ n :: q → n.ty = .reshape →
    evalNodes S env p = some e1 → evalNode S e1 n = some e2 →
    evalArgs e1 n.inputs = some (some x :: some s :: xs) →
    ∀ perm : List Nat, IsPerm (tv.shape x).length perm →
    tv.i64s s = some ((permShape (tv.shape x) perm).map Int.ofNat) →
    ∀ ys, S n.name .reshape n.attrs (some x :: some s :: xs) = some ys →
    S n.name .transpose [("perm", .i64s (perm.map Int.ofNat))] [some x] = some ys

/-! ## Proof -/

theorem permuteEntry_some {tv : TensorView V} {cmap : String → Option V} {nodes : List (Node V)}
    {rank : Nat} {a : Arg V} {iv : Int} {x : String}
    (h : permuteEntry tv cmap nodes (producerMap nodes) rank a = some (some (iv, x))) :
    ∃ u g s u0 us g0 g1 gs x0 xs j, u ∈ nodes ∧ a.name ∈ u.outNames ∧ u.ty = .unsqueeze ∧
      u.inputs = u0 :: us ∧ g ∈ nodes ∧ u0.name ∈ g.outNames ∧ g.ty = .gather ∧
      (attrI64 g.attrs "axis" = some none ∨ attrI64 g.attrs "axis" = some (some 0)) ∧
      g.inputs = g0 :: g1 :: gs ∧ (g1.value cmap).bind tv.scalarI64 = some j ∧
      s ∈ nodes ∧ g0.name ∈ s.outNames ∧ s.ty = .shape ∧ s.inputs = x0 :: xs ∧ x0.name = x ∧
      iv = if j < 0 then j + (rank : Int) else j := by
  unfold permuteEntry at h
  split at h
  · cases h
  next u hu =>
  split at h
  · cases h
  next hut =>
  split at h
  · cases h
  next u0 us hui =>
  split at h
  · cases h
  next g hg =>
  split at h
  · cases h
  next hgt =>
  split at h
  · cases h
  next axis hax =>
  split at h
  · cases h
  next hax0 =>
  split at h
  case h_2 => cases h
  next g0 g1 gs hgi =>
  split at h
  · cases h
  next j hj =>
  split at h
  · cases h
  next s hs =>
  split at h
  · cases h
  next hst =>
  split at h
  · cases h
  next x0 xs hsi =>
  simp only [Option.some.injEq, Prod.mk.injEq] at h
  obtain ⟨hu1, hu2⟩ := producerOf_some hu
  obtain ⟨hg1, hg2⟩ := producerOf_some hg
  obtain ⟨hs1, hs2⟩ := producerOf_some hs
  refine ⟨u, g, s, u0, us, g0, g1, gs, x0, xs, j, hu1, hu2, by simpa using hut, hui, hg1, hg2,
    by simpa using hgt, ?_, hgi, hj, hs1, hs2, by simpa using hst, hsi, h.2, h.1.symm⟩
  cases axis with
  | none => exact Or.inl hax
  | some k =>
    right
    simp at hax0
    rw [hax, hax0]

/-- What the loop returns. -/
theorem permuteLoop_some {tv : TensorView V} {cmap : String → Option V} {nodes : List (Node V)}
    {rank : Nat} : ∀ {as : List (Arg V)} {prev : Option String} {perm : List Int} {final},
    permuteLoop tv cmap nodes (producerMap nodes) rank as prev = some (some (perm, final)) →
    perm.length = as.length ∧ (∀ y, prev = some y → final = some y) ∧
    ∀ (k : Nat) a iv, as[k]? = some a → perm[k]? = some iv → ∃ x, final = some x ∧
      permuteEntry tv cmap nodes (producerMap nodes) rank a = some (some (iv, x))
  | [], prev, perm, final, h => by
    simp only [permuteLoop, Option.some.injEq, Prod.mk.injEq] at h
    obtain ⟨rfl, rfl⟩ := h
    exact ⟨rfl, fun _ h => h, fun k a iv h => by simp at h⟩
  | a :: as, prev, perm, final, h => by
    simp only [permuteLoop] at h
    split at h
    · cases h
    · cases h
    next iv x he =>
    split at h
    case isFalse => cases h
    next hprev =>
    split at h
    · cases h
    · cases h
    next perm' final' hl =>
    simp only [Option.some.injEq, Prod.mk.injEq] at h
    obtain ⟨rfl, rfl⟩ := h
    obtain ⟨h1, h2, h3⟩ := permuteLoop_some hl
    refine ⟨by simp [h1], ?_, ?_⟩
    · intro y hy
      subst hy
      simp at hprev
      rw [hprev]
      exact h2 x rfl
    · intro k b jv hb hj
      cases k with
      | zero =>
        simp at hb hj
        subst hb
        subst hj
        exact ⟨x, h2 x rfl, he⟩
      | succ k => exact h3 k b jv (by simpa using hb) (by simpa using hj)

theorem isPermutation_spec {rank : Nat} : ∀ {l seen : List Int},
    isPermutation rank l seen = true →
    (∀ p ∈ l, 0 ≤ p ∧ p < (rank : Int)) ∧ l.Nodup ∧ ∀ p ∈ l, p ∉ seen
  | [], seen, _ => by simp
  | p :: l, seen, h => by
    simp only [isPermutation] at h
    split at h
    · cases h
    next hc =>
    obtain ⟨h1, h2, h3⟩ := isPermutation_spec h
    refine ⟨?_, ?_, ?_⟩
    · intro a ha
      rcases List.mem_cons.1 ha with rfl | ha
      · omega
      · exact h1 a ha
    · rw [List.nodup_cons]
      exact ⟨fun hm => h3 p hm List.mem_cons_self, h2⟩
    · intro a ha
      rcases List.mem_cons.1 ha with rfl | ha
      · intro hm; exact hc (Or.inr (Or.inr hm))
      · intro hm; exact h3 a ha (List.mem_cons_of_mem _ hm)

/-- The checked list is a permutation of `0, …, rank - 1`. -/
theorem isPermutation_isPerm {perm : List Int} (h : isPermutation perm.length perm [] = true) :
    IsPerm perm.length (perm.map Int.toNat) ∧ (perm.map Int.toNat).map Int.ofNat = perm := by
  obtain ⟨h1, h2, _⟩ := isPermutation_spec h
  have hback : (perm.map Int.toNat).map Int.ofNat = perm := by
    rw [List.map_map]
    conv => rhs; rw [← List.map_id perm]
    refine List.map_congr_left fun a ha => ?_
    have := h1 a ha
    simp only [Function.comp, id]
    exact Int.toNat_of_nonneg this.1
  have hnd : (perm.map Int.toNat).Nodup := by
    have : ((perm.map Int.toNat).map Int.ofNat).Nodup := by rw [hback]; exact h2
    rw [List.Nodup, List.pairwise_map] at this
    exact this.imp fun hne he => hne (by rw [he])
  refine ⟨⟨hnd, ?_⟩, hback⟩
  have hsub : perm.map Int.toNat ⊆ List.range perm.length := by
    intro a ha
    obtain ⟨b, hb, rfl⟩ := List.mem_map.1 ha
    have := h1 b hb
    rw [List.mem_range]; omega
  have hp : (perm.map Int.toNat).Perm (List.range perm.length) :=
    (List.subperm_of_subset hnd hsub).perm_of_length_le (by simp)
  intro a
  rw [hp.mem_iff, List.mem_range]

/-- In a run that reached `e`, the value of a name read by an earlier node is still there. -/
theorem value_stable {S : Sem V} {env : Env V} {p1 p2 : List (Node V)} {m : Node V}
    {f e : Env V} {q : List (Node V)} (hs : SSA env ((p1 ++ m :: p2) ++ q))
    (h1 : evalNodes S env p1 = some f) (he : evalNodes S env (p1 ++ m :: p2) = some e)
    {y : String} {w : V} (hy : f y = some w) : e y = some w := by
  have hs' : SSA env (p1 ++ m :: p2) := hs.prefix
  rw [evalNodes_append, h1] at he
  exact SSA.stable hs' h1 he hy

/-- The value read through one `Unsqueeze -> Gather -> Shape` chain. -/
theorem permuteEntry_value {S : Sem V} {tv : TensorView V} (hS : ShapeSem S tv)
    (hP : PermuteSem S tv) {cmap : String → Option V} {env : Env V} {nodes : List (Node V)}
    (hssa : SSA env nodes) (hwf : WfNames nodes) (htab : TableOk S env nodes cmap)
    (hg : PermutesInPlace S tv env nodes)
    {p q : List (Node V)} {n : Node V} {e1 : Env V} (hn : nodes = p ++ n :: q)
    (h1 : evalNodes S env p = some e1) {a : Arg V} (ha : a ∈ n.inputs) {v : Option V}
    (hv : evalArg e1 a = some v) {rank : Nat} {iv : Int} {x : String}
    (hent : permuteEntry tv cmap nodes (producerMap nodes) rank a = some (some (iv, x)))
    {xv : V} (hx : e1 x = some xv) (hrank : (tv.shape xv).length = rank) :
    ∃ w d, v = some w ∧ tv.i64s w = some [d] ∧ 0 ≤ iv ∧
      (tv.shape xv)[iv.toNat]? = some d.toNat ∧ 0 ≤ d := by
  obtain ⟨u, g, s, u0, us, g0, g1, gs, x0, xs, j, hum, hua, hut, hui, hgm, hgu, hgt, hax, hgi, hj,
    hsm, hsg, hst, hsi, rfl, hiv⟩ := permuteEntry_some hent
  have hnm : n ∈ nodes := by rw [hn]; simp
  -- the Unsqueeze
  have hr := hwf.reads hnm hum ha hua
  obtain ⟨w, hw, rfl⟩ := evalArg_produced hv hr
  have hssa' : SSA env (p ++ n :: q) := hn ▸ hssa
  obtain ⟨p1, p2, f1, f2, us', zs, hp, hf1, hf2, hfw, hus, hzs, hzl, hfe⟩ :=
    produced_value hssa' h1 hw (hn ▸ hum) hua
  rw [hut] at hzs
  obtain ⟨ux, urest, uy, rfl, rfl, huy⟩ := hP.unsqueezeOp _ _ _ _ hzs
  have hwy := bindAll_single hzl hua (hfe ▸ hfw)
  subst hwy
  rw [hui] at hus
  obtain ⟨t, ts, ht, hts, hteq⟩ := evalArgs_cons hus
  simp only [List.cons.injEq] at hteq
  obtain ⟨rfl, rfl⟩ := hteq
  -- the Gather
  have hr2 := hwf.reads hum hgm (by rw [hui]; simp) hgu
  obtain ⟨gw, hgw, hgw'⟩ := evalArg_produced ht hr2
  cases hgw'
  have hn2 : nodes = p1 ++ u :: (p2 ++ n :: q) := by rw [hn, hp]; simp
  have hssa2 : SSA env (p1 ++ u :: (p2 ++ n :: q)) := hn2 ▸ hssa
  obtain ⟨r1, r2, k1, k2, gus, gzs, hpr, hk1, hk2, hkw, hgus, hgzs, hgzl, hke⟩ :=
    produced_value hssa2 hf1 hgw (hn2 ▸ hgm) hgu
  have hgxs := hgus
  rw [hgi] at hgus
  obtain ⟨d0, ds0, hd0, hds0, rfl⟩ := evalArgs_cons hgus
  obtain ⟨d1, ds1, hd1, hds1, rfl⟩ := evalArgs_cons hds0
  -- the Shape
  have hr3 := hwf.reads hgm hsm (by rw [hgi]; simp) hsg
  obtain ⟨sw, hsw, hsw'⟩ := evalArg_produced hd0 hr3
  subst hsw'
  have hn3 : nodes = r1 ++ g :: (r2 ++ u :: (p2 ++ n :: q)) := by rw [hn2, hpr]; simp
  have hssa3 : SSA env (r1 ++ g :: (r2 ++ u :: (p2 ++ n :: q))) := hn3 ▸ hssa
  obtain ⟨o1, o2, l1, l2, sus, szs, hro, hl1, hl2, hlw, hsus, hszs, hszl, hle⟩ :=
    produced_value hssa3 hk1 hsw (hn3 ▸ hsm) hsg
  rw [hst] at hszs
  obtain ⟨sx, st, en, rfl, hst', hen, hz⟩ := hS.shapeOp _ _ _ _ hszs
  simp only at hz
  subst hz
  have hswv := bindAll_single hszl hsg (hle ▸ hlw)
  rw [hsi] at hsus
  obtain ⟨t, ts, ht, hts, hteq⟩ := evalArgs_cons hsus
  simp only [List.cons.injEq] at hteq
  obtain ⟨rfl, rfl⟩ := hteq
  have hatt := hg.wholeShape g hgm hgt s hsm hst ⟨g0, _, hgi, hsg⟩
  unfold attrI64 at hst' hen
  rw [hatt.1] at hst'
  rw [hatt.2] at hen
  cases hst'
  cases hen
  -- the Shape reads the tensor the Reshape reads
  have hsx : sx = xv := by
    have hp3 : p = o1 ++ s :: (o2 ++ g :: (r2 ++ u :: p2)) := by rw [hp, hpr, hro]; simp
    obtain ⟨c, hc, hc'⟩ := evalArg_produced ht (hg.dataReads s hsm (Or.inr hst) _ _ hsi)
    cases hc'
    have hst := value_stable (q := n :: q) (hp3 ▸ hssa') hl1 (hp3 ▸ h1) hc
    rw [hx] at hst
    exact (Option.some.inj hst).symm
  subst hsx
  rw [onnxShape_from (by simp)] at hswv
  simp only [Option.getD_none, Int.lt_irrefl, if_false, Int.toNat_zero, List.drop_zero] at hswv
  rw [hgt] at hgzs
  subst hswv
  obtain ⟨idx, is, ds, hxeq, his, hds, rfl⟩ := hS.gatherOp _ _ _ _ _ hax hgzs
  simp only [List.cons.injEq] at hxeq
  obtain ⟨rfl, rfl⟩ := hxeq
  obtain ⟨jv, hjv, hjs⟩ := Option.bind_eq_some_iff.1 hj
  have hidx := Arg.value_eval (htab r1 _ k1 hn3 hk1) hjv hd1
  simp only [Option.some.injEq] at hidx
  subst hidx
  have hone := hg.oneIndex r1 g _ k1 k2 _ hn3 hgt hk1 hk2 hgxs ⟨s, hsm, hst, g0, _, hgi, hsg⟩ idx is
    (by simp) his
  have hhead := hS.scalar _ _ _ hjs his
  match is, hone with
  | [i], _ =>
  simp at hhead
  subst hhead
  obtain ⟨d, hd, rfl⟩ : ∃ d, onnxGather1 ((tv.shape sx).map Int.ofNat) i = some d ∧ ds = [d] := by
    simp only [collect] at hds
    cases hgd : onnxGather1 ((tv.shape sx).map Int.ofNat) i with
    | none => rw [hgd] at hds; simp at hds
    | some d => rw [hgd] at hds; simp at hds; exact ⟨d, rfl, hds.symm⟩
  have hgwv := bindAll_single hgzl hgu (hke ▸ hkw)
  subst hgwv
  have hsz := hS.size _ _ his
  refine ⟨w, d, rfl, ?_, ?_⟩
  · rw [huy]
    exact hP.i64s_mk _ _ (by simpa using hsz)
  unfold onnxGather1 fromBack at hd
  split at hd
  case isFalse => cases hd
  next hb =>
  simp only [List.length_map, hrank] at hb hd
  rw [← hiv] at hd
  rw [List.getElem?_map] at hd
  obtain ⟨m, hm, rfl⟩ := Option.map_eq_some_iff.1 hd
  refine ⟨?_, by simpa using hm, by simp⟩
  rw [hiv]; split <;> omega

/-- **C06.** Replacing a `Reshape` whose target shape is gathered from the dimensions of its own
input by a `Transpose` leaves every result of the graph unchanged, as far as the permutation moves
no data. What is missing: for other permutations the results differ, see
`C06_transpose_moves_data`. -/
theorem C06_permute_reshape_preserves_outputs_partial (S : Sem V) (tv : TensorView V)
    (hS : ShapeSem S tv) (hP : PermuteSem S tv) (cmap : String → Option V) (env : Env V)
    (nodes nodes' : List (Node V)) (outs : List (Arg V)) (hssa : SSA env nodes)
    (hwf : WfNames nodes) (htab : TableOk S env nodes cmap) (hg : PermutesInPlace S tv env nodes)
    (h : simplifyPermuteReshape tv cmap nodes = some nodes') :
    Preserves S env outs nodes nodes' := by
  refine preserves_of_evalNodes (fun E hE => ?_) outs
  refine evalNodes_pointwise (collect_length h) ?_ hE
  intro p n q n' e1 e2 hn hn' h1 h2
  have hnm : n ∈ nodes := by rw [hn]; simp
  have hget : permuteNode tv cmap nodes (producerMap nodes) n = some n' :=
    collect_get h (i := p.length) (by rw [hn]; simp) hn'
  unfold permuteNode at hget
  split at hget
  case isFalse => cases hget; exact h2
  next hnt =>
  split at hget
  case h_2 => cases hget; exact h2
  next data target rest hins =>
  split at hget
  · cases hget
  · cases hget; exact h2
  next perm hext =>
  cases hget
  unfold extractPermutePattern at hext
  split at hext
  · cases hext
  next c hc =>
  split at hext
  · cases hext
  next hct =>
  have hct : c.ty = .concat := by simpa using hct
  split at hext
  · cases hext
  · cases hext
  next perm' final hloop =>
  split at hext
  · cases hext
  next hfin =>
  have hfin : final = some data.name := by simpa using hfin
  split at hext
  case isFalse => cases hext
  next hperm =>
  simp only [Option.some.injEq] at hext
  subst hext
  obtain ⟨hcm, hcx⟩ := producerOf_some hc
  obtain ⟨hpl, _, hentries⟩ := permuteLoop_some hloop
  obtain ⟨hip, hback⟩ := isPermutation_isPerm hperm
  -- the run of the Reshape
  obtain ⟨xs, ys, hxs, hys, hl, he2⟩ := evalNode_some h2
  have hxs' := hxs
  rw [hins] at hxs
  obtain ⟨wd, ws, hwd, hws, rfl⟩ := evalArgs_cons hxs
  obtain ⟨wt, ws', hwt, hws', rfl⟩ := evalArgs_cons hws
  obtain ⟨x, hx, rfl⟩ := evalArg_produced hwd (hg.dataReads n hnm (Or.inl hnt) _ _ hins)
  have hrt := hwf.reads hnm hcm (by rw [hins]; simp) hcx
  obtain ⟨t, ht, rfl⟩ := evalArg_produced hwt hrt
  have hssa' : SSA env (p ++ n :: q) := hn ▸ hssa
  obtain ⟨p1, p2, f1, f2, cs, zs, hp, hf1, hf2, hfw, hcs, hzs, hzl, hfe⟩ :=
    produced_value hssa' h1 ht (hn ▸ hcm) hcx
  rw [hct] at hzs
  obtain ⟨y, rfl, hy⟩ := hP.concatOp _ _ _ _ hzs
  have hty := bindAll_single hzl hcx (hfe ▸ hfw)
  subst hty
  have hrank := hg.sameRank p n q e1 e2 x (some t) ws' hn hnt h1 h2 hxs' c hcm hct
    ⟨target, by rw [hins]; rfl, hcx⟩
  have hn2 : nodes = p1 ++ c :: (p2 ++ n :: q) := by rw [hn, hp]; simp
  have hipx : IsPerm (tv.shape x).length (perm'.map Int.toNat) := by rw [hrank, ← hpl]; exact hip
  -- the tensor was already there when the Concat ran
  have htarget : tv.i64s t = some ((permShape (tv.shape x) (perm'.map Int.toNat)).map Int.ofNat) := by
    refine hy _ (by simp [permShape, evalArgs_length hcs, hpl]) ?_
    intro k w d hw hd
    have hk : k < c.inputs.length := by
      have := (List.getElem?_eq_some_iff.1 hw).1
      rwa [evalArgs_length hcs] at this
    have hk' : k < perm'.length := by rw [hpl]; exact hk
    obtain ⟨x', hx', hent⟩ := hentries k c.inputs[k] perm'[k] (by simp [hk]) (by simp [hk'])
    rw [hfin] at hx'
    cases hx'
    obtain ⟨w', hw', hwe⟩ := evalArgs_get hcs (i := k) (a := c.inputs[k]) (by simp [hk])
    rw [hw] at hw'
    cases hw'
    have hxf : f1 data.name = some x := by
      obtain ⟨u, g, s, u0, us, g0, g1, gs, x0, xs, j, hum, hua, hut, hui, hgm, hgu, hgt, hax, hgi,
        hj, hsm, hsg, hst, hsi, hx0, hiv⟩ := permuteEntry_some hent
      -- the name was bound when the Shape ran
      have hr := hwf.reads hcm hum (List.getElem_mem hk) hua
      obtain ⟨a1, ha1, _⟩ := evalArg_produced hwe hr
      obtain ⟨r1, r2, k1, k2, z1, z2, hpr, hk1, hk2, _, hz1, hz2, _, _⟩ :=
        produced_value (hn2 ▸ hssa) hf1 ha1 (hn2 ▸ hum) hua
      rw [hui] at hz1
      obtain ⟨b1, b2, hb1, _, _⟩ := evalArgs_cons hz1
      have hr2 := hwf.reads hum hgm (by rw [hui]; simp) hgu
      obtain ⟨a2, ha2, _⟩ := evalArg_produced hb1 hr2
      have hn3 : nodes = r1 ++ u :: (r2 ++ c :: (p2 ++ n :: q)) := by rw [hn2, hpr]; simp
      obtain ⟨o1, o2, l1, l2, z3, z4, hpo, hl1, hl2, _, hz3, _, _, _⟩ :=
        produced_value (hn3 ▸ hssa) hk1 ha2 (hn3 ▸ hgm) hgu
      rw [hgi] at hz3
      obtain ⟨b3, b4, hb3, _, _⟩ := evalArgs_cons hz3
      have hr3 := hwf.reads hgm hsm (by rw [hgi]; simp) hsg
      obtain ⟨a3, ha3, _⟩ := evalArg_produced hb3 hr3
      have hn4 : nodes = o1 ++ g :: (o2 ++ u :: (r2 ++ c :: (p2 ++ n :: q))) := by
        rw [hn3, hpo]; simp
      obtain ⟨v1, v2, m1, m2, z5, z6, hpv, hm1, hm2, _, hz5, _, _, _⟩ :=
        produced_value (hn4 ▸ hssa) hl1 ha3 (hn4 ▸ hsm) hsg
      rw [hsi] at hz5
      obtain ⟨b5, b6, hb5, _, _⟩ := evalArgs_cons hz5
      obtain ⟨a5, ha5, _⟩ := evalArg_produced hb5 (hg.dataReads s hsm (Or.inr hst) _ _ hsi)
      rw [hx0] at ha5
      have hp5 : p1 = v1 ++ s :: (v2 ++ g :: (o2 ++ u :: r2)) := by rw [hpr, hpo, hpv]; simp
      have h5 := value_stable (q := c :: (p2 ++ n :: q)) (hp5 ▸ (hn2 ▸ hssa)) hm1 (hp5 ▸ hf1) ha5
      have h6 := value_stable (q := n :: q) (hp ▸ hssa') hf1 (hp ▸ h1) h5
      rw [hx] at h6
      rw [h5, ← h6]
    obtain ⟨v, d', rfl, hv, hiv0, hdk, hd0⟩ := permuteEntry_value hS hP hssa hwf htab hg hn2 hf1
      (List.getElem_mem hk) hwe hent hxf hrank
    refine ⟨v, rfl, ?_⟩
    rw [hv]
    congr 2
    simp only [permShape, List.getElem?_map, List.getElem?_eq_getElem hk', Option.map_some,
      Option.some.injEq, List.getD_eq_getElem?_getD] at hd
    rw [hdk] at hd
    simp only [Option.getD_some] at hd
    rw [← hd]
    simp only [Int.ofNat_eq_natCast]
    omega
  have hfinal := hg.inPlace p n q e1 e2 x t ws' hn hnt h1 h2 hxs' (perm'.map Int.toNat) hipx htarget ys
    (by rw [← hnt]; exact hys)
  rw [hback] at hfinal
  rw [he2]
  refine evalNode_intro (n := ⟨.transpose, n.name, [data], n.outputs, [("perm", .i64s perm')]⟩)
    (xs := [some x]) (ys := ys) ?_ hfinal hl
  simp [evalArgs, hwd]

end OnnxIR
