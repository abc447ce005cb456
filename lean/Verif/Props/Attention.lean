import Verif.Spec.Attention
import Verif.Props.PermuteReshape

/-!
# C10: coalescing scaled dot-product attention

MatMul, scaling, mask, Softmax and MatMul become one Attention node. The theorem says when that computes the
same values.
-/

namespace OnnxIR

variable {V F : Type}

/-! ## Runs -/

theorem evalArg_mono {f e : Env V} (h : ∀ y w, f y = some w → e y = some w) {a : Arg V} {v}
    (hv : evalArg f a = some v) : evalArg e a = some v := by
  unfold evalArg at hv ⊢
  cases hs : a.src with
  | static u => simpa [hs] using hv
  | optional => simpa [hs] using hv
  | constant =>
    simp only [hs] at hv ⊢
    obtain ⟨w, hw, rfl⟩ := Option.map_eq_some_iff.1 hv
    simp [h _ _ hw]
  | dynamic =>
    simp only [hs] at hv ⊢
    obtain ⟨w, hw, rfl⟩ := Option.map_eq_some_iff.1 hv
    simp [h _ _ hw]

theorem evalArgs_mono {f e : Env V} (h : ∀ y w, f y = some w → e y = some w) :
    ∀ {as : List (Arg V)} {xs}, evalArgs f as = some xs → evalArgs e as = some xs
  | [], xs, hx => by simpa [evalArgs] using hx
  | a :: as, xs, hx => by
    obtain ⟨v, vs, hv, hvs, rfl⟩ := evalArgs_cons hx
    simp [evalArgs, evalArg_mono h hv, evalArgs_mono h hvs]

/-- The value of a name in the middle of a run comes from the node that produces it, whose inputs still have
the values it read. -/
theorem chain_step {S : Sem V} {env : Env V} {nodes p q : List (Node V)} {n m : Node V} {e1 : Env V}
    (hs : SSA env nodes) (hn : nodes = p ++ n :: q) (h1 : evalNodes S env p = some e1)
    (hm : m ∈ nodes) {x : String} (hx : x ∈ m.outNames) {w : V} (hw : e1 x = some w) :
    ∃ p1 q1 f1 f2 xs ys, nodes = p1 ++ m :: q1 ∧ evalNodes S env p1 = some f1 ∧
      evalNode S f1 m = some f2 ∧ evalArgs f1 m.inputs = some xs ∧ evalArgs e1 m.inputs = some xs ∧
      S m.name m.ty m.attrs xs = some ys ∧ f2 x = some w ∧ (∀ y, ys = [y] → w = y) := by
  have hs' : SSA env (p ++ n :: q) := hn ▸ hs
  obtain ⟨p1, p2, f1, f2, xs, ys, hp, hf1, hf2, hfw, hxs, hys, hl, hfe⟩ :=
    produced_value hs' h1 hw (hn ▸ hm) hx
  refine ⟨p1, p2 ++ n :: q, f1, f2, xs, ys, by rw [hn, hp]; simp, hf1, hf2, hxs, ?_, hys, hfw, ?_⟩
  · refine evalArgs_mono (fun y v hy => ?_) hxs
    exact value_stable (q := n :: q) (hp ▸ hs') hf1 (hp ▸ h1) hy
  · intro y hy
    subst hy
    exact bindAll_single hl hx (hfe ▸ hfw)

theorem admits_rank {ty : ArgType} {s : List Nat} (h2 : 2 ≤ ty.rank) (h : ty.Admits s) :
    s.length = ty.rank := by
  cases ty with
  | tensor t => exact h.1
  | scalarTensor d => simp [ArgType.rank] at h2
  | scalarNative d => simp [ArgType.rank] at h2
  | shape k => simp [ArgType.rank] at h2

/-! ## Replacement -/

theorem foldl_set_length {α : Type} : ∀ (rs : List (Nat × α)) (l : List α),
    (rs.foldl (fun ns r => ns.set r.1 r.2) l).length = l.length
  | [], l => rfl
  | r :: rs, l => by
    simp only [List.foldl_cons]
    rw [foldl_set_length rs]
    simp

theorem foldl_set_get {α : Type} : ∀ (rs : List (Nat × α)) (l : List α) {i : Nat} {x y : α},
    l[i]? = some x → (rs.foldl (fun ns r => ns.set r.1 r.2) l)[i]? = some y → y = x ∨ (i, y) ∈ rs
  | [], l, i, x, y, hx, hy => by
    simp only [List.foldl_nil] at hy
    rw [hx] at hy
    exact Or.inl (Option.some.inj hy).symm
  | r :: rs, l, i, x, y, hx, hy => by
    simp only [List.foldl_cons] at hy
    by_cases hr : r.1 = i
    · have hlt : i < l.length := (List.getElem?_eq_some_iff.1 hx).1
      have hset : (l.set r.1 r.2)[i]? = some r.2 := by rw [hr]; simp [hlt]
      rcases foldl_set_get rs _ hset hy with h | h
      · right; rw [h, ← hr]; exact List.mem_cons_self
      · exact Or.inr (List.mem_cons_of_mem _ h)
    · have hset : (l.set r.1 r.2)[i]? = some x := by
        rw [List.getElem?_set_ne hr]; exact hx
      rcases foldl_set_get rs _ hset hy with h | h
      · exact Or.inl h
      · exact Or.inr (List.mem_cons_of_mem _ h)

/-! ## Scale factors and masks -/

section
variable {S : Sem V} {tv : TensorView V} {sv : ScaleView V F} {ops : AttnOps V F}
  {cmap : String → Option V} {env : Env V} {nodes p q : List (Node V)} {n : Node V} {e1 : Env V}

theorem argScalar_some {a : Arg V} {s : F} (h : argScalar sv cmap a = some s) :
    ∃ c, a.value cmap = some c ∧ sv.scalar c = some s := Option.bind_eq_some_iff.1 h

/-- A node recognised as a scaling scales. -/
theorem extractScale_value (hA : AttnSem S tv sv ops) (hs : SSA env nodes) (hwf : WfNames nodes)
    (htab : TableOk S env nodes cmap) (hn : nodes = p ++ n :: q) (h1 : evalNodes S env p = some e1)
    {m : Node V} (hm : m ∈ nodes)
    (hone : m.ty = .mul ∨ m.ty = .div → ∀ a ∈ m.inputs, ∀ c, a.value cmap = some c →
      ∃ s, IsFactor tv sv m.ty c s)
    {u : String} {s : F} (he : tryExtractScale sv cmap nodes m = some (u, s))
    {z : String} (hz : z ∈ m.outNames) {y : V} (hy : e1 z = some y)
    {mm : Node V} (hmm : mm ∈ nodes) (hu : u ∈ mm.outNames) :
    ExactScale sv s ∧ ∃ a, e1 u = some a ∧ ((tv.shape a).length = 4 → ops.scale s a = some y) := by
  have hone' : ∀ (b : Arg V) (s : F), m.ty = .mul ∨ m.ty = .div → b ∈ m.inputs →
      argScalar sv cmap b = some s → ∀ v, evalArg e1 b = some (some v) → IsFactor tv sv m.ty v s := by
    intro b s ht hb hbs v hv
    obtain ⟨c, hc, hcs⟩ := argScalar_some hbs
    have := Arg.value_eval (htab p (n :: q) e1 hn h1) hc hv
    cases this
    obtain ⟨s', h'⟩ := hone ht b hb v hc
    have : s' = s := by have := h'.1.1; rw [hcs] at this; exact (Option.some.inj this).symm
    exact this ▸ h'
  obtain ⟨p1, q1, f1, f2, xs, ys, hn1, hf1, hf2, hxs1, hxs, hS, hfw, huniq⟩ :=
    chain_step hs hn h1 hm hz hy
  unfold tryExtractScale at he
  split at he
  · cases he
  split at he
  · next a b r hty hin =>
    split at he
    · cases he
    next d hd =>
    split at he
    · cases he
    next hz0 =>
    simp only [Option.some.injEq, Prod.mk.injEq] at he
    obtain ⟨rfl, rfl⟩ := he
    rw [hty] at hS
    obtain ⟨av, bv, y', rfl, rfl, hdiv⟩ := hA.divOp _ _ _ _ hS
    have := huniq _ rfl
    subst this
    rw [hin] at hxs
    obtain ⟨v, vs, hv, hvs, heq⟩ := evalArgs_cons hxs
    obtain ⟨v', vs', hv', hvs', rfl⟩ := evalArgs_cons hvs
    simp only [List.cons.injEq] at heq
    obtain ⟨rfl, rfl, rfl⟩ := heq
    obtain ⟨w, hw, hw'⟩ := evalArg_produced hv (hwf.reads hm hmm (by rw [hin]; simp) hu)
    cases hw'
    have hfac := hone' b d (Or.inr hty) (by rw [hin]; simp) hd _ hv'
    exact ⟨hfac.2.2 hty, _, hw, fun h4 => hdiv d hfac.1 (by simpa using hz0) h4⟩
  · next a b r hty hin =>
    rw [hty] at hS
    obtain ⟨av, bv, y', rfl, rfl, hmul1, hmul2⟩ := hA.mulOp _ _ _ _ hS
    have := huniq _ rfl
    subst this
    rw [hin] at hxs
    obtain ⟨v, vs, hv, hvs, heq⟩ := evalArgs_cons hxs
    obtain ⟨v', vs', hv', hvs', rfl⟩ := evalArgs_cons hvs
    simp only [List.cons.injEq] at heq
    obtain ⟨rfl, rfl, rfl⟩ := heq
    split at he
    · next d hd =>
      simp only [Option.some.injEq, Prod.mk.injEq] at he
      obtain ⟨rfl, rfl⟩ := he
      obtain ⟨w, hw, hw'⟩ := evalArg_produced hv (hwf.reads hm hmm (by rw [hin]; simp) hu)
      cases hw'
      have hfac := hone' b d (Or.inl hty) (by rw [hin]; simp) hd _ hv'
      exact ⟨hfac.2.1 hty, _, hw, fun h4 => hmul1 d hfac.1 h4⟩
    · split at he
      · next d hd =>
        simp only [Option.some.injEq, Prod.mk.injEq] at he
        obtain ⟨rfl, rfl⟩ := he
        obtain ⟨w, hw, hw'⟩ := evalArg_produced hv' (hwf.reads hm hmm (by rw [hin]; simp) hu)
        cases hw'
        have hfac := hone' a d (Or.inl hty) (by rw [hin]; simp) hd _ hv
        exact ⟨hfac.2.1 hty, _, hw, fun h4 => hmul2 d hfac.1 h4⟩
      · cases he
  · cases he

/-- What a scaling reads: the named value is one of its inputs, and it is a Mul or a Div. -/
theorem extractScale_reads {m : Node V} {u : String} {s : F}
    (he : tryExtractScale sv cmap nodes m = some (u, s)) :
    (m.ty = .mul ∨ m.ty = .div) ∧ ∃ a ∈ m.inputs, a.name = u := by
  unfold tryExtractScale at he
  split at he
  · cases he
  split at he
  · next a b r hty hin =>
    split at he
    · cases he
    split at he
    · cases he
    simp only [Option.some.injEq, Prod.mk.injEq] at he
    exact ⟨Or.inr hty, a, by rw [hin]; simp, he.1⟩
  · next a b r hty hin =>
    split at he
    · simp only [Option.some.injEq, Prod.mk.injEq] at he
      exact ⟨Or.inl hty, a, by rw [hin]; simp, he.1⟩
    · split at he
      · simp only [Option.some.injEq, Prod.mk.injEq] at he
        exact ⟨Or.inl hty, b, by rw [hin]; simp, he.1⟩
      · cases he
  · cases he

/-- The scores `b` become `c` when the mask, if any, is added. -/
def Masked (tv : TensorView V) (ops : AttnOps V F) (e1 : Env V) (mask : Option (Arg V)) (b c : V) : Prop :=
  match mask with
  | none => c = b
  | some m => ∃ mv, evalArg e1 m = some (some mv) ∧ ops.add b mv = some c ∧ tv.shape c = tv.shape b

/-- What was read back from the input `c` of the Softmax to the product `a` of Q and K. -/
def Traced (tv : TensorView V) (sv : ScaleView V F) (ops : AttnOps V F) (e1 : Env V) (a c : V) (mask : Option (Arg V))
    (scale : Option F) : Prop :=
  ∃ b, (match scale with
      | none => b = a
      | some s => ExactScale sv s ∧ ((tv.shape a).length = 4 → ops.scale s a = some b)) ∧ Masked tv ops e1 mask b c

theorem matMul_noScale {m : Node V} (h : m.ty = .matMul) : tryExtractScale sv cmap nodes m = none := by
  cases he : tryExtractScale sv cmap nodes m with
  | none => rfl
  | some r =>
    have := (extractScale_reads he).1
    rw [h] at this
    simp at this

/-- One choice of upstream and mask. -/
theorem maskAndUpstream_value (hA : AttnSem S tv sv ops) (hs : SSA env nodes) (hwf : WfNames nodes)
    (htab : TableOk S env nodes cmap) (hg : AttnGraph S tv sv cmap env nodes)
    (hn : nodes = p ++ n :: q) (h1 : evalNodes S env p = some e1)
    {an : Node V} (han : an ∈ nodes) (hat : an.ty = .add) (hfs : FeedsSoftmax nodes an)
    {up mk : Arg V} (hup : up ∈ an.inputs) (_hmk : mk ∈ an.inputs)
    {uv mv c : V} (huv : evalArg e1 up = some (some uv)) (hmv : evalArg e1 mk = some (some mv))
    (hadd : ops.add uv mv = some c)
    (hshape : (∃ m ∈ nodes, up.name ∈ m.outNames ∧
      (m.ty = .matMul ∨ (m.ty = .mul ∨ m.ty = .div) ∧ ReadsProduct nodes m)) → tv.shape c = tv.shape uv)
    {m' : Arg V} {u : String} {s : Option F}
    (he : maskAndUpstream sv cmap nodes (producerMap nodes) up mk = some (m', u, s)) :
    ∃ mm a, mm ∈ nodes ∧ mm.ty = .matMul ∧ u ∈ mm.outNames ∧ FeedsSoftmax nodes mm ∧ e1 u = some a ∧
      Traced tv sv ops e1 a c (some m') s := by
  unfold maskAndUpstream at he
  split at he
  · cases he
  next un hun =>
  obtain ⟨hunm, hunx⟩ := producerOf_some hun
  have hfun : FeedsSoftmax nodes un := .through han (Or.inl hat) hup hunx hfs
  obtain ⟨w, hw, hw'⟩ := evalArg_produced huv (hwf.reads han hunm hup hunx)
  cases hw'
  have hdirect : (if un.ty = .matMul ∧ isSingleUse nodes up.name = true then
      some (mk, up.name, (none : Option F)) else none) = some (m', u, s) →
      ∃ mm a, mm ∈ nodes ∧ mm.ty = .matMul ∧ u ∈ mm.outNames ∧ FeedsSoftmax nodes mm ∧ e1 u = some a ∧
        Traced tv sv ops e1 a c (some m') s := by
    intro h
    split at h
    case isFalse => cases h
    next hc =>
    simp only [Option.some.injEq, Prod.mk.injEq] at h
    obtain ⟨rfl, rfl, rfl⟩ := h
    exact ⟨un, uv, hunm, hc.1, hunx, hfun, hw, uv, rfl, mv, hmv, hadd,
      hshape ⟨un, hunm, hunx, Or.inl hc.1⟩⟩
  simp only at he
  split at he
  · exact hdirect he
  next mmOut s' hex =>
  split at he
  · exact hdirect he
  next mm hmm =>
  split at he
  case isFalse => exact hdirect he
  next hmt =>
  simp only [Option.some.injEq, Prod.mk.injEq] at he
  obtain ⟨rfl, rfl, rfl⟩ := he
  obtain ⟨hmmm, hmmx⟩ := producerOf_some hmm
  obtain ⟨hty, i, hi, hiu⟩ := extractScale_reads hex
  have hrp : ReadsProduct nodes un := ⟨i, hi, mm, hmmm, hmt, hiu ▸ hmmx⟩
  obtain ⟨hexact, a, ha, hsc⟩ := extractScale_value hA hs hwf htab hn h1 hunm
    (fun ht => hg.scoreFactor un hunm ht hfun hrp) hex hunx hw hmmm hmmx
  exact ⟨mm, a, hmmm, hmt, hmmx, .through hunm (Or.inr hty) hi (hiu ▸ hmmx) hfun, ha, uv, ⟨hexact, hsc⟩, mv, hmv,
    hadd, hshape ⟨un, hunm, hunx, Or.inr ⟨hty, hrp⟩⟩⟩

/-- Reading backwards from the input of Softmax. -/
theorem traceBack_value (hA : AttnSem S tv sv ops) (hs : SSA env nodes) (hwf : WfNames nodes)
    (htab : TableOk S env nodes cmap) (hg : AttnGraph S tv sv cmap env nodes)
    (hn : nodes = p ++ n :: q) (h1 : evalNodes S env p = some e1)
    {soft : Node V} (hsm : soft ∈ nodes) (hst : soft.ty = .softmax) {x : Arg V} (hx : x ∈ soft.inputs)
    {c : V} (hc : evalArg e1 x = some (some c)) {qk : Node V} (hqk : qk ∈ nodes) (hqt : qk.ty = .matMul)
    (hq : (traceBack sv cmap nodes (producerMap nodes) x.name).1 ∈ qk.outNames)
    (huniq : ∀ a b : Node V, a ∈ nodes → b ∈ nodes → ∀ y, y ∈ a.outNames → y ∈ b.outNames → a = b) :
    FeedsSoftmax nodes qk ∧ ∃ a, e1 (traceBack sv cmap nodes (producerMap nodes) x.name).1 = some a ∧
      Traced tv sv ops e1 a c (traceBack sv cmap nodes (producerMap nodes) x.name).2.1
        (traceBack sv cmap nodes (producerMap nodes) x.name).2.2 := by
  -- without a mask
  have hplain : ∀ t : String × Option (Arg V) × Option F,
      t = traceScale sv cmap nodes (producerMap nodes) (x.name, none, none) → t.1 ∈ qk.outNames →
      FeedsSoftmax nodes qk ∧ ∃ a, e1 t.1 = some a ∧ Traced tv sv ops e1 a c t.2.1 t.2.2 := by
    intro t ht htq
    unfold traceScale at ht
    simp only at ht
    have hself : t = (x.name, none, none) →
        FeedsSoftmax nodes qk ∧ ∃ a, e1 t.1 = some a ∧ Traced tv sv ops e1 a c t.2.1 t.2.2 := by
      intro h
      subst h
      obtain ⟨w, hw, hw'⟩ := evalArg_produced hc (hwf.reads hsm hqk hx htq)
      cases hw'
      exact ⟨.direct hsm hst hx htq, c, hw, c, rfl, rfl⟩
    split at ht
    · exact hself ht
    next sn hsn =>
    split at ht
    case h_2 => exact hself ht
    next up s hex =>
    subst ht
    simp only at htq ⊢
    obtain ⟨hsnm, hsnx⟩ := producerOf_some hsn
    obtain ⟨hty, i, hi, hiu⟩ := extractScale_reads hex
    have hfs : FeedsSoftmax nodes sn := .direct hsm hst hx hsnx
    have hrp : ReadsProduct nodes sn := ⟨i, hi, qk, hqk, hqt, hiu ▸ htq⟩
    obtain ⟨w, hw, hw'⟩ := evalArg_produced hc (hwf.reads hsm hsnm hx hsnx)
    cases hw'
    obtain ⟨hexact, a, ha, hsc⟩ := extractScale_value hA hs hwf htab hn h1 hsnm
      (fun ht => hg.scoreFactor sn hsnm ht hfs hrp) hex hsnx hw hqk htq
    exact ⟨.through hsnm (Or.inr hty) hi (hiu ▸ htq) hfs, a, ha, c, ⟨hexact, hsc⟩, rfl⟩
  revert hq
  generalize htb : traceBack sv cmap nodes (producerMap nodes) x.name = t
  intro hq
  unfold traceBack traceMask at htb
  cases hpx : producerOf (producerMap nodes) nodes x.name with
  | none =>
    simp only [hpx] at htb
    exact hplain t htb.symm hq
  | some an =>
    simp only [hpx] at htb
    by_cases hadd : an.ty = .add ∧ firstOutSingle nodes an = true
    · simp only [hadd, and_self, if_true] at htb
      cases hmask : tryExtractMask sv cmap nodes (producerMap nodes) an with
      | none =>
        simp only [hmask] at htb
        exact hplain t htb.symm hq
      | some r =>
        obtain ⟨mk, up, so⟩ := r
        simp only [hmask] at htb
        obtain ⟨hanm, hanx⟩ := producerOf_some hpx
        have hfan : FeedsSoftmax nodes an := .direct hsm hst hx hanx
        obtain ⟨w, hw, hw'⟩ := evalArg_produced hc (hwf.reads hsm hanm hx hanx)
        cases hw'
        obtain ⟨p1, q1, f1, f2, xs, ys, hn1, hf1, hf2, hxs1, hxs, hS, hfw, hy1⟩ :=
          chain_step hs hn h1 hanm hanx hw
        rw [hadd.1] at hS
        obtain ⟨av, bv, y', rfl, rfl, hab⟩ := hA.addOp _ _ _ _ hS
        have := hy1 _ rfl
        subst this
        have hfits : ∀ i ∈ an.inputs, ∀ v, evalArg f1 i = some (some v) →
            (∃ m ∈ nodes, i.name ∈ m.outNames ∧
              (m.ty = .matMul ∨ (m.ty = .mul ∨ m.ty = .div) ∧ ReadsProduct nodes m)) →
            tv.shape c = tv.shape v := fun i hi v hv hm =>
          hg.maskFits p1 an q1 f1 f2 i v c hn1 hadd.1 hfan hf1 hf2 ⟨_, hanx, hfw⟩ hi hv hm
        have hres : ∃ mm a, mm ∈ nodes ∧ mm.ty = .matMul ∧ up ∈ mm.outNames ∧ FeedsSoftmax nodes mm ∧
            e1 up = some a ∧ Traced tv sv ops e1 a c (some mk) so := by
          unfold tryExtractMask at hmask
          split at hmask
          case h_2 => cases hmask
          next a b rest hin =>
          rw [hin] at hxs hxs1
          obtain ⟨v, vs, hv, hvs, heq⟩ := evalArgs_cons hxs
          obtain ⟨v', vs', hv', hvs', rfl⟩ := evalArgs_cons hvs
          simp only [List.cons.injEq] at heq
          obtain ⟨rfl, rfl, rfl⟩ := heq
          obtain ⟨z, zs, hz, hzs, heq⟩ := evalArgs_cons hxs1
          obtain ⟨z', zs', hz', hzs', rfl⟩ := evalArgs_cons hzs
          simp only [List.cons.injEq] at heq
          obtain ⟨rfl, rfl, _⟩ := heq
          have ha : a ∈ an.inputs := by rw [hin]; simp
          have hb : b ∈ an.inputs := by rw [hin]; simp
          split at hmask
          · next r hr =>
            cases hmask
            exact maskAndUpstream_value hA hs hwf htab hg hn h1 hanm hadd.1 hfan ha hb hv hv' hab
              (hfits a ha _ hz) hr
          · exact maskAndUpstream_value hA hs hwf htab hg hn h1 hanm hadd.1 hfan hb ha hv' hv
              (by rw [hA.add_comm]; exact hab) (hfits b hb _ hz') hmask
        obtain ⟨mm, a, hmm, hmt, hux, hfmm, hua, htr⟩ := hres
        have ht : t = (up, some mk, so) := by
          unfold traceScale at htb
          cases so with
          | some s => exact htb.symm
          | none =>
            simp only at htb
            split at htb
            · exact htb.symm
            next sn hsn =>
            obtain ⟨hsnm, hsnx⟩ := producerOf_some hsn
            have := huniq sn mm hsnm hmm _ hsnx hux
            subst this
            rw [matMul_noScale hmt] at htb
            exact htb.symm
        subst ht
        have := huniq qk mm hqk hmm _ hq hux
        subst this
        exact ⟨hfmm, a, hua, htr⟩
    · rw [if_neg hadd] at htb
      exact hplain t htb.symm hq

theorem extractScale_feeds {m : Node V} (hm : m ∈ nodes) (hf : FeedsSoftmax nodes m) {u : String} {s : F}
    (he : tryExtractScale sv cmap nodes m = some (u, s)) :
    ∀ k : Node V, u ∈ k.outNames → FeedsSoftmax nodes k := by
  obtain ⟨hty, a, ha, rfl⟩ := extractScale_reads he
  exact fun k hk => .through hm (Or.inr hty) ha hk hf

theorem maskAndUpstream_feeds {an : Node V} (han : an ∈ nodes) (hat : an.ty = .add)
    (hf : FeedsSoftmax nodes an) {up mk m' : Arg V} (hup : up ∈ an.inputs) {u : String} {s : Option F}
    (he : maskAndUpstream sv cmap nodes (producerMap nodes) up mk = some (m', u, s)) :
    ∀ k : Node V, u ∈ k.outNames → FeedsSoftmax nodes k := by
  have hthr : ∀ k : Node V, up.name ∈ k.outNames → FeedsSoftmax nodes k :=
    fun k hk => .through han (Or.inl hat) hup hk hf
  unfold maskAndUpstream at he
  split at he
  · cases he
  next un hun =>
  obtain ⟨hunm, hunx⟩ := producerOf_some hun
  have hdirect : (if un.ty = .matMul ∧ isSingleUse nodes up.name = true then
      some (mk, up.name, (none : Option F)) else none) = some (m', u, s) →
      ∀ k : Node V, u ∈ k.outNames → FeedsSoftmax nodes k := by
    intro h
    split at h
    case isFalse => cases h
    simp only [Option.some.injEq, Prod.mk.injEq] at h
    rw [← h.2.1]
    exact hthr
  simp only at he
  split at he
  · exact hdirect he
  next mmOut s' hex =>
  split at he
  · exact hdirect he
  split at he
  case isFalse => exact hdirect he
  simp only [Option.some.injEq, Prod.mk.injEq] at he
  rw [← he.2.1]
  exact extractScale_feeds hunm (hthr un hunx) hex

/-- The product of Q and K found by reading backwards reaches the Softmax. -/
theorem traceBack_feeds {soft : Node V} (hsm : soft ∈ nodes) (hst : soft.ty = .softmax) {x : Arg V}
    (hx : x ∈ soft.inputs) : ∀ k : Node V,
    (traceBack sv cmap nodes (producerMap nodes) x.name).1 ∈ k.outNames → FeedsSoftmax nodes k := by
  have hdir : ∀ k : Node V, x.name ∈ k.outNames → FeedsSoftmax nodes k :=
    fun k hk => .direct hsm hst hx hk
  have hmask : ∀ k : Node V,
      (traceMask sv cmap nodes (producerMap nodes) x.name).1 ∈ k.outNames → FeedsSoftmax nodes k := by
    unfold traceMask
    split
    · exact hdir
    next an han =>
    obtain ⟨hanm, hanx⟩ := producerOf_some han
    split
    case isFalse => exact hdir
    next hc =>
    split
    case h_2 => exact hdir
    next m up s he =>
    unfold tryExtractMask at he
    split at he
    case h_2 => cases he
    next a b r hin =>
    split at he
    · next r' hr =>
      cases he
      exact maskAndUpstream_feeds hanm hc.1 (hdir an hanx) (by rw [hin]; simp) hr
    · exact maskAndUpstream_feeds hanm hc.1 (hdir an hanx) (by rw [hin]; simp) he
  unfold traceBack traceScale
  generalize traceMask sv cmap nodes (producerMap nodes) x.name = r at hmask
  split
  · exact hmask
  split
  · exact hmask
  next sn hsn =>
  obtain ⟨hsnm, hsnx⟩ := producerOf_some hsn
  split
  · next up s he => exact extractScale_feeds hsnm (hmask sn hsnx) he
  · exact hmask

theorem input_rank (hty : TypedRun S tv env nodes) {p1 q1 : List (Node V)} {m : Node V} {f1 f2 : Env V}
    (hn : nodes = p1 ++ m :: q1) (hf1 : evalNodes S env p1 = some f1) (hf2 : evalNode S f1 m = some f2)
    {a : Arg V} (ha : a ∈ m.inputs) {v : V} (hv : evalArg f1 a = some (some v)) (h2 : 2 ≤ a.ty.rank) :
    (tv.shape v).length = a.ty.rank :=
  admits_rank h2 ((hty p1 m q1 f1 f2 hn hf1 hf2).1 a ha v hv)

/-- Q scaled before the product. -/
theorem qPrescale_value (hA : AttnSem S tv sv ops) (hs : SSA env nodes) (hwf : WfNames nodes)
    (htab : TableOk S env nodes cmap) (hty : TypedRun S tv env nodes)
    (hg : AttnGraph S tv sv cmap env nodes) (hn : nodes = p ++ n :: q)
    (h1 : evalNodes S env p = some e1) {qk : Node V} (hqk : qk ∈ nodes) (hqt : qk.ty = .matMul)
    (hfs : FeedsSoftmax nodes qk) {qa qr : Arg V} (hqa : qa ∈ qk.inputs) {s : F}
    (he : qPrescale sv cmap nodes (producerMap nodes) qa = some (qr, s)) {qv : V}
    (hqv : evalArg e1 qa = some (some qv)) (h4 : qr.ty.rank = 4) :
    ExactScale sv s ∧ ∃ rv, evalArg e1 qr = some (some rv) ∧ (tv.shape rv).length = 4 ∧
      ops.scale s rv = some qv := by
  unfold qPrescale at he
  split at he
  · cases he
  next qm hqm =>
  obtain ⟨hqmm, hqmx⟩ := producerOf_some hqm
  split at he
  case isFalse => cases he
  next hmt =>
  split at he
  case h_2 => cases he
  next u s' a b r hex hin =>
  simp only [Option.some.injEq, Prod.mk.injEq] at he
  obtain ⟨hqr, rfl⟩ := he
  have hone := hg.queryFactor qm hqmm hmt ⟨qk, hqk, hqt, hfs, qa, hqa, hqmx⟩
  obtain ⟨w, hw, hw'⟩ := evalArg_produced hqv (hwf.reads hqk hqmm hqa hqmx)
  cases hw'
  obtain ⟨p1, q1, f1, f2, xs, ys, hn1, hf1, hf2, hxs1, hxs, hS, hfw, huniq⟩ :=
    chain_step hs hn h1 hqmm hqmx hw
  rw [hmt] at hS
  obtain ⟨av, bv, y', rfl, rfl, hmul1, hmul2⟩ := hA.mulOp _ _ _ _ hS
  have := huniq _ rfl
  subst this
  have hra := fun (a : Arg V) (ha : a ∈ qm.inputs) (v : V) => input_rank hty hn1 hf1 hf2 (v := v) ha
  rw [hin] at hxs hxs1
  obtain ⟨v, vs, hv, hvs, heq⟩ := evalArgs_cons hxs
  obtain ⟨v', vs', hv', hvs', rfl⟩ := evalArgs_cons hvs
  simp only [List.cons.injEq] at heq
  obtain ⟨rfl, rfl, rfl⟩ := heq
  obtain ⟨z, zs, hz, hzs, heq⟩ := evalArgs_cons hxs1
  obtain ⟨z', zs', hz', hzs', rfl⟩ := evalArgs_cons hzs
  simp only [List.cons.injEq] at heq
  obtain ⟨rfl, rfl, _⟩ := heq
  have ha : a ∈ qm.inputs := by rw [hin]; simp
  have hb : b ∈ qm.inputs := by rw [hin]; simp
  have hsame : ∀ (c : Arg V) (cv : V) (d : F), c ∈ qm.inputs → evalArg e1 c = some (some cv) →
      argScalar sv cmap c = some d → IsFactor tv sv qm.ty cv d := by
    intro c cv d hc hcv hd
    obtain ⟨k, hk, hkd⟩ := argScalar_some hd
    have := Arg.value_eval (htab p (n :: q) e1 hn h1) hk hcv
    cases this
    obtain ⟨d', hd'⟩ := hone c hc cv hk
    have : d' = d := by have := hd'.1.1; rw [hkd] at this; exact (Option.some.inj this).symm
    exact this ▸ hd'
  unfold tryExtractScale at hex
  split at hex
  · cases hex
  simp only [hmt, hin] at hex
  split at hex
  · next d hd =>
    simp only [Option.some.injEq, Prod.mk.injEq] at hex
    obtain ⟨rfl, rfl⟩ := hex
    obtain ⟨k, hk, _⟩ := argScalar_some hd
    rw [hk, Option.isSome_some, if_pos rfl] at hqr
    subst hqr
    have hr := hra a ha _ hz (by omega)
    rw [h4] at hr
    have hfac := hsame b _ _ hb hv' hd
    exact ⟨hfac.2.1 hmt, av, hv, hr, hmul1 _ hfac.1 hr⟩
  · next hnone =>
    split at hex
    case h_2 => cases hex
    next d hd =>
    simp only [Option.some.injEq, Prod.mk.injEq] at hex
    obtain ⟨rfl, rfl⟩ := hex
    have hbn : b.value cmap = none := by
      cases hbv : b.value cmap with
      | none => rfl
      | some k =>
        obtain ⟨d', hd'⟩ := hone b hb k hbv
        simp [argScalar, hbv, hd'.1.1] at hnone
    simp only [hbn, Option.isSome_none] at hqr
    simp only [Bool.false_eq_true, if_false] at hqr
    subst hqr
    have hr := hra b hb _ hz' (by omega)
    rw [h4] at hr
    have hfac := hsame a _ _ ha hv hd
    exact ⟨hfac.2.1 hmt, bv, hv', hr, hmul2 _ hfac.1 hr⟩

/-- The transposition of K. -/
theorem isLastTwoSwap_perm {m : Node V} {k : Arg V} {r : List (Arg V)} (h : isLastTwoSwap m = true)
    (hin : m.inputs = k :: r) (h4 : k.ty.rank = 4) :
    attrGet m.attrs "perm" = some (.i64s [0, 1, 3, 2]) := by
  unfold isLastTwoSwap at h
  rw [hin] at h
  simp only [h4] at h
  unfold transposePerm at h
  cases hp : attrGet m.attrs "perm" with
  | none => simp [hp] at h; exact absurd h (by decide)
  | some v =>
    cases v with
    | i64s l =>
      simp [hp] at h
      rw [h]
      rfl
    | _ => simp [hp] at h

theorem softmaxAxis_last {m : Node V} {rank : Nat} (h2 : 2 ≤ rank)
    (h : softmaxAxis m rank = some (rank - 1)) :
    ∃ ax, attrI64 m.attrs "axis" = some ax ∧ (ax.getD (-1) = -1 ∨ ax.getD (-1) = (rank : Int) - 1) := by
  unfold softmaxAxis at h
  split at h
  · cases h
  next ax hax =>
  refine ⟨ax, hax, ?_⟩
  by_cases hneg : ax.getD (-1) < 0
  · simp only [hneg, if_true] at h
    by_cases hb : ax.getD (-1) + (rank : Int) < 0 ∨ rank ≤ (ax.getD (-1) + (rank : Int)).toNat
    · simp [hb] at h
    · rw [if_neg hb] at h
      simp only [Option.some.injEq] at h
      omega
  · simp only [hneg, if_false, false_or] at h
    by_cases hb : rank ≤ (ax.getD (-1)).toNat
    · rw [if_pos hb] at h; cases h
    · rw [if_neg hb] at h
      simp only [Option.some.injEq] at h
      omega

/-- The node that takes the place of the last MatMul computes the same value. -/
theorem attention_value (hA : AttnSem S tv sv ops) (hs : SSA env nodes) (hwf : WfNames nodes)
    (htab : TableOk S env nodes cmap) (hty : TypedRun S tv env nodes)
    (hg : AttnGraph S tv sv cmap env nodes) (hn : nodes = p ++ n :: q)
    (h1 : evalNodes S env p = some e1) {e2 : Env V} (h2 : evalNode S e1 n = some e2) {soft : Node V}
    (hsm : soft ∈ nodes) (hst : soft.ty = .softmax) {rs : List (Nat × Node V)} {n' : Node V}
    (hrs : tryMatchSdpa sv cmap nodes (producerMap nodes) soft = some rs) (hmem : (p.length, n') ∈ rs)
    (hscale : n'.ty = .attention → n' ∈ nodes ∨ (attrGet n'.attrs "scale").isSome) :
    evalNode S e1 n' = some e2 := by
  have huniq : ∀ a b : Node V, a ∈ nodes → b ∈ nodes → ∀ y, y ∈ a.outNames → y ∈ b.outNames → a = b := by
    intro a b ha hb y hya hyb
    obtain ⟨l, r, rfl⟩ := List.append_of_mem hb
    exact hs.producer_unique rfl ha hyb hya
  have hnm : n ∈ nodes := by rw [hn]; simp
  unfold tryMatchSdpa at hrs
  split at hrs
  case h_2 => cases hrs
  next x xr so sr hsin hsout =>
  split at hrs
  · cases hrs
  next hax =>
  simp only [not_or, Nat.not_lt, Decidable.not_not] at hax
  obtain ⟨hrank2, hax⟩ := hax
  simp only at hrs
  split at hrs
  · cases hrs
  next qi hqi =>
  split at hrs
  · cases hrs
  next qk hqkget =>
  split at hrs
  · cases hrs
  next hqkc =>
  simp only [Decidable.not_not] at hqkc
  have hqt := hqkc.1
  have hqk : qk ∈ nodes := List.mem_of_getElem? hqkget
  have hqx : (traceBack sv cmap nodes (producerMap nodes) x.name).1 ∈ qk.outNames := by
    obtain ⟨m, hm, hx⟩ := mapGet_producerMap hqi
    rw [hqkget] at hm
    cases hm
    exact hx
  split at hrs
  · cases hrs
  next qa ka scale extra hmq =>
  split at hrs
  · cases hrs
  next hr4 =>
  simp only [not_or, Decidable.not_not] at hr4
  obtain ⟨hq4, hk4⟩ := hr4
  split at hrs
  case h_2 => cases hrs
  next fi hfi =>
  split at hrs
  · cases hrs
  next final hfin =>
  split at hrs
  case h_2 => cases hrs
  next w v fr hfinin =>
  split at hrs
  case isFalse => cases hrs
  next hfc =>
  obtain ⟨hft, hwn, hv4⟩ := hfc
  simp only [Option.some.injEq] at hrs
  -- the run up to the Softmax
  have hfm : final ∈ nodes := List.mem_of_getElem? hfin
  have hsox : so.name ∈ soft.outNames := by simp [Node.outNames, hsout]
  have hxin : x ∈ soft.inputs := by rw [hsin]; simp
  have hextra : extra = none ∧ (p.length, n') = (fi, buildAttention sv final qa ka v
      (traceBack sv cmap nodes (producerMap nodes) x.name).2.1 scale) → evalNode S e1 n' = some e2 := by
    rintro ⟨rfl, heq⟩
    simp only [Prod.mk.injEq] at heq
    obtain ⟨rfl, rfl⟩ := heq
    have : final = n := by
      rw [hn] at hfin
      simpa using hfin.symm
    subst this
    obtain ⟨xs, ys, hxs, hys, hl, he2⟩ := evalNode_some h2
    rw [hft] at hys
    obtain ⟨wv, vv, o, rfl, rfl, hmm2⟩ := hA.matMulOp _ _ _ _ hys
    obtain ⟨s, rfl⟩ : ∃ s, scale = some s := by
      cases scale with
      | some s => exact ⟨s, rfl⟩
      | none =>
        exfalso
        rcases hscale rfl with hm | hm
        · -- it would be another node with the same output
          have hne : ∃ y, y ∈ final.outNames := by
            cases ho : final.outputs with
            | nil => rw [ho] at hl; simp at hl
            | cons a as => exact ⟨a.name, by simp [Node.outNames, ho]⟩
          obtain ⟨y, hy⟩ := hne
          have := huniq _ final hm hnm y hy hy
          have hty' := congrArg Node.ty this
          rw [hft] at hty'
          simp [buildAttention] at hty'
        · exact absurd hm (by simp [buildAttention, attrGet, mapGet])
    have hbatch2 := hg.noBatchBroadcast p final q e1 e2 wv vv hn hft
      (Or.inr ⟨soft, hsm, hst, w, by rw [hfinin]; simp, hwn ▸ hsox⟩) h1 h2 hxs
    have hvr : (tv.shape vv).length = 4 := by
      rw [← hv4]
      rw [hfinin] at hxs
      obtain ⟨_, vs, _, hvs, heq⟩ := evalArgs_cons hxs
      obtain ⟨z, _, hz, _, rfl⟩ := evalArgs_cons hvs
      simp only [List.cons.injEq] at heq
      obtain ⟨_, rfl, _⟩ := heq
      exact input_rank hty hn h1 h2 (by rw [hfinin]; simp) hz (by omega)
    rw [hfinin] at hxs
    obtain ⟨t, ts, ht, hts, heq⟩ := evalArgs_cons hxs
    obtain ⟨t', ts', ht', hts', rfl⟩ := evalArgs_cons hts
    simp only [List.cons.injEq] at heq
    obtain ⟨rfl, rfl, _⟩ := heq
    obtain ⟨wv', hw, hw'⟩ := evalArg_produced ht
      (hwf.reads hnm hsm (by rw [hfinin]; simp) (hwn ▸ hsox))
    cases hw'
    rw [hwn] at hw
    obtain ⟨p1, q1, f1, f2, xs, ys, hn1, hf1, hf2, hxs1, hxs', hS, hfw, huni⟩ :=
      chain_step hs hn h1 hsm hsox hw
    rw [hst] at hS
    obtain ⟨c, w', rfl, rfl, hsoft⟩ := hA.softmaxOp _ _ _ _ hS
    have := huni _ rfl
    subst this
    have hcx : evalArg e1 x = some (some c) ∧ evalArg f1 x = some (some c) := by
      rw [hsin] at hxs' hxs1
      obtain ⟨z, zs, hz, hzs, heq⟩ := evalArgs_cons hxs'
      obtain ⟨z', zs', hz', hzs', heq'⟩ := evalArgs_cons hxs1
      simp only [List.cons.injEq] at heq heq'
      obtain ⟨rfl, rfl⟩ := heq
      obtain ⟨rfl, rfl⟩ := heq'
      exact ⟨hz, hz'⟩
    have hcr := input_rank hty hn1 hf1 hf2 hxin hcx.2 hrank2
    obtain ⟨ax, hax1, hax2⟩ := softmaxAxis_last hrank2 hax
    have hsoftc := hsoft ax hax1 (by rw [hcr]; exact hax2)
    obtain ⟨hfs, a, ha, htr⟩ := traceBack_value hA hs hwf htab hg hn h1 hsm hst hxin hcx.1 hqk hqt hqx huniq
    generalize traceBack sv cmap nodes (producerMap nodes) x.name = tb at *
    obtain ⟨u, mask, sc⟩ := tb
    simp only at hmq htr ha hqx
    -- the product of Q and K
    obtain ⟨p2, q2, k1, k2, xs, ys, hn2, hk1, hk2, hxs2, hxs2', hS2, hkw, huni2⟩ :=
      chain_step hs hn h1 hqk hqx ha
    rw [hqt] at hS2
    obtain ⟨qv, ktv, a', rfl, rfl, hmm1⟩ := hA.matMulOp _ _ _ _ hS2
    have := huni2 _ rfl
    subst this
    have hbatch1 := hg.noBatchBroadcast p2 qk q2 k1 k2 qv ktv hn2 hqt (Or.inl hfs) hk1 hk2 hxs2
    unfold matchQK at hmq
    split at hmq
    case h_2 =>
      -- both scaled: excluded
      split at hmq
      case h_2 => cases hmq
      · simp at hmq
    next q0 k0 pre hstd =>
    unfold tryStandardK at hstd
    split at hstd
    case h_2 => cases hstd
    next qi' kt rr hqkin =>
    split at hstd
    · cases hstd
    next tn htn =>
    split at hstd
    case isFalse => cases hstd
    next htc =>
    obtain ⟨htt, hswap, _⟩ := htc
    split at hstd
    case h_2 => cases hstd
    next k00 kr htin =>
    simp only [Option.some.injEq, Prod.mk.injEq] at hstd
    obtain ⟨rfl, rfl, hpre⟩ := hstd
    have hka : k00 = ka := by
      split at hmq <;> simp only [Option.some.injEq, Prod.mk.injEq] at hmq <;> exact hmq.2.1
    subst hka
    have hqin : qi' ∈ qk.inputs := by rw [hqkin]; simp
    have hktin : kt ∈ qk.inputs := by rw [hqkin]; simp
    have hra := fun (a : Arg V) (ha : a ∈ qk.inputs) (v : V) => input_rank hty hn2 hk1 hk2 (v := v) ha
    rw [hqkin] at hxs2 hxs2'
    obtain ⟨z, zs, hz, hzs, heq⟩ := evalArgs_cons hxs2'
    obtain ⟨z', zs', hz', hzs', rfl⟩ := evalArgs_cons hzs
    simp only [List.cons.injEq] at heq
    obtain ⟨rfl, rfl, _⟩ := heq
    obtain ⟨y, ys, hy, hys', heq⟩ := evalArgs_cons hxs2
    obtain ⟨y', ys', hy', _, rfl⟩ := evalArgs_cons hys'
    simp only [List.cons.injEq] at heq
    obtain ⟨rfl, rfl, _⟩ := heq
    -- the transposition of K
    obtain ⟨htm, htx⟩ := producerOf_some htn
    obtain ⟨kw, hkw', hkeq⟩ := evalArg_produced hz' (hwf.reads hqk htm hktin htx)
    cases hkeq
    obtain ⟨p3, q3, g1, g2, xs, ys, hn3, hg1, hg2, hxs3, hxs3', hS3, hgw, huni3⟩ :=
      chain_step hs hn h1 htm htx hkw'
    rw [htt] at hS3
    obtain ⟨kv, kt', rfl, rfl, hsw⟩ := hA.transposeOp _ _ _ _ (isLastTwoSwap_perm hswap htin hk4) hS3
    have := huni3 _ rfl
    subst this
    have hrk := fun (a : Arg V) (ha : a ∈ tn.inputs) (v : V) => input_rank hty hn3 hg1 hg2 (v := v) ha
    rw [htin] at hxs3 hxs3'
    obtain ⟨b1, bs1, hb1, _, heq⟩ := evalArgs_cons hxs3
    obtain ⟨b2, bs2, hb2, _, heq'⟩ := evalArgs_cons hxs3'
    simp only [List.cons.injEq] at heq heq'
    obtain ⟨rfl, rfl⟩ := heq
    obtain ⟨rfl, rfl⟩ := heq'
    have hkr : (tv.shape kv).length = 4 := by
      rw [← hk4]; exact hrk k00 (by rw [htin]; simp) _ hb1 (by omega)
    have hktr : (tv.shape ktv).length = 4 := by rw [hA.swap_rank _ _ hsw, hkr]
    -- what is to be shown of the new node
    have hgoal : ExactScale sv s ∧ ∃ rv, evalArg e1 qa = some (some rv) ∧ (tv.shape rv).length = 4 ∧
        ∃ b0, (∃ a0, ops.mm rv ktv = some a0 ∧ ops.scale s a0 = some b0) ∧
          (tv.shape rv).take 2 = (tv.shape ktv).take 2 ∧ Masked tv ops e1 mask b0 c := by
      obtain ⟨b, hb, hmask⟩ := htr
      cases sc with
      | some s' =>
        simp only [Option.some.injEq, Prod.mk.injEq] at hmq
        obtain ⟨rfl, _, rfl, _⟩ := hmq
        have hqr : (tv.shape qv).length = 4 := by rw [← hq4]; exact hra qi' hqin _ hy (by omega)
        have har := hA.mm_rank _ _ _ hmm1 hqr hktr
        exact ⟨hb.1, qv, hz, hqr, b, ⟨a, hmm1, hb.2 har⟩, hbatch1, hmask⟩
      | none =>
        simp only at hb
        subst hb
        cases pre with
        | none => simp at hmq
        | some pr =>
          obtain ⟨qr, s'⟩ := pr
          simp only [Option.some.injEq, Prod.mk.injEq] at hmq
          obtain ⟨rfl, _, rfl, _⟩ := hmq
          obtain ⟨hexact, rv, hrv, hrr, hsc⟩ := qPrescale_value hA hs hwf htab hty hg hn h1 hqk hqt hfs hqin hpre
            hz hq4
          obtain ⟨a0, ha0, hsa⟩ := hA.mm_scale _ _ _ _ _ hsc hmm1
          exact ⟨hexact, rv, hrv, hrr, b, ⟨a0, ha0, hsa⟩, by rw [← hA.scale_shape _ _ _ hsc]; exact hbatch1, hmask⟩
    obtain ⟨hexact, rv, hrv, hrr, b0, ⟨a0, ha0, hsa⟩, hbatch, hmask⟩ := hgoal
    have hkv : evalArg e1 k00 = some (some kv) := hb2
    have hl1 : ([o] : List V).length = final.outputs.length := hl
    have heval : ∀ xs, evalArgs e1 (buildAttention sv final qa k00 v mask (some s)).inputs = some xs →
        S (final.name ++ "_attention") .attention [("scale", .f32 (sv.bits s))] xs = some [o] →
        evalNode S e1 (buildAttention sv final qa k00 v mask (some s)) = some e2 := by
      intro xs hxs hSx
      rw [evalNode_intro (n := buildAttention sv final qa k00 v mask (some s)) hxs hSx hl1, he2]
      rfl
    cases mask with
    | none =>
      simp only [Masked] at hmask
      subst hmask
      refine heval [some rv, some kv, some vv] (by simp [buildAttention, evalArgs, hrv, hkv, ht']) ?_
      exact hA.attentionOp _ _ _ _ _ _ ⟨hrr, hkr, hvr, ktv, a0, c, c, wv, hsw, hbatch, ha0,
        by rw [hexact]; exact hsa, rfl,
        hsoftc, hbatch2, hmm2⟩
    | some m =>
      obtain ⟨mv, hmv, hadd, hsh⟩ := hmask
      refine heval [some rv, some kv, some vv, some mv]
        (by simp [buildAttention, evalArgs, hrv, hkv, ht', hmv]) ?_
      exact hA.attentionMaskOp _ _ _ _ _ _ _ ⟨hrr, hkr, hvr, ktv, a0, b0, c, wv, hsw, hbatch, ha0,
        by rw [hexact]; exact hsa, ⟨hadd, hsh⟩, hsoftc, hbatch2, hmm2⟩
  -- the pattern with both operands scaled does not occur
  cases hext : extra with
  | none =>
    subst hext
    rw [← hrs] at hmem
    simp at hmem
    exact hextra ⟨rfl, by rw [hmem.1, hmem.2]⟩
  | some ex =>
    exfalso
    subst hext
    unfold matchQK at hmq
    split at hmq
    · split at hmq <;> simp at hmq
    split at hmq
    case h_2 => cases hmq
    next hpres =>
    unfold tryPrescaled at hpres
    split at hpres
    case h_2 => cases hpres
    next qi' ki' rr hqkin =>
    split at hpres
    case h_2 => cases hpres
    next qm km hqm hkm =>
    split at hpres
    · cases hpres
    next hc =>
    simp only [Decidable.not_not] at hc
    obtain ⟨hqm1, hqm2⟩ := producerOf_some hqm
    obtain ⟨hkm1, hkm2⟩ := producerOf_some hkm
    refine hg.notBothScaled qk hqk hqt ?_ qi' ki' rr hqkin ⟨⟨qm, hqm1, hc.1, hqm2⟩, km, hkm1, hc.2.1, hkm2⟩
    exact traceBack_feeds hsm hst hxin qk hqx

end

/-- **C10.** Replacing scaled dot-product attention by Attention nodes leaves every result of the graph
unchanged, as far as the graph stays within `AttnGraph` and every new node carries the scale it found. What is
missing: the pattern in which Q and Kᵀ are both scaled before the product, whose replacement is only complete
after dead code elimination; for scores that are not scaled at all the results differ
(`C10_unscaled_wrong`). -/
theorem C10_coalesce_attention_preserves_partial (S : Sem V) (tv : TensorView V) (sv : ScaleView V F)
    (ops : AttnOps V F) (hA : AttnSem S tv sv ops) (cmap : String → Option V) (env : Env V)
    (nodes : List (Node V)) (outs : List (Arg V)) (hs : SSA env nodes) (hwf : WfNames nodes)
    (htab : TableOk S env nodes cmap) (hty : TypedRun S tv env nodes)
    (hg : AttnGraph S tv sv cmap env nodes)
    (hscale : ∀ m ∈ coalesceAttention sv cmap nodes, m.ty = .attention →
      m ∈ nodes ∨ (attrGet m.attrs "scale").isSome) :
    Preserves S env outs nodes (coalesceAttention sv cmap nodes) := by
  refine preserves_of_evalNodes (fun E hE => ?_) outs
  refine evalNodes_pointwise (foldl_set_length _ _) ?_ hE
  intro p n q n' e1 e2 hn hn' h1 h2
  rcases foldl_set_get _ _ (x := n) (by rw [hn]; simp) hn' with h | h
  · rw [h]; exact h2
  unfold attentionReplacements at h
  obtain ⟨soft, hsm, hmem⟩ := List.mem_flatMap.1 h
  split at hmem
  case isFalse => simp at hmem
  next hst =>
  cases hrs : tryMatchSdpa sv cmap nodes (producerMap nodes) soft with
  | none => simp [hrs] at hmem
  | some rs =>
    rw [hrs, Option.getD_some] at hmem
    exact attention_value hA hs hwf htab hty hg hn h1 h2 hsm hst hrs hmem
      (hscale n' (List.mem_of_getElem? hn'))

end OnnxIR
