import Verif.Spec.Eval
import Verif.Model.Simplify

/-! Facts about running graphs that the pass proofs share. -/

namespace OnnxIR

variable {V : Type}

theorem bindAll_notMem (xs : List String) : ∀ (vs : List V) (env : Env V) (y : String),
    y ∉ xs → bindAll env xs vs y = env y := by
  induction xs with
  | nil => intro vs env y _; cases vs <;> rfl
  | cons x xs ih =>
    intro vs env y hy
    cases vs with
    | nil => rfl
    | cons v vs =>
      have h1 : y ≠ x := fun h => hy (h ▸ List.mem_cons_self)
      have h2 : y ∉ xs := fun h => hy (List.mem_cons_of_mem _ h)
      rw [bindAll, ih vs _ y h2]; simp [h1]

theorem bindAll_get (xs : List String) : ∀ (vs : List V) (env : Env V) (i : Nat) (x : String)
    (v : V), xs.Nodup → xs[i]? = some x → vs[i]? = some v → bindAll env xs vs x = some v := by
  induction xs with
  | nil => intro vs env i x v _ h; simp at h
  | cons x0 xs ih =>
    intro vs env i x v hnd hx hv
    cases vs with
    | nil => simp at hv
    | cons v0 vs =>
      rw [List.nodup_cons] at hnd
      cases i with
      | zero =>
        simp at hx hv
        subst hx; subst hv
        rw [bindAll, bindAll_notMem _ _ _ _ hnd.1]; simp
      | succ i =>
        simp at hx hv
        rw [bindAll]; exact ih vs _ i x v hnd.2 hx hv

theorem bindAll_mem (xs : List String) : ∀ (vs : List V) (env : Env V) (x : String),
    x ∈ xs → xs.length = vs.length → ∃ v ∈ vs, bindAll env xs vs x = some v := by
  induction xs with
  | nil => intro vs env x h; simp at h
  | cons x0 xs ih =>
    intro vs env x hx hl
    cases vs with
    | nil => simp at hl
    | cons v0 vs =>
      simp at hl
      by_cases hm : x ∈ xs
      · obtain ⟨v, hv, h⟩ := ih vs (fun y => if y = x0 then some v0 else env y) x hm hl
        exact ⟨v, List.mem_cons_of_mem _ hv, h⟩
      · have : x = x0 := by simpa [hm] using hx
        subst this
        refine ⟨v0, List.mem_cons_self, ?_⟩
        rw [bindAll, bindAll_notMem _ _ _ _ hm]; simp

/-- What a successful run of a node consists of. -/
theorem evalNode_some {S : Sem V} {env e : Env V} {n : Node V} (h : evalNode S env n = some e) :
    ∃ xs ys, evalArgs env n.inputs = some xs ∧ S n.name n.ty n.attrs xs = some ys ∧
      ys.length = n.outputs.length ∧ e = bindAll env n.outNames ys := by
  unfold evalNode at h
  cases hx : evalArgs env n.inputs with
  | none => simp [hx] at h
  | some xs =>
    cases hy : S n.name n.ty n.attrs xs with
    | none => simp [hx, hy] at h
    | some ys =>
      simp [hx, hy] at h
      exact ⟨xs, ys, rfl, hy, h.1, h.2.symm⟩

theorem evalNode_intro {S : Sem V} {env : Env V} {n : Node V} {xs ys}
    (hx : evalArgs env n.inputs = some xs) (hy : S n.name n.ty n.attrs xs = some ys)
    (hl : ys.length = n.outputs.length) :
    evalNode S env n = some (bindAll env n.outNames ys) := by
  simp [evalNode, hx, hy, hl]

theorem evalNodes_append {S : Sem V} (p q : List (Node V)) : ∀ env : Env V,
    evalNodes S env (p ++ q) = (evalNodes S env p).bind fun e => evalNodes S e q := by
  induction p with
  | nil => intro env; rfl
  | cons n p ih =>
    intro env
    simp only [List.cons_append, evalNodes]
    cases evalNode S env n with
    | none => rfl
    | some e => simp [ih]

theorem evalNodes_split {S : Sem V} {p q : List (Node V)} {n : Node V} {env E : Env V}
    (h : evalNodes S env (p ++ n :: q) = some E) :
    ∃ e1 e2, evalNodes S env p = some e1 ∧ evalNode S e1 n = some e2 ∧
      evalNodes S e2 q = some E := by
  rw [evalNodes_append] at h
  cases hp : evalNodes S env p with
  | none => simp [hp] at h
  | some e1 =>
    simp only [hp, Option.bind_some, evalNodes] at h
    cases hn : evalNode S e1 n with
    | none => simp [hn] at h
    | some e2 => simp only [hn] at h; exact ⟨e1, e2, rfl, hn, h⟩

theorem evalNode_notMem {S : Sem V} {env e : Env V} {n : Node V} (h : evalNode S env n = some e)
    {y : String} (hy : y ∉ n.outNames) : e y = env y := by
  obtain ⟨xs, ys, _, _, _, rfl⟩ := evalNode_some h
  exact bindAll_notMem _ _ _ _ hy

theorem evalNodes_notMem {S : Sem V} (nodes : List (Node V)) : ∀ {env e : Env V},
    evalNodes S env nodes = some e → ∀ {y : String}, y ∉ nodes.flatMap Node.outNames →
    e y = env y := by
  induction nodes with
  | nil => intro env e h y _; simp [evalNodes] at h; rw [h]
  | cons n ns ih =>
    intro env e h y hy
    simp only [List.flatMap_cons, List.mem_append, not_or] at hy
    simp only [evalNodes] at h
    cases hn : evalNode S env n with
    | none => simp [hn] at h
    | some e1 =>
      simp only [hn] at h
      rw [ih h hy.2, evalNode_notMem hn hy.1]

/-- A name bound before some nodes ran, in a single-assignment program, keeps its value. -/
theorem SSA.stable {S : Sem V} {env e1 e : Env V} {p q : List (Node V)}
    (hs : SSA env (p ++ q)) (h1 : evalNodes S env p = some e1) (h2 : evalNodes S e1 q = some e)
    {y : String} {w : V} (hy : e1 y = some w) : e y = some w := by
  rw [evalNodes_notMem q h2, hy]
  intro hm
  by_cases hp : y ∈ p.flatMap Node.outNames
  · have := hs.nodup
    rw [List.flatMap_append, List.nodup_append] at this
    exact this.2.2 y hp y hm rfl
  · rw [evalNodes_notMem p h1 hp] at hy
    obtain ⟨n, hn, hyn⟩ := List.mem_flatMap.1 hm
    rw [hs.fresh n (List.mem_append_right _ hn) y hyn] at hy
    cases hy

theorem SSA.prefix {env : Env V} {p q : List (Node V)} (hs : SSA env (p ++ q)) : SSA env p := by
  refine ⟨?_, fun n hn => hs.fresh n (List.mem_append_left _ hn)⟩
  have := hs.nodup
  rw [List.flatMap_append, List.nodup_append] at this
  exact this.1

theorem nodup_flatMap_mem {α β} {f : α → List β} : ∀ {l : List α}, (l.flatMap f).Nodup →
    ∀ a ∈ l, (f a).Nodup
  | [], _, a, ha => by cases ha
  | b :: l, h, a, ha => by
    rw [List.flatMap_cons, List.nodup_append] at h
    cases ha with
    | head => exact h.1
    | tail _ ha => exact nodup_flatMap_mem h.2.1 a ha

/-- The value of an argument depends on the environment only at its name. -/
theorem evalArg_congr {e e' : Env V} {a : Arg V} (h : e a.name = e' a.name) :
    evalArg e a = evalArg e' a := by
  unfold evalArg; cases a.src <;> simp [h]

theorem evalArgs_congr {e e' : Env V} : ∀ {as : List (Arg V)},
    (∀ a ∈ as, evalArg e a = evalArg e' a) → evalArgs e as = evalArgs e' as
  | [], _ => rfl
  | a :: as, h => by
    simp only [evalArgs]
    rw [h a List.mem_cons_self, evalArgs_congr (fun b hb => h b (List.mem_cons_of_mem _ hb))]

theorem evalArgs_mem {e : Env V} : ∀ {as : List (Arg V)} {xs}, evalArgs e as = some xs →
    ∀ a ∈ as, ∃ v, evalArg e a = some v
  | [], _, _, a, ha => by cases ha
  | b :: as, xs, h, a, ha => by
    simp only [evalArgs] at h
    cases hb : evalArg e b with
    | none => simp [hb] at h
    | some v =>
      cases has : evalArgs e as with
      | none => simp [hb, has] at h
      | some vs =>
        cases ha with
        | head => exact ⟨v, hb⟩
        | tail _ ha => exact evalArgs_mem has a ha

/-! ### Renaming -/

/-- A rename map that, wherever its key is bound, points to a name bound to the same value. -/
def GoodEnv (ρ : List (String × String)) (e : Env V) : Prop :=
  ∀ x v, mapGet ρ x = some v → ∀ w, e x = some w → e v = some w

theorem evalArg_rename {ρ : List (String × String)} {e : Env V} (hg : GoodEnv ρ e) {a : Arg V}
    {v} (h : evalArg e a = some v) : evalArg e (renameArg ρ a) = some v := by
  unfold renameArg
  cases hm : mapGet ρ a.name with
  | none => simpa using h
  | some x =>
    simp only
    unfold evalArg at h ⊢
    cases hs : a.src <;> simp only [hs] at h ⊢ <;> try exact h
    all_goals
      cases hw : e a.name with
      | none => simp [hw] at h
      | some w => rw [hg _ _ hm w hw]; rw [hw] at h; exact h

theorem evalArgs_rename {ρ : List (String × String)} {e : Env V} (hg : GoodEnv ρ e) :
    ∀ {as : List (Arg V)} {xs}, evalArgs e as = some xs →
      evalArgs e (as.map (renameArg ρ)) = some xs
  | [], _, h => h
  | a :: as, xs, h => by
    simp only [evalArgs] at h
    cases ha : evalArg e a with
    | none => simp [ha] at h
    | some v =>
      cases has : evalArgs e as with
      | none => simp [ha, has] at h
      | some vs =>
        simp only [ha, has] at h
        simp only [List.map_cons, evalArgs, evalArg_rename hg ha, evalArgs_rename hg has]
        exact h

theorem evalNode_rename {S : Sem V} {ρ : List (String × String)} {e e' : Env V} {n : Node V}
    (hg : GoodEnv ρ e) (h : evalNode S e n = some e') :
    evalNode S e (renameNode ρ n) = some e' := by
  obtain ⟨xs, ys, hx, hy, hl, rfl⟩ := evalNode_some h
  exact evalNode_intro (n := renameNode ρ n) (evalArgs_rename hg hx) hy hl

/-- If the map is good in every environment the run passes through, renaming the inputs leaves
the run unchanged. -/
theorem evalNodes_rename {S : Sem V} {ρ : List (String × String)} (nodes : List (Node V)) :
    ∀ {env E : Env V},
      (∀ p q e, nodes = p ++ q → evalNodes S env p = some e → GoodEnv ρ e) →
      evalNodes S env nodes = some E → evalNodes S env (renameInputs ρ nodes) = some E := by
  induction nodes with
  | nil => intro env E _ h; exact h
  | cons n ns ih =>
    intro env E hg h
    simp only [evalNodes] at h
    cases hn : evalNode S env n with
    | none => simp [hn] at h
    | some e1 =>
      simp only [hn] at h
      have h0 : GoodEnv ρ env := hg [] (n :: ns) env rfl rfl
      simp only [renameInputs, List.map_cons, evalNodes, evalNode_rename h0 hn]
      apply ih _ h
      intro p q e hpq he
      apply hg (n :: p) q e (by simp [hpq])
      simp only [evalNodes, hn, he]

/-- The common shape of the renaming passes: every key is an output of some node and, at the run
of that node, the replacement name is already bound to the value the node produces. -/
theorem rename_pass {S : Sem V} {ρ : List (String × String)} {nodes : List (Node V)} {env : Env V}
    (hssa : SSA env nodes)
    (hkey : ∀ x v, mapGet ρ x = some v → ∃ n ∈ nodes, x ∈ n.outNames)
    (hval : ∀ x v, mapGet ρ x = some v → ∀ p n q e1 e2, nodes = p ++ n :: q →
      x ∈ n.outNames → evalNodes S env p = some e1 → evalNode S e1 n = some e2 →
      ∀ w, e2 x = some w → e1 v = some w)
    {E : Env V} (hE : evalNodes S env nodes = some E) :
    evalNodes S env (renameInputs ρ nodes) = some E := by
  apply evalNodes_rename nodes _ hE
  intro p q e hpq he x v hxv w hw
  obtain ⟨n, hn, hxn⟩ := hkey x v hxv
  subst hpq
  have hxp : x ∈ p.flatMap Node.outNames := by
    apply Classical.byContradiction
    intro hnp
    rw [evalNodes_notMem p he hnp, hssa.fresh n hn x hxn] at hw
    cases hw
  obtain ⟨m, hm, hxm⟩ := List.mem_flatMap.1 hxp
  obtain ⟨p1, p2, rfl⟩ := List.append_of_mem hm
  obtain ⟨e1, e2, h1, h2, h3⟩ := evalNodes_split he
  have hw2 : e2 x = some w := by
    rw [← hw]
    refine (evalNodes_notMem p2 h3 ?_).symm
    have := (hssa.prefix).nodup
    simp only [List.flatMap_append, List.flatMap_cons, List.nodup_append] at this
    intro hc
    exact this.2.1.2.2 x hxm x hc rfl
  have hv := hval x v hxv p1 m (p2 ++ q) e1 e2 (by simp) hxm h1 h2 w hw2
  have hs : SSA env (p1 ++ m :: p2) := hssa.prefix
  exact hs.stable h1 (by simp only [evalNodes, h2, h3]) hv

theorem preserves_of_evalNodes {S : Sem V} {env : Env V} {nodes nodes' : List (Node V)}
    (h : ∀ E, evalNodes S env nodes = some E → evalNodes S env nodes' = some E)
    (outs : List (Arg V)) : Preserves S env outs nodes nodes' := by
  intro r hr
  unfold evalGraph at hr ⊢
  cases hE : evalNodes S env nodes with
  | none => simp [hE] at hr
  | some E => rw [h E hE]; simpa [hE] using hr

theorem mapGet_mem {β} {m : List (String × β)} {k : String} {v : β} (h : mapGet m k = some v) :
    (k, v) ∈ m := by
  induction m with
  | nil => simp [mapGet] at h
  | cons p m ih =>
    obtain ⟨k', v'⟩ := p
    simp only [mapGet] at h
    split at h
    · next hk => cases h; subst hk; exact List.mem_cons_self
    · exact List.mem_cons_of_mem _ (ih h)

theorem mapGet_isSome_of_mem {β} {m : List (String × β)} {k : String} {v : β} (h : (k, v) ∈ m) :
    ∃ w, mapGet m k = some w := by
  induction m with
  | nil => cases h
  | cons p m ih =>
    obtain ⟨k', v'⟩ := p
    simp only [mapGet]
    split
    · exact ⟨_, rfl⟩
    · next hk =>
      cases h with
      | head => exact absurd rfl hk
      | tail _ h => exact ih h

/-! ### Dropping nodes -/

/-- Two environments that agree on a set of names. -/
def AgreeOn (L : String → Prop) (e e' : Env V) : Prop := ∀ x, L x → e x = e' x

/-- Does evaluating the argument read its name? -/
def Arg.reads (a : Arg V) : Prop := a.src = .constant ∨ a.src = .dynamic

theorem evalArg_agree {L : String → Prop} {e e' : Env V} (h : AgreeOn L e e') {a : Arg V}
    (ha : a.reads → L a.name) : evalArg e a = evalArg e' a := by
  unfold evalArg
  cases hs : a.src with
  | static => rfl
  | optional => rfl
  | constant => simp only; rw [h _ (ha (Or.inl hs))]
  | dynamic => simp only; rw [h _ (ha (Or.inr hs))]

theorem bindAll_agree {L : String → Prop} (xs : List String) : ∀ {vs : List V} {e e' : Env V},
    AgreeOn L e e' → AgreeOn L (bindAll e xs vs) (bindAll e' xs vs) := by
  induction xs with
  | nil => intro vs e e' h; cases vs <;> exact h
  | cons x xs ih =>
    intro vs e e' h
    cases vs with
    | nil => exact h
    | cons v vs =>
      apply ih
      intro y hy
      by_cases hyx : y = x
      · simp [hyx]
      · simp [hyx, h y hy]

/-- Dropping nodes none of whose outputs are read by what remains changes no value that is
read. -/
theorem evalNodes_prune {S : Sem V} {L : String → Prop} {keep : Node V → Bool}
    (nodes : List (Node V)) : ∀ {env env' E : Env V},
      (∀ n ∈ nodes, keep n = false → ∀ x ∈ n.outNames, ¬ L x) →
      (∀ n ∈ nodes, keep n = true → ∀ a ∈ n.inputs, a.reads → L a.name) →
      AgreeOn L env env' → evalNodes S env nodes = some E →
      ∃ E', evalNodes S env' (nodes.filter keep) = some E' ∧ AgreeOn L E E' := by
  induction nodes with
  | nil =>
    intro env env' E _ _ ha h
    simp [evalNodes] at h; subst h
    exact ⟨env', rfl, ha⟩
  | cons n ns ih =>
    intro env env' E hdrop hkeep ha h
    simp only [evalNodes] at h
    cases hn : evalNode S env n with
    | none => simp [hn] at h
    | some e1 =>
      simp only [hn] at h
      have hd' := fun m hm => hdrop m (List.mem_cons_of_mem _ hm)
      have hk' := fun m hm => hkeep m (List.mem_cons_of_mem _ hm)
      cases hkn : keep n with
      | true =>
        obtain ⟨xs, ys, hx, hy, hl, rfl⟩ := evalNode_some hn
        have hx' : evalArgs env' n.inputs = some xs := by
          rw [← hx]
          refine (evalArgs_congr fun a ham => ?_).symm
          exact evalArg_agree ha (hkeep n List.mem_cons_self hkn a ham)
        obtain ⟨E', hE', hag⟩ := ih hd' hk' (bindAll_agree n.outNames ha) h
        refine ⟨E', ?_, hag⟩
        simp only [List.filter_cons, hkn, if_true, evalNodes, evalNode_intro hx' hy hl, hE']
      | false =>
        have : AgreeOn L e1 env' := by
          intro x hx
          rw [evalNode_notMem hn (fun hm => hdrop n List.mem_cons_self hkn x hm hx), ha x hx]
        obtain ⟨E', hE', hag⟩ := ih hd' hk' this h
        exact ⟨E', by simpa [List.filter_cons, hkn] using hE', hag⟩

theorem prune_preserves {S : Sem V} {L : String → Prop} {keep : Node V → Bool}
    {nodes : List (Node V)} {outs : List (Arg V)} {env : Env V}
    (hdrop : ∀ n ∈ nodes, keep n = false → ∀ x ∈ n.outNames, ¬ L x)
    (hkeep : ∀ n ∈ nodes, keep n = true → ∀ a ∈ n.inputs, a.reads → L a.name)
    (houts : ∀ a ∈ outs, a.reads → L a.name) :
    Preserves S env outs nodes (nodes.filter keep) := by
  intro r hr
  unfold evalGraph at hr ⊢
  cases hE : evalNodes S env nodes with
  | none => simp [hE] at hr
  | some E =>
    obtain ⟨E', hE', hag⟩ := evalNodes_prune nodes hdrop hkeep (fun _ _ => rfl) hE
    simp only [hE] at hr
    simp only [hE']
    rw [← hr]
    exact (evalArgs_congr fun a ha => evalArg_agree hag (houts a ha)).symm

end OnnxIR
