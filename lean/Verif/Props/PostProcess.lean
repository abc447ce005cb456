import Verif.Model.PostProcess
import Verif.Props.RenamePasses

/-!
# C11, C12: no-op elimination and removal of unreferenced constants
-/

namespace OnnxIR

variable {V : Type}

/-! ## Specification -/

/-- The node returns exactly its first input, whenever it runs. -/
def ReturnsFirstInput (S : Sem V) (n : Node V) : Prop :=
  ∀ x rest ys, S n.name n.ty n.attrs (some x :: rest) = some ys → ys = [x]

/-- The node returns exactly its first input whenever it runs as part of a run of `nodes` from `env`. -/
def ReturnsFirstInRun (S : Sem V) (env : Env V) (nodes : List (Node V)) (n : Node V) : Prop :=
  ∀ p q e x rest ys, nodes = p ++ n :: q → evalNodes S env p = some e →
    evalArgs e n.inputs = some (some x :: rest) → S n.name n.ty n.attrs (some x :: rest) = some ys →
    ys.length = n.outputs.length → ys = [x]

theorem ReturnsFirstInput.inRun {S : Sem V} {n : Node V} (h : ReturnsFirstInput S n) (env : Env V)
    (nodes : List (Node V)) : ReturnsFirstInRun S env nodes n :=
  fun _ _ _ x rest ys _ _ _ hys _ => h x rest ys hys

/-- The table of original output names (`node_output_map`) is harmless: an entry for the first
output of a no-op node is either the current name of that output or a name that is bound nowhere
in the graph. -/
def OriginalNamesUnused (noop : Node V → Bool) (omap : List (String × Nat × Nat)) (env : Env V)
    (nodes : List (Node V)) : Prop :=
  ∀ orig idx n, (orig, idx, 0) ∈ omap → nodes[idx]? = some n → noop n = true →
    (∃ o os, n.outputs = o :: os ∧ orig = o.name) ∨
      (orig ≠ "" ∧ env orig = none ∧ ∀ m ∈ nodes, orig ∉ m.outNames)

/-! ## Transitive resolution -/

/-- `t` is where the chain of rewirings starting at `x` ends. -/
inductive Root (m : List (String × String)) : String → String → Prop
  | stop {x} (h : mapGet m x = none) : Root m x x
  | step {x y t} (h : mapGet m x = some y) (r : Root m y t) : Root m x t

theorem Root.end_none {m : List (String × String)} {x t : String} (h : Root m x t) :
    mapGet m t = none := by
  induction h with
  | stop h => exact h
  | step _ _ ih => exact ih

/-- Invariant of the resolution loop: the map has the same keys as the original, decreases the
rank, and every binding has the same chain end as its key. -/
structure ResInv (m0 m : List (String × String)) (r : String → Nat) : Prop where
  keys : ∀ k, (mapGet m k).isSome ↔ (mapGet m0 k).isSome
  dec : ∀ k v, mapGet m k = some v → r v < r k
  root : ∀ k v t, mapGet m k = some v → Root m0 v t → Root m0 k t

theorem none_of_iff {α β} {a : Option α} {b : Option β} (h : a.isSome ↔ b.isSome)
    (ha : a = none) : b = none := by
  subst ha
  cases b with
  | none => rfl
  | some _ => simp at h

theorem follow_root {m0 m : List (String × String)} {r : String → Nat} (inv : ResInv m0 m r) :
    ∀ (fuel : Nat) (visited : List String) (cur : String), r cur < fuel →
      (∀ x ∈ visited, r cur < r x) →
      Root m0 cur (follow m fuel visited cur) ∧ r (follow m fuel visited cur) ≤ r cur := by
  intro fuel
  induction fuel with
  | zero => intro visited cur h; omega
  | succ fuel ih =>
    intro visited cur hf hv
    simp only [follow]
    cases hm : mapGet m cur with
    | none =>
      exact ⟨.stop (none_of_iff (inv.keys cur) hm), Nat.le_refl _⟩
    | some next =>
      have hd := inv.dec _ _ hm
      have hnv : ¬ next ∈ visited := fun h => by have := hv next h; omega
      simp only [List.contains_eq_mem, hnv, decide_false, Bool.false_eq_true, if_false]
      obtain ⟨h1, h2⟩ := ih (cur :: visited) next (by omega) (by
        intro x hx
        cases hx with
        | head => exact hd
        | tail _ hx => have := hv x hx; omega)
      exact ⟨inv.root _ _ _ hm h1, by omega⟩

theorem resolveRewire_spec {m0 : List (String × String)} {r : String → Nat} {fuel : Nat} :
    ∀ (order m : List (String × String)), ResInv m0 m r →
      (∀ k v, (k, v) ∈ order → mapGet m0 k = some v ∧ r v < r k ∧ r v < fuel) →
      ResInv m0 (resolveRewire fuel order m) r ∧
      (∀ k t, (k ∈ order.map Prod.fst ∨ (∃ u, mapGet m k = some u ∧ Root m0 k u)) →
        mapGet (resolveRewire fuel order m) k = some t → Root m0 k t) := by
  intro order
  induction order with
  | nil =>
    intro m inv _
    refine ⟨inv, ?_⟩
    rintro k t (h | ⟨u, hu, hr⟩) ht
    · cases h
    · simp only [resolveRewire] at ht
      rw [ht] at hu; cases hu; exact hr
  | cons p order ih =>
    obtain ⟨k, v⟩ := p
    intro m inv hord
    obtain ⟨hk, hd, hf⟩ := hord k v List.mem_cons_self
    obtain ⟨hroot, hle⟩ := follow_root inv fuel [k] v hf (by simpa using hd)
    have hrk : Root m0 k (follow m fuel [k] v) := .step hk hroot
    have inv' : ResInv m0 ((k, follow m fuel [k] v) :: m) r := by
      constructor
      · intro k'
        simp only [mapGet]
        split
        · next h => subst h; simp [hk]
        · exact inv.keys k'
      · intro k' v' h
        simp only [mapGet] at h
        split at h
        · next he => subst he; cases h; omega
        · exact inv.dec k' v' h
      · intro k' v' t h hr
        simp only [mapGet] at h
        split at h
        · next he =>
          subst he; cases h
          have : t = follow m fuel [k] v := by
            have hn := hrk.end_none
            cases hr with
            | stop => rfl
            | step h' => rw [h'] at hn; cases hn
          rw [this]; exact hrk
        · exact inv.root k' v' t h hr
    obtain ⟨h1, h2⟩ := ih ((k, follow m fuel [k] v) :: m) inv'
      (fun k' v' h => hord k' v' (List.mem_cons_of_mem _ h))
    refine ⟨h1, ?_⟩
    rintro k' t h ht
    apply h2 k' t _ ht
    rcases h with h | ⟨u, hu, hr⟩
    · simp only [List.map_cons, List.mem_cons] at h
      rcases h with rfl | h
      · right; exact ⟨_, by simp [mapGet], hrk⟩
      · exact Or.inl h
    · right
      by_cases he : k = k'
      · subst he; exact ⟨_, by simp [mapGet], hrk⟩
      · exact ⟨u, by simp [mapGet, he, hu], hr⟩

/-! ## Filtering by index -/

theorem filter_zipIdx_fst {α β : Type} (g : α → β) (q : α → Bool) (f : Nat → Bool) :
    ∀ (l : List α) (k : Nat), (∀ x i, (x, i) ∈ l.zipIdx k → f i = q x) →
      (((l.map g).zipIdx k).filter fun p => f p.2).map Prod.fst = (l.filter q).map g := by
  intro l
  induction l with
  | nil => intro k _; rfl
  | cons a l ih =>
    intro k h
    have h0 : f k = q a := h a k (by simp [List.zipIdx_cons])
    have h1 := ih (k + 1) (fun x i hm => h x i (by simp [List.zipIdx_cons, hm]))
    simp only [List.map_cons, List.zipIdx_cons, List.filter_cons, h0]
    split <;> simp [h1]

/-- The rename map is good in every environment a run passes through. -/
theorem goodEnv_prefix {S : Sem V} {ρ : List (String × String)} {p q : List (Node V)}
    {env : Env V} (hssa : SSA env (p ++ q))
    (hkey : ∀ x v, mapGet ρ x = some v → (∃ n ∈ p ++ q, x ∈ n.outNames) ∨
      (env x = none ∧ ∀ n ∈ p ++ q, x ∉ n.outNames))
    (hval : ∀ x v, mapGet ρ x = some v → ∀ a n b e1 e2, p = a ++ n :: b →
      x ∈ n.outNames → evalNodes S env a = some e1 → evalNode S e1 n = some e2 →
      ∀ w, e2 x = some w → e1 v = some w)
    {e : Env V} (he : evalNodes S env p = some e) : GoodEnv ρ e := by
  intro x v hxv w hw
  rcases hkey x v hxv with ⟨n, hn, hxn⟩ | ⟨h0, hno⟩
  · obtain ⟨p1, p2, e1, e2, rfl, h1, h2, hw2, h3⟩ := hssa.ran he hw hn hxn
    have hv := hval x v hxv p1 n p2 e1 e2 rfl hxn h1 h2 w hw2
    have hs : SSA env (p1 ++ n :: p2) := hssa.prefix
    exact hs.stable h1 (by simp only [evalNodes, h2, h3]) hv
  · rw [evalNodes_notMem p he, h0] at hw
    · cases hw
    · intro hm
      obtain ⟨n, hn, hx⟩ := List.mem_flatMap.1 hm
      exact hno n (List.mem_append_left _ hn) hx

theorem Root.good {m : List (String × String)} {e : Env V} (hg : GoodEnv m e) {x t : String}
    (h : Root m x t) {w : V} (hw : e x = some w) : e t = some w := by
  induction h with
  | stop => exact hw
  | step h _ ih => exact ih (hg _ _ h _ hw)

/-! ## Simulation -/

theorem evalArg_rewire {m0 m : List (String × String)} {oam : List (String × Arg V)}
    (hroot : ∀ k t, mapGet m k = some t → Root m0 k t)
    (hkeys : ∀ k, (mapGet m k).isSome ↔ (mapGet m0 k).isSome)
    (hempty : mapGet m0 "" = none)
    (hoam : ∀ x s, mapGet oam x = some s → s.reads)
    {e e' : Env V} (hg : GoodEnv m0 e) (hag : AgreeOn (fun x => mapGet m0 x = none) e e')
    {a : Arg V} (hwf : WfArg a ∧ ∀ v, a.src = .static v → a.name = "") {v} (h : evalArg e a = some v) :
    evalArg e' (rewireArg m oam a) = some v := by
  by_cases hr : a.reads
  · obtain ⟨w, hw, rfl⟩ := evalArg_produced h hr
    have hread : ∀ b : Arg V, b.reads → e' b.name = some w → evalArg e' b = some (some w) := by
      intro b hb hbw
      unfold evalArg
      rcases hb with hb | hb <;> simp [hb, hbw]
    unfold rewireArg
    cases hm : mapGet m a.name with
    | none =>
      refine hread a hr ?_
      have : mapGet m0 a.name = none := none_of_iff (hkeys a.name) hm
      rw [← hag _ this, hw]
    | some t =>
      have hroot' := hroot _ _ hm
      have ht : e' t = some w := by
        rw [← hag _ hroot'.end_none]
        exact hroot'.good hg hw
      simp only
      split
      · next s ho => exact hread ⟨t, s.ty, s.src⟩ (hoam t s ho) ht
      · exact hread ⟨t, a.ty, a.src⟩ hr ht
  · -- an embedded or absent argument has the empty name, which is never rewired
    have hnr : a.src = .optional ∨ ∃ v, a.src = .static v := by
      unfold Arg.reads at hr
      cases hs : a.src with
      | static v => exact Or.inr ⟨v, rfl⟩
      | optional => exact Or.inl rfl
      | constant => exact absurd (Or.inl hs) hr
      | dynamic => exact absurd (Or.inr hs) hr
    have hn : a.name = "" := by
      rcases hnr with h | ⟨v, h⟩
      · exact hwf.1.1 h
      · exact hwf.2 v h
    have : mapGet m a.name = none := by
      rw [hn]; exact none_of_iff (hkeys "").symm hempty
    unfold rewireArg
    rw [this]
    unfold evalArg at h ⊢
    rcases hnr with hs | ⟨v, hs⟩ <;> simp only [hs] at h ⊢ <;> exact h

theorem evalArgs_rewire {m0 m : List (String × String)} {oam : List (String × Arg V)}
    (hroot : ∀ k t, mapGet m k = some t → Root m0 k t)
    (hkeys : ∀ k, (mapGet m k).isSome ↔ (mapGet m0 k).isSome)
    (hempty : mapGet m0 "" = none)
    (hoam : ∀ x s, mapGet oam x = some s → s.reads)
    {e e' : Env V} (hg : GoodEnv m0 e) (hag : AgreeOn (fun x => mapGet m0 x = none) e e') :
    ∀ {as : List (Arg V)}, (∀ a ∈ as, WfArg a ∧ ∀ v, a.src = .static v → a.name = "") →
    ∀ {xs}, evalArgs e as = some xs →
      evalArgs e' (as.map (rewireArg m oam)) = some xs
  | [], _, _, h => h
  | a :: as, hwf, xs, h => by
    simp only [evalArgs] at h
    cases ha : evalArg e a with
    | none => simp [ha] at h
    | some v =>
      cases has : evalArgs e as with
      | none => simp [ha, has] at h
      | some vs =>
        simp only [ha, has] at h
        simp only [List.map_cons, evalArgs,
          evalArg_rewire hroot hkeys hempty hoam hg hag (hwf a List.mem_cons_self) ha,
          evalArgs_rewire hroot hkeys hempty hoam hg hag
            (fun b hb => hwf b (List.mem_cons_of_mem _ hb)) has]
        exact h

theorem evalNodes_rewire {S : Sem V} {m0 m : List (String × String)}
    {oam : List (String × Arg V)} {gone : Node V → Bool}
    (hroot : ∀ k t, mapGet m k = some t → Root m0 k t)
    (hkeys : ∀ k, (mapGet m k).isSome ↔ (mapGet m0 k).isSome)
    (hempty : mapGet m0 "" = none)
    (hoam : ∀ x s, mapGet oam x = some s → s.reads) (ns : List (Node V)) :
    ∀ {e e' E : Env V},
      (∀ n ∈ ns, ∀ a ∈ n.inputs, WfArg a ∧ ∀ v, a.src = .static v → a.name = "") →
      (∀ n ∈ ns, gone n = true → ∀ x ∈ n.outNames, mapGet m0 x ≠ none) →
      (∀ p q f, ns = p ++ q → evalNodes S e p = some f → GoodEnv m0 f) →
      AgreeOn (fun x => mapGet m0 x = none) e e' → evalNodes S e ns = some E →
      ∃ E', evalNodes S e' ((ns.filter fun n => !gone n).map (rewireNode m oam)) = some E' ∧
        AgreeOn (fun x => mapGet m0 x = none) E E' ∧ GoodEnv m0 E := by
  induction ns with
  | nil =>
    intro e e' E _ _ hgood hag h
    simp [evalNodes] at h; subst h
    exact ⟨e', rfl, hag, hgood [] [] e rfl rfl⟩
  | cons n ns ih =>
    intro e e' E hwf hgone hgood hag h
    simp only [evalNodes] at h
    cases hn : evalNode S e n with
    | none => simp [hn] at h
    | some e1 =>
      simp only [hn] at h
      have hwf' := fun k hk => hwf k (List.mem_cons_of_mem _ hk)
      have hgone' := fun k hk => hgone k (List.mem_cons_of_mem _ hk)
      have hgood' : ∀ p q f, ns = p ++ q → evalNodes S e1 p = some f → GoodEnv m0 f := by
        intro p q f hpq hf
        exact hgood (n :: p) q f (by simp [hpq]) (by simp only [evalNodes, hn, hf])
      have hg0 : GoodEnv m0 e := hgood [] (n :: ns) e rfl rfl
      cases hgn : gone n with
      | true =>
        have hag' : AgreeOn (fun x => mapGet m0 x = none) e1 e' := by
          intro x hx
          rw [evalNode_notMem hn (fun hm => hgone n List.mem_cons_self hgn x hm hx), hag x hx]
        obtain ⟨E', hE', h2⟩ := ih hwf' hgone' hgood' hag' h
        exact ⟨E', by simpa [List.filter_cons, hgn] using hE', h2⟩
      | false =>
        obtain ⟨xs, ys, hx, hy, hl, rfl⟩ := evalNode_some hn
        have hx' := evalArgs_rewire hroot hkeys hempty hoam hg0 hag
          (hwf n List.mem_cons_self) hx
        obtain ⟨E', hE', h2⟩ := ih hwf' hgone' hgood' (bindAll_agree n.outNames hag) h
        refine ⟨E', ?_, h2⟩
        have hstep : evalNode S e' (rewireNode m oam n) = some (bindAll e' n.outNames ys) :=
          evalNode_intro (n := rewireNode m oam n) hx' hy hl
        simp only [List.filter_cons, hgn, Bool.not_false, if_true, List.map_cons, evalNodes, hstep,
          hE']

/-! ## The rewire map of the plan -/

theorem mem_planRewire {noop : Node V → Bool} {omap : List (String × Nat × Nat)}
    {nodes : List (Node V)} {x v : String} :
    (x, v) ∈ (planNoop noop omap nodes).rewire ↔
      ∃ idx n, nodes[idx]? = some n ∧ noop n = true ∧ noopRemovable n = true ∧
        (x, v) ∈ noopBindings omap idx n := by
  simp only [planNoop, List.mem_reverse, List.mem_flatMap, List.mem_filter, Bool.and_eq_true]
  constructor
  · rintro ⟨⟨n, idx⟩, ⟨hm, h1, h2⟩, h3⟩
    exact ⟨idx, n, List.mem_zipIdx_iff_getElem?.1 hm, h1, h2, h3⟩
  · rintro ⟨idx, n, hm, h1, h2, h3⟩
    exact ⟨(n, idx), ⟨List.mem_zipIdx_iff_getElem?.2 hm, h1, h2⟩, h3⟩

theorem mem_noopBindings {omap : List (String × Nat × Nat)} {idx : Nat} {n : Node V}
    {x v : String} (h : (x, v) ∈ noopBindings omap idx n) :
    ∃ i is o os, n.inputs = i :: is ∧ n.outputs = o :: os ∧ v = i.name ∧
      (x = o.name ∨ (x, idx, 0) ∈ omap) := by
  unfold noopBindings at h
  split at h
  · next i is o os hi ho =>
    refine ⟨i, is, o, os, hi, ho, ?_⟩
    split at h
    · next orig k hf =>
      have hmem := List.mem_of_find?_eq_some hf
      have hp := List.find?_some hf
      simp only [Bool.and_eq_true, decide_eq_true_eq] at hp
      have : (orig, idx, 0) ∈ omap := by
        obtain ⟨k1, k2⟩ := k
        simp only at hp
        rw [← hp.1, ← hp.2]; exact hmem
      split at h
      · simp only [List.mem_cons, Prod.mk.injEq, List.not_mem_nil, or_false] at h
        rcases h with ⟨rfl, rfl⟩ | ⟨rfl, rfl⟩
        · exact ⟨rfl, Or.inr this⟩
        · exact ⟨rfl, Or.inl rfl⟩
      · simp only [List.mem_cons, Prod.mk.injEq, List.not_mem_nil, or_false] at h
        exact ⟨h.2, Or.inl h.1⟩
    · simp only [List.mem_cons, Prod.mk.injEq, List.not_mem_nil, or_false] at h
      exact ⟨h.2, Or.inl h.1⟩
  · cases h

theorem noopBindings_output {omap : List (String × Nat × Nat)} {idx : Nat} {n : Node V}
    {i o : Arg V} {is os} (hi : n.inputs = i :: is) (ho : n.outputs = o :: os) :
    (o.name, i.name) ∈ noopBindings omap idx n := by
  unfold noopBindings
  rw [hi, ho]
  simp only
  split
  · split <;> simp
  · simp

/-- Position of the producer of a name, counted from one; names nobody produces but that are keys
of the rewire map come last. -/
def nameRank (nodes : List (Node V)) (m : List (String × String)) (x : String) : Nat :=
  match nodes.findIdx? (fun n => n.outNames.contains x) with
  | some j => j + 1
  | none => if (mapGet m x).isSome then nodes.length + 1 else 0

theorem findIdx_of_SSA {env : Env V} {p q : List (Node V)} {n : Node V} {x : String}
    (hs : SSA env (p ++ n :: q)) (hx : x ∈ n.outNames) :
    (p ++ n :: q).findIdx? (fun n => n.outNames.contains x) = some p.length := by
  rw [List.findIdx?_append]
  have : p.findIdx? (fun n => n.outNames.contains x) = none := by
    rw [List.findIdx?_eq_none_iff]
    intro m hm
    have hnd := hs.nodup
    simp only [List.flatMap_append, List.flatMap_cons, List.nodup_append] at hnd
    simp only [List.contains_eq_mem, decide_eq_false_iff_not]
    intro hxm
    exact hnd.2.2 x (List.mem_flatMap.2 ⟨m, hm, hxm⟩) x (List.mem_append_left _ hx) rfl
  rw [this]
  simp [List.findIdx?_cons, hx]

/-! ## The properties -/

/-- **C11.** Removing the nodes that return their first input, chains of any length included, and
in whatever order the hash map of rewirings is traversed (`order`), leaves the result of the graph
unchanged.

Assumptions: single assignment and the importer's naming discipline; the nodes called no-ops
return their first input and that input is a value of the graph; node outputs are not embedded
constants; and the table of original ONNX names does not clash with names in use (see
`C11_original_name_clash` for what happens otherwise). -/
theorem C11_noop_elimination_in_run (S : Sem V) (env : Env V) (nodes : List (Node V))
    (outs : List (Arg V)) (noop : Node V → Bool) (omap : List (String × Nat × Nat))
    (order : List (String × String)) (hssa : SSA env nodes) (hwf : WfNames nodes)
    (hlab : ∀ n ∈ nodes, ∀ a ∈ n.inputs, ∀ v, a.src = .static v → a.name = "")
    (hwfo : ∀ a ∈ outs, WfArg a ∧ ∀ v, a.src = .static v → a.name = "")
    (houtsrc : ∀ n ∈ nodes, ∀ o ∈ n.outputs, o.src = .dynamic ∨ o.src = .constant)
    (hnoop : ∀ n ∈ nodes, noop n = true → ReturnsFirstInRun S env nodes n ∧
      ∀ i is, n.inputs = i :: is → i.src = .dynamic ∨ i.src = .constant)
    (horig : OriginalNamesUnused noop omap env nodes)
    (horder : ∀ k v, (k, v) ∈ order ↔ mapGet (planNoop noop omap nodes).rewire k = some v)
    (r : List (Option V)) (h : evalGraph S env nodes outs = some r) :
    evalGraph S env (applyNoop (planNoop noop omap nodes) order nodes outs).1
      (applyNoop (planNoop noop omap nodes) order nodes outs).2 = some r := by
  -- the run of the original graph
  cases hE : evalNodes S env nodes with
  | none => simp [evalGraph, hE] at h
  | some E =>
  simp only [evalGraph, hE] at h
  let m0 := (planNoop noop omap nodes).rewire
  -- facts about the bindings of the plan
  have hbind : ∀ x v, mapGet m0 x = some v → ∃ (idx : Nat) (n : Node V) (i : Arg V) (is : List (Arg V)) (o : Arg V)
      (os : List (Arg V)), nodes[idx]? = some n ∧
      noop n = true ∧ n.inputs = i :: is ∧ n.outputs = o :: os ∧ v = i.name ∧
      (x = o.name ∨ (x ≠ "" ∧ env x = none ∧ ∀ m ∈ nodes, x ∉ m.outNames)) := by
    intro x v hxv
    obtain ⟨idx, n, hn, h1, _, h3⟩ := mem_planRewire.1 (mapGet_mem hxv)
    obtain ⟨i, is, o, os, hi, ho, hv, hx⟩ := mem_noopBindings h3
    refine ⟨idx, n, i, is, o, os, hn, h1, hi, ho, hv, ?_⟩
    rcases hx with hx | hx
    · exact Or.inl hx
    · rcases horig x idx n hx hn h1 with ⟨o', os', ho', rfl⟩ | h
      · rw [ho] at ho'; cases ho'; exact Or.inl rfl
      · exact Or.inr h
  have hempty : mapGet m0 "" = none := by
    cases he : mapGet m0 "" with
    | none => rfl
    | some v =>
      obtain ⟨idx, n, i, is, o, os, hn, _, _, ho, _, hx⟩ := hbind _ _ he
      rcases hx with hx | hx
      · exact absurd (hx ▸ (by simp [Node.outNames, ho]) : "" ∈ n.outNames)
          (hwf.outs n (List.mem_of_getElem? hn))
      · exact absurd rfl hx.1
  -- what a no-op node does when it runs
  have hrun : ∀ n ∈ nodes, noop n = true → ∀ i is, n.inputs = i :: is → ∀ p q e1 e2,
      nodes = p ++ n :: q → evalNodes S env p = some e1 → evalNode S e1 n = some e2 → ∃ w o, e1 i.name = some w ∧ n.outputs = [o] ∧
        e2 = bindAll e1 [o.name] [w] := by
    intro n hn hnn i is hi p q e1 e2 hpq hp h2
    obtain ⟨hret, hsrc⟩ := hnoop n hn hnn
    obtain ⟨xs, ys, hxs, hys, hl, rfl⟩ := evalNode_some h2
    have hxs0 := hxs
    rw [hi] at hxs
    obtain ⟨vi, hvi⟩ := evalArgs_mem hxs i List.mem_cons_self
    obtain ⟨w, hw, rfl⟩ := evalArg_produced hvi ((hsrc i is hi).symm)
    simp only [evalArgs, hvi] at hxs
    cases his : evalArgs e1 is with
    | none => simp [his] at hxs
    | some rest =>
      simp only [his, Option.some.injEq] at hxs
      subst hxs
      have := hret p q e1 w rest ys hpq hp hxs0 hys hl
      subst this
      cases ho : n.outputs with
      | nil => simp [ho] at hl
      | cons o os =>
        cases os with
        | cons _ _ => simp [ho] at hl
        | nil => exact ⟨w, o, hw, rfl, by simp [Node.outNames, ho]⟩
  -- values along the rewire map, in every environment the run passes through
  have hkeyv : ∀ x v, mapGet m0 x = some v → (∃ n ∈ nodes, x ∈ n.outNames) ∨
      (env x = none ∧ ∀ n ∈ nodes, x ∉ n.outNames) := by
    intro x v hxv
    obtain ⟨idx, n, i, is, o, os, hn, _, _, ho, _, hx⟩ := hbind _ _ hxv
    rcases hx with rfl | hx
    · exact Or.inl ⟨n, List.mem_of_getElem? hn, by simp [Node.outNames, ho]⟩
    · exact Or.inr hx.2
  have hval : ∀ x v, mapGet m0 x = some v → ∀ a n b e1 e2, nodes = a ++ n :: b →
      x ∈ n.outNames → evalNodes S env a = some e1 → evalNode S e1 n = some e2 →
      ∀ w, e2 x = some w → e1 v = some w := by
    intro x v hxv a n b e1 e2 hnodes hxn h1 h2 w hw
    obtain ⟨idx, n', i, is, o, os, hn', hnn, hi, ho, rfl, hx⟩ := hbind _ _ hxv
    have hn'm := List.mem_of_getElem? hn'
    have hnm : n ∈ nodes := by simp [hnodes]
    rcases hx with rfl | hx
    · have : n' = n := hssa.producer_unique hnodes hn'm hxn (by simp [Node.outNames, ho])
      subst this
      obtain ⟨w', o', hw', ho', rfl⟩ := hrun n' hn'm hnn i is hi a b e1 e2 hnodes h1 h2
      rw [ho] at ho'; cases ho'
      simp [bindAll] at hw
      rw [hw', hw]
    · exact absurd hxn (hx.2.2 n hnm)
  have hgood : ∀ p q f, nodes = p ++ q → evalNodes S env p = some f → GoodEnv m0 f := by
    intro p q f hpq hf
    subst hpq
    refine goodEnv_prefix hssa hkeyv ?_ hf
    intro x v hxv a n b e1 e2 hp
    exact hval x v hxv a n (b ++ q) e1 e2 (by simp [hp])
  -- the rank decreases along the map
  have hdec : ∀ k v, mapGet m0 k = some v →
      nameRank nodes m0 v < nameRank nodes m0 k ∧ nameRank nodes m0 v < nodes.length + 2 := by
    intro k v hkv
    obtain ⟨idx, n, i, is, o, os, hn, hnn, hi, ho, rfl, hx⟩ := hbind _ _ hkv
    have hnm := List.mem_of_getElem? hn
    obtain ⟨a, b, hab⟩ := List.append_of_mem hnm
    have hE' := hE
    rw [hab] at hE'
    obtain ⟨e1, e2, h1, h2, _⟩ := evalNodes_split hE'
    obtain ⟨w, o', hw, _, _⟩ := hrun n hnm hnn i is hi a b e1 e2 hab h1 h2
    have hlen : nodes.length = a.length + b.length + 1 := by simp [hab]; omega
    -- the input is produced strictly before `n`, or is a graph input
    have hlow : nameRank nodes m0 i.name ≤ a.length := by
      by_cases hp : i.name ∈ a.flatMap Node.outNames
      · obtain ⟨m, hm, hxm⟩ := List.mem_flatMap.1 hp
        obtain ⟨a1, a2, rfl⟩ := List.append_of_mem hm
        have hs : SSA env (a1 ++ m :: (a2 ++ n :: b)) := by
          have := hssa; rw [hab] at this; simpa using this
        have := findIdx_of_SSA hs hxm
        have hh : nodes.findIdx? (fun n => n.outNames.contains i.name) = some a1.length := by
          rw [hab]; simpa using this
        simp only [nameRank, hh, List.length_append, List.length_cons]
        omega
      · rw [evalNodes_notMem a h1 hp] at hw
        have hno : ∀ m ∈ nodes, i.name ∉ m.outNames := by
          intro m hm hxm
          rw [hssa.fresh m hm _ hxm] at hw; cases hw
        have hh : nodes.findIdx? (fun n => n.outNames.contains i.name) = none := by
          rw [List.findIdx?_eq_none_iff]
          intro m hm; simpa using hno m hm
        have hk0 : mapGet m0 i.name = none := by
          cases hc : mapGet m0 i.name with
          | none => rfl
          | some u =>
            rcases hkeyv _ _ hc with ⟨m, hm, hxm⟩ | ⟨h0, _⟩
            · exact absurd hxm (hno m hm)
            · rw [h0] at hw; cases hw
        unfold nameRank
        rw [hh]
        simp [hk0]
    refine ⟨?_, by omega⟩
    rcases hx with rfl | hx
    · have hs : SSA env (a ++ n :: b) := by have := hssa; rwa [hab] at this
      have := findIdx_of_SSA hs (x := o.name) (by simp [Node.outNames, ho])
      have hh : nodes.findIdx? (fun n => n.outNames.contains o.name) = some a.length := by
        rw [hab]; exact this
      have hk : nameRank nodes m0 o.name = a.length + 1 := by simp only [nameRank, hh]
      omega
    · have hh : nodes.findIdx? (fun n => n.outNames.contains k) = none := by
        rw [List.findIdx?_eq_none_iff]
        intro m hm; simpa using hx.2.2 m hm
      have hk : nameRank nodes m0 k = nodes.length + 1 := by
        simp only [nameRank, hh, hkv, Option.isSome_some, if_true]
      omega
  -- resolution
  have inv0 : ResInv m0 m0 (nameRank nodes m0) :=
    ⟨fun _ => Iff.rfl, fun k v hkv => (hdec k v hkv).1, fun k v t hkv hr => .step hkv hr⟩
  obtain ⟨inv, hres⟩ := resolveRewire_spec (m0 := m0) (r := nameRank nodes m0)
    (fuel := nodes.length + 2) order m0 inv0 (fun k v hkv => by
      have := (horder k v).1 hkv
      exact ⟨this, hdec k v this⟩)
  have hroot : ∀ k t, mapGet (resolveRewire (nodes.length + 2) order m0) k = some t →
      Root m0 k t := by
    intro k t hkt
    refine hres k t (Or.inl ?_) hkt
    have : (mapGet m0 k).isSome := (inv.keys k).1 (by simp [hkt])
    obtain ⟨v, hv⟩ := Option.isSome_iff_exists.1 this
    exact List.mem_map.2 ⟨(k, v), (horder k v).2 hv, rfl⟩
  have hoam : ∀ x s, mapGet (outputArgs nodes) x = some s → s.reads := by
    intro x s hxs
    have hm := mapGet_mem hxs
    have : ∀ ns : List (Node V), (x, s) ∈ outputArgs ns → ∃ n ∈ ns, s ∈ n.outputs := by
      intro ns
      induction ns with
      | nil => intro h; simp [outputArgs] at h
      | cons n ns ih =>
        intro h
        simp only [outputArgs, List.mem_append] at h
        rcases h with h | h
        · obtain ⟨k, hk, hs⟩ := ih h
          exact ⟨k, List.mem_cons_of_mem _ hk, hs⟩
        · simp only [List.mem_map, List.mem_reverse, Prod.mk.injEq] at h
          obtain ⟨o, ho, _, rfl⟩ := h
          exact ⟨n, List.mem_cons_self, ho⟩
    obtain ⟨n, hn, hs⟩ := this nodes hm
    exact (houtsrc n hn s hs).symm
  -- the removed nodes
  let gone : Node V → Bool := fun n => noop n && noopRemovable n
  have hgone : ∀ n ∈ nodes, gone n = true → ∀ x ∈ n.outNames, mapGet m0 x ≠ none := by
    intro n hn hg x hx
    simp only [gone, Bool.and_eq_true] at hg
    obtain ⟨hnn, hrm⟩ := hg
    obtain ⟨idx, hidx⟩ := List.mem_iff_getElem?.1 hn
    cases hi : n.inputs with
    | nil => simp [noopRemovable, hi] at hrm
    | cons i is =>
      obtain ⟨a, b, hab⟩ := List.append_of_mem hn
      have hE' := hE
      rw [hab] at hE'
      obtain ⟨e1, e2, h1, h2, _⟩ := evalNodes_split hE'
      obtain ⟨w, o, _, ho, _⟩ := hrun n hn hnn i is hi a b e1 e2 hab h1 h2
      have hxo : x = o.name := by simpa [Node.outNames, ho] using hx
      have hmem : (x, i.name) ∈ m0 := by
        rw [hxo]
        exact mem_planRewire.2 ⟨idx, n, hidx, hnn, hrm, noopBindings_output hi ho⟩
      obtain ⟨u, hu⟩ := mapGet_isSome_of_mem hmem
      rw [hu]; simp
  obtain ⟨E', hE', hag, hgE⟩ := evalNodes_rewire (S := S) (gone := gone) hroot inv.keys hempty hoam
    nodes (fun n hn a ha => ⟨hwf.ins n hn a ha, hlab n hn a ha⟩) hgone hgood (fun _ _ => rfl) hE
  have houts := evalArgs_rewire hroot inv.keys hempty hoam hgE hag hwfo h
  -- index-based removal is removal of the `gone` nodes
  have hfilter : (applyNoop (planNoop noop omap nodes) order nodes outs).1 =
      ((nodes.filter fun n => !gone n).map
        (rewireNode (resolveRewire (nodes.length + 2) order m0) (outputArgs nodes))) := by
    unfold applyNoop
    simp only
    refine filter_zipIdx_fst
          (rewireNode (resolveRewire (nodes.length + 2) order m0) (outputArgs nodes))
          (fun n => !gone n) (fun i => !(planNoop noop omap nodes).remove.contains i) nodes 0 ?_
    intro n idx hm
    have hn := List.mem_zipIdx_iff_getElem?.1 hm
    congr 1
    rw [Bool.eq_iff_iff]
    simp only [planNoop, List.contains_eq_mem, decide_eq_true_eq, List.mem_map, List.mem_filter,
      gone]
    constructor
    · rintro ⟨⟨n', idx'⟩, ⟨hm', hp⟩, rfl⟩
      have := List.mem_zipIdx_iff_getElem?.1 hm'
      simp only at this hn
      rw [this] at hn
      cases hn; exact hp
    · intro hp
      exact ⟨(n, idx), ⟨hm, hp⟩, rfl⟩
  rw [hfilter]
  simp only [evalGraph, hE']
  exact houts

/-- The same for nodes that return their first input in every run. -/
theorem C11_noop_elimination_preserves_outputs (S : Sem V) (env : Env V) (nodes : List (Node V))
    (outs : List (Arg V)) (noop : Node V → Bool) (omap : List (String × Nat × Nat))
    (order : List (String × String)) (hssa : SSA env nodes) (hwf : WfNames nodes)
    (hlab : ∀ n ∈ nodes, ∀ a ∈ n.inputs, ∀ v, a.src = .static v → a.name = "")
    (hwfo : ∀ a ∈ outs, WfArg a ∧ ∀ v, a.src = .static v → a.name = "")
    (houtsrc : ∀ n ∈ nodes, ∀ o ∈ n.outputs, o.src = .dynamic ∨ o.src = .constant)
    (hnoop : ∀ n ∈ nodes, noop n = true → ReturnsFirstInput S n ∧
      ∀ i is, n.inputs = i :: is → i.src = .dynamic ∨ i.src = .constant)
    (horig : OriginalNamesUnused noop omap env nodes)
    (horder : ∀ k v, (k, v) ∈ order ↔ mapGet (planNoop noop omap nodes).rewire k = some v)
    (r : List (Option V)) (h : evalGraph S env nodes outs = some r) :
    evalGraph S env (applyNoop (planNoop noop omap nodes) order nodes outs).1
      (applyNoop (planNoop noop omap nodes) order nodes outs).2 = some r :=
  C11_noop_elimination_in_run S env nodes outs noop omap order hssa hwf hlab hwfo houtsrc
    (fun n hn h => ⟨(hnoop n hn h).1.inRun env nodes, (hnoop n hn h).2⟩) horig horder r h

/-! ## C12 -/

theorem refCount_pos {nodes : List (Node V)} {outs : List (Arg V)} {a : Arg V} (ha : a.reads)
    (h : (∃ n ∈ nodes, a ∈ n.inputs) ∨ a ∈ outs) : refCount nodes outs a.name ≠ 0 := by
  unfold refCount
  intro h0
  have hm : a ∈ (nodes.flatMap Node.inputs ++ outs).filter
      (fun b => b.isRef && b.name = a.name) := by
    rw [List.mem_filter]
    constructor
    · rcases h with ⟨n, hn, hi⟩ | h
      · exact List.mem_append_left _ (List.mem_flatMap.2 ⟨n, hn, hi⟩)
      · exact List.mem_append_right _ h
    · unfold Arg.isRef
      rcases ha with ha | ha <;> simp [ha]
  rw [List.length_eq_zero_iff] at h0
  rw [h0] at hm
  cases hm

theorem mem_constantIdx {nodes : List (Node V)} {x : String} {i : Nat} :
    (x, i) ∈ constantIdx nodes ↔ ∃ n, nodes[i]? = some n ∧ n.ty = .constant ∧ x ∈ n.outNames := by
  simp only [constantIdx, List.mem_reverse, List.mem_flatMap]
  constructor
  · rintro ⟨⟨n, j⟩, hm, h⟩
    split at h
    · next hc =>
      simp only [List.mem_map, Prod.mk.injEq] at h
      obtain ⟨o, ho, rfl, rfl⟩ := h
      exact ⟨n, List.mem_zipIdx_iff_getElem?.1 hm, hc, List.mem_map.2 ⟨o, ho, rfl⟩⟩
    · cases h
  · rintro ⟨n, hn, hc, hx⟩
    obtain ⟨o, ho, rfl⟩ := List.mem_map.1 hx
    exact ⟨(n, i), List.mem_zipIdx_iff_getElem?.2 hn, by
      simp only [hc, if_true, List.mem_map]; exact ⟨o, ho, rfl⟩⟩

/-- The indices `removeUnreferencedConstants` removes. -/
def removedConstants (nodes : List (Node V)) (outs : List (Arg V)) : List Nat :=
  ((constantIdx nodes).filter fun p =>
    mapGet (constantIdx nodes) p.1 = some p.2 && refCount nodes outs p.1 = 0).map Prod.snd

/-- **C12.** Removing the constants nobody refers to leaves every result unchanged, for every
graph in which a constant node has exactly one output (which is what the importer and ONNX
produce). Other nodes, and constants with a reference, are all kept, in order. -/
theorem C12_unreferenced_constants_preserve_outputs (S : Sem V) (env : Env V)
    (nodes : List (Node V)) (outs : List (Arg V))
    (hone : ∀ n ∈ nodes, n.ty = .constant → n.outputs.length = 1) (r : List (Option V))
    (h : evalGraph S env nodes outs = some r) :
    evalGraph S env (removeUnreferencedConstants nodes outs) outs = some r := by
  revert r h
  -- `keep` on (node, index) pairs; move to a node list paired with indices
  have key : ∀ (ns : List (Node V)) (k : Nat) (e e' E : Env V),
      (∀ p ∈ ns.zipIdx k, p ∈ nodes.zipIdx) →
      AgreeOn (fun x => refCount nodes outs x ≠ 0) e e' → evalNodes S e ns = some E →
      ∃ E', evalNodes S e' (((ns.zipIdx k).filter fun p =>
          !(removedConstants nodes outs).contains p.2).map Prod.fst) = some E' ∧
        AgreeOn (fun x => refCount nodes outs x ≠ 0) E E' := by
    intro ns
    induction ns with
    | nil =>
      intro k e e' E _ hag hE
      simp [evalNodes] at hE; subst hE
      exact ⟨e', rfl, hag⟩
    | cons n ns ih =>
      intro k e e' E hmem hag hE
      have hn := List.mem_zipIdx_iff_getElem?.1 (hmem (n, k) (by simp [List.zipIdx_cons]))
      have hnm : n ∈ nodes := List.mem_of_getElem? hn
      have hmem' : ∀ p ∈ ns.zipIdx (k + 1), p ∈ nodes.zipIdx := fun p hp =>
        hmem p (by simp [List.zipIdx_cons, hp])
      simp only [evalNodes] at hE
      cases h1 : evalNode S e n with
      | none => simp [h1] at hE
      | some e1 =>
        simp only [h1] at hE
        cases hrm : (removedConstants nodes outs).contains k with
        | false =>
          obtain ⟨xs, ys, hx, hy, hl, rfl⟩ := evalNode_some h1
          have hx' : evalArgs e' n.inputs = some xs := by
            rw [← hx]
            refine (evalArgs_congr fun a ha => ?_).symm
            exact evalArg_agree hag fun hr => refCount_pos hr (Or.inl ⟨n, hnm, ha⟩)
          obtain ⟨E', hE', hag'⟩ := ih (k + 1) _ _ E hmem' (bindAll_agree n.outNames hag) hE
          refine ⟨E', ?_, hag'⟩
          simp only [List.zipIdx_cons, List.filter_cons, hrm, Bool.not_false, if_true,
            List.map_cons, evalNodes, evalNode_intro hx' hy hl, hE']
        | true =>
          have hag1 : AgreeOn (fun x => refCount nodes outs x ≠ 0) e1 e' := by
            intro x hx
            rw [evalNode_notMem h1, hag x hx]
            intro hxn
            simp only [removedConstants, List.contains_eq_mem, decide_eq_true_eq, List.mem_map,
              List.mem_filter, Bool.and_eq_true] at hrm
            obtain ⟨⟨y, j⟩, ⟨hyj, _, h0⟩, rfl⟩ := hrm
            obtain ⟨n', hn', hc, hyn⟩ := mem_constantIdx.1 hyj
            simp only at hn hn' h0
            rw [hn] at hn'; cases hn'
            have hl := hone n hnm hc
            have : y = x := by
              cases ho : n.outputs with
              | nil => simp [ho] at hl
              | cons o os =>
                cases os with
                | cons _ _ => simp [ho] at hl
                | nil =>
                  simp only [Node.outNames, ho, List.map_cons, List.map_nil,
                    List.mem_singleton] at hxn hyn
                  rw [hxn, hyn]
            subst this
            exact hx h0
          obtain ⟨E', hE', hag'⟩ := ih (k + 1) _ _ E hmem' hag1 hE
          exact ⟨E', by simpa only [List.zipIdx_cons, List.filter_cons, hrm, Bool.not_true,
            Bool.false_eq_true, if_false] using hE', hag'⟩
  intro r h
  cases hE : evalNodes S env nodes with
  | none => simp [evalGraph, hE] at h
  | some E =>
    obtain ⟨E', hE', hag⟩ := key nodes 0 env env E (fun _ hp => hp) (fun _ _ => rfl) hE
    simp only [evalGraph, hE] at h
    have hE'' : evalNodes S env (removeUnreferencedConstants nodes outs) = some E' := hE'
    simp only [evalGraph, hE'']
    rw [← h]
    exact (evalArgs_congr fun a ha => evalArg_agree hag fun hr =>
      refCount_pos hr (Or.inr ha)).symm

/-- **C12**, the other half: exactly the constant nodes without a reference disappear. -/
theorem C12_removed_exactly (env : Env V) (nodes : List (Node V)) (outs : List (Arg V))
    (hssa : SSA env nodes) (hone : ∀ n ∈ nodes, n.ty = .constant → n.outputs.length = 1)
    (n : Node V) :
    n ∈ removeUnreferencedConstants nodes outs ↔
      n ∈ nodes ∧ (n.ty = .constant → ∃ x ∈ n.outNames, ∃ a : Arg V, a.reads ∧ a.name = x ∧
        ((∃ m ∈ nodes, a ∈ m.inputs) ∨ a ∈ outs)) := by
  have hrc : ∀ x, refCount nodes outs x ≠ 0 → ∃ a : Arg V, a.reads ∧ a.name = x ∧
      ((∃ m ∈ nodes, a ∈ m.inputs) ∨ a ∈ outs) := by
    intro x hx
    unfold refCount at hx
    obtain ⟨a, ha⟩ := List.exists_mem_of_length_pos (Nat.pos_of_ne_zero hx)
    simp only [List.mem_filter, Bool.and_eq_true, decide_eq_true_eq, List.mem_append,
      List.mem_flatMap] at ha
    refine ⟨a, ?_, ha.2.2, ha.1⟩
    have := ha.2.1
    unfold Arg.isRef at this
    unfold Arg.reads
    cases hs : a.src <;> simp [hs] at this ⊢
  have hmem : n ∈ removeUnreferencedConstants nodes outs ↔
      ∃ i, nodes[i]? = some n ∧ i ∉ removedConstants nodes outs := by
    simp only [removeUnreferencedConstants, List.mem_map, List.mem_filter]
    constructor
    · rintro ⟨⟨m, i⟩, ⟨hm, hk⟩, rfl⟩
      exact ⟨i, List.mem_zipIdx_iff_getElem?.1 hm, by simpa [removedConstants] using hk⟩
    · rintro ⟨i, hi, hk⟩
      exact ⟨(n, i), ⟨List.mem_zipIdx_iff_getElem?.2 hi, by simpa [removedConstants] using hk⟩, rfl⟩
  rw [hmem]
  constructor
  · rintro ⟨i, hi, hk⟩
    refine ⟨List.mem_of_getElem? hi, fun hc => ?_⟩
    have hl := hone n (List.mem_of_getElem? hi) hc
    obtain ⟨o, ho⟩ := List.length_eq_one_iff.1 hl
    refine ⟨o.name, by simp [Node.outNames, ho], hrc _ fun h0 => hk ?_⟩
    simp only [removedConstants, List.mem_map, List.mem_filter, Bool.and_eq_true,
      decide_eq_true_eq]
    refine ⟨(o.name, i), ⟨mem_constantIdx.2 ⟨n, hi, hc, by simp [Node.outNames, ho]⟩, ?_, h0⟩, rfl⟩
    -- under single assignment the map has the right index
    obtain ⟨j, hj⟩ := mapGet_isSome_of_mem
      (mem_constantIdx.2 ⟨n, hi, hc, (by simp [Node.outNames, ho] : o.name ∈ n.outNames)⟩)
    obtain ⟨n', hn', _, hx'⟩ := mem_constantIdx.1 (mapGet_mem hj)
    have hij : i = j := by
      have hnd := hssa.nodup
      apply Classical.byContradiction
      intro hne
      have aux : ∀ (l : List (Node V)) (i j : Nat) (a b : Node V) (x : String),
          (l.flatMap Node.outNames).Nodup → l[i]? = some a → l[j]? = some b → x ∈ a.outNames →
          x ∈ b.outNames → i = j := by
        intro l
        induction l with
        | nil => intro i j a b x _ h; simp at h
        | cons c l ih =>
          intro i j a b x hnd hi hj hxa hxb
          rw [List.flatMap_cons, List.nodup_append] at hnd
          cases i with
          | zero =>
            cases j with
            | zero => rfl
            | succ j =>
              simp at hi hj; subst hi
              exact absurd rfl (hnd.2.2 x hxa x
                (List.mem_flatMap.2 ⟨b, List.mem_of_getElem? hj, hxb⟩))
          | succ i =>
            cases j with
            | zero =>
              simp at hi hj; subst hj
              exact absurd rfl (hnd.2.2 x hxb x
                (List.mem_flatMap.2 ⟨a, List.mem_of_getElem? hi, hxa⟩))
            | succ j =>
              simp at hi hj
              rw [ih i j a b x hnd.2.1 hi hj hxa hxb]
      exact hne (aux nodes i j n n' o.name hnd hi hn' (by simp [Node.outNames, ho]) hx')
    rw [hj, hij]
  · rintro ⟨hn, hc⟩
    obtain ⟨i, hi⟩ := List.mem_iff_getElem?.1 hn
    refine ⟨i, hi, fun hk => ?_⟩
    simp only [removedConstants, List.mem_map, List.mem_filter, Bool.and_eq_true,
      decide_eq_true_eq] at hk
    obtain ⟨⟨y, j⟩, ⟨hyj, _, h0⟩, rfl⟩ := hk
    obtain ⟨n', hn', hcn, hyn⟩ := mem_constantIdx.1 hyj
    simp only at hi hn' h0
    rw [hi] at hn'; cases hn'
    obtain ⟨x, hx, a, hr, rfl, hin⟩ := hc hcn
    obtain ⟨o, ho⟩ := List.length_eq_one_iff.1 (hone n hn hcn)
    have : y = a.name := by
      simp only [Node.outNames, ho, List.map_cons, List.map_nil, List.mem_singleton] at hx hyn
      rw [hx, hyn]
    exact refCount_pos hr hin (this ▸ h0)

end OnnxIR
